import Verif.Model.Subtract
import Mathlib.Tactic.Linarith
import Mathlib.Tactic.Push

/-! Lemmas for `subtract_uvp`: every cell (window, row, polpair) is touched by exactly one key. -/
namespace HeraPspec.Subtract

variable {R : Type} [DecidableEq R]

/-- Metadata of two objects agree. -/
def SameMeta (u v : Obj R) : Prop :=
  u.ranges = v.ranges ∧ u.pols = v.pols ∧ u.blp = v.blp ∧ u.lst = v.lst ∧ u.folded = v.folded ∧ u.nWgt = v.nWgt

/-- Everything stored in one cell. -/
structure Cell where
  data : ℕ → ℂ
  nsample : ℕ → ℝ
  integ : ℕ → ℝ
  wgt : ℕ → ℝ
  stats : Option (List (String × (ℕ → ℂ)))
  cov : Option (String × (ℕ → ℝ) × (ℕ → ℝ))
  window : Option (ℕ → ℝ)

/-- The cell of an object. -/
def cell (u : Obj R) (s r p : ℕ) : Cell where
  data := fun d => u.data s r d p
  nsample := fun d => u.nsample s r d p
  integ := fun d => u.integ s r d p
  wgt := fun d => u.wgt s r d p
  stats := u.stats.map (fun l => l.map (fun x => (x.1, fun d => x.2 s r d p)))
  cov := u.cov.map (fun x => (x.1, (fun d => x.2.1 s r d p), (fun d => x.2.2 s r d p)))
  window := u.window.map (fun a d => a s r d p)

theorem upd_other {α : Type} (f : α → α → α) {i j i2 j2 : ℕ} {r1 r2 : List ℕ} (a b : Arr α) {s r p : ℕ}
    (h : ¬ (s = i ∧ p = j ∧ r ∈ r1)) : (fun d => upd f i j i2 j2 r1 r2 a b s r d p) = fun d => a s r d p := by
  funext d; unfold upd; rw [if_neg h]

theorem upd_at {α : Type} (f : α → α → α) {i j i2 j2 : ℕ} {r1 r2 : List ℕ} (a b : Arr α) {r : ℕ}
    (h : r ∈ r1) : (fun d => upd f i j i2 j2 r1 r2 a b i r d j) = fun d => f (a i r d j) (b i2 (partner r1 r2 r) d j2) := by
  funext d; unfold upd; rw [if_pos ⟨rfl, rfl, h⟩]

theorem updStats_ok {i j i2 j2 : ℕ} {r1 r2 : List ℕ} {d2 : Dict String (Arr ℂ)} {d1 d : Dict String (Arr ℂ)}
    (h : updStats i j i2 j2 r1 r2 d2 d1 = .ok d) :
    List.Forall₂ (fun x y => y.1 = x.1 ∧ ∃ b, Dict.get d2 x.1 = some b ∧ y.2 = upd quadC i j i2 j2 r1 r2 x.2 b) d1 d := by
  induction d1 generalizing d with
  | nil => simp [updStats] at h; subst h; exact .nil
  | cons x d1 ih =>
    obtain ⟨s, a⟩ := x
    unfold updStats at h
    split at h
    · cases h
    · rename_i b hb
      split at h
      · cases h
      · rename_i l hl
        cases h
        exact .cons ⟨rfl, b, hb, rfl⟩ (ih hl)

theorem map_eq_of_forall₂ {α β : Type} {g : α → β} {l l' : List α} (h : List.Forall₂ (fun x y => g y = g x) l l') : l'.map g = l.map g := by
  induction h with
  | nil => rfl
  | cons hx _ ih => simp [hx, ih]

theorem updStats_cell_other {i j i2 j2 : ℕ} {r1 r2 : List ℕ} {d2 d1 d : Dict String (Arr ℂ)} {s r p : ℕ}
    (h : updStats i j i2 j2 r1 r2 d2 d1 = .ok d) (hn : ¬ (s = i ∧ p = j ∧ r ∈ r1)) :
    d.map (fun x => (x.1, fun d => x.2 s r d p)) = d1.map (fun x => (x.1, fun d => x.2 s r d p)) := by
  refine map_eq_of_forall₂ ((updStats_ok h).imp ?_)
  rintro x y ⟨h1, b, _, h2⟩
  rw [h1, h2, upd_other _ _ _ hn]

/-- What `updErrors` leaves alone. -/
theorem updErrors_frame {i j i2 j2 : ℕ} {r1 r2 : List ℕ} {v u2 w : Obj R} (h : updErrors i j i2 j2 r1 r2 v u2 = .ok w) :
    SameMeta w v ∧ w.data = v.data ∧ w.nsample = v.nsample ∧ w.integ = v.integ ∧ w.wgt = v.wgt ∧ w.window = v.window := by
  unfold updErrors at h
  split at h
  · split at h
    · cases h
    · split at h <;> cases h <;> exact ⟨⟨rfl, rfl, rfl, rfl, rfl, rfl⟩, rfl, rfl, rfl, rfl, rfl⟩
  · cases h; exact ⟨⟨rfl, rfl, rfl, rfl, rfl, rfl⟩, rfl, rfl, rfl, rfl, rfl⟩

/-- The statistics after `updErrors`. -/
theorem updErrors_stats {i j i2 j2 : ℕ} {r1 r2 : List ℕ} {v u2 w : Obj R} (h : updErrors i j i2 j2 r1 r2 v u2 = .ok w) :
    (∃ d1 d2 d, v.stats = some d1 ∧ u2.stats = some d2 ∧ w.stats = some d ∧ updStats i j i2 j2 r1 r2 d2 d1 = .ok d ∧
      ((∃ m re im m2 re2 im2, v.cov = some (m, re, im) ∧ u2.cov = some (m2, re2, im2) ∧
        w.cov = some (if m = m2 then (m, upd quad i j i2 j2 r1 r2 re re2, upd quad i j i2 j2 r1 r2 im im2) else (m, re, im)))
       ∨ ((v.cov = none ∨ u2.cov = none) ∧ w.cov = v.cov)))
    ∨ ((v.stats = none ∨ u2.stats = none) ∧ w.stats = v.stats ∧ w.cov = v.cov) := by
  unfold updErrors at h
  split at h
  · rename_i d1 d2 e1 e2
    left
    split at h
    · cases h
    · rename_i d hd
      refine ⟨d1, d2, d, e1, e2, ?_⟩
      split at h
      · rename_i m re im m2 re2 im2 ec1 ec2
        cases h
        exact ⟨rfl, hd, Or.inl ⟨m, re, im, m2, re2, im2, ec1, ec2, rfl⟩⟩
      · rename_i hno
        cases h
        refine ⟨rfl, hd, Or.inr ⟨?_, rfl⟩⟩
        cases hc : v.cov with
        | none => exact Or.inl rfl
        | some x =>
          cases hc2 : u2.cov with
          | none => exact Or.inr rfl
          | some y => obtain ⟨m, re, im⟩ := x; obtain ⟨m2, re2, im2⟩ := y; exact absurd hc2 (hno m re im m2 re2 im2 hc)
  · rename_i hno
    cases h
    refine Or.inr ⟨?_, rfl, rfl⟩
    cases hc : v.stats with
    | none => exact Or.inl rfl
    | some x =>
      cases hc2 : u2.stats with
      | none => exact Or.inr rfl
      | some y => exact absurd hc2 (hno x y hc)

theorem updWindow_frame (i j i2 j2 : ℕ) (r1 r2 : List ℕ) (v u2 : Obj R) :
    SameMeta (updWindow i j i2 j2 r1 r2 v u2) v ∧ (updWindow i j i2 j2 r1 r2 v u2).data = v.data ∧
    (updWindow i j i2 j2 r1 r2 v u2).nsample = v.nsample ∧ (updWindow i j i2 j2 r1 r2 v u2).integ = v.integ ∧
    (updWindow i j i2 j2 r1 r2 v u2).wgt = v.wgt ∧ (updWindow i j i2 j2 r1 r2 v u2).stats = v.stats ∧
    (updWindow i j i2 j2 r1 r2 v u2).cov = v.cov := by
  unfold updWindow
  split <;> exact ⟨⟨rfl, rfl, rfl, rfl, rfl, rfl⟩, rfl, rfl, rfl, rfl, rfl, rfl⟩

theorem updWindow_window (i j i2 j2 : ℕ) (r1 r2 : List ℕ) (v u2 : Obj R) :
    (∃ a b, v.window = some a ∧ u2.window = some b ∧ (updWindow i j i2 j2 r1 r2 v u2).window = some (upd quad i j i2 j2 r1 r2 a b))
    ∨ ((v.window = none ∨ u2.window = none) ∧ (updWindow i j i2 j2 r1 r2 v u2).window = v.window) := by
  unfold updWindow
  split
  · rename_i a b ha hb
    exact Or.inl ⟨a, b, ha, hb, rfl⟩
  · rename_i hno
    refine Or.inr ⟨?_, rfl⟩
    cases hc : v.window with
    | none => exact Or.inl rfl
    | some x =>
      cases hc2 : u2.window with
      | none => exact Or.inr rfl
      | some y => exact absurd hc2 (hno x y hc)

/-- The relation between an object before and after the pass for one key. -/
structure StepRel (u2 v w : Obj R) (i j i2 j2 : ℕ) (r1 r2 : List ℕ) : Prop where
  sameMeta : SameMeta w v
  data : w.data = upd (fun a b => a - b) i j i2 j2 r1 r2 v.data u2.data
  nsample : w.nsample = upd invQuad i j i2 j2 r1 r2 v.nsample u2.nsample
  integ : w.integ = upd invQuad i j i2 j2 r1 r2 v.integ u2.integ
  wgt : w.wgt = divMax (upd invQuad i j i2 j2 r1 r2 v.wgt u2.wgt) i j r1 (v.nWgt i)
  errors : (∃ d1 d2 d, v.stats = some d1 ∧ u2.stats = some d2 ∧ w.stats = some d ∧ updStats i j i2 j2 r1 r2 d2 d1 = .ok d ∧
      ((∃ m re im m2 re2 im2, v.cov = some (m, re, im) ∧ u2.cov = some (m2, re2, im2) ∧
        w.cov = some (if m = m2 then (m, upd quad i j i2 j2 r1 r2 re re2, upd quad i j i2 j2 r1 r2 im im2) else (m, re, im)))
       ∨ ((v.cov = none ∨ u2.cov = none) ∧ w.cov = v.cov)))
    ∨ ((v.stats = none ∨ u2.stats = none) ∧ w.stats = v.stats ∧ w.cov = v.cov)
  window : (∃ a b, v.window = some a ∧ u2.window = some b ∧ w.window = some (upd quad i j i2 j2 r1 r2 a b))
    ∨ ((v.window = none ∨ u2.window = none) ∧ w.window = v.window)

theorem SameMeta.trans {u v w : Obj R} (h : SameMeta u v) (h' : SameMeta v w) : SameMeta u w := by
  obtain ⟨a, b, c, d, e, f⟩ := h
  obtain ⟨a', b', c', d', e', f'⟩ := h'
  exact ⟨a.trans a', b.trans b', c.trans c', d.trans d', e.trans e', f.trans f'⟩

theorem stepKey_ok {u2 v w : Obj R} {i j : ℕ} {b : ℤ} (h : stepKey u2 v i j b = .ok w) :
    ∃ r p, v.ranges[i]? = some r ∧ v.pols[j]? = some p ∧ r ∈ u2.ranges ∧ b ∈ u2.blp ∧ u2.pols.count p = 1 ∧ u2.folded = false ∧
      ((rowsOf u2.blp b).length = (rowsOf v.blp b).length ∨ (rowsOf u2.blp b).length = 1) ∧
      StepRel u2 v w i j (u2.ranges.idxOf r) (u2.pols.idxOf p) (rowsOf v.blp b) (rowsOf u2.blp b) := by
  unfold stepKey at h
  split at h
  · rename_i r p hr hp
    split at h
    · cases h
    rename_i h1
    split at h
    · cases h
    rename_i h2
    split at h
    · cases h
    rename_i h3
    simp only at h
    split at h
    · cases h
    rename_i v' hv'
    cases h
    push Not at h1 h2 h3
    refine ⟨r, p, hr, hp, h1, h2.1, h2.2, by simpa using h3.1, by tauto, ?_⟩
    have hf := updErrors_frame hv'
    have hs := updErrors_stats hv'
    have hw := updWindow_frame i j (u2.ranges.idxOf r) (u2.pols.idxOf p) (rowsOf v.blp b) (rowsOf u2.blp b) v' u2
    have hww := updWindow_window i j (u2.ranges.idxOf r) (u2.pols.idxOf p) (rowsOf v.blp b) (rowsOf u2.blp b) v' u2
    obtain ⟨fm, fd, fn, fi, fw, fwin⟩ := hf
    obtain ⟨wm, wd, wn, wi, ww, wst, wc⟩ := hw
    refine ⟨wm.trans (SameMeta.trans fm ⟨rfl, rfl, rfl, rfl, rfl, rfl⟩), by rw [wd, fd], by rw [wn, fn], by rw [wi, fi], by rw [ww, fw], ?_, ?_⟩
    · rw [wst, wc]; exact hs
    · rw [fwin] at hww; exact hww
  · cases h

theorem divMax_other {w : Arr ℝ} {i j n : ℕ} {r1 : List ℕ} {s r p : ℕ} (h : ¬ (s = i ∧ p = j ∧ r ∈ r1)) :
    (fun d => divMax w i j r1 n s r d p) = fun d => w s r d p := by
  funext d; unfold divMax; rw [if_neg h]

/-- Cells of other keys are untouched. -/
theorem StepRel.frame {u2 v w : Obj R} {i j i2 j2 : ℕ} {r1 r2 : List ℕ} (h : StepRel u2 v w i j i2 j2 r1 r2) {s r p : ℕ}
    (hn : ¬ (s = i ∧ p = j ∧ r ∈ r1)) : cell w s r p = cell v s r p := by
  have hstats : w.stats.map (fun l => l.map (fun x => (x.1, fun d => x.2 s r d p))) = v.stats.map (fun l => l.map (fun x => (x.1, fun d => x.2 s r d p))) ∧
      w.cov.map (fun x => (x.1, (fun d => x.2.1 s r d p), (fun d => x.2.2 s r d p))) = v.cov.map (fun x => (x.1, (fun d => x.2.1 s r d p), (fun d => x.2.2 s r d p))) := by
    rcases h.errors with ⟨d1, d2, d, e1, e2, e3, e4, e5⟩ | ⟨_, e1, e2⟩
    · refine ⟨?_, ?_⟩
      · rw [e3, e1, Option.map_some, Option.map_some, updStats_cell_other e4 hn]
      · rcases e5 with ⟨m, re, im, m2, re2, im2, c1, c2, c3⟩ | ⟨_, c⟩
        · rw [c3, c1]
          split
          · simp only [Option.map_some, upd_other _ _ _ hn]
          · rfl
        · rw [c]
    · rw [e1, e2]; exact ⟨rfl, rfl⟩
  have hwin : w.window.map (fun a d => a s r d p) = v.window.map (fun a d => a s r d p) := by
    rcases h.window with ⟨a, b, e1, _, e3⟩ | ⟨_, e⟩
    · rw [e3, e1]; simp only [Option.map_some, upd_other _ _ _ hn]
    · rw [e]
  unfold cell
  rw [h.data, h.nsample, h.integ, h.wgt, divMax_other hn, upd_other _ _ _ hn, upd_other _ _ _ hn, upd_other _ _ _ hn, upd_other _ _ _ hn,
    hstats.1, hstats.2, hwin]

theorem mem_rowsOf {b : List ℤ} {x : ℤ} {r : ℕ} : r ∈ rowsOf b x ↔ b[r]? = some x := by
  unfold rowsOf
  simp only [List.mem_filter, List.mem_range, decide_eq_true_eq]
  constructor
  · exact And.right
  · intro h
    exact ⟨(List.getElem?_eq_some_iff.1 h).1, h⟩

/-- Keys that do not concern a cell leave it alone, and metadata never changes. -/
theorem loop_frame {u2 v w : Obj R} {ks : List (ℕ × ℕ × ℤ)} (h : loop u2 ks v = .ok w) :
    SameMeta w v ∧ ∀ s r p x, v.blp[r]? = some x → (s, p, x) ∉ ks → cell w s r p = cell v s r p := by
  induction ks generalizing v with
  | nil => simp only [loop, Except.ok.injEq] at h; subst h; exact ⟨⟨rfl, rfl, rfl, rfl, rfl, rfl⟩, fun _ _ _ _ _ _ => rfl⟩
  | cons k ks ih =>
    obtain ⟨i, j, b⟩ := k
    unfold loop at h
    split at h
    · cases h
    rename_i v' hv'
    obtain ⟨m, f⟩ := ih h
    obtain ⟨_, _, _, _, _, _, _, _, _, hs⟩ := stepKey_ok hv'
    refine ⟨m.trans hs.sameMeta, ?_⟩
    intro s r p x hx hk
    simp only [List.mem_cons, Prod.mk.injEq, not_or] at hk
    rw [f s r p x (by rw [hs.sameMeta.2.2.1]; exact hx) hk.2]
    apply hs.frame
    rintro ⟨rfl, rfl, hr⟩
    rw [mem_rowsOf, hx] at hr
    exact hk.1 ⟨rfl, rfl, Option.some.inj hr⟩

theorem loop_append {u2 v w : Obj R} {k1 k2 : List (ℕ × ℕ × ℤ)} (h : loop u2 (k1 ++ k2) v = .ok w) :
    ∃ a, loop u2 k1 v = .ok a ∧ loop u2 k2 a = .ok w := by
  induction k1 generalizing v with
  | nil => exact ⟨v, rfl, h⟩
  | cons k ks ih =>
    obtain ⟨i, j, b⟩ := k
    simp only [List.cons_append] at h
    unfold loop at h
    split at h
    · cases h
    rename_i v' hv'
    obtain ⟨a, h1, h2⟩ := ih h
    refine ⟨a, ?_, h2⟩
    unfold loop
    rw [hv']
    exact h1

theorem keysOf_nodup (u : Obj R) : (keysOf u).Nodup := by
  unfold keysOf
  rw [List.nodup_flatMap]
  refine ⟨fun i _ => ?_, ?_⟩
  · rw [List.nodup_flatMap]
    refine ⟨fun j _ => ?_, ?_⟩
    · exact (List.nodup_map_iff (fun a b h => by simpa using h)).2 (List.nodup_dedup _)
    · refine List.nodup_range.imp ?_
      intro a b hab x hx hy
      simp only [List.mem_map] at hx hy
      obtain ⟨_, _, rfl⟩ := hx
      obtain ⟨_, _, h⟩ := hy
      simp only [Prod.mk.injEq] at h
      exact hab h.2.1.symm
  · refine List.nodup_range.imp ?_
    intro a b hab x hx hy
    simp only [List.mem_map, List.mem_flatMap] at hx hy
    obtain ⟨_, _, _, _, rfl⟩ := hx
    obtain ⟨_, _, _, _, h⟩ := hy
    simp only [Prod.mk.injEq] at h
    exact hab h.1.symm

theorem mem_keysOf {u : Obj R} {i j : ℕ} {b : ℤ} : (i, j, b) ∈ keysOf u ↔ i < u.ranges.length ∧ j < u.pols.length ∧ b ∈ u.blp := by
  unfold keysOf
  simp only [List.mem_flatMap, List.mem_range, List.mem_map, List.mem_dedup, Prod.mk.injEq]
  constructor
  · rintro ⟨i', hi, j', hj, b', hb, rfl, rfl, rfl⟩; exact ⟨hi, hj, hb⟩
  · rintro ⟨hi, hj, hb⟩; exact ⟨i, hi, j, hj, b, hb, rfl, rfl, rfl⟩

/-- The pass that touches a key: it starts from cells equal to the first object's, and its result survives. -/
theorem subtract_key {u1 u2 v : Obj R} (h : subtract u1 u2 = .ok v) {i j : ℕ} {x : ℤ} (hi : i < u1.ranges.length) (hj : j < u1.pols.length)
    (hx : x ∈ u1.blp) : ∃ a b, SameMeta a u1 ∧ stepKey u2 a i j x = .ok b ∧ SameMeta v u1 ∧
      ∀ r, u1.blp[r]? = some x → cell a i r j = cell u1 i r j ∧ cell v i r j = cell b i r j := by
  obtain ⟨pre, post, hk⟩ := List.append_of_mem (mem_keysOf.2 ⟨hi, hj, hx⟩)
  have hnd := keysOf_nodup u1
  have hm : SameMeta v u1 := (loop_frame h).1
  unfold subtract at h
  rw [hk] at h hnd
  obtain ⟨a, ha, h2⟩ := loop_append h
  unfold loop at h2
  split at h2
  · cases h2
  rename_i b hb
  obtain ⟨ma, fa⟩ := loop_frame ha
  obtain ⟨mb, fb⟩ := loop_frame h2
  obtain ⟨_, _, _, _, _, _, _, _, _, hs⟩ := stepKey_ok hb
  rw [List.nodup_append] at hnd
  obtain ⟨_, n2, n3⟩ := hnd
  refine ⟨a, b, ma, hb, hm, fun r hr => ⟨?_, ?_⟩⟩
  · exact fa i r j x hr (fun hmem => n3 _ hmem _ (by simp) rfl)
  · refine fb i r j x ?_ (List.nodup_cons.1 n2).1
    rw [hs.sameMeta.2.2.1, ma.2.2.1]; exact hr

/-! Ranks: the position of a row among the rows of its baseline-pair. -/

theorem rowsOf_append (b : List ℤ) (y x : ℤ) : rowsOf (b ++ [y]) x = rowsOf b x ++ (if y = x then [b.length] else []) := by
  unfold rowsOf
  rw [List.length_append, List.length_singleton, List.range_succ, List.filter_append]
  congr 1
  · refine List.filter_congr (fun r hr => ?_)
    rw [List.getElem?_append_left (List.mem_range.1 hr)]
  · simp only [List.filter_cons, List.filter_nil]
    by_cases h : y = x <;> simp [h]

theorem rowsOf_length (b : List ℤ) (x : ℤ) : (rowsOf b x).length = b.count x := by
  induction b using List.reverseRecOn with
  | nil => rfl
  | append_singleton b y ih =>
    rw [rowsOf_append, List.length_append, ih, List.count_append]
    by_cases h : y = x <;> simp [h]

/-- The `n`-th row of a baseline-pair has `n` earlier rows of the pair. -/
theorem rowsOf_get (b : List ℤ) (x : ℤ) (n r : ℕ) : (rowsOf b x)[n]? = some r ↔ b[r]? = some x ∧ (b.take r).count x = n := by
  induction b using List.reverseRecOn with
  | nil => simp [rowsOf]
  | append_singleton b y ih =>
    rw [rowsOf_append]
    have hlen := rowsOf_length b x
    by_cases hn : n < b.count x
    · rw [List.getElem?_append_left (by omega), ih]
      constructor
      · rintro ⟨h1, h2⟩
        have hr := (List.getElem?_eq_some_iff.1 h1).1
        rw [List.getElem?_append_left hr, List.take_append_of_le_length (by omega)]
        exact ⟨h1, h2⟩
      · rintro ⟨h1, h2⟩
        rcases Nat.lt_or_ge r b.length with hr | hr
        · rw [List.getElem?_append_left hr] at h1
          rw [List.take_append_of_le_length (by omega)] at h2
          exact ⟨h1, h2⟩
        · have hr' : r = b.length := by
            have := (List.getElem?_eq_some_iff.1 h1).1
            simp at this; omega
          subst hr'
          rw [List.take_left] at h2
          omega
    · rw [List.getElem?_append_right (by omega), hlen]
      constructor
      · intro h
        by_cases hy : y = x
        · rw [if_pos hy] at h
          obtain ⟨hlt, he⟩ := List.getElem?_eq_some_iff.1 h
          simp only [List.length_singleton] at hlt
          simp only [List.getElem_singleton] at he
          subst he
          rw [List.take_left]
          exact ⟨by simp [hy], by omega⟩
        · rw [if_neg hy] at h; simp at h
      · rintro ⟨h1, h2⟩
        rcases Nat.lt_or_ge r b.length with hr | hr
        · exfalso
          rw [List.getElem?_append_left hr] at h1
          rw [List.take_append_of_le_length (by omega)] at h2
          have : (b.take (r + 1)).count x ≤ b.count x := (List.take_sublist _ _).count_le _
          rw [List.take_succ, h1] at this
          simp at this
          omega
        · have hr' : r = b.length := by
            have := (List.getElem?_eq_some_iff.1 h1).1
            simp at this; omega
          subst hr'
          rw [List.take_left] at h2
          simp at h1
          rw [if_pos h1, ← h2]; simp

theorem rowsOf_nodup (b : List ℤ) (x : ℤ) : (rowsOf b x).Nodup := List.nodup_range.filter _

/-- The partner of a row: same baseline-pair, and same rank unless the pair has one row only in the second object. -/
theorem partner_spec {b1 b2 : List ℤ} {x : ℤ} {r : ℕ} (hr : b1[r]? = some x)
    (hl : (rowsOf b2 x).length = (rowsOf b1 x).length ∨ (rowsOf b2 x).length = 1) :
    b2[partner (rowsOf b1 x) (rowsOf b2 x) r]? = some x ∧
    (b2.count x = 1 ∨ (b2.take (partner (rowsOf b1 x) (rowsOf b2 x) r)).count x = (b1.take r).count x) := by
  unfold partner
  split <;> rename_i h1
  · have : (rowsOf b2 x)[0]? = some ((rowsOf b2 x).getD 0 0) := by
      rw [List.getD_eq_getElem?_getD, List.getElem?_eq_getElem (by omega)]; rfl
    exact ⟨((rowsOf_get b2 x 0 _).1 this).1, Or.inl (by rw [← rowsOf_length]; exact h1)⟩
  · have hmem := mem_rowsOf.2 hr
    have hidx : (rowsOf b1 x)[(rowsOf b1 x).idxOf r]? = some r := by
      rw [List.getElem?_eq_getElem (List.idxOf_lt_length_of_mem hmem)]; simp
    have hrank := ((rowsOf_get b1 x _ r).1 hidx).2
    have hlt : (rowsOf b1 x).idxOf r < (rowsOf b2 x).length := by
      have := List.idxOf_lt_length_of_mem hmem
      rcases hl with hl | hl
      · omega
      · exact absurd hl h1
    have : (rowsOf b2 x)[(rowsOf b1 x).idxOf r]? = some ((rowsOf b2 x).getD ((rowsOf b1 x).idxOf r) 0) := by
      rw [List.getD_eq_getElem?_getD, List.getElem?_eq_getElem hlt]; rfl
    have h2 := (rowsOf_get b2 x _ _).1 this
    exact ⟨h2.1, Or.inr (by rw [h2.2, hrank])⟩

end HeraPspec.Subtract
