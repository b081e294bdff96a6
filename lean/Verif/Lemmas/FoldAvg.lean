import Verif.Model.FoldAvg
import Verif.Lemmas.Average
import Mathlib.Tactic.Module

/-! Lemmas for folding and averaging. -/
namespace HeraPspec.FoldAvg
open HeraPspec.UVP (Err mapE mapE_ok_iff)
open HeraPspec.Average
variable {E : Type} [AddCommGroup E] [Module ℝ E]

/-- Two computations have the same outcome up to `R`. -/
def RelE {ε α β : Type} (R : α → β → Prop) : Except ε α → Except ε β → Prop
  | .error e, .error e' => e = e'
  | .ok a, .ok b => R a b
  | _, _ => False

theorem mapE_rel {ε α β γ : Type} {R : β → γ → Prop} {f : α → Except ε β} {g : α → Except ε γ} (l : List α)
    (h : ∀ a ∈ l, RelE R (f a) (g a)) : RelE (List.Forall₂ R) (mapE f l) (mapE g l) := by
  induction l with
  | nil => exact .nil
  | cons a l ih =>
    have h1 := h a List.mem_cons_self
    have h2 := ih (fun b hb => h b (List.mem_cons_of_mem _ hb))
    unfold mapE
    cases hf : f a <;> cases hg : g a <;> rw [hf, hg] at h1 <;> simp only [RelE] at h1
    · exact h1
    · cases hf' : mapE f l <;> cases hg' : mapE g l <;> rw [hf', hg'] at h2 <;> simp only [RelE] at h2
      · exact h2
      · exact .cons h1 h2

/-- Cell by cell relation of the arrays of two objects, window by window. -/
def CellsRel (R : Nat → Cell E → Cell E → Prop) (a b : List (List (List (Cell E)))) : Prop :=
  a.length = b.length ∧ ∀ (s : Nat) ps ps', a[s]? = some ps → b[s]? = some ps' → List.Forall₂ (List.Forall₂ (R s)) ps ps'

theorem forall₂_getElem? {α β : Type} {R : α → β → Prop} {l : List α} {r : List β} (h : List.Forall₂ R l r) (i : Nat) :
    (l[i]? = none ∧ r[i]? = none) ∨ ∃ a b, l[i]? = some a ∧ r[i]? = some b ∧ R a b := by
  induction h generalizing i with
  | nil => left; simp
  | cons h1 h2 ih =>
    cases i with
    | zero => right; exact ⟨_, _, rfl, rfl, h1⟩
    | succ i => simpa using ih i

theorem cell_rel {R : Nat → Cell E → Cell E → Prop} {a b : List (List (List (Cell E)))} (h : CellsRel R a b) (s p i : Nat) :
    (((a[s]?.bind (·[p]?)).bind (·[i]?)) = none ∧ ((b[s]?.bind (·[p]?)).bind (·[i]?)) = none) ∨
    ∃ c c', ((a[s]?.bind (·[p]?)).bind (·[i]?)) = some c ∧ ((b[s]?.bind (·[p]?)).bind (·[i]?)) = some c' ∧ R s c c' := by
  cases ha : a[s]? with
  | none =>
    left
    have : b[s]? = none := by rw [List.getElem?_eq_none_iff] at ha ⊢; rw [← h.1]; exact ha
    simp [this]
  | some ps =>
    have hs : s < a.length := (List.getElem?_eq_some_iff.1 ha).1
    obtain ⟨ps', hb⟩ : ∃ ps', b[s]? = some ps' := ⟨_, List.getElem?_eq_getElem (h.1 ▸ hs)⟩
    rw [hb]
    simp only [Option.bind_some]
    rcases forall₂_getElem? (h.2 s ps ps' ha hb) p with ⟨h1, h2⟩ | ⟨cs, cs', h1, h2, h3⟩
    · left; simp [h1, h2]
    · rw [h1, h2]; simp only [Option.bind_some]
      exact forall₂_getElem? h3 i

theorem forall₂_map₂ {α β γ δ : Type} {R : α → β → Prop} {S : γ → δ → Prop} {f : α → γ} {g : β → δ}
    (hfg : ∀ a b, R a b → S (f a) (g b)) {l : List α} {r : List β} (h : List.Forall₂ R l r) :
    List.Forall₂ S (l.map f) (r.map g) := by
  induction h with
  | nil => exact .nil
  | cons h1 h2 ih => exact .cons (hfg _ _ h1) ih

theorem forall₂_flatten {α β : Type} {R : α → β → Prop} {l : List (List α)} {r : List (List β)}
    (h : List.Forall₂ (List.Forall₂ R) l r) : List.Forall₂ R l.flatten r.flatten := by
  induction h with
  | nil => exact .nil
  | cons h1 h2 ih => simpa using List.rel_append h1 ih

/-- A pair of relations on cells and on weighted integrations that averaging respects. -/
structure Respects (exact : Bool) (R : Cell E → Cell E → Prop) (A : Acc E → Acc E → Prop) : Prop where
  prep : ∀ c c', R c c' → A (Average.prep none c) (Average.prep none c')
  time : ∀ l l', List.Forall₂ A l l' → A (timeMean l) (timeMean l')
  group : ∀ l l', List.Forall₂ A l l' → R (groupMean exact l) (groupMean exact l')

theorem cellsOf_rel {R : Nat → Cell E → Cell E → Prop} {u u' : Obj E} (hr : u.rows = u'.rows) (hc : CellsRel R u.cells u'.cells)
    (s p b : Nat) : RelE (List.Forall₂ (R s)) (cellsOf u s p b) (cellsOf u' s p b) := by
  unfold cellsOf
  have hi : indices u b = indices u' b := by unfold indices; rw [hr]
  rw [← hi]
  cases indices u b with
  | error e => rfl
  | ok is =>
    simp only []
    refine mapE_rel is (fun i _ => ?_)
    rcases cell_rel hc s p i with ⟨h1, h2⟩ | ⟨c, c', h1, h2, h3⟩
    · rw [h1, h2]; rfl
    · rw [h1, h2]; exact h3

theorem all_length_rel {α β : Type} {A : α → β → Prop} {L : List (List α)} {L' : List (List β)} (h : List.Forall₂ (List.Forall₂ A) L L')
    (n : Nat) : L.all (fun x => decide (x.length = n)) = L'.all (fun x => decide (x.length = n)) := by
  induction h with
  | nil => rfl
  | cons h3 h4 ih => simp only [List.all_cons]; rw [ih, h3.length_eq]

theorem filterMap_rel {α β : Type} {A : α → β → Prop} {L : List (List α)} {L' : List (List β)} (h : List.Forall₂ (List.Forall₂ A) L L')
    (t : Nat) : List.Forall₂ A (L.filterMap (·[t]?)) (L'.filterMap (·[t]?)) := by
  induction h with
  | nil => exact .nil
  | cons h3 h4 ih =>
    rcases forall₂_getElem? h3 t with ⟨e1, e2⟩ | ⟨a, b, e1, e2, e3⟩
    · rw [List.filterMap_cons, List.filterMap_cons, e1, e2]; exact ih
    · rw [List.filterMap_cons, List.filterMap_cons, e1, e2]; exact .cons e3 ih

theorem mapE_rel_idx {ε α β γ : Type} {R : α → β → γ → Prop} {f : α → Except ε β} {g : α → Except ε γ} (l : List α)
    (h : ∀ a ∈ l, RelE (R a) (f a) (g a)) : RelE (fun v v' => v.length = l.length ∧ v.length = v'.length ∧
      ∀ (i : Nat) a b c, l[i]? = some a → v[i]? = some b → v'[i]? = some c → R a b c) (mapE f l) (mapE g l) := by
  induction l with
  | nil => simp [mapE, RelE]
  | cons s l ih =>
    have h1 := h s List.mem_cons_self
    have h2 := ih (fun b hb => h b (List.mem_cons_of_mem _ hb))
    unfold mapE
    cases hf : f s <;> cases hg : g s <;> rw [hf, hg] at h1 <;> simp only [RelE] at h1
    · exact h1
    · cases hf' : mapE f l <;> cases hg' : mapE g l <;> rw [hf', hg'] at h2 <;> simp only [RelE] at h2
      · exact h2
      · refine ⟨by simp [h2.1], by simp [h2.2.1], ?_⟩
        intro i s' ps ps' e1 e2 e3
        cases i with
        | zero => simp at e1 e2 e3; subst e1 e2 e3; exact h1
        | succ i => exact h2.2.2 i s' ps ps' (by simpa using e1) (by simpa using e2) (by simpa using e3)

theorem sumCopies_rel {exact : Bool} {R : Cell E → Cell E → Prop} {A : Acc E → Acc E → Prop} (H : Respects exact R A)
    {cs cs' : List (List (Acc E))} (h : List.Forall₂ (List.Forall₂ A) cs cs') :
    RelE (List.Forall₂ R) (sumCopies exact cs) (sumCopies exact cs') := by
  cases h with
  | nil => rfl
  | @cons c c' l l' h1 h2 =>
    unfold sumCopies
    have hall := all_length_rel (A := A) (.cons h1 h2) c.length
    rw [h1.length_eq] at hall
    simp only [h1.length_eq]
    rw [← hall]
    split
    · simp only [RelE]
      rw [List.forall₂_map_left_iff, List.forall₂_map_right_iff, List.forall₂_same]
      exact fun t _ => H.group _ _ (filterMap_rel (.cons h1 h2) t)
    · rfl

theorem copies_rel {α β : Type} {A : α → β → Prop} (ws : List ℝ) {l : List α} {l' : List β} (h : List.Forall₂ A l l') :
    List.Forall₂ A (copies ws l) (copies ws l') := by
  unfold copies
  apply forall₂_flatten
  induction h generalizing ws with
  | nil => simp
  | cons h1 h2 ih =>
    cases ws with
    | nil => simp
    | cons w ws =>
      simp only [List.zipWith_cons_cons]
      refine .cons ?_ (ih ws)
      generalize ⌊w⌋₊ = n
      induction n with
      | zero => exact .nil
      | succ n ih2 => exact .cons h1 ih2

theorem groupRows_rel {exact : Bool} {R : Nat → Cell E → Cell E → Prop} {A : Nat → Acc E → Acc E → Prop}
    (H : ∀ s, Respects exact (R s) (A s)) {u u' : Obj E} (hr : u.rows = u'.rows) (he : u.exact = exact) (he' : u'.exact = exact)
    (hc : CellsRel R u.cells u'.cells) (ta nz : Bool) (s p : Nat) (g : List Nat × List ℝ) :
    RelE (List.Forall₂ (R s)) (groupRows none ta nz u s p g) (groupRows none ta nz u' s p g) := by
  unfold groupRows
  cases blpgWgts nz g.2 with
  | error e => rfl
  | ok ws =>
    simp only []
    have h1 : RelE (List.Forall₂ (List.Forall₂ (A s))) (mapE (accsOf none ta u s p) g.1) (mapE (accsOf none ta u' s p) g.1) := by
      refine mapE_rel g.1 (fun b _ => ?_)
      unfold accsOf
      have h := cellsOf_rel hr hc s p b
      cases h1 : cellsOf u s p b <;> cases h2 : cellsOf u' s p b <;> rw [h1, h2] at h <;> simp only [RelE] at h
      · exact h
      · simp only [RelE]
        have h3 := forall₂_map₂ (H s).prep h
        split
        · exact .cons ((H s).time _ _ h3) .nil
        · exact h3
    cases h2 : mapE (accsOf none ta u s p) g.1 <;> cases h3 : mapE (accsOf none ta u' s p) g.1 <;> rw [h2, h3] at h1 <;>
      simp only [RelE] at h1
    · exact h1
    · rw [he, he']
      exact sumCopies_rel (H s) (copies_rel ws h1)

/-- Averaging respects such relations. -/
theorem averageSpectra_rel {exact : Bool} {R : Nat → Cell E → Cell E → Prop} {A : Nat → Acc E → Acc E → Prop}
    (H : ∀ s, Respects exact (R s) (A s)) {u u' : Obj E} (hr : u.rows = u'.rows) (hn : u.statNames = u'.statNames)
    (he : u.exact = exact) (he' : u'.exact = exact) (hc : CellsRel R u.cells u'.cells) (circ : List ℝ → ℝ)
    (so : List Nat → List Nat) (a : Args) (ha : a.errorWeights = none) :
    RelE (fun v v' => v.rows = v'.rows ∧ v.statNames = v'.statNames ∧ v.exact = exact ∧ v'.exact = exact ∧
      v.cells.length = u.cells.length ∧ CellsRel R v.cells v'.cells)
      (averageSpectra circ so a u) (averageSpectra circ so a u') := by
  unfold averageSpectra
  have hg : groupsOf so a u = groupsOf so a u' := by unfold groupsOf; rw [hr, he, he']
  rw [← hg]
  cases groupsOf so a u with
  | error e => rfl
  | ok gs =>
    simp only []
    rw [← hn]
    split
    · rfl
    rw [ha]
    have hlen : u.cells.length = u'.cells.length := hc.1
    have hb : ∀ s ∈ List.range u.cells.length, RelE (List.Forall₂ (List.Forall₂ (List.Forall₂ (R s))))
        (mapE (fun p => mapE (groupRows none a.timeAvg a.normalize u s p) gs) (List.range ((u.cells[s]?.map (·.length)).getD 0)))
        (mapE (fun p => mapE (groupRows none a.timeAvg a.normalize u' s p) gs) (List.range ((u'.cells[s]?.map (·.length)).getD 0))) := by
      intro s hs
      have hs := List.mem_range.1 hs
      have e : (u.cells[s]?.map (·.length)).getD 0 = (u'.cells[s]?.map (·.length)).getD 0 := by
        have h1 : u.cells[s]? = some u.cells[s] := List.getElem?_eq_getElem hs
        have h2 : u'.cells[s]? = some (u'.cells[s]'(hlen ▸ hs)) := List.getElem?_eq_getElem _
        rw [h1, h2]
        simpa using (hc.2 s _ _ h1 h2).length_eq
      rw [← e]
      refine mapE_rel _ (fun p _ => mapE_rel _ (fun g _ => ?_))
      exact groupRows_rel H hr he he' hc _ _ s p g
    have hm : mapE (groupMeta circ a.timeAvg u) gs = mapE (groupMeta circ a.timeAvg u') gs := by
      congr 1; funext g; unfold groupMeta indices; rw [hr]
    have key : RelE (fun v v' => v.length = u.cells.length ∧ v.length = v'.length ∧ ∀ (s : Nat) ps ps', v[s]? = some ps → v'[s]? = some ps' →
          List.Forall₂ (List.Forall₂ (List.Forall₂ (R s))) ps ps')
        (mapE (fun s => mapE (fun p => mapE (groupRows none a.timeAvg a.normalize u s p) gs) (List.range ((u.cells[s]?.map (·.length)).getD 0)))
          (List.range u.cells.length))
        (mapE (fun s => mapE (fun p => mapE (groupRows none a.timeAvg a.normalize u' s p) gs) (List.range ((u'.cells[s]?.map (·.length)).getD 0)))
          (List.range u'.cells.length)) := by
      rw [← hlen]
      have h3 := mapE_rel_idx (R := fun s => List.Forall₂ (List.Forall₂ (List.Forall₂ (R s)))) (List.range u.cells.length) hb
      revert h3
      generalize mapE _ (List.range u.cells.length) = B
      generalize mapE _ (List.range u.cells.length) = B'
      intro h3
      cases B <;> cases B' <;> simp only [RelE] at h3 ⊢
      · exact h3
      · refine ⟨by simpa using h3.1, h3.2.1, fun s ps ps' e1 e2 => h3.2.2 s s ps ps' ?_ e1 e2⟩
        have := (List.getElem?_eq_some_iff.1 e1).1
        rw [h3.1, List.length_range] at this
        rw [List.getElem?_range this]
    generalize (mapE (fun s => mapE (fun p => mapE (groupRows none a.timeAvg a.normalize u s p) gs) (List.range ((u.cells[s]?.map (·.length)).getD 0)))
          (List.range u.cells.length)) = B at *
    generalize (mapE (fun s => mapE (fun p => mapE (groupRows none a.timeAvg a.normalize u' s p) gs) (List.range ((u'.cells[s]?.map (·.length)).getD 0)))
          (List.range u'.cells.length)) = B' at *
    cases B <;> cases B' <;> simp only [RelE] at key ⊢
    · exact key
    · rename_i bl bl'
      rw [← hm]
      cases mapE (groupMeta circ a.timeAvg u) gs with
      | error e => rfl
      | ok ms =>
        refine ⟨rfl, rfl, he, he', by simp [key.1], by simp [key.2.1], ?_⟩
        intro s ps ps' e1 e2
        rw [List.getElem?_map, Option.map_eq_some_iff] at e1 e2
        obtain ⟨q, q1, rfl⟩ := e1
        obtain ⟨q', q2, rfl⟩ := e2
        exact forall₂_map₂ (fun _ _ h => forall₂_flatten h) (key.2.2 s _ _ q1 q2)

/-! ### Equality up to statistics -/

/-- Two cells agree in everything but their statistics. -/
structure EqC (c c' : Cell E) : Prop where
  data : c.data = c'.data
  wgts : c.wgts = c'.wgts
  ints : c.ints = c'.ints
  nsmp : c.nsmp = c'.nsmp
  cov : c.cov = c'.cov
  win : c.win = c'.win

/-- The same for weighted integrations. -/
structure EqA (a a' : Acc E) : Prop where
  w : a.w = a'.w
  data : a.data = a'.data
  wgts : a.wgts = a'.wgts
  ints : a.ints = a'.ints
  nsmp : a.nsmp = a'.nsmp
  cov : a.cov = a'.cov
  win : a.win = a'.win

theorem map_eq_of_forall₂ {α β γ : Type} {A : α → β → Prop} {f : α → γ} {g : β → γ} (hfg : ∀ a b, A a b → f a = g b)
    {l : List α} {r : List β} (h : List.Forall₂ A l r) : l.map f = r.map g := by
  induction h with
  | nil => rfl
  | cons h1 h2 ih => simp [ih, hfg _ _ h1]

theorem respects_eq (exact : Bool) : Respects (E := E) exact EqC EqA where
  prep := by
    intro c c' h
    refine ⟨?_, h.data, h.wgts, ?_, h.nsmp, h.cov, h.win⟩
    · funext d; simp [Average.prep, weight, h.ints, h.nsmp]
    · funext d; simp [Average.prep, h.ints]
  time := by
    intro l l' h
    have hw : ∀ d, (l.map (·.w d)) = l'.map (·.w d) := fun d => map_eq_of_forall₂ (fun a b h => by rw [h.w]) h
    refine ⟨?_, ?_, ?_, ?_, ?_, ?_, ?_⟩
    · funext d; simp [timeMean, hw]
    · funext d; simp only [timeMean, hw]; congr 2; exact map_eq_of_forall₂ (fun a b h => by rw [h.w, h.data]) h
    · funext d; simp only [timeMean, hw]; congr 2; exact map_eq_of_forall₂ (fun a b h => by rw [h.w, h.wgts]) h
    · funext d; simp only [timeMean, hw]; congr 2; exact map_eq_of_forall₂ (fun a b h => by rw [h.w, h.ints]) h
    · simp only [timeMean]; congr 1; exact map_eq_of_forall₂ (fun a b h => by rw [h.nsmp]) h
    · funext d e; simp only [timeMean, hw]; congr 3; exact map_eq_of_forall₂ (fun a b h => by rw [h.w, h.cov]) h
    · funext d e; simp only [timeMean, hw]; congr 2; exact map_eq_of_forall₂ (fun a b h => by rw [h.w, h.win]) h
  group := by
    intro l l' h
    have hw : ∀ d, (l.map (·.w d)) = l'.map (·.w d) := fun d => map_eq_of_forall₂ (fun a b h => by rw [h.w]) h
    refine ⟨?_, ?_, ?_, ?_, ?_, ?_⟩
    · funext d; simp only [groupMean, hw]; congr 2; exact map_eq_of_forall₂ (fun a b h => by rw [h.w, h.data]) h
    · funext d; simp only [groupMean, hw]; congr 2; exact map_eq_of_forall₂ (fun a b h => by rw [h.w, h.wgts]) h
    · simp only [groupMean, hw]; congr 2; exact map_eq_of_forall₂ (fun a b h => by rw [h.w, h.ints]) h
    · simp only [groupMean]; congr 1; exact map_eq_of_forall₂ (fun a b h => by rw [h.nsmp]) h
    · funext d e; simp only [groupMean, hw]; congr 3; exact map_eq_of_forall₂ (fun a b h => by rw [h.w, h.cov]) h
    · funext d e; simp only [groupMean, hw]
      have : (l.map (fun a => a.win d e * a.w d)) = l'.map (fun a => a.win d e * a.w d) :=
        map_eq_of_forall₂ (fun a b h => by rw [h.w, h.win]) h
      rw [this]

/-! ### Folded cells -/

/-- Integration time and number of samples are not negative, and either one of them is zero or both are well above zero. -/
def SaneCell (c : Cell E) : Prop :=
  0 ≤ c.ints ∧ 0 ≤ c.nsmp ∧ (c.ints = 0 ∨ c.nsmp = 0 ∨ (1 / 10 ^ 10 ≤ c.ints ∧ 1 / 10 ^ 20 ≤ c.nsmp))

/-- Four mirrored elements of a matrix over delays. -/
noncomputable def quarter (h : Nat) (C : Nat → Nat → ℝ) (d e : Nat) : ℝ :=
  (C (h - 1 - d) (h - 1 - e) + C (h - 1 - d) (e + (h + 1)) + C (d + (h + 1)) (h - 1 - e) + C (d + (h + 1)) (e + (h + 1))) / 4

/-- `c'` is what is read from the fold of `c`; `h` is the index of zero delay. -/
structure FC (h : Nat) (c c' : Cell E) : Prop where
  data : ∀ d, c'.data d = (1 / 2 : ℝ) • (c.data (h - 1 - d) + c.data (d + (h + 1)))
  wgts : c'.wgts = c.wgts
  ints : c'.ints = c.ints
  nsmp : c'.nsmp = 2 * c.nsmp
  cov : ∀ d e, c'.cov d e = quarter h c.cov d e
  win : ∀ d e, c'.win d e = quarter h c.win d e
  sane : SaneCell c

/-- The same for weighted integrations. -/
structure FA (h : Nat) (a a' : Acc E) : Prop where
  wc : ∀ d, a.w d = a.w 0
  w : ∀ d, a'.w d = 2 * a.w 0
  data : ∀ d, a'.data d = (1 / 2 : ℝ) • (a.data (h - 1 - d) + a.data (d + (h + 1)))
  wgts : a'.wgts = a.wgts
  ic : ∀ d, a.ints d = a.ints 0
  ints : a'.ints = a.ints
  nsmp : a'.nsmp = 2 * a.nsmp
  cov : ∀ d e, a'.cov d e = quarter h a.cov d e
  win : ∀ d e, a'.win d e = quarter h a.win d e
  i0 : 0 ≤ a.ints 0
  n0 : 0 ≤ a.nsmp
  sane : a.w 0 = 0 ∨ (tiny ≤ a.w 0 ∧ 1 / 10 ^ 10 ≤ a.ints 0 ∧ 1 / 10 ^ 20 ≤ a.nsmp)

theorem sum_linear {α : Type} (l : List α) (f g : α → E) (r : ℝ) :
    (l.map (fun a => r • (f a + g a))).sum = r • ((l.map f).sum + (l.map g).sum) := by
  induction l with
  | nil => simp
  | cons a l ih => simp only [List.map_cons, List.sum_cons, ih]; module

theorem sum_zero' {α M : Type} [AddCommMonoid M] (l : List α) (f : α → M) (h : ∀ a ∈ l, f a = 0) : (l.map f).sum = 0 := by
  rw [List.sum_eq_zero]; intro x hx; obtain ⟨a, ha, rfl⟩ := List.mem_map.1 hx; exact h a ha

/-- Total weight: nothing counts, or the total is at least `1e-40`. -/
theorem total {h : Nat} {l l' : List (Acc E)} (hf : List.Forall₂ (FA h) l l') :
    (∀ d, (l.map (·.w d)).sum = (l.map (·.w 0)).sum) ∧ (∀ d, (l'.map (·.w d)).sum = 2 * (l.map (·.w 0)).sum) ∧
    ((∀ a ∈ l, ∀ d, a.w d = 0) ∨ (tiny ≤ (l.map (·.w 0)).sum ∧ 1 / 10 ^ 20 ≤ (l.map (·.nsmp)).sum ∧
      1 / 10 ^ 10 * (l.map (·.w 0)).sum ≤ (l.map (fun a => a.ints 0 * a.w 0)).sum)) ∧ 0 ≤ (l.map (·.nsmp)).sum ∧
    (0 ≤ (l.map (·.w 0)).sum ∧ 0 ≤ (l.map (fun a => a.ints 0 * a.w 0)).sum ∧
      1 / 10 ^ 10 * (l.map (·.w 0)).sum ≤ (l.map (fun a => a.ints 0 * a.w 0)).sum) := by
  induction hf with
  | nil => simp
  | @cons a a' l l' h1 h2 ih =>
    obtain ⟨i1, i2, i3, i4, i5, i6, i7⟩ := ih
    have ha0 : 0 ≤ a.w 0 := by
      rcases h1.sane with h | h
      · rw [h]
      · exact le_trans tiny_pos.le h.1
    have hi : 0 ≤ a.ints 0 * a.w 0 := mul_nonneg h1.i0 ha0
    have hw : 1 / 10 ^ 10 * a.w 0 ≤ a.ints 0 * a.w 0 := by
      rcases h1.sane with h | h
      · rw [h]; simp
      · exact mul_le_mul_of_nonneg_right h.2.1 ha0
    have n0 := h1.n0
    simp only [List.map_cons, List.sum_cons]
    refine ⟨fun d => by rw [i1, h1.wc], fun d => by rw [i2, h1.w]; ring, ?_, by linarith, by linarith, by linarith, by
      rw [mul_add]; linarith⟩
    rcases h1.sane with hz | hz
    · rcases i3 with h | h
      · left
        intro b hb d
        rcases List.mem_cons.1 hb with rfl | hb
        · rw [h1.wc, hz]
        · exact h b hb d
      · right; exact ⟨by rw [hz]; linarith [h.1], by linarith [h.2.1], by rw [mul_add]; linarith⟩
    · right; exact ⟨by linarith [hz.1], by linarith [hz.2.2], by rw [mul_add]; linarith⟩

theorem norm_sum {h : Nat} {l l' : List (Acc E)} (hf : List.Forall₂ (FA h) l l') {M : Type} [AddCommGroup M] [Module ℝ M] (f : Acc E → M) (f' : Acc E → M)
    (g : Acc E → M) (i j d : Nat)
    (he : ∀ a a', FA h a a' → f' a' = (1 / 2 : ℝ) • (f a + g a)) :
    (clipTiny (l'.map (·.w d)).sum)⁻¹ • (l'.map (fun a => a.w d • f' a)).sum =
      (1 / 2 : ℝ) • ((clipTiny (l.map (·.w i)).sum)⁻¹ • (l.map (fun a => a.w i • f a)).sum +
        (clipTiny (l.map (·.w j)).sum)⁻¹ • (l.map (fun a => a.w j • g a)).sum) := by
  obtain ⟨t1, t2, t3, _⟩ := total hf
  have e : (l'.map (fun a => a.w d • f' a)) = l.map (fun a => (a.w i • f a + a.w j • g a)) := by
    symm
    refine map_eq_of_forall₂ (fun a a' H => ?_) hf
    rw [H.w, he a a' H, H.wc i, H.wc j]; module
  rw [e, t2, t1 i, t1 j]
  have e2 := sum_linear l (fun a => a.w i • f a) (fun a => a.w j • g a) 1
  simp only [one_smul] at e2
  rw [e2]
  rcases t3 with hz | ⟨hz, _⟩
  · have z1 : (l.map (fun a => a.w i • f a)).sum = 0 := sum_zero' l _ (fun a ha => by rw [hz a ha, zero_smul])
    have z2 : (l.map (fun a => a.w j • g a)).sum = 0 := sum_zero' l _ (fun a ha => by rw [hz a ha, zero_smul])
    rw [z1, z2]; simp
  · have hp : 0 < (l.map (·.w 0)).sum := lt_of_lt_of_le tiny_pos hz
    rw [clipTiny_eq hz, clipTiny_eq (by linarith)]
    rw [mul_inv, smul_add, smul_add, mul_smul, mul_smul]
    norm_num

theorem quarter_congr {h : Nat} {C C' : Nat → Nat → ℝ} (H : ∀ d e, C' d e = quarter h C d e) (d e : Nat) : C' d e = quarter h C d e := H d e

theorem norm_cov {h : Nat} {l l' : List (Acc E)} (hf : List.Forall₂ (FA h) l l') (d e : Nat) :
    (l'.map (fun a => a.cov d e * a.w d * a.w e)).sum / clipTiny (l'.map (·.w d)).sum / clipTiny (l'.map (·.w e)).sum =
      quarter h (fun d e => (l.map (fun a => a.cov d e * a.w d * a.w e)).sum / clipTiny (l.map (·.w d)).sum /
        clipTiny (l.map (·.w e)).sum) d e := by
  obtain ⟨t1, t2, t3, _⟩ := total hf
  have e1 : (l'.map (fun a => a.cov d e * a.w d * a.w e)) = l.map (fun a => 4 * quarter h (fun d e => a.cov d e * a.w d * a.w e) d e) := by
    symm
    refine map_eq_of_forall₂ (fun a a' H => ?_) hf
    rw [H.w, H.w, H.cov]
    unfold quarter
    simp only []
    rw [H.wc (h - 1 - d), H.wc (h - 1 - e), H.wc (d + (h + 1)), H.wc (e + (h + 1))]
    ring
  have e2 : ∀ L : List (Acc E), (L.map (fun a => 4 * quarter h (fun d e => a.cov d e * a.w d * a.w e) d e)).sum =
      4 * quarter h (fun d e => (L.map (fun a => a.cov d e * a.w d * a.w e)).sum) d e := by
    intro L
    induction L with
    | nil => simp [quarter]
    | cons a L ih => simp only [List.map_cons, List.sum_cons]; rw [ih]; unfold quarter; ring
  rw [e1, e2, t2, t2]
  simp only [t1]
  rcases t3 with hz | ⟨hz, _⟩
  · have z : ∀ d e, (l.map (fun a => a.cov d e * a.w d * a.w e)).sum = 0 :=
      fun d e => sum_zero' l _ (fun a ha => by rw [hz a ha]; simp)
    simp [quarter, z]
  · have hp : 0 < (l.map (·.w 0)).sum := lt_of_lt_of_le tiny_pos hz
    rw [clipTiny_eq hz, clipTiny_eq (by linarith)]
    unfold quarter
    field_simp
    ring

theorem norm_win {h : Nat} {l l' : List (Acc E)} (hf : List.Forall₂ (FA h) l l') (d e : Nat) :
    (l'.map (fun a => a.win d e * a.w d)).sum / clipTiny (l'.map (·.w d)).sum =
      quarter h (fun d e => (l.map (fun a => a.win d e * a.w d)).sum / clipTiny (l.map (·.w d)).sum) d e := by
  obtain ⟨t1, t2, t3, _⟩ := total hf
  have e1 : (l'.map (fun a => a.win d e * a.w d)) = l.map (fun a => 2 * quarter h (fun d e => a.win d e * a.w d) d e) := by
    symm
    refine map_eq_of_forall₂ (fun a a' H => ?_) hf
    rw [H.w, H.win]
    unfold quarter
    simp only []
    rw [H.wc (h - 1 - d), H.wc (d + (h + 1))]
    ring
  have e2 : ∀ L : List (Acc E), (L.map (fun a => 2 * quarter h (fun d e => a.win d e * a.w d) d e)).sum =
      2 * quarter h (fun d e => (L.map (fun a => a.win d e * a.w d)).sum) d e := by
    intro L
    induction L with
    | nil => simp [quarter]
    | cons a L ih => simp only [List.map_cons, List.sum_cons]; rw [ih]; unfold quarter; ring
  rw [e1, e2, t2]
  simp only [t1]
  rcases t3 with hz | ⟨hz, _⟩
  · have z : ∀ d e, (l.map (fun a => a.win d e * a.w d)).sum = 0 :=
      fun d e => sum_zero' l _ (fun a ha => by rw [hz a ha]; simp)
    simp [quarter, z]
  · have hp : 0 < (l.map (·.w 0)).sum := lt_of_lt_of_le tiny_pos hz
    rw [clipTiny_eq hz, clipTiny_eq (by linarith)]
    unfold quarter
    field_simp

/-- A normalised sum of a quantity the fold does not change. -/
theorem norm_same {h : Nat} {l l' : List (Acc E)} (hf : List.Forall₂ (FA h) l l') (f : Acc E → ℝ)
    (he : ∀ a a', FA h a a' → f a' = f a) (i j : Nat) :
    (l'.map (fun a => f a * a.w i)).sum / clipTiny (l'.map (·.w i)).sum = (l.map (fun a => f a * a.w j)).sum / clipTiny (l.map (·.w j)).sum := by
  have := norm_sum hf f f f j j i (fun a a' H => by rw [he a a' H, smul_eq_mul]; ring)
  simp only [smul_eq_mul, ← two_mul] at this
  rw [div_eq_inv_mul, div_eq_inv_mul]
  simp only [mul_comm (f _)]
  rw [this]; ring

theorem respects_fold (h : Nat) : Respects (E := E) false (FC h) (FA h) where
  prep := by
    intro c c' H
    obtain ⟨s1, s2, s3⟩ := H.sane
    have hw : (c.ints * Real.sqrt c.nsmp) ^ 2 = c.ints ^ 2 * c.nsmp := by rw [mul_pow, Real.sq_sqrt s2]
    have hw' : (c'.ints * Real.sqrt c'.nsmp) ^ 2 = c'.ints ^ 2 * c'.nsmp := by
      rw [mul_pow, Real.sq_sqrt (by rw [H.nsmp]; linarith)]
    refine ⟨fun d => rfl, fun d => ?_, H.data, H.wgts, fun d => rfl, ?_, H.nsmp, H.cov, H.win, s1, s2, ?_⟩
    · simp only [Average.prep, weight]; rw [hw, hw', H.ints, H.nsmp]; ring
    · funext d; simp [Average.prep, H.ints]
    · simp only [Average.prep, weight]; rw [hw]
      rcases s3 with h0 | h0 | ⟨h1, h2⟩
      · left; rw [h0]; ring
      · left; rw [h0]; ring
      · right
        refine ⟨?_, h1, h2⟩
        have : (1 / 10 ^ 10 : ℝ) ^ 2 * (1 / 10 ^ 20) ≤ c.ints ^ 2 * c.nsmp := by gcongr
        refine le_trans (le_of_eq ?_) this
        unfold tiny; norm_num
  time := by
    intro l l' hf
    obtain ⟨t1, t2, t3, t4, t5, t6, t7⟩ := total hf
    have hi : ∀ d, (l.map (fun a => a.ints d * a.w d)) = l.map (fun a => a.ints 0 * a.w 0) := by
      intro d
      have hd : ∀ a ∈ l, a.ints d * a.w d = a.ints 0 * a.w 0 := by
        intro a ha
        obtain ⟨i, hi, rfl⟩ := List.mem_iff_getElem.1 ha
        rcases forall₂_getElem? hf i with ⟨h1, _⟩ | ⟨x, y, h1, h2, H⟩
        · rw [List.getElem?_eq_none_iff] at h1; omega
        · rw [List.getElem?_eq_getElem hi] at h1; cases h1; rw [H.ic, H.wc]
      exact List.map_congr_left hd
    refine ⟨fun d => t1 d, fun d => t2 d, fun d => ?_, ?_, fun d => ?_, ?_, ?_, fun d e => norm_cov hf d e, fun d e => norm_win hf d e,
      ?_, t4, ?_⟩
    · exact norm_sum hf (fun a => a.data (h - 1 - d)) (fun a => a.data d) (fun a => a.data (d + (h + 1))) _ _ d (fun a a' H => H.data d)
    · funext f; exact norm_same hf (fun a => a.wgts f) (fun a a' H => by rw [H.wgts]) 0 0
    · simp only [timeMean]; rw [hi, hi, t1]
    · funext d; exact norm_same hf (fun a => a.ints d) (fun a a' H => by rw [H.ints]) d d
    · simp only [timeMean]
      have : (l'.map (·.nsmp)) = l.map (fun a => 2 * a.nsmp) := (map_eq_of_forall₂ (fun a a' H => H.nsmp.symm) hf).symm
      rw [this, List.sum_map_mul_left]
    · simp only [timeMean]; exact div_nonneg t6 (clipTiny_pos _).le
    · rcases t3 with hz | ⟨h1, h2, h3⟩
      · left; exact sum_zero' l _ (fun a ha => hz a ha 0)
      · right
        refine ⟨h1, ?_, h2⟩
        simp only [timeMean]
        rw [clipTiny_eq h1, le_div_iff₀ (lt_of_lt_of_le tiny_pos h1)]
        exact h3
  group := by
    intro l l' hf
    obtain ⟨t1, t2, t3, t4, t5, t6, t7⟩ := total hf
    refine ⟨fun d => ?_, ?_, ?_, ?_, fun d e => norm_cov hf d e, fun d e => ?_, ?_, t4, ?_⟩
    · exact norm_sum hf (fun a => a.data (h - 1 - d)) (fun a => a.data d) (fun a => a.data (d + (h + 1))) _ _ d (fun a a' H => H.data d)
    · funext f; exact norm_same hf (fun a => a.wgts f) (fun a a' H => by rw [H.wgts]) 0 0
    · exact norm_same hf (fun a => a.ints 0) (fun a a' H => by rw [H.ints]) 0 0
    · simp only [groupMean]
      have : (l'.map (·.nsmp)) = l.map (fun a => 2 * a.nsmp) := (map_eq_of_forall₂ (fun a a' H => H.nsmp.symm) hf).symm
      rw [this, List.sum_map_mul_left]
    · simp only [groupMean, Bool.false_eq_true, if_false]; exact norm_win hf d e
    · exact div_nonneg t6 (clipTiny_pos _).le
    · rcases t3 with hz | ⟨h1, h2, h3⟩
      · left
        simp only [groupMean]
        rw [sum_zero' l _ (fun a ha => by rw [hz a ha]; simp)]; simp
      · right; right
        refine ⟨?_, h2⟩
        simp only [groupMean]
        rw [clipTiny_eq h1, le_div_iff₀ (lt_of_lt_of_le tiny_pos h1)]
        exact h3

end HeraPspec.FoldAvg
