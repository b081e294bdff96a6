import Verif.Lemmas.SharedPrep

/-! C162: the preparation steps on a collection in which one `UVData` object sits at several positions. -/
namespace HeraPspec.Shared
open HeraPspec.Labels (Mem)

/-! ### Unit conversion -/
section jy
open HeraPspec.JyMk

theorem jyLoop_ok (b : Beam) (refs : List ℕ) (m m' : Mem UV) (h : jyLoop b m refs = (m', true)) (a : ℕ) :
    (a ∉ refs → m' a = m a) ∧ (¬ InJy (m a) → m' a = m a) ∧ (a ∈ refs → InJy (m a) → m' a = convert b (m a) ∧ fits b (m a) = true) := by
  induction refs generalizing m with
  | nil =>
    simp only [jyLoop, Prod.mk.injEq, and_true] at h
    subst h
    simp
  | cons c rest ih =>
    rw [jyLoop] at h
    split at h
    · rename_i hj
      obtain ⟨i1, i2, i3⟩ := ih m h
      refine ⟨fun hn => i1 (fun hh => hn (List.mem_cons_of_mem _ hh)), i2, fun ha hJ => ?_⟩
      rcases List.mem_cons.1 ha with e | ha
      · subst e
        rw [← isJy_iff] at hJ
        simp [hJ] at hj
      · exact i3 ha hJ
    · rename_i hj
      have hJc : InJy (m c) := by rw [← isJy_iff]; simpa using hj
      split at h
      · rename_i hf
        obtain ⟨i1, i2, i3⟩ := ih _ h
        by_cases hac : a = c
        · subst hac
          rw [Function.update_self] at i1 i2 i3
          have hv : ¬ InJy (convert b (m a)) := by
            apply not_inJy_mK; rfl
          have := i2 hv
          exact ⟨fun hn => (hn (by simp)).elim, fun hn => (hn hJc).elim, fun _ _ => ⟨this, hf⟩⟩
        · rw [Function.update_of_ne hac] at i1 i2 i3
          refine ⟨fun hn => i1 (fun hh => hn (List.mem_cons_of_mem _ hh)), i2, fun ha hJ => ?_⟩
          exact i3 ((List.mem_cons.1 ha).resolve_left hac) hJ
      · simp at h

/-- **C162** (partial) `Jy_to_mK` on objects: when the call returns, every object that sits in the collection and was in Jy has been
converted exactly once, however many positions it occupies; all other objects are as before. Missing: the claim fails for
`rephase_to_dset`, `trim_dset_lsts` and `broadcast_dset_flags` on part of the band, see the findings. -/
theorem C162_units_partial (b : Beam) (m m' : Mem UV) (refs : List ℕ) (h : jyRef b m refs = (m', true)) (a : ℕ) :
    (a ∈ refs → InJy (m a) → ConvertedBy b (m a) (m' a)) ∧ (¬ InJy (m a) → m' a = m a) ∧ (a ∉ refs → m' a = m a) := by
  unfold jyRef at h
  split at h
  · simp at h
  · split at h
    · simp at h
    · obtain ⟨h1, h2, h3⟩ := jyLoop_ok b refs m m' h a
      refine ⟨fun ha hJ => ?_, h2, h1⟩
      obtain ⟨e, hf⟩ := h3 ha hJ
      rw [e]
      exact convert_spec b (m a) hf

theorem jyLoop_flag (b : Beam) (refs : List ℕ) (m : Mem UV) :
    (jyLoop b m refs).2 = true ↔ ∀ a ∈ refs, InJy (m a) → fits b (m a) = true := by
  induction refs generalizing m with
  | nil => simp [jyLoop]
  | cons c rest ih =>
    rw [jyLoop]
    split
    · rename_i hj
      have hn : ¬ InJy (m c) := by rw [← isJy_iff]; simpa using hj
      rw [ih, List.forall_mem_cons]
      exact ⟨fun h => ⟨fun hh => (hn hh).elim, h⟩, fun h => h.2⟩
    · rename_i hj
      have hJ : InJy (m c) := by rw [← isJy_iff]; simpa using hj
      split
      · rename_i hf
        rw [ih, List.forall_mem_cons]
        constructor
        · intro h
          refine ⟨fun _ => hf, fun a ha hJa => ?_⟩
          by_cases hac : a = c
          · exact hac ▸ hf
          · have := h a ha
            rw [Function.update_of_ne hac] at this
            exact this hJa
        · intro h a ha hJa
          by_cases hac : a = c
          · subst hac
            rw [Function.update_self] at hJa
            exact (not_inJy_mK (by rfl) hJa).elim
          · rw [Function.update_of_ne hac] at hJa ⊢
            exact h.2 a ha hJa
      · rename_i hf
        simp only [Bool.false_eq_true, List.forall_mem_cons, false_iff, not_and]
        exact fun h => (hf (h hJ)).elim

theorem loop_flag (b : Beam) (ds : List UV) : (loop b ds).2 = true ↔ ∀ u ∈ ds, InJy u → fits b u = true := by
  induction ds with
  | nil => simp [loop]
  | cons u us ih =>
    unfold loop
    split
    · rename_i hj
      have hn : ¬ InJy u := by rw [← isJy_iff]; simpa using hj
      rw [List.forall_mem_cons]
      exact ⟨fun h => ⟨fun hh => (hn hh).elim, ih.1 h⟩, fun h => ih.2 h.2⟩
    · rename_i hj
      have hJ : InJy u := by rw [← isJy_iff]; simpa using hj
      split
      · rename_i hf
        rw [List.forall_mem_cons]
        exact ⟨fun h => ⟨fun _ => hf, ih.1 h⟩, fun h => ih.2 h.2⟩
      · rename_i hf
        simp only [Bool.false_eq_true, List.forall_mem_cons, false_iff, not_and]
        exact fun h => (hf (h hJ)).elim

/-- **C162** (partial) Whether `Jy_to_mK` returns does not depend on which positions share an object. Missing: see `C162_units_partial`. -/
theorem C162_units_returns_partial (b : Beam) (m : Mem UV) (refs : List ℕ) :
    (jyRef b m refs).2 = (jyToMk b (refs.map m)).2 := by
  unfold jyRef jyToMk
  split
  · rfl
  · split
    · rfl
    · rw [Bool.eq_iff_iff, jyLoop_flag, loop_flag, List.forall_mem_map]

end jy

/-! ### Flags -/
section flags
open HeraPspec.Flags

/-- **C162** (partial) `broadcast_dset_flags` on objects: when the call returns, the flags of an object have been broadcast once for each
position it occupies (and not at all if it occupies none). Missing: broadcasting a second time may flag more, see
`C162_finding_flags_twice`. -/
theorem C162_flags_partial (thr : ℚ) (unflag : Bool) (ws : List (ℕ × ℕ)) (m m' : Mem FObj) (refs : List ℕ)
    (h : bcastRef thr unflag ws m refs = (m', true)) (a : ℕ) :
    again (bcastStep thr unflag ws) (refs.count a) (m a) = some (m' a) := by
  have := each_again _ _ _ _ h a
  rwa [positions_snd] at this

theorem count_cases (refs : List ℕ) (a : ℕ) : a ∈ refs → ∃ n, refs.count a = n + 1 := by
  intro h
  have := List.count_pos_iff.2 h
  exact ⟨refs.count a - 1, by omega⟩

/-- **C162** (partial) Broadcasting over the whole band (the default window), or unflagging any windows: an object ends up as if
it occupied a single position. Missing: windows that are part of the band, see `C162_finding_flags_twice`. -/
theorem C162_flags_once_partial (thr : ℚ) (unflag : Bool) (ws : List (ℕ × ℕ)) (m m' : Mem FObj) (refs : List ℕ)
    (h : bcastRef thr unflag ws m refs = (m', true)) (a : ℕ) (ha : a ∈ refs) (h1 : 0 < (m a).1.nf) (h2 : (m a).1.nf ≤ 1000000)
    (hw : unflag = true ∨ ws = [(0, (m a).1.nf)]) :
    (m' a).1 = (m a).1 ∧ broadcast (m a).1 thr unflag ws (m a).2 = some (m' a).2 := by
  have := C162_flags_partial thr unflag ws m m' refs h a
  obtain ⟨n, hn⟩ := count_cases refs a ha
  rw [hn] at this
  generalize hx : m a = x at this h1 h2 hw
  obtain ⟨S, F⟩ := x
  simp only at h1 h2 hw
  cases hb : broadcast S thr unflag ws F with
  | none => rw [again, bcastStep, hb] at this; simp at this
  | some G =>
    have hs : bcastStep thr unflag ws (S, F) = some (S, G) := by simp [bcastStep, hb]
    have hi : bcastStep thr unflag ws (S, G) = some (S, G) := by
      have : broadcast S thr unflag ws G = some G := by
        rcases hw with rfl | rfl
        · exact unflag_idem S thr ws F G hb
        · cases unflag
          · exact broadcast_idem S h1 h2 thr F G hb
          · exact unflag_idem S thr _ F G hb
      simp [bcastStep, this]
    rw [again_fixed hs hi] at this
    rw [← Option.some.inj this]
    exact ⟨rfl, rfl⟩

/-- Four integrations of one baseline, four channels: the channels 0 and 1 each hold one flag. -/
def exFlags : FObj := (⟨[7, 7, 7, 7], 4, 1⟩, fun r f _ => (f == 0 && r == 0) || (f == 1 && r == 1))

/-- **C162** (finding) A window that is part of the band: with threshold 0.3 one occurrence of the object flags two of the four
integrations in the window, a second occurrence then finds half of the integrations flagged in each channel and flags the
window for all times. -/
theorem C162_finding_flags_twice :
    ((bcastRef (3 / 10) false [(0, 2)] (fun _ => exFlags) [0]).1 0).2 2 0 0 = false ∧
    ((bcastRef (3 / 10) false [(0, 2)] (fun _ => exFlags) [0, 1]).1 1).2 2 0 0 = false ∧
    ((bcastRef (3 / 10) false [(0, 2)] (fun _ => exFlags) [0, 0]).1 0).2 2 0 0 = true := by decide +kernel

/-- The hypotheses of `C162_flags_once_partial` can be met: two occurrences, and the flags change. -/
example : ∃ m', bcastRef (3 / 10) false [(0, 4)] (fun _ => exFlags) [0, 0] = (m', true) ∧ (m' 0).2 0 3 0 = true ∧
    exFlags.2 0 3 0 = false := by
  refine ⟨_, Prod.ext rfl ?_, ?_, ?_⟩ <;> decide +kernel

end flags

/-! ### Rephasing -/
section rephase
open HeraPspec.Rephase

theorem each_rephase (ph : Phasor) (k : ℕ) (a0 : UV) (hnd : a0.lsts.Nodup) (hn : a0.pols.Nodup) (L : List (ℕ × ℕ)) (m : Mem UV)
    (hok : ∀ x ∈ L, (m x.2).lsts.length = a0.lsts.length ∧ (m x.2).pols = a0.pols) :
    ∃ m', each (fun i u => step ph (lstGrid a0.lsts) a0.pols k (i, u)) m L = (m', true) ∧ ∀ a,
      (m' a).lsts = (m a).lsts ∧ (m' a).pols = (m a).pols ∧ (a ∉ L.map Prod.snd → m' a = m a) ∧
      (a ∈ L.map Prod.snd → (m' a).cat = "unknown") ∧
      ∀ b t f q, t < a0.lsts.length → q < a0.pols.length → (m' a).data b t f q =
        (m a).data b t f q * ph b f (shift a0 (m a) t) ^ (L.countP (fun x => decide (x.2 = a ∧ x.1 ≠ k))) := by
  induction L generalizing m with
  | nil => exact ⟨m, rfl, fun a => ⟨rfl, rfl, fun _ => rfl, by simp, by simp⟩⟩
  | cons x L ih =>
    obtain ⟨i, c⟩ := x
    obtain ⟨hl, hp⟩ := hok (i, c) (by simp)
    have hstep : ∃ v, step ph (lstGrid a0.lsts) a0.pols k (i, m c) = some v ∧ v.cat = "unknown" ∧ v.lsts = (m c).lsts ∧
        v.pols = (m c).pols ∧ ∀ b t f q, t < a0.lsts.length → q < a0.pols.length → v.data b t f q =
          (m c).data b t f q * ph b f (shift a0 (m c) t) ^ (if i = k then 0 else 1) := by
      unfold step
      by_cases hik : i = k
      · refine ⟨{ m c with cat := "unknown" }, by rw [if_pos hik], rfl, rfl, rfl, ?_⟩
        intro b t f q _ _
        simp [hik]
      · obtain ⟨v, h1, h2, -, h4, h5, -, h7⟩ := rephaseOne_some ph a0 (m c) hl hnd hp hn
        refine ⟨v, by simp [hik, h1], h2, h4, h5, ?_⟩
        intro b t f q ht hq
        rw [h7 b t f q (by rw [hl]; exact ht) (by rw [hp]; exact hq), if_neg hik, pow_one]
    obtain ⟨v, hs, hv1, hv2, hv3, hv4⟩ := hstep
    obtain ⟨m', he, hm'⟩ := ih (Function.update m c v) (by
      intro y hy
      by_cases hyc : y.2 = c
      · rw [hyc, Function.update_self, hv2, hv3]; exact ⟨hl, hp⟩
      · rw [Function.update_of_ne hyc]; exact hok y (List.mem_cons_of_mem _ hy))
    refine ⟨m', ?_, ?_⟩
    · rw [each]
      simp only [hs]
      exact he
    · intro a
      obtain ⟨g1, g2, g3, g4, g5⟩ := hm' a
      by_cases hac : a = c
      · subst hac
        rw [Function.update_self] at g1 g2 g3 g5
        refine ⟨by rw [g1, hv2], by rw [g2, hv3], fun hn => (hn (by simp)).elim, fun _ => ?_, ?_⟩
        · by_cases ha : a ∈ L.map Prod.snd
          · exact g4 ha
          · rw [g3 ha, hv1]
        · intro b t f q ht hq
          have hsh : shift a0 v t = shift a0 (m a) t := by unfold shift; rw [hv2]
          rw [g5 b t f q ht hq, hv4 b t f q ht hq, hsh, List.countP_cons, mul_assoc, ← pow_add]
          congr 2
          by_cases hik : i = k <;> simp [hik, Nat.add_comm]
      · rw [Function.update_of_ne hac] at g1 g2 g3 g5
        refine ⟨g1, g2, fun hn => g3 (fun hh => hn (by simp [hh])), fun hh => ?_, ?_⟩
        · rw [List.map_cons, List.mem_cons] at hh
          exact g4 (hh.resolve_left hac)
        · intro b t f q ht hq
          rw [g5 b t f q ht hq, List.countP_cons]
          have : ¬ c = a := fun e => hac e.symm
          simp [this]

/-- **C162** (partial) `rephase_to_dset(k)` on objects that pass the validation and list the same polarizations: the call returns; the
data of an object are multiplied by the phasor of its LST shift to the anchor once for every position other than `k` it
occupies, and objects outside the collection are as before. Missing: an object at two such positions is rephased twice, see
`C162_finding_rephased_twice`. -/
theorem C162_rephase_partial (ph : Phasor) (k nt nf : ℕ) (pols : List ℤ) (m : Mem UV) (refs : List ℕ) (a0 : ℕ)
    (hr : Regular (refs.map m) nt nf pols) (hk : refs[k]? = some a0) : ∃ m', rephaseRef ph k m refs = (m', true) ∧
      ∀ a, (a ∉ refs → m' a = m a) ∧ (m' a).lsts = (m a).lsts ∧ (a ∈ refs → (m' a).cat = "unknown") ∧
        ∀ b t f q, t < nt → q < pols.length → (m' a).data b t f q =
          (m a).data b t f q * ph b f (shift (m a0) (m a) t) ^ ((refs.eraseIdx k).count a) := by
  have ha0 : a0 ∈ refs := List.mem_of_getElem? hk
  have hmem : ∀ a ∈ refs, m a ∈ refs.map m := fun a ha => List.mem_map.2 ⟨a, ha, rfl⟩
  have hnt := hr.nt _ (hmem a0 ha0)
  have hpol := hr.pol _ (hmem a0 ha0)
  obtain ⟨m', he, hm'⟩ := each_rephase ph k (m a0) (hr.lsts _ (hmem a0 ha0)) (hpol ▸ hr.nodup) (positions refs) m (by
    intro x hx
    have hx2 : x.2 ∈ refs := by
      have : x.2 ∈ (positions refs).map Prod.snd := List.mem_map.2 ⟨x, hx, rfl⟩
      rwa [positions_snd] at this
    rw [hr.nt _ (hmem _ hx2), hnt, hr.pol _ (hmem _ hx2), hpol]
    exact ⟨rfl, rfl⟩)
  refine ⟨m', ?_, ?_⟩
  · unfold rephaseRef
    rw [if_pos (valid_of_regular hr), hk]
    exact he
  · intro a
    obtain ⟨g1, -, g3, g4, g5⟩ := hm' a
    rw [positions_snd] at g3 g4
    refine ⟨g3, g1, g4, ?_⟩
    intro b t f q ht hq
    rw [g5 b t f q (by rw [hnt]; exact ht) (by rw [hpol]; exact hq), count_eraseIdx]

/-- **C162** (partial) With a phasor that is one for shift zero, `rephase_to_dset(k)` leaves the data of the anchor's object alone, at
whatever other positions it sits; an object that sits at exactly one other position is rephased once. Missing: see
`C162_rephase_partial`. -/
theorem C162_rephase_once_partial (ph : Phasor) (h0 : ∀ b f, ph b f 0 = 1) (k nt nf : ℕ) (pols : List ℤ) (m : Mem UV)
    (refs : List ℕ) (a0 : ℕ) (hr : Regular (refs.map m) nt nf pols) (hk : refs[k]? = some a0) :
    ∃ m', rephaseRef ph k m refs = (m', true) ∧ ∀ b t f q, t < nt → q < pols.length →
      (m' a0).data b t f q = (m a0).data b t f q ∧
      ∀ a, refs.count a = 1 → a ≠ a0 → (m' a).data b t f q = (m a).data b t f q * ph b f (shift (m a0) (m a) t) := by
  obtain ⟨m', h1, h2⟩ := C162_rephase_partial ph k nt nf pols m refs a0 hr hk
  refine ⟨m', h1, ?_⟩
  intro b t f q ht hq
  constructor
  · obtain ⟨-, -, -, h⟩ := h2 a0
    rw [h b t f q ht hq]
    have : shift (m a0) (m a0) t = 0 := by unfold shift; exact sub_self _
    rw [this, h0]
    simp
  · intro a hc hne
    obtain ⟨-, -, -, h⟩ := h2 a
    rw [h b t f q ht hq]
    have : (refs.eraseIdx k).count a = 1 := by
      obtain ⟨hlt, hge⟩ := List.getElem?_eq_some_iff.1 hk
      rw [List.eraseIdx_eq_take_drop_succ, List.count_append]
      have e : refs = refs.take k ++ refs[k] :: refs.drop (k + 1) := by
        rw [List.cons_getElem_drop_succ, List.take_append_drop]
      rw [e, List.count_append, List.count_cons, hge] at hc
      have : ¬ a0 = a := fun x => hne x.symm
      simpa [this] using hc
    rw [this, pow_one]

/-- **C162** (partial) `inplace=False`: no object of the collection is changed, and the returned list holds the contents the call in place
would leave. Missing: see `C162_rephase_partial`. -/
theorem C162_rephase_copy_partial (ph : Phasor) (k : ℕ) (m : Mem UV) (refs : List ℕ) :
    (rephaseRefApi ph k false m refs).1 = m ∧
    ∀ l, (rephaseRefApi ph k false m refs).2 = some (some l) →
      (rephaseRefApi ph k true m refs).2 = some none ∧ l = refs.map (rephaseRefApi ph k true m refs).1 := by
  unfold rephaseRefApi
  refine ⟨rfl, ?_⟩
  intro l h
  simp only [Bool.false_eq_true, if_false] at h
  split at h
  · rename_i hr
    simp only [Option.some.injEq] at h
    simp [hr, ← h]
  · cases h

/-- **C162** (finding) `PSpecData(dsets=[u, v, v])`: rephasing to the first data set multiplies the data of `v` by the phasor twice; with
a phasor −1 (a shift of half a fringe) the data come out as they were. With a copy of `v` at the last position they change sign. -/
theorem C162_finding_rephased_twice :
    let m : Mem UV := fun a => if a = 0 then ceA else ceB
    (∃ m', rephaseRef cePh 0 m [0, 1, 1] = (m', true) ∧ (m' 1).data 0 0 0 0 = 1) ∧
    (∃ m', rephaseRef cePh 0 m [0, 1, 2] = (m', true) ∧ (m' 1).data 0 0 0 0 = -1 ∧ (m' 2).data 0 0 0 0 = -1) := by
  intro m
  have r1 : Regular ([0, 1, 1].map m) 1 1 [-5] := by constructor <;> simp [m, ceA, ceB]
  have r2 : Regular ([0, 1, 2].map m) 1 1 [-5] := by constructor <;> simp [m, ceA, ceB]
  obtain ⟨m1, e1, h1⟩ := C162_rephase_partial cePh 0 1 1 [-5] m [0, 1, 1] 0 r1 rfl
  obtain ⟨m2, e2, h2⟩ := C162_rephase_partial cePh 0 1 1 [-5] m [0, 1, 2] 0 r2 rfl
  refine ⟨⟨m1, e1, ?_⟩, ⟨m2, e2, ?_, ?_⟩⟩
  · rw [(h1 1).2.2.2 0 0 0 0 (by decide) (by decide)]
    simp [m, ceA, ceB, shift, cePh]
  · rw [(h2 1).2.2.2 0 0 0 0 (by decide) (by decide)]
    simp [m, ceA, ceB, shift, cePh]
  · rw [(h2 2).2.2.2 0 0 0 0 (by decide) (by decide)]
    simp [m, ceA, ceB, shift, cePh]

end rephase

/-! ### Trimming -/
section trim
open HeraPspec.Times
variable {K : Type} [DecidableEq K]

/-- A row of the object is lost: its time is not the time of a row with a common LST. -/
def Loses (rnd : ℚ → K) (c : K → Prop) (d : List Row) : Prop := ∃ r ∈ d, ∀ s ∈ d, c (rnd s.lst) → s.time ≠ r.time

theorem keep_self_of_not_loses (rnd : ℚ → K) (c : List K) (d : List Row) (h : ¬ Loses rnd (· ∈ c) d) : Keep rnd c d = d := by
  unfold Keep
  rw [List.filter_eq_self]
  intro r hr
  rw [decide_eq_true_eq]
  by_contra hn
  exact h ⟨r, hr, fun s hs hc ht => hn ⟨s, hs, hc, ht⟩⟩

theorem keep_shorter (rnd : ℚ → K) (c : List K) (d : List Row) (h : Loses rnd (· ∈ c) d) : (Keep rnd c d).length ≠ d.length := by
  obtain ⟨r, hr, hn⟩ := h
  unfold Keep
  intro he
  rw [List.length_filter_eq_length_iff] at he
  have := he r hr
  rw [decide_eq_true_eq] at this
  obtain ⟨s, hs, hc, ht⟩ := this
  exact hn s hs hc ht

theorem maskTimes_self (rnd : ℚ → K) (c : List K) (d : List Row) :
    maskTimes c (d.map (fun r => rnd r.lst)) d = some ((d.filter (fun r => !trimmed rnd c r)).map Row.time) := by
  unfold maskTimes
  rw [if_pos (by simp)]
  congr 1
  induction d with
  | nil => rfl
  | cons r d ih =>
    rw [List.map_cons, List.zip_cons_cons, List.filter_cons, List.filter_cons]
    by_cases h : rnd r.lst ∈ c
    · simp only [h, decide_true, if_true, trimmed, Bool.not_not, List.map_cons, List.cons.injEq, true_and]
      simpa only [trimmed, Bool.not_not] using ih
    · simp only [h, decide_false, trimmed, Bool.not_not, Bool.false_eq_true, if_false]
      simpa only [trimmed, Bool.not_not] using ih

/-- The loop over a part of the positions: `P` are the objects already trimmed. -/
theorem trimLoop_run (rnd : ℚ → K) (c : List K) (m0 : Mem (List Row)) (L : List ℕ)
    (hc : ∀ a ∈ L, ∃ r ∈ m0 a, rnd r.lst ∈ c) (P : List ℕ) (m : Mem (List Row))
    (hm : ∀ a, m a = if a ∈ P then Keep rnd c (m0 a) else m0 a) :
    ((∀ a ∈ L, Loses rnd (· ∈ c) (m0 a) → a ∉ P ∧ L.count a = 1) →
      ∃ m', trimLoop c m (L.map (fun a => (a, (m0 a).map (fun r => rnd r.lst)))) = (m', .done) ∧
        ∀ a, m' a = if a ∈ P ∨ a ∈ L then Keep rnd c (m0 a) else m0 a) ∧
    ((∃ a ∈ L, Loses rnd (· ∈ c) (m0 a) ∧ (a ∈ P ∨ 2 ≤ L.count a)) →
      ∃ m', trimLoop c m (L.map (fun a => (a, (m0 a).map (fun r => rnd r.lst)))) = (m', .index)) := by
  induction L generalizing P m with
  | nil => exact ⟨fun _ => ⟨m, rfl, fun a => by simp [hm]⟩, by simp⟩
  | cons b L ih =>
    have hcb := hc b (by simp)
    have hcL : ∀ a ∈ L, ∃ r ∈ m0 a, rnd r.lst ∈ c := fun a ha => hc a (List.mem_cons_of_mem _ ha)
    by_cases hlose : Loses rnd (· ∈ c) (m0 b) ∧ b ∈ P
    · -- second occurrence of a trimmed object
      obtain ⟨hl, hP⟩ := hlose
      have hmb : m b = Keep rnd c (m0 b) := by rw [hm, if_pos hP]
      have hany : ((m0 b).map (fun r => rnd r.lst)).any (fun l => !decide (l ∈ c)) = true := by
        obtain ⟨r, hr, hn⟩ := hl
        rw [List.any_eq_true]
        refine ⟨rnd r.lst, List.mem_map.2 ⟨r, hr, rfl⟩, ?_⟩
        by_contra hh
        simp only [Bool.not_eq_true', decide_eq_false_iff_not, not_not] at hh
        exact hn r hr hh rfl
      have hmask : maskTimes c ((m0 b).map (fun r => rnd r.lst)) (m b) = none := by
        unfold maskTimes
        rw [if_neg]
        rw [List.length_map, hmb]
        exact fun e => keep_shorter rnd c (m0 b) hl e.symm
      have hres : trimLoop c m ((b :: L).map (fun a => (a, (m0 a).map (fun r => rnd r.lst)))) = (m, .index) := by
        rw [List.map_cons, trimLoop, if_pos hany, hmask]
      exact ⟨fun h => ((h b (by simp) hl).1 hP).elim, fun _ => ⟨m, hres⟩⟩
    · have hmb : m b = m0 b ∨ (¬ Loses rnd (· ∈ c) (m0 b) ∧ Keep rnd c (m0 b) = m0 b) := by
        by_cases hP : b ∈ P
        · right
          have : ¬ Loses rnd (· ∈ c) (m0 b) := fun h => hlose ⟨h, hP⟩
          exact ⟨this, keep_self_of_not_loses rnd c _ this⟩
        · left; rw [hm, if_neg hP]
      have hmb' : m b = m0 b := by
        rcases hmb with h | ⟨_, h⟩
        · exact h
        · rw [hm]; split
          · exact h
          · rfl
      -- the step turns the object into its kept rows
      have hstep : trimLoop c m ((b :: L).map (fun a => (a, (m0 a).map (fun r => rnd r.lst)))) =
          trimLoop c (Function.update m b (Keep rnd c (m0 b))) (L.map (fun a => (a, (m0 a).map (fun r => rnd r.lst)))) := by
        rw [List.map_cons, trimLoop]
        split
        · rename_i hany
          rw [hmb', maskTimes_self]
          have hsel : trimOne rnd c (m0 b) = some (Keep rnd c (m0 b)) := by
            cases ho : trimOne rnd c (m0 b) with
            | none =>
              obtain ⟨r, hr, hk⟩ := hcb
              exact absurd hk (((trimOne_none_iff rnd c _).1 ho).2 r hr)
            | some d => rw [trimOne_some rnd c ho]
          have hany' : (m0 b).any (trimmed rnd c) = true := by
            rw [List.any_map] at hany
            exact hany
          unfold trimOne at hsel
          rw [if_pos hany'] at hsel
          simp only [hsel]
        · rename_i hany
          have hk : Keep rnd c (m0 b) = m0 b := by
            apply keep_self_of_not_loses
            rintro ⟨r, hr, hn⟩
            rw [Bool.not_eq_true, List.any_eq_false] at hany
            have := hany (rnd r.lst) (List.mem_map.2 ⟨r, hr, rfl⟩)
            simp only [Bool.not_eq_true, Bool.not_eq_false', decide_eq_true_eq] at this
            exact hn r hr this rfl
          rw [hk, ← hmb', Function.update_eq_self]
      have hm' : ∀ a, Function.update m b (Keep rnd c (m0 b)) a = if a ∈ b :: P then Keep rnd c (m0 a) else m0 a := by
        intro a
        by_cases hab : a = b
        · subst hab; simp
        · rw [Function.update_of_ne hab, hm]; simp [hab]
      obtain ⟨i1, i2⟩ := ih hcL (b :: P) _ hm'
      rw [hstep]
      constructor
      · intro h
        obtain ⟨m'', e, hmm⟩ := i1 (by
          intro a ha hl
          obtain ⟨h1, h2⟩ := h a (List.mem_cons_of_mem _ ha) hl
          have hab : a ≠ b := by
            rintro rfl
            rw [List.count_cons_self] at h2
            have := List.count_pos_iff.2 ha
            omega
          rw [List.count_cons_of_ne (fun e => hab e.symm)] at h2
          exact ⟨by simp [hab, h1], h2⟩)
        refine ⟨m'', e, fun a => ?_⟩
        rw [hmm a]
        congr 1
        simp only [List.mem_cons, eq_iff_iff]
        tauto
      · rintro ⟨a, ha, hl, hor⟩
        apply i2
        by_cases hab : a = b
        · subst hab
          rcases hor with hP | hcnt
          · exact (hlose ⟨hl, hP⟩).elim
          · rw [List.count_cons_self] at hcnt
            exact ⟨a, List.count_pos_iff.1 (by omega), hl, Or.inl (by simp)⟩
        · have ha' : a ∈ L := (List.mem_cons.1 ha).resolve_left hab
          refine ⟨a, ha', hl, ?_⟩
          rcases hor with hP | hcnt
          · exact Or.inl (List.mem_cons_of_mem _ hP)
          · rw [List.count_cons_of_ne (fun e => hab e.symm)] at hcnt
            exact Or.inr hcnt

/-- The objects of the collection share a rounded LST. -/
def CommonRef (rnd : ℚ → K) (m : Mem (List Row)) (refs : List ℕ) (k : K) : Prop := ∀ a ∈ refs, ∃ r ∈ m a, rnd r.lst = k

theorem commonRef_iff (rnd : ℚ → K) (m : Mem (List Row)) (refs : List ℕ) (hne : refs ≠ []) (k : K) :
    k ∈ common rnd (refs.map m) ↔ CommonRef rnd m refs k := by
  rw [mem_common rnd (by simpa using hne)]
  unfold Common CommonRef
  rw [List.forall_mem_map]

/-- **C162** (partial) `trim_dset_lsts` on objects that are on one LST grid and share some LST: if every object that loses a row sits at a
single position, the call returns, and each object of the collection keeps exactly its rows at the times of the common LSTs;
if some object that loses a row sits at two positions, the call ends with an `IndexError`. Missing: that it returns in the
second case as well. -/
theorem C162_trim_partial (rnd : ℚ → K) (tol : ℚ) (m : Mem (List Row)) (refs : List ℕ) (hg : sameGrid tol (refs.map m) = true)
    (k : K) (hk : CommonRef rnd m refs k) :
    ((∀ a ∈ refs, Loses rnd (CommonRef rnd m refs) (m a) → refs.count a = 1) →
      ∃ m', trimRef rnd tol m refs = (m', .done) ∧ (∀ a, a ∉ refs → m' a = m a) ∧
        ∀ a ∈ refs, (m' a).Sublist (m a) ∧ (∀ r, r ∈ m' a ↔ r ∈ m a ∧ ∃ s ∈ m a, CommonRef rnd m refs (rnd s.lst) ∧ s.time = r.time)) ∧
    ((∃ a ∈ refs, Loses rnd (CommonRef rnd m refs) (m a) ∧ 2 ≤ refs.count a) → (trimRef rnd tol m refs).2 = .index) := by
  have hne : refs ≠ [] := by
    rintro rfl
    simp [sameGrid] at hg
  have hcc : ∀ k, k ∈ common rnd (refs.map m) ↔ CommonRef rnd m refs k := commonRef_iff rnd m refs hne
  have hl : ∀ d, Loses rnd (· ∈ common rnd (refs.map m)) d ↔ Loses rnd (CommonRef rnd m refs) d := by
    intro d; unfold Loses; simp only [hcc]
  obtain ⟨h1, h2⟩ := trimLoop_run rnd (common rnd (refs.map m)) m refs (by
    intro a ha
    obtain ⟨r, hr, he⟩ := hk a ha
    exact ⟨r, hr, by rw [he, hcc]; exact hk⟩) [] m (by simp)
  unfold trimRef
  rw [if_pos hg]
  constructor
  · intro h
    obtain ⟨m', e, hm'⟩ := h1 (fun a ha hh => ⟨by simp, h a ha ((hl _).1 hh)⟩)
    refine ⟨m', e, fun a ha => by rw [hm']; simp [ha], fun a ha => ?_⟩
    rw [hm' a, if_pos (Or.inr ha)]
    unfold Keep
    refine ⟨List.filter_sublist, fun r => ?_⟩
    rw [List.mem_filter, decide_eq_true_eq]
    simp only [hcc]
  · rintro ⟨a, ha, hh, hc⟩
    obtain ⟨m', e⟩ := h2 ⟨a, ha, (hl _).2 hh, Or.inr hc⟩
    rw [e]

/-- **C162** (partial) The refusals of `trim_dset_lsts` leave every object as it was: on different LST grids it raises `ValueError`;
on one grid with no shared LST `select` raises at the first object. Missing: see `C162_trim_partial`. -/
theorem C162_trim_refuses_partial (rnd : ℚ → K) (tol : ℚ) (m : Mem (List Row)) (refs : List ℕ) :
    (sameGrid tol (refs.map m) = false → trimRef rnd tol m refs = (m, .grid)) ∧
    (sameGrid tol (refs.map m) = true → (∀ k, ¬ CommonRef rnd m refs k) → trimRef rnd tol m refs = (m, .select)) := by
  constructor
  · intro h
    unfold trimRef
    rw [if_neg (by simp [h])]
  · intro hg hk
    unfold trimRef
    rw [if_pos hg]
    match refs, hg, hk with
    | [], hg, _ => simp [sameGrid] at hg
    | a :: rest, hg, hk =>
      have hc : common rnd ((a :: rest).map m) = [] := by
        rw [List.eq_nil_iff_forall_not_mem]
        intro k hm
        exact hk k ((commonRef_iff rnd m _ (by simp) k).1 hm)
      have hne := sameGrid_nonempty hg (m a) (by simp)
      rw [hc, List.map_cons, trimLoop, maskTimes_self]
      have hany : ((m a).map (fun r => rnd r.lst)).any (fun l => !decide (l ∈ ([] : List K))) = true := by
        obtain ⟨r, hr⟩ := List.exists_mem_of_ne_nil _ hne
        simp only [List.any_eq_true]
        exact ⟨rnd r.lst, List.mem_map.2 ⟨r, hr, rfl⟩, by simp⟩
      rw [if_pos hany]
      have hf : (m a).filter (fun r => !trimmed rnd ([] : List K) r) = [] := by
        simp [trimmed]
      rw [hf]
      rfl

example : sameGrid (1 / 1000000) ([0, 1].map (fun a : ℕ => if a = 0 then [row 10 0, row 11 1] else [row 20 0, row 21 2])) = false ∧
    sameGrid (1 / 1000000) ([0, 1].map (fun a : ℕ => if a = 0 then [row 10 0, row 11 1] else [row 20 5, row 21 6])) = true := by
  decide +kernel

/-- **C162** (partial) On distinct objects the reference model agrees with the value model of C61. Missing: see `C162_trim_partial`. -/
theorem C162_trim_distinct_partial (rnd : ℚ → K) (tol : ℚ) (m : Mem (List Row)) (refs : List ℕ) (hd : refs.Nodup)
    (h : (trim rnd tol (refs.map m)).2 = true) :
    ∃ m', trimRef rnd tol m refs = (m', .done) ∧ refs.map m' = (trim rnd tol (refs.map m)).1 := by
  have hg : sameGrid tol (refs.map m) = true := by
    unfold trim at h
    split at h
    · assumption
    · simp at h
  have hne : refs ≠ [] := by
    rintro rfl
    simp [sameGrid] at hg
  obtain ⟨k, hk⟩ := (C61_returns_iff rnd tol _ hg).1 h
  have hk' : CommonRef rnd m refs k := by
    unfold Common at hk
    rw [List.forall_mem_map] at hk
    exact hk
  obtain ⟨h1, -⟩ := trimLoop_run rnd (common rnd (refs.map m)) m refs (by
    intro a ha
    obtain ⟨r, hr, he⟩ := hk' a ha
    exact ⟨r, hr, by rw [he, commonRef_iff rnd m refs hne]; exact hk'⟩) [] m (by simp)
  obtain ⟨m'', e, hm''⟩ := h1 (fun a ha _ => ⟨by simp, List.count_eq_one_of_mem hd ha⟩)
  refine ⟨m'', ?_, ?_⟩
  · unfold trimRef; rw [if_pos hg]; exact e
  · unfold trim at h ⊢
    rw [if_pos hg] at h ⊢
    rw [trimLoop_ok rnd _ _ h, List.map_map]
    apply List.map_congr_left
    intro a ha
    rw [hm'', if_pos (Or.inr ha)]
    rfl

/-- Two data sets on one grid; the second starts one step later. -/
def exRows : Mem (List Row) := fun a => if a = 0 then [row 10 0, row 11 1, row 12 2] else [row 20 1, row 21 2, row 22 3]

/-- **C162** (finding) `PSpecData(dsets=[u, v, v])`: the first data sets are trimmed, then the mask computed for the third has the length
the object no longer has. With a copy of `v` the call returns. -/
theorem C162_finding_trim_raises :
    (trimRef rnd6 (1 / 1000000) exRows [0, 1, 1]).2 = .index ∧
    (trimRef rnd6 (1 / 1000000) exRows [0, 1, 1]).1 1 = [row 20 1, row 21 2] ∧
    (trimRef rnd6 (1 / 1000000) exRows [0, 1, 2]).2 = .done := by
  refine ⟨?_, ?_, ?_⟩ <;> decide +kernel

/-- The hypotheses of both parts of `C162_trim_partial` can be met. -/
example : sameGrid (1 / 1000000) ([0, 1, 1].map exRows) = true ∧ CommonRef rnd6 exRows [0, 1, 1] 1000000 ∧
    Loses rnd6 (CommonRef rnd6 exRows [0, 1, 1]) (exRows 1) ∧ [0, 1, 1].count 1 = 2 := by
  refine ⟨by decide +kernel, ?_, ?_, by decide⟩
  · intro a ha
    fin_cases ha <;> (unfold exRows; decide +kernel)
  · refine ⟨row 22 3, by unfold exRows; decide, ?_⟩
    intro s hs hc ht
    have h3 : s = row 22 3 := by
      unfold exRows at hs
      simp only [one_ne_zero, if_false, List.mem_cons, List.not_mem_nil, or_false] at hs
      rcases hs with rfl | rfl | rfl
      · exact absurd ht (by decide +kernel)
      · exact absurd ht (by decide +kernel)
      · rfl
    subst h3
    obtain ⟨r, hr, he⟩ := hc 0 (by simp)
    unfold exRows at hr
    simp only [if_true, List.mem_cons, List.not_mem_nil, or_false] at hr
    rcases hr with rfl | rfl | rfl <;> exact absurd he (by decide +kernel)

end trim

/-- One visibility of value one in Jy. -/
noncomputable def exJy : Mem JyMk.UV := fun _ => ⟨['J', 'Y'], [-5], 1, fun _ _ _ => 1⟩

/-- The hypotheses of `C162_units_partial` can be met: the object is listed twice and converted once. -/
example : ∃ m', jyRef (fun _ => some [2]) exJy [0, 0] = (m', true) ∧ (m' 0).data 0 0 0 = 2 := by
  have h : (jyRef (fun _ => some [2]) exJy [0, 0]).2 = true := by
    rw [C162_units_returns_partial]
    simp [JyMk.jyToMk, JyMk.ragged, JyMk.loop, JyMk.isJy, JyMk.upper, JyMk.fits, Char.toUpper, exJy]
  obtain ⟨m', hm⟩ : ∃ m', jyRef (fun _ => some [2]) exJy [0, 0] = (m', true) := ⟨_, Prod.ext rfl h⟩
  refine ⟨m', hm, ?_⟩
  have := (C162_units_partial _ exJy m' [0, 0] hm 0).1 (by simp) (by simp [JyMk.InJy, Char.toUpper, exJy])
  rw [this.data 0 0 0 (-5) rfl [2] rfl 2 (Or.inl rfl) (by norm_num [exJy])]
  norm_num [exJy]

end HeraPspec.Shared
