import Verif.Lemmas.Combine
import Verif.Model.Rephase
import Mathlib.Tactic.Ring
import Mathlib.Tactic.NormNum
import Mathlib.Data.List.Dedup
import Mathlib.Analysis.Complex.Basic

/-!
C60: rephasing is claimed to be applied once. The code warns "Skipping dataset" but does not skip, so the claim fails: the second
call multiplies by the phasor again. Proved here: what each call does, what `n` calls do, exactly when the second call is harmless,
and a counterexample.
-/
namespace HeraPspec.Rephase

theorem mapO_some {α β : Type} {f : α → Option β} {l : List α} {r : List β} (h : mapO f l = some r) :
    r.length = l.length ∧ ∀ (i : ℕ) (a : α), l[i]? = some a → ∃ b, r[i]? = some b ∧ f a = some b := by
  induction l generalizing r with
  | nil => cases h; simp
  | cons a l ih =>
    unfold mapO at h
    split at h
    · cases h
    · rename_i b hb
      split at h
      · cases h
      · rename_i bs hbs
        cases h
        obtain ⟨h1, h2⟩ := ih hbs
        refine ⟨by simp [h1], ?_⟩
        intro i x hx
        cases i with
        | zero => simp at hx; subst hx; exact ⟨b, by simp, hb⟩
        | succ i => simpa using h2 i x (by simpa using hx)

theorem mapO_exists {α β : Type} {f : α → Option β} {l : List α} (h : ∀ a ∈ l, (f a).isSome = true) :
    ∃ r, mapO f l = some r := by
  induction l with
  | nil => exact ⟨[], rfl⟩
  | cons a l ih =>
    obtain ⟨r, hr⟩ := ih (fun x hx => h x (by simp [hx]))
    obtain ⟨b, hb⟩ := Option.isSome_iff_exists.1 (h a (by simp))
    exact ⟨b :: r, by unfold mapO; rw [hb, hr]⟩

theorem grid_foldl (l acc : List ℚ) (h : l.Nodup) (hd : ∀ x ∈ l, x ∉ acc) :
    l.foldl (fun acc x => if x ∈ acc then acc else acc ++ [x]) acc = acc ++ l := by
  induction l generalizing acc with
  | nil => simp
  | cons x l ih =>
    rw [List.nodup_cons] at h
    rw [List.foldl_cons, if_neg (hd x (by simp)), ih _ h.2]
    · simp
    · intro y hy
      simp only [List.mem_append, List.mem_singleton, not_or]
      exact ⟨hd y (by simp [hy]), fun he => h.1 (he ▸ hy)⟩

/-- An LST list without repetitions is its own grid. -/
theorem lstGrid_of_nodup {l : List ℚ} (h : l.Nodup) : lstGrid l = l := by
  unfold lstGrid
  rw [grid_foldl l [] h (by simp)]
  simp

theorem dlst_eq {g l : List ℚ} (h : g.length = l.length) {d : ℕ → ℚ} (hd : dlst g l = some d) {t : ℕ} (ht : t < l.length) :
    d t = g.getD t 0 - l.getD t 0 := by
  unfold dlst at hd
  rw [if_pos (Or.inl h)] at hd
  cases hd
  by_cases h1 : l.length = 1
  · have : t = 0 := by omega
    subst this
    simp
  · simp [h1, h]

/-! Specification. -/

/-- Data sets as `validate_datasets` wants them, with the same polarizations in the same order and distinct LSTs. -/
structure Regular (ds : List UV) (nt nf : ℕ) (pols : List ℤ) : Prop where
  nt : ∀ u ∈ ds, u.lsts.length = nt
  nf : ∀ u ∈ ds, u.nf = nf
  nodup : pols.Nodup
  pol : ∀ u ∈ ds, u.pols = pols
  lsts : ∀ u ∈ ds, u.lsts.Nodup
  one : ∀ u ∈ ds, u.centers ≤ 1
  cat : ∀ u ∈ ds, ∀ v ∈ ds, u.cat = v.cat

/-- The shift of integration `t` of data set `u` to the grid of data set `a`. -/
def shift (a u : UV) (t : ℕ) : ℚ := a.lsts.getD t 0 - u.lsts.getD t 0

theorem valid_of_regular {ds : List UV} {nt nf : ℕ} {pols : List ℤ} (h : Regular ds nt nf pols) : valid ds = true := by
  unfold valid
  rw [List.all_eq_true]
  intro u hu
  rw [Bool.and_eq_true, List.all_eq_true]
  refine ⟨?_, by simpa using h.one u hu⟩
  intro v hv
  simp [h.nt u hu, h.nt v hv, h.nf u hu, h.nf v hv, h.cat u hu v hv]

theorem store_foldl (ph : Phasor) (d : ℕ → ℚ) (anchor : List ℤ) (hn : anchor.Nodup) (orig : ℕ → ℕ → ℕ → ℕ → ℂ)
    (L : List (ℕ × ℤ)) (hL : ∀ x ∈ L, anchor[x.1]? = some x.2) (acc : ℕ → ℕ → ℕ → ℕ → ℂ) (b t f q : ℕ) :
    L.foldl (store ph d anchor orig) acc b t f q =
      if q ∈ L.map Prod.fst then orig b t f q * ph b f (d t) else acc b t f q := by
  induction L generalizing acc with
  | nil => simp
  | cons x L ih =>
    rw [List.foldl_cons, ih (fun y hy => hL y (by simp [hy]))]
    have hx : anchor.idxOf x.2 = x.1 := by
      obtain ⟨hlt, he⟩ := List.getElem?_eq_some_iff.1 (hL x (by simp))
      rw [← he]
      exact hn.idxOf_getElem x.1 hlt
    simp only [List.map_cons, List.mem_cons]
    by_cases hq : q ∈ L.map Prod.fst
    · simp [hq]
    · rw [if_neg hq]
      unfold store
      rw [hx]
      by_cases hqx : q = x.1
      · simp [hqx]
      · rw [if_neg hqx, if_neg (by simp [hqx, hq])]

theorem enumPols_mem {u : UV} {x : ℕ × ℤ} (h : x ∈ enumPols u) : u.pols[x.1]? = some x.2 := by
  unfold enumPols at h
  obtain ⟨i, hi, he⟩ := List.mem_iff_getElem.1 h
  simp at he hi
  rw [← he]
  simp [hi]

theorem enumPols_fst (u : UV) : (enumPols u).map Prod.fst = List.range u.pols.length := by
  unfold enumPols
  rw [List.map_fst_zip]
  simp

theorem rephaseOne_some (ph : Phasor) (a u : UV) (hl : u.lsts.length = a.lsts.length) (hnd : a.lsts.Nodup) (hp : u.pols = a.pols)
    (hn : a.pols.Nodup) : ∃ v, rephaseOne ph (lstGrid a.lsts) a.pols u = some v ∧ v.cat = "unknown" ∧ v.centers = u.centers ∧
      v.lsts = u.lsts ∧ v.pols = u.pols ∧ v.nf = u.nf ∧
      ∀ b t f q, t < u.lsts.length → q < u.pols.length → v.data b t f q = u.data b t f q * ph b f (shift a u t) := by
  rw [lstGrid_of_nodup hnd]
  unfold rephaseOne
  obtain ⟨d, hd⟩ : ∃ d, dlst a.lsts u.lsts = some d := by
    unfold dlst
    rw [if_pos (Or.inl hl.symm)]
    exact ⟨_, rfl⟩
  rw [hd]
  have hall : u.pols.all (fun p => decide (p ∈ a.pols) && decide (a.pols.idxOf p < u.pols.length)) = true := by
    rw [List.all_eq_true]
    intro p hp'
    rw [hp] at hp' ⊢
    simp [hp', List.idxOf_lt_length_iff]
  simp only [hall, if_true]
  refine ⟨_, rfl, rfl, rfl, rfl, rfl, rfl, ?_⟩
  intro b t f q ht hq
  simp only
  rw [store_foldl ph d a.pols hn u.data _ (fun x hx => hp ▸ enumPols_mem hx), enumPols_fst, if_pos (by simpa using hq)]
  rw [dlst_eq hl.symm hd ht]
  rfl

/-- The i-th data set of the result of one call, for data sets as `validate_datasets` wants them. -/
theorem rephase_call (ph : Phasor) (k : ℕ) (ds : List UV) (a : UV) (nt nf : ℕ) (pols : List ℤ) (hr : Regular ds nt nf pols)
    (ha : ds[k]? = some a) : ∃ r, rephase ph k ds = some r ∧ r.length = ds.length ∧ Regular r nt nf pols ∧
      ∀ (i : ℕ) (u : UV), ds[i]? = some u → ∃ v, r[i]? = some v ∧ v.cat = "unknown" ∧ v.lsts = u.lsts ∧
        (i = k → v.data = u.data) ∧
        (i ≠ k → ∀ b t f q, t < nt → q < pols.length → v.data b t f q = u.data b t f q * ph b f (shift a u t)) := by
  have ham : a ∈ ds := List.mem_of_getElem? ha
  have hstep : ∀ (i : ℕ) (u : UV), ds[i]? = some u → ∃ v, step ph (lstGrid a.lsts) a.pols k (i, u) = some v ∧ v.cat = "unknown" ∧
      v.centers = u.centers ∧ v.lsts = u.lsts ∧ v.pols = u.pols ∧ v.nf = u.nf ∧ (i = k → v.data = u.data) ∧
        (i ≠ k → ∀ b t f q, t < nt → q < pols.length → v.data b t f q = u.data b t f q * ph b f (shift a u t)) := by
    intro i u hu
    have hum : u ∈ ds := List.mem_of_getElem? hu
    unfold step
    by_cases hik : i = k
    · simp [hik]
    · simp only [hik, if_false]
      obtain ⟨v, h1, h2, h3, h4, h5, h6, h7⟩ := rephaseOne_some ph a u (by rw [hr.nt u hum, hr.nt a ham]) (hr.lsts a ham)
        (by rw [hr.pol u hum, hr.pol a ham]) (by rw [hr.pol a ham]; exact hr.nodup)
      rw [hr.nt u hum, hr.pol u hum] at h7
      refine ⟨v, h1, h2, h3, h4, h5, h6, fun h => h.elim, fun _ => h7⟩
  have hzip : ∀ (i : ℕ) (u : UV), ds[i]? = some u → ((List.range ds.length).zip ds)[i]? = some (i, u) := by
    intro i u hu
    obtain ⟨hlt, he⟩ := List.getElem?_eq_some_iff.1 hu
    rw [List.getElem?_eq_some_iff]
    exact ⟨by simpa using hlt, by simp [he]⟩
  obtain ⟨r, hr'⟩ : ∃ r, mapO (step ph (lstGrid a.lsts) a.pols k) ((List.range ds.length).zip ds) = some r := by
    apply mapO_exists
    intro x hx
    obtain ⟨i, hi, he⟩ := List.mem_iff_getElem.1 hx
    have hi' : i < ds.length := by simpa using hi
    obtain ⟨v, hv, -⟩ := hstep i ds[i] (List.getElem?_eq_getElem hi')
    have : x = (i, ds[i]) := by rw [← he]; simp
    rw [this, hv]
    rfl
  obtain ⟨hlen, hget⟩ := mapO_some hr'
  have hlen' : r.length = ds.length := by simpa using hlen
  have hi : ∀ (i : ℕ) (u : UV), ds[i]? = some u → ∃ v, r[i]? = some v ∧ step ph (lstGrid a.lsts) a.pols k (i, u) = some v :=
    fun i u hu => hget i (i, u) (hzip i u hu)
  have hmem : ∀ v ∈ r, ∃ i u, ds[i]? = some u ∧ step ph (lstGrid a.lsts) a.pols k (i, u) = some v := by
    intro v hv
    obtain ⟨i, hlt, he⟩ := List.mem_iff_getElem.1 hv
    have hlt' : i < ds.length := by omega
    obtain ⟨v', h1, h2⟩ := hi i ds[i] (List.getElem?_eq_getElem hlt')
    rw [List.getElem?_eq_getElem hlt, he] at h1
    cases h1
    exact ⟨i, ds[i], List.getElem?_eq_getElem hlt', h2⟩
  have hmem' : ∀ v ∈ r, ∃ u ∈ ds, v.cat = "unknown" ∧ v.centers = u.centers ∧ v.lsts = u.lsts ∧ v.pols = u.pols ∧ v.nf = u.nf := by
    intro v hv
    obtain ⟨i, u, hu, hs⟩ := hmem v hv
    obtain ⟨v', h1, h2, h3, h4, h5, h6, -⟩ := hstep i u hu
    rw [hs] at h1
    cases h1
    exact ⟨u, List.mem_of_getElem? hu, h2, h3, h4, h5, h6⟩
  refine ⟨r, ?_, hlen', ⟨?_, ?_, hr.nodup, ?_, ?_, ?_, ?_⟩, ?_⟩
  · unfold rephase
    rw [valid_of_regular hr, if_pos rfl, ha]
    exact hr'
  · intro v hv; obtain ⟨u, hu, h⟩ := hmem' v hv; rw [h.2.2.1]; exact hr.nt u hu
  · intro v hv; obtain ⟨u, hu, h⟩ := hmem' v hv; rw [h.2.2.2.2]; exact hr.nf u hu
  · intro v hv; obtain ⟨u, hu, h⟩ := hmem' v hv; rw [h.2.2.2.1]; exact hr.pol u hu
  · intro v hv; obtain ⟨u, hu, h⟩ := hmem' v hv; rw [h.2.2.1]; exact hr.lsts u hu
  · intro v hv; obtain ⟨u, hu, h⟩ := hmem' v hv; rw [h.2.1]; exact hr.one u hu
  · intro v hv w hw
    obtain ⟨u, hu, h⟩ := hmem' v hv
    obtain ⟨u', hu', h'⟩ := hmem' w hw
    rw [h.1, h'.1]
  · intro i u hu
    obtain ⟨v, h1, h2⟩ := hi i u hu
    obtain ⟨v', g1, g2, -, g4, -, -, g7, g8⟩ := hstep i u hu
    rw [h2] at g1
    cases g1
    exact ⟨v, h1, g2, g4, g7, g8⟩

/-- C60 (partial: one call, not idempotence). A call leaves the data of the anchor unchanged and multiplies every sample of every
other data set by the phasor of its own shift; LSTs stay as they are and all phase types become "unknown". Missing: idempotence, which does not hold. -/
theorem C60_call_partial (ph : Phasor) (k : ℕ) (ds : List UV) (a : UV) (nt nf : ℕ) (pols : List ℤ) (hr : Regular ds nt nf pols)
    (ha : ds[k]? = some a) : ∃ r, rephase ph k ds = some r ∧ r.length = ds.length ∧
      ∀ (i : ℕ) (u : UV), ds[i]? = some u → ∃ v, r[i]? = some v ∧ v.cat = "unknown" ∧ v.lsts = u.lsts ∧
        (i = k → v.data = u.data) ∧
        (i ≠ k → ∀ b t f q, t < nt → q < pols.length → v.data b t f q = u.data b t f q * ph b f (shift a u t)) := by
  obtain ⟨r, h1, h2, -, h4⟩ := rephase_call ph k ds a nt nf pols hr ha
  exact ⟨r, h1, h2, h4⟩

/-- C60 finding. `n` calls multiply by the phasor `n` times: data sets already rephased are not skipped. -/
theorem C60_finding_n_calls (ph : Phasor) (k n : ℕ) (ds : List UV) (a : UV) (nt nf : ℕ) (pols : List ℤ) (hr : Regular ds nt nf pols)
    (ha : ds[k]? = some a) : ∃ r, rephaseN ph k n ds = some r ∧
      ∀ (i : ℕ) (u : UV), ds[i]? = some u → ∃ v, r[i]? = some v ∧ v.lsts = u.lsts ∧ (i = k → v.data = u.data) ∧
        (i ≠ k → ∀ b t f q, t < nt → q < pols.length → v.data b t f q = u.data b t f q * ph b f (shift a u t) ^ n) := by
  induction n generalizing ds a with
  | zero => exact ⟨ds, rfl, fun i u hu => ⟨u, hu, rfl, fun _ => rfl, fun _ b t f q _ _ => by simp⟩⟩
  | succ n ih =>
    obtain ⟨r, h1, -, h3, h4⟩ := rephase_call ph k ds a nt nf pols hr ha
    obtain ⟨a', ha', -, hal, -, -⟩ := h4 k a ha
    obtain ⟨s, g1, g2⟩ := ih r a' h3 ha'
    refine ⟨s, by unfold rephaseN; rw [h1]; exact g1, ?_⟩
    intro i u hu
    obtain ⟨v, hv, -, hvl, hvk, hvn⟩ := h4 i u hu
    obtain ⟨w, hw, hwl, hwk, hwn⟩ := g2 i v hv
    refine ⟨w, hw, by rw [hwl, hvl], fun h => by rw [hwk h, hvk h], ?_⟩
    intro hik b t f q ht hq
    rw [hwn hik b t f q ht hq, hvn hik b t f q ht hq]
    have : shift a' v t = shift a u t := by unfold shift; rw [hal, hvl]
    rw [this]
    ring

/-- C60 finding. The second call leaves a sample unchanged exactly when it is zero or the phasor is zero or one. -/
theorem C60_finding_second_call_iff (ph : Phasor) (k : ℕ) (ds : List UV) (a : UV) (nt nf : ℕ) (pols : List ℤ)
    (hr : Regular ds nt nf pols) (ha : ds[k]? = some a) : ∃ r s, rephase ph k ds = some r ∧ rephase ph k r = some s ∧
      ∀ (i : ℕ) (u : UV), ds[i]? = some u → i ≠ k → ∃ v w, r[i]? = some v ∧ s[i]? = some w ∧ ∀ b t f q, t < nt → q < pols.length →
        (w.data b t f q = v.data b t f q ↔
          u.data b t f q = 0 ∨ ph b f (shift a u t) = 0 ∨ ph b f (shift a u t) = 1) := by
  obtain ⟨r, h1, -, h3, h4⟩ := rephase_call ph k ds a nt nf pols hr ha
  obtain ⟨a', ha', -, hal, -, -⟩ := h4 k a ha
  obtain ⟨s, g1, -, -, g4⟩ := rephase_call ph k r a' nt nf pols h3 ha'
  refine ⟨r, s, h1, g1, ?_⟩
  intro i u hu hik
  obtain ⟨v, hv, -, hvl, -, hvn⟩ := h4 i u hu
  obtain ⟨w, hw, -, hwl, -, hwn⟩ := g4 i v hv
  refine ⟨v, w, hv, hw, ?_⟩
  intro b t f q ht hq
  rw [hwn hik b t f q ht hq, hvn hik b t f q ht hq]
  have : shift a' v t = shift a u t := by unfold shift; rw [hal, hvl]
  rw [this]
  generalize ph b f (shift a u t) = c
  generalize u.data b t f q = x
  constructor
  · intro h
    by_cases hx : x = 0
    · exact Or.inl hx
    · by_cases hc : c = 0
      · exact Or.inr (Or.inl hc)
      · right; right
        have h' : x * c * (c - 1) = 0 := by rw [mul_sub, h]; ring
        rcases mul_eq_zero.1 h' with h' | h'
        · exact absurd h' (mul_ne_zero hx hc)
        · exact sub_eq_zero.1 h'
  · rintro (h | h | h) <;> simp [h]

/-- C60 (partial). Rephasing data that already are on the anchor's grid changes nothing, for any number of calls. Missing: idempotence off the grid of the anchor, which does not hold. -/
theorem C60_aligned_partial (ph : Phasor) (h0 : ∀ b f, ph b f 0 = 1) (k n : ℕ) (ds : List UV) (a : UV) (nt nf : ℕ) (pols : List ℤ)
    (hr : Regular ds nt nf pols) (ha : ds[k]? = some a) (hal : ∀ u ∈ ds, u.lsts = a.lsts) : ∃ r, rephaseN ph k n ds = some r ∧
      ∀ (i : ℕ) (u : UV), ds[i]? = some u → ∃ v, r[i]? = some v ∧ ∀ b t f q, t < nt → q < pols.length → v.data b t f q = u.data b t f q := by
  obtain ⟨r, h1, h2⟩ := C60_finding_n_calls ph k n ds a nt nf pols hr ha
  refine ⟨r, h1, ?_⟩
  intro i u hu
  obtain ⟨v, hv, -, hk, hn⟩ := h2 i u hu
  refine ⟨v, hv, ?_⟩
  intro b t f q ht hq
  by_cases hik : i = k
  · rw [hk hik]
  · rw [hn hik b t f q ht hq]
    have : shift a u t = 0 := by unfold shift; rw [hal u (List.mem_of_getElem? hu)]; ring
    rw [this, h0]
    simp

/-- C60 (partial). With unit-modulus phasors no number of calls changes an amplitude. Missing: idempotence of the phases, which does not hold. -/
theorem C60_amplitude_partial (ph : Phasor) (h1 : ∀ b f x, ‖ph b f x‖ = 1) (k n : ℕ) (ds : List UV) (a : UV) (nt nf : ℕ) (pols : List ℤ)
    (hr : Regular ds nt nf pols) (ha : ds[k]? = some a) : ∃ r, rephaseN ph k n ds = some r ∧
      ∀ (i : ℕ) (u : UV), ds[i]? = some u → ∃ v, r[i]? = some v ∧ ∀ b t f q, t < nt → q < pols.length → ‖v.data b t f q‖ = ‖u.data b t f q‖ := by
  obtain ⟨r, g1, g2⟩ := C60_finding_n_calls ph k n ds a nt nf pols hr ha
  refine ⟨r, g1, ?_⟩
  intro i u hu
  obtain ⟨v, hv, -, hk, hn⟩ := g2 i u hu
  refine ⟨v, hv, ?_⟩
  intro b t f q ht hq
  by_cases hik : i = k
  · rw [hk hik]
  · rw [hn hik b t f q ht hq, norm_mul, norm_pow, h1]
    simp

/-- C60. Repeated LSTs: the grid of the anchor has one entry for each distinct LST, so with more than one distinct LST but fewer than integrations the call raises
as soon as there is a second data set. -/
theorem C60_repeated_lsts_raise (ph : Phasor) (k i : ℕ) (ds : List UV) (a u : UV) (ha : ds[k]? = some a) (hu : ds[i]? = some u) (hik : i ≠ k)
    (h1 : 1 < a.lsts.toFinset.card) (h2 : a.lsts.toFinset.card ≠ u.lsts.length) (h3 : u.lsts.length ≠ 1) : rephase ph k ds = none := by
  have hg : (lstGrid a.lsts).length = a.lsts.toFinset.card := by
    have e : lstGrid a.lsts = Combine.uniq a.lsts := rfl
    rw [e, ← List.toFinset_card_of_nodup (Combine.uniq_nodup a.lsts)]
    congr 1
    ext x
    simp [Combine.mem_uniq]
  have hstep : step ph (lstGrid a.lsts) a.pols k (i, u) = none := by
    unfold step rephaseOne dlst
    rw [if_neg hik, if_neg (by rw [hg]; rintro (h | h | h); exacts [h2 h, h3 h, by omega])]
  unfold rephase
  split
  · rw [ha]
    simp only []
    cases hm : mapO (step ph (lstGrid a.lsts) a.pols k) ((List.range ds.length).zip ds) with
    | none => rfl
    | some r =>
      obtain ⟨hlt, he⟩ := List.getElem?_eq_some_iff.1 hu
      have hz : ((List.range ds.length).zip ds)[i]? = some (i, u) := by
        rw [List.getElem?_eq_some_iff]; exact ⟨by simpa using hlt, by simp [he]⟩
      obtain ⟨v, _, hv⟩ := (mapO_some hm).2 i (i, u) hz
      rw [hstep] at hv; cases hv
  · rfl

/-- Non-vacuity: three integrations, two distinct LSTs. -/
example (ph : Phasor) (d : ℕ → ℕ → ℕ → ℕ → ℂ) :
    rephase ph 0 [⟨1, "drift", [1, 1, 2], [-5], 4, d⟩, ⟨1, "drift", [3, 4, 5], [-5], 4, d⟩] = none :=
  C60_repeated_lsts_raise ph 0 1 _ ⟨1, "drift", [1, 1, 2], [-5], 4, d⟩ ⟨1, "drift", [3, 4, 5], [-5], 4, d⟩ rfl rfl (by decide)
    (by show 1 < ([1, 1, 2] : List ℚ).toFinset.card; decide +kernel) (by show ([1, 1, 2] : List ℚ).toFinset.card ≠ 3; decide +kernel) (by simp)

/-- C60. An anchor whose integrations all have one LST: everything is rephased to that LST. -/
theorem C60_single_lst (ph : Phasor) (a u v : UV) (x : ℚ) (hx : lstGrid a.lsts = [x]) (hn : a.pols.Nodup) (hp : u.pols = a.pols)
    (h : rephaseOne ph (lstGrid a.lsts) a.pols u = some v) (b t f q : ℕ) (ht : t < u.lsts.length) (hq : q < u.pols.length) :
    v.data b t f q = u.data b t f q * ph b f (x - u.lsts.getD t 0) := by
  unfold rephaseOne dlst at h
  rw [hx] at h
  simp only [List.length_singleton, or_true, if_true] at h
  split at h
  · cases h
    simp only
    rw [store_foldl ph _ a.pols hn u.data _ (fun x hx => hp ▸ enumPols_mem hx), enumPols_fst, if_pos (by simpa using hq)]
    congr 2
    by_cases h1 : u.lsts.length = 1
    · have : t = 0 := by omega
      subst this; simp
    · simp [h1]
  · cases h

/-- C60. With `inplace=False` the object's own data sets are unchanged and the rephased ones are returned; in place nothing is
returned. Missing: idempotence, which does not hold. -/
theorem C60_inplace_partial (ph : Phasor) (k : ℕ) (inplace : Bool) (ds s : List UV) (ret : Option (List UV))
    (h : rephaseApi ph k inplace ds = some (s, ret)) : ∃ r, rephase ph k ds = some r ∧
      (inplace = false → s = ds ∧ ret = some r) ∧ (inplace = true → s = r ∧ ret = none) := by
  unfold rephaseApi at h
  split at h
  · cases h
  · rename_i r hr
    refine ⟨r, hr, ?_, ?_⟩ <;> intro hi <;> subst hi <;> simp at h
    · exact ⟨h.1.symm, h.2.symm⟩
    · exact ⟨h.1.symm, h.2.symm⟩

/-- The data sets of the counterexample: one visibility each, LSTs 0 and 1. -/
def ceA : UV := ⟨1, "unprojected", [0], [-5], 1, fun _ _ _ _ => 1⟩
def ceB : UV := ⟨1, "unprojected", [1], [-5], 1, fun _ _ _ _ => 1⟩
/-- A unit-modulus phasor: −1 for any nonzero shift. -/
noncomputable def cePh : Phasor := fun _ _ x => if x = 0 then 1 else -1

theorem ce_regular : Regular [ceA, ceB] 1 1 [-5] := by
  constructor <;> simp [ceA, ceB]

/-- C60 counterexample: the second call turns −1 back into 1. -/
theorem C60_counterexample_twice : ∃ r s v w, rephase cePh 0 [ceA, ceB] = some r ∧ rephase cePh 0 r = some s ∧
    r[1]? = some v ∧ s[1]? = some w ∧ v.cat = "unknown" ∧ v.data 0 0 0 0 = (-1 : ℂ) ∧ w.data 0 0 0 0 = (1 : ℂ) := by
  obtain ⟨r, h1, -, h3, h4⟩ := rephase_call cePh 0 [ceA, ceB] ceA 1 1 [-5] ce_regular rfl
  obtain ⟨a', ha', -, hal, -, -⟩ := h4 0 ceA rfl
  obtain ⟨s, g1, -, -, g4⟩ := rephase_call cePh 0 r a' 1 1 [-5] h3 ha'
  obtain ⟨v, hv, hc, hvl, -, hvn⟩ := h4 1 ceB rfl
  obtain ⟨w, hw, -, -, -, hwn⟩ := g4 1 v hv
  have e1 : v.data 0 0 0 0 = (-1 : ℂ) := by
    rw [hvn (by decide) 0 0 0 0 (by decide) (by decide)]
    simp [cePh, shift, ceA, ceB]
  refine ⟨r, s, v, w, h1, g1, hv, hw, hc, e1, ?_⟩
  rw [hwn (by decide) 0 0 0 0 (by decide) (by decide), e1]
  have : shift a' v 0 = -1 := by unfold shift; rw [hal, hvl]; simp [ceA, ceB]
  rw [this]
  simp [cePh]

/-- C60 finding: a data set listing the anchor's polarizations in another order gets its polarizations exchanged
(`polind` is looked up in the anchor's list, L4341, L4383-4392). -/
theorem C60_finding_pol_order : ∃ v, rephaseOne (fun _ _ _ => 1) [0] [-5, -6]
    ⟨1, "unprojected", [0], [-6, -5], 1, fun _ _ _ q => q⟩ = some v ∧ v.pols = [-6, -5] ∧ v.data 0 0 0 0 = 1 ∧ v.data 0 0 0 1 = 0 := by
  refine ⟨_, rfl, rfl, ?_, ?_⟩ <;> simp [enumPols, store, List.idxOf, List.range, List.range.loop, List.findIdx, List.findIdx.go]

end HeraPspec.Rephase
