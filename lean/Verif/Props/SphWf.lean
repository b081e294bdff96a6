import Verif.Model.SphWf
import Mathlib.Tactic.FieldSimp
import Mathlib.Algebra.BigOperators.Field
import Mathlib.Tactic.FinCases
import Mathlib.Tactic.Linarith
import Mathlib.Algebra.Order.BigOperators.Group.Finset

/-!
C125: spherical window functions of an object with exact windows (`spherical_wf_from_uvp`).
-/
namespace HeraPspec.SphWf
open Finset
variable {nd na nc : ℕ}

/-! ### Specification -/

/-- A mode lies in the bin from `lo` (included) to `hi` (excluded). -/
def InBin (lo hi k : ℝ) : Prop := lo ≤ k ∧ k < hi

/-- The mean over the modes in a bin of the windows of their own baseline at one time: `S` lists the modes in the bin. -/
noncomputable def meanWindow {nb : ℕ} (W : ℕ → ℕ → Fin nd → Fin na → Fin nc → ℝ) (t : ℕ) (S : Finset (Fin nb × Fin nd)) (a : Fin na) (c : Fin nc) : ℝ :=
  (∑ p ∈ S, W p.1 t p.2 a c) / S.card

/-- The mean of a function of cells over the cells in `R` (zero without cells). -/
noncomputable def cellMean (w : Fin na → Fin nc → ℝ) (R : Finset (Fin na × Fin nc)) : ℝ := (∑ p ∈ R, w p.1 p.2) / R.card

/-- The wavenumber in 1/Mpc that a number stands for, with or without factors of h. -/
noncomputable def perMpc (littleH : Bool) (h k : ℝ) : ℝ := if littleH then k * h else k

/-! ### Lemmas -/

theorem mem_mask1 {nb : ℕ} (lo hi : ℝ) (km : Fin nb → Fin nd → ℝ) (p : Fin nb × Fin nd) : p ∈ mask1 lo hi km ↔ InBin lo hi (km p.1 p.2) := by
  simp [mask1, InBin]

theorem mem_mask2 (lo hi : ℝ) (kt : Fin na → Fin nc → ℝ) (p : Fin na × Fin nc) : p ∈ mask2 lo hi kt ↔ InBin lo hi (kt p.1 p.2) := by
  simp [mask2, InBin]

theorem binMean_eq (w : Fin na → Fin nc → ℝ) (m : Finset (Fin na × Fin nc)) : binMean w m = cellMean w m := by
  unfold binMean cellMean
  split
  · rename_i h; simp [h]
  · rfl

/-- With one time or one group the rows are read in the order in which they were written. -/
theorem reshaped_ok (T nb : ℕ) (W : ℕ → ℕ → Fin nd → Fin na → Fin nc → ℝ) (h : T = 1 ∨ nb = 1) (it : ℕ) (hit : it < T) (ib : Fin nb) :
    reshaped nb (avgRow T W) it ib = W ib it := by
  unfold reshaped avgRow
  rcases h with rfl | rfl
  · have : it = 0 := by omega
    subst this
    simp [Nat.mod_one]
  · have : (ib : ℕ) = 0 := by omega
    rw [this, Nat.mul_one, Nat.add_zero, Nat.div_eq_of_lt hit, Nat.mod_eq_of_lt hit]

theorem sphRow_sum_nonneg (junk : ℕ → ℝ) {nb nk : ℕ} (cyl : Fin nb → Fin nd → Fin na → Fin nc → ℝ) (km : Fin nb → Fin nd → ℝ) (kt : Fin na → Fin nc → ℝ)
    (lo hi : ℝ) (th : Fin (nk + 1) → ℝ) (hpos : ∀ b d a c, 0 ≤ cyl b d a c)
    (hcov : ∀ a c, ∃ m : Fin nk, InBin (th m.castSucc) (th m.succ) (kt a c)) :
    (∀ m, 0 ≤ sphRow junk cyl km kt lo hi th m) ∧
    (∑ m, sphRow junk cyl km kt lo hi th m = if 0 < ∑ p ∈ mask1 lo hi km, ∑ a, ∑ c, cyl p.1 p.2 a c then 1 else 0) := by
  have hw0 : ∀ a c, 0 ≤ wfTemp cyl (mask1 lo hi km) a c := by
    intro a c
    exact div_nonneg (sum_nonneg (fun p _ => hpos _ _ _ _)) (Nat.cast_nonneg _)
  have hb0 : ∀ m : Fin nk, 0 ≤ binMean (wfTemp cyl (mask1 lo hi km)) (mask2 (th m.castSucc) (th m.succ) kt) := by
    intro m
    rw [binMean_eq]
    exact div_nonneg (sum_nonneg (fun p _ => hw0 _ _)) (Nat.cast_nonneg _)
  have hsum : ∑ a, ∑ c, wfTemp cyl (mask1 lo hi km) a c = (∑ p ∈ mask1 lo hi km, ∑ a, ∑ c, cyl p.1 p.2 a c) / (mask1 lo hi km).card := by
    unfold wfTemp
    simp_rw [← Finset.sum_div]
    congr 1
    have : ∀ a : Fin na, ∑ c, ∑ p ∈ mask1 lo hi km, cyl p.1 p.2 a c = ∑ p ∈ mask1 lo hi km, ∑ c, cyl p.1 p.2 a c := fun a => Finset.sum_comm
    simp_rw [this]
    rw [Finset.sum_comm]
  unfold sphRow
  split
  · rename_i h
    rw [Finset.card_eq_zero] at h
    refine ⟨fun _ => le_rfl, ?_⟩
    rw [h]
    simp
  · rename_i h
    have hcard : (0 : ℝ) < (mask1 lo hi km).card := by
      have : 0 < (mask1 lo hi km).card := Nat.pos_of_ne_zero h
      exact_mod_cast this
    split
    · rename_i hp
      have hp' : 0 < ∑ p ∈ mask1 lo hi km, ∑ a, ∑ c, cyl p.1 p.2 a c := by
        rw [hsum] at hp
        by_contra hn
        exact absurd hp (not_lt.2 (div_nonpos_of_nonpos_of_nonneg (not_lt.1 hn) hcard.le))
      -- some cell has a positive value, and it lies in some bin
      obtain ⟨a, -, ha⟩ := Finset.exists_lt_of_sum_lt (s := univ) (f := fun _ : Fin na => (0 : ℝ)) (g := fun a => ∑ c, wfTemp cyl (mask1 lo hi km) a c) (by simpa using hp)
      obtain ⟨c, -, hc⟩ := Finset.exists_lt_of_sum_lt (s := univ) (f := fun _ : Fin nc => (0 : ℝ)) (g := fun c => wfTemp cyl (mask1 lo hi km) a c) (by simpa using ha)
      obtain ⟨m, hm⟩ := hcov a c
      have hmem : (a, c) ∈ mask2 (th m.castSucc) (th m.succ) kt := (mem_mask2 _ _ _ _).2 hm
      have hbm : 0 < binMean (wfTemp cyl (mask1 lo hi km)) (mask2 (th m.castSucc) (th m.succ) kt) := by
        rw [binMean_eq]
        refine div_pos (Finset.sum_pos' (fun p _ => hw0 _ _) ⟨(a, c), hmem, hc⟩) ?_
        have : 0 < (mask2 (th m.castSucc) (th m.succ) kt).card := Finset.card_pos.2 ⟨_, hmem⟩
        exact_mod_cast this
      have htot : 0 < ∑ m : Fin nk, binMean (wfTemp cyl (mask1 lo hi km)) (mask2 (th m.castSucc) (th m.succ) kt) :=
        Finset.sum_pos' (fun m _ => hb0 m) ⟨m, Finset.mem_univ _, hbm⟩
      unfold normalise
      rw [if_pos htot.ne', if_pos hp']
      refine ⟨fun m => div_nonneg (hb0 m) htot.le, ?_⟩
      rw [← Finset.sum_div, div_self htot.ne']
    · rename_i hp
      have hp' : ¬ 0 < ∑ p ∈ mask1 lo hi km, ∑ a, ∑ c, cyl p.1 p.2 a c := by
        intro hq
        exact hp (by rw [hsum]; exact div_pos hq hcard)
      rw [if_neg hp']
      exact ⟨fun _ => le_rfl, by simp⟩

/-! ### Theorems -/

/-- **C125** (partial). For one time or one group of baseline-pairs, the row of bin `m1` at each time is proportional to the mean, over the cells of each theory bin, of the mean window of the
modes in the bin, each mode with the window of its own group at that time. Missing: several times and several groups at once, where rows are mixed
(`C125_counterexample_times_and_groups`); rows whose theory bins have zero sum hold uninitialised values (`C125_finding_uninitialised`). -/
theorem C125_windows_partial (junk : ℕ → ℝ) {nb nk nk1 : ℕ} (T : ℕ) (hT : T = 1 ∨ nb = 1) (W : ℕ → ℕ → Fin nd → Fin na → Fin nc → ℝ)
    (km : Fin nb → Fin nd → ℝ) (kt : Fin na → Fin nc → ℝ) (e : Fin (nk1 + 1) → ℝ) (th : Fin (nk + 1) → ℝ)
    (t : ℕ) (ht : t < T) (m1 : Fin nk1) (S : Finset (Fin nb × Fin nd)) (hS : ∀ p, p ∈ S ↔ InBin (e m1.castSucc) (e m1.succ) (km p.1 p.2))
    (R : Fin nk → Finset (Fin na × Fin nc)) (hR : ∀ m2 p, p ∈ R m2 ↔ InBin (th m2.castSucc) (th m2.succ) (kt p.1 p.2))
    (hne : S.Nonempty) (hpos : 0 < ∑ a, ∑ c, meanWindow W t S a c) (hsum : ∑ m, cellMean (meanWindow W t S) (R m) ≠ 0) :
    ∃ out, (sphTimes junk T (avgRow T W) km kt e th)[t]? = some out ∧ (sphTimes junk T (avgRow T W) km kt e th).length = T ∧
      (∀ m2, out m1 m2 = cellMean (meanWindow W t S) (R m2) / ∑ m, cellMean (meanWindow W t S) (R m)) ∧ ∑ m2, out m1 m2 = 1 := by
  have hS' : S = mask1 (e m1.castSucc) (e m1.succ) km := by
    ext p; rw [hS, mem_mask1]
  have hR' : ∀ m2, R m2 = mask2 (th m2.castSucc) (th m2.succ) kt := by
    intro m2; ext p; rw [hR, mem_mask2]
  have hw : wfTemp (reshaped nb (avgRow T W) t) S = meanWindow W t S := by
    funext a c
    unfold wfTemp meanWindow
    congr 1
    refine Finset.sum_congr rfl (fun p _ => ?_)
    rw [reshaped_ok T nb W hT t ht p.1]
  refine ⟨fun m1 => sphRow junk (reshaped nb (avgRow T W) t) km kt (e m1.castSucc) (e m1.succ) th, ?_, by simp [sphTimes], ?_⟩
  · unfold sphTimes
    rw [List.getElem?_map, List.getElem?_range ht]
    rfl
  · have hrow : ∀ m2, sphRow junk (reshaped nb (avgRow T W) t) km kt (e m1.castSucc) (e m1.succ) th m2 =
        cellMean (meanWindow W t S) (R m2) / ∑ m, cellMean (meanWindow W t S) (R m) := by
      intro m2
      unfold sphRow
      rw [← hS', hw, if_neg (by rw [Finset.card_eq_zero]; exact hne.ne_empty), if_pos hpos]
      have : (fun m2 : Fin nk => binMean (meanWindow W t S) (mask2 (th m2.castSucc) (th m2.succ) kt)) = fun m2 => cellMean (meanWindow W t S) (R m2) := by
        funext m; rw [binMean_eq, hR']
      rw [this]
      unfold normalise
      rw [if_pos hsum]
    refine ⟨hrow, ?_⟩
    simp only [hrow]
    rw [← Finset.sum_div, div_self hsum]

/-- **C125**. With non-negative windows and theory bins that contain all cells, every row is non-negative and sums to one, or is zero because there is nothing in its bin (this holds for any number of
times and groups). -/
theorem C125_rows_normalised (junk : ℕ → ℝ) {nb nk nk1 : ℕ} (T : ℕ) (rows : ℕ → Fin nd → Fin na → Fin nc → ℝ) (hpos : ∀ r d a c, 0 ≤ rows r d a c)
    (km : Fin nb → Fin nd → ℝ) (kt : Fin na → Fin nc → ℝ) (e : Fin (nk1 + 1) → ℝ) (th : Fin (nk + 1) → ℝ)
    (hcov : ∀ a c, ∃ m : Fin nk, InBin (th m.castSucc) (th m.succ) (kt a c)) (m1 : Fin nk1) :
    ∀ out ∈ sphTimes junk T rows km kt e th, (∀ m, 0 ≤ out m1 m) ∧ (∑ m, out m1 m = 1 ∨ ∀ m, out m1 m = 0) := by
  intro out hout
  unfold sphTimes at hout
  obtain ⟨it, -, rfl⟩ := List.mem_map.1 hout
  obtain ⟨h1, h2⟩ := sphRow_sum_nonneg junk (reshaped nb rows it) km kt (e m1.castSucc) (e m1.succ) th (fun b d a c => hpos _ _ _ _) hcov
  refine ⟨h1, ?_⟩
  split at h2
  · exact Or.inl h2
  · refine Or.inr (fun m => ?_)
    exact (Finset.sum_eq_zero_iff_of_nonneg (fun m _ => h1 m)).1 h2 m (Finset.mem_univ _)

/-- **C125** (partial). One polarization gives its windows. Missing: two or more polarizations, see the finding. -/
theorem C125_one_polarization_partial {X : Type} (T : ℕ) (p : List X) (hp : p.length = T) : polLoop T [] [p] = .ok [p] := by
  simp [polLoop, hp]

/-- **C125, finding**. With two or more polarizations (and at least one time) the function raises: the list of windows is not emptied between polarizations. -/
theorem C125_finding_polarizations {X : Type} (T : ℕ) (hT : 0 < T) (p q : List X) (ps : List (List X)) (hp : p.length = T) (hq : q.length = T) :
    polLoop T [] (p :: q :: ps) = .error .value := by
  unfold polLoop
  rw [if_neg (by simp [hp])]
  unfold polLoop
  rw [if_pos (by simp [hp, hq]; omega)]

/-- **C125** (partial). The bins used stand for the same wavenumbers as the bins given, in the units of the object. Missing: the same array given for both, which is converted twice
(`C125_finding_same_array`), and the array of the caller is changed (`C125_finding_caller_array`). -/
theorem C125_units_partial (littleH hUnits : Bool) (h : ℝ) (hh : h ≠ 0) (e : Arr) (theory : Option Arr) (hs : ∀ t, theory = some t → ¬ (∃ i, e.loc = some i ∧ t.loc = some i)) :
    (edges littleH hUnits h e theory).1.map (perMpc hUnits h) = e.vals.map (perMpc littleH h) ∧
    (edges littleH hUnits h e theory).2.map (perMpc hUnits h) = ((theory.map (·.vals)).getD e.vals).map (perMpc littleH h) := by
  have key : ∀ l : List ℝ, littleH ≠ hUnits → (l.map (fun x => x * factor littleH h)).map (perMpc hUnits h) = l.map (perMpc littleH h) := by
    intro l hne
    rw [List.map_map]
    congr 1
    funext x
    cases littleH <;> cases hUnits <;> simp [perMpc, factor] at hne ⊢
    field_simp
  unfold edges
  cases theory with
  | none =>
    simp only
    split
    · rename_i hne
      exact ⟨key _ hne, key _ hne⟩
    · rename_i hne
      rw [not_not] at hne
      subst hne
      exact ⟨rfl, rfl⟩
  | some t =>
    have hsame : same e t = false := by
      unfold same
      have := hs t rfl
      split
      · rename_i i j hi hj
        rw [beq_eq_false_iff_ne]
        rintro rfl
        exact this ⟨i, hi, hj⟩
      · rfl
    simp only [hsame]
    split
    · rename_i hne
      exact ⟨key _ hne, key _ hne⟩
    · rename_i hne
      rw [not_not] at hne
      subst hne
      exact ⟨rfl, rfl⟩

/-- **C125, finding**. If the same float array is given for the bins and the theory bins and the units differ, it is converted twice. -/
theorem C125_finding_same_array (h : ℝ) (l : List ℝ) : edges true false h ⟨l, some 0⟩ (some ⟨l, some 0⟩) = (l.map (fun x => x * h * h), l.map (fun x => x * h * h)) := by
  simp [edges, same, factor]

/-- C125: exactly when the caller's own array of edges is changed, and to what: only an array that is used itself and only if the units differ, by one factor, or
two if the same array is passed for both bins; whatever bins are given for the theory. -/
theorem C125_caller_array (littleH hUnits : Bool) (h : ℝ) (e : Arr) (theory : Option Arr) :
    ((e.loc = none ∨ littleH = hUnits) → callerEdges littleH hUnits h e theory = e.vals) ∧
    (e.loc.isSome → littleH ≠ hUnits → (∀ t, theory = some t → t.loc ≠ e.loc) →
      callerEdges littleH hUnits h e theory = e.vals.map (fun x => x * (if littleH then h else 1 / h))) ∧
    (e.loc.isSome → littleH ≠ hUnits → (∃ t, theory = some t ∧ t.loc = e.loc) →
      callerEdges littleH hUnits h e theory = e.vals.map (fun x => x * (if littleH then h else 1 / h) * (if littleH then h else 1 / h))) := by
  obtain ⟨v, loc⟩ := e
  refine ⟨?_, ?_, ?_⟩
  · intro hc
    unfold callerEdges
    cases loc with
    | none => rfl
    | some i =>
      have hu : littleH = hUnits := hc.resolve_left (by simp)
      subst hu
      cases theory <;> simp [edges]
  · intro hs hu ht
    cases loc with
    | none => cases hs
    | some i =>
      cases theory with
      | none => simp [callerEdges, edges, hu, factor]
      | some t =>
        have := ht t rfl
        obtain ⟨tv, tl⟩ := t
        cases tl with
        | none => simp [callerEdges, edges, hu, factor, same]
        | some j =>
          have hij : i ≠ j := fun hc => this (by rw [hc])
          simp [callerEdges, edges, hu, factor, same, hij]
  · rintro hs hu ⟨t, rfl, ht⟩
    cases loc with
    | none => cases hs
    | some i =>
      obtain ⟨tv, tl⟩ := t
      simp only at ht
      subst ht
      simp [callerEdges, edges, hu, factor, same]

/-- **C125, finding**. If the units differ, the float array of the caller is changed, so a second call with it gives other bins. -/
theorem C125_finding_caller_array (h : ℝ) (l : List ℝ) : callerEdges true false h ⟨l, some 0⟩ none = l.map (fun x => x * h) ∧
    (edges true false h ⟨callerEdges true false h ⟨l, some 0⟩ none, some 0⟩ none).1 = l.map (fun x => x * h * h) := by
  simp [edges, callerEdges, factor, Function.comp_def]

theorem increasing_iff (l : List ℝ) : increasing l ↔ ∀ i x y, l[i]? = some x → l[i + 1]? = some y → x < y := by
  induction l with
  | nil => simp [increasing]
  | cons a l ih =>
    cases l with
    | nil => simp [increasing]
    | cons b l =>
      rw [increasing, ih]
      constructor
      · rintro ⟨h1, h2⟩ i x y hx hy
        cases i with
        | zero => simp at hx hy; rw [← hx, ← hy]; exact h1
        | succ i => exact h2 i x y (by simpa using hx) (by simpa using hy)
      · intro h
        exact ⟨h 0 a b rfl rfl, fun i x y hx hy => h (i + 1) x y (by simpa using hx) (by simpa using hy)⟩

/-- **C125**. The request is accepted exactly if both sets of edges increase, the lengths (if given) match the groups, the windows exist and the object has exact window functions. -/
theorem C125_checks (ed : List ℝ × List ℝ) (ngroups : ℕ) (nlens : Option ℕ) (spws known : List ℕ) (exact : Bool) :
    checks ed ngroups nlens spws known exact = .ok () ↔
      (∀ i x y, ed.1[i]? = some x → ed.1[i + 1]? = some y → x < y) ∧ (∀ i x y, ed.2[i]? = some x → ed.2[i + 1]? = some y → x < y) ∧
      (∀ n, nlens = some n → ngroups = n) ∧ (∀ s ∈ spws, s ∈ known) ∧ exact = true := by
  rw [← increasing_iff, ← increasing_iff]
  unfold checks
  split
  · rename_i h
    constructor
    · intro h'; cases h'
    · rintro ⟨h1, h2, -⟩; rcases h with h | h
      · exact absurd h1 h
      · exact absurd h2 h
  · rename_i h
    rw [not_or, not_not, not_not] at h
    split
    · rename_i hn
      constructor
      · intro h'; cases h'
      · rintro ⟨-, -, h3, -⟩
        cases nlens with
        | none => exact hn.elim
        | some n => exact absurd (h3 n rfl) hn
    · rename_i hn
      split
      · rename_i hs
        constructor
        · intro h'; cases h'
        · rintro ⟨-, -, -, h4, -⟩; exact absurd h4 hs
      · rename_i hs
        rw [not_not] at hs
        split
        · rename_i hx
          constructor
          · intro h'; cases h'
          · rintro ⟨-, -, -, -, h5⟩; rw [hx] at h5; cases h5
        · rename_i hx
          refine ⟨fun _ => ⟨h.1, h.2, ?_, hs, by simpa using hx⟩, fun _ => rfl⟩
          rintro n rfl
          simpa [lensBad] using hn

/-! ### Counterexample, findings and non-vacuity -/

/-- Two cells; the window of group 0 is in the first, that of group 1 in the second, at all times. -/
def Wex : ℕ → ℕ → Fin 1 → Fin 2 → Fin 1 → ℝ := fun g _ _ a _ => if (a : ℕ) = g then 1 else 0

/-- The wavenumbers: group `g` at `g + 1/2`, cell `a` at `a + 1/2`. -/
noncomputable def kmEx : Fin 2 → Fin 1 → ℝ := fun g _ => (g : ℕ) + 1 / 2
/-- See `kmEx`. -/
noncomputable def ktEx : Fin 2 → Fin 1 → ℝ := fun a _ => (a : ℕ) + 1 / 2
/-- Bins from 0 to 1 and from 1 to 2. -/
noncomputable def eEx : Fin 3 → ℝ := fun i => (i : ℕ)

theorem maskEx1 : mask1 (eEx (Fin.castSucc 1)) (eEx (Fin.succ 1)) kmEx = {((1 : Fin 2), (0 : Fin 1))} := by
  ext ⟨g, d⟩
  rw [mem_mask1]
  fin_cases g <;> fin_cases d <;> norm_num [InBin, eEx, kmEx]

theorem maskEx2 (m : Fin 2) : mask2 (eEx m.castSucc) (eEx m.succ) ktEx = {(m, (0 : Fin 1))} := by
  ext ⟨a, c⟩
  rw [mem_mask2]
  fin_cases m <;> fin_cases a <;> fin_cases c <;> norm_num [InBin, eEx, ktEx]

theorem rowEx (junk : ℕ → ℝ) (cyl : Fin 2 → Fin 1 → Fin 2 → Fin 1 → ℝ) (g : Fin 2) (hc : ∀ a c, cyl 1 0 a c = if a = g then 1 else 0) (m : Fin 2) :
    sphRow junk cyl kmEx ktEx (eEx (Fin.castSucc 1)) (eEx (Fin.succ 1)) eEx m = if m = g then 1 else 0 := by
  unfold sphRow
  rw [maskEx1]
  have hw : wfTemp cyl {((1 : Fin 2), (0 : Fin 1))} = fun a _ => if a = g then 1 else 0 := by
    funext a c; simp [wfTemp, hc]
  rw [if_neg (by simp), hw]
  simp only [maskEx2]
  have hb : ∀ m : Fin 2, binMean (fun a (_ : Fin 1) => if a = g then (1 : ℝ) else 0) {(m, (0 : Fin 1))} = if m = g then 1 else 0 := by
    intro m; unfold binMean; rw [if_neg (by simp), Finset.sum_singleton]; simp
  simp only [hb]
  unfold normalise
  simp

/-- **C125, counterexample**. Two times and two groups: the second bin contains only the mode of group 1, whose window lies in the second bin at both times, but at time 0 the row is
that of group 0: all weight in the first bin. -/
theorem C125_counterexample_times_and_groups (junk : ℕ → ℝ) :
    ∃ out0 out1, sphTimes junk 2 (avgRow 2 Wex) kmEx ktEx eEx eEx = [out0, out1] ∧
      out0 1 = (fun m2 => if m2 = 0 then (1 : ℝ) else 0) ∧ out1 1 = (fun m2 => if m2 = 1 then (1 : ℝ) else 0) := by
  refine ⟨_, _, rfl, ?_, ?_⟩
  · funext m2
    refine rowEx junk _ 0 ?_ m2
    intro a c
    fin_cases a <;> simp [reshaped, avgRow, Wex]
  · funext m2
    refine rowEx junk _ 1 ?_ m2
    intro a c
    fin_cases a <;> simp [reshaped, avgRow, Wex]

/-- With one time the same windows give what `C125_windows_partial` says: the row of the second bin has all weight in the second theory bin. -/
example (junk : ℕ → ℝ) : ∃ out, sphTimes junk 1 (avgRow 1 Wex) kmEx ktEx eEx eEx = [out] ∧ out 1 = (fun m2 => if m2 = 1 then (1 : ℝ) else 0) := by
  refine ⟨_, rfl, ?_⟩
  funext m2
  refine rowEx junk _ 1 ?_ m2
  intro a c
  fin_cases a <;> simp [reshaped, avgRow, Wex]

/-- The hypothesis on theory bins of `C125_rows_normalised` holds for it. -/
example : ∀ a c, ∃ m : Fin 2, InBin (eEx m.castSucc) (eEx m.succ) (ktEx a c) := by
  intro a c
  refine ⟨a, ?_⟩
  fin_cases a <;> norm_num [InBin, eEx, ktEx]

/-- **C125, finding**. If no cell lies in a theory bin, a row with modes in its bin is not zero but whatever is in memory. -/
theorem C125_finding_uninitialised (junk : ℕ → ℝ) (m : Fin 1) :
    sphRow junk (fun (_ : Fin 1) (_ : Fin 1) (_ : Fin 1) (_ : Fin 1) => 1) (fun _ _ => 1 / 2) (fun _ _ => 5) 0 1 (fun i : Fin 2 => ((i : ℕ) : ℝ)) m = junk m := by
  have h1 : mask1 0 1 (fun (_ : Fin 1) (_ : Fin 1) => (1 / 2 : ℝ)) = univ := by
    ext p; rw [mem_mask1]; norm_num [InBin]
  have h2 : ∀ m : Fin 1, mask2 (((m.castSucc : Fin 2) : ℕ) : ℝ) (((m.succ : Fin 2) : ℕ) : ℝ) (fun (_ : Fin 1) (_ : Fin 1) => (5 : ℝ)) = ∅ := by
    intro m; ext p; rw [mem_mask2]; fin_cases m; norm_num [InBin]
  unfold sphRow
  rw [h1, if_neg (by simp), if_pos (by simp [wfTemp])]
  simp only [h2]
  simp [normalise, binMean]

end HeraPspec.SphWf
