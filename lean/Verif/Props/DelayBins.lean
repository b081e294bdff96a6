import Verif.Model.DelayBins
import Mathlib.Tactic.Linarith
import Mathlib.Tactic.Ring
import Mathlib.Tactic.FieldSimp
import Mathlib.Algebra.BigOperators.Field
import Mathlib.Algebra.Order.BigOperators.Ring.Finset

/-!
C35, C36, C83: averaging in delay bins.
-/
namespace HeraPspec.DelayBins

/-! ### C35 -/

theorem negLoop_spec (nk : Nat) (hk : 0 < nk) : ∀ (m : Nat) (low : Int), low < m →
    negLoop nk low = (List.range ((low + nk).toNat / nk)).map (fun i : Nat => (low - i * nk, low - i * nk + nk)) := by
  intro m
  induction m using Nat.strong_induction_on with
  | _ m ih =>
    intro low hlow
    rw [negLoop]
    by_cases h : 0 ≤ low ∧ 0 < nk
    · rw [dif_pos h]
      obtain ⟨l, rfl⟩ := Int.eq_ofNat_of_zero_le h.1
      have hm : 0 < m := by omega
      rw [ih (m - 1) (by omega) (↑l - nk) (by omega)]
      have e1 : ((l : Int) + nk).toNat / nk = ((l : Int) - nk + nk).toNat / nk + 1 := by
        have : ((l : Int) + nk).toNat = ((l : Int) - nk + nk).toNat + nk := by omega
        rw [this, Nat.add_div_right _ hk]
      rw [e1, List.range_succ_eq_map, List.map_cons, List.map_map]
      congr 1
      · simp
      · apply List.map_congr_left
        intro i _
        simp only [Function.comp, Nat.cast_succ]
        congr 1 <;> ring
    · rw [dif_neg h]
      have : (low + nk).toNat / nk = 0 := by
        apply Nat.div_eq_of_lt
        omega
      rw [this]; rfl

theorem posLoop_spec (nk : Nat) (hk : 0 < nk) (n : Nat) : ∀ (m : Nat) (high : Int), (n : Int) - high < m →
    posLoop nk n high = (List.range ((n - high + nk).toNat / nk)).map (fun i : Nat => (high + i * nk - nk, high + i * nk)) := by
  intro m
  induction m using Nat.strong_induction_on with
  | _ m ih =>
    intro high hh
    rw [posLoop]
    by_cases h : high ≤ n ∧ 0 < nk
    · rw [dif_pos h]
      have hm : 0 < m := by omega
      rw [ih (m - 1) (by omega) (high + nk) (by omega)]
      have e1 : ((n : Int) - high + nk).toNat / nk = ((n : Int) - (high + nk) + nk).toNat / nk + 1 := by
        have : ((n : Int) - high + nk).toNat = ((n : Int) - (high + nk) + nk).toNat + nk := by omega
        rw [this, Nat.add_div_right _ hk]
      rw [e1, List.range_succ_eq_map, List.map_cons, List.map_map]
      congr 1
      · simp
      · apply List.map_congr_left
        intro i _
        simp only [Function.comp, Nat.cast_succ]
        congr 1 <;> ring
    · rw [dif_neg h]
      have : ((n : Int) - high + nk).toNat / nk = 0 := by
        apply Nat.div_eq_of_lt
        omega
      rw [this]; rfl

/-- The slices in closed form: `lo` bins of `nk` delays, the zero bin of `2h+1`, `hi` bins of `nk` delays, one after another
without gap or overlap. `lo` and `hi` are as many as fit. -/
def layout (n z nk h lo hi : Nat) : List (Int × Int) :=
  (List.range lo).map (fun i : Nat => ((z : Int) - h - (lo - i) * nk, (z : Int) - h - (lo - i) * nk + nk)) ++
  [((z : Int) - h, (z : Int) + 1 + h)] ++
  (List.range hi).map (fun i : Nat => ((z : Int) + 1 + h + i * nk, (z : Int) + 1 + h + i * nk + nk))

theorem reverse_range_map {β : Type} (m : Nat) (f : Nat → β) :
    ((List.range m).map f).reverse = (List.range m).map (fun i => f (m - 1 - i)) := by
  apply List.ext_getElem
  · simp
  · intro i h1 h2
    simp at h1 ⊢

theorem getSlices_eq {K : Type} (n z : Nat) (kernel zeroKernel : List K) (hz : zeroKernel.length % 2 = 1)
    (hin : zeroKernel.length / 2 ≤ z ∧ z + zeroKernel.length / 2 < n) (hk : 0 < kernel.length) :
    getSlices n (some z) kernel zeroKernel = .ok
      (layout n z kernel.length (zeroKernel.length / 2) ((z - zeroKernel.length / 2) / kernel.length)
        ((n - 1 - z - zeroKernel.length / 2) / kernel.length),
       List.replicate ((z - zeroKernel.length / 2) / kernel.length) kernel ++ [zeroKernel] ++
        List.replicate ((n - 1 - z - zeroKernel.length / 2) / kernel.length) kernel) := by
  unfold getSlices
  simp only []
  rw [if_neg (by omega), if_neg (by omega)]
  set h := zeroKernel.length / 2
  set nk := kernel.length
  rw [negLoop_spec nk hk ((z : Nat) + 1) _ (by omega), posLoop_spec nk hk n (n + 1) _ (by omega)]
  have e1 : ((z : Int) - nk - h + nk).toNat = z - h := by omega
  have e2 : ((n : Int) - (z + 1 + nk + h) + nk).toNat = n - 1 - z - h := by omega
  rw [e1, e2]
  unfold layout
  simp only [List.length_map, List.length_range]
  congr 2
  rw [reverse_range_map]
  congr 1
  · congr 1
    apply List.map_congr_left
    intro i hi
    rw [List.mem_range] at hi
    have : (((z - h) / nk - 1 - i : Nat) : Int) = ((z - h) / nk : Nat) - 1 - i := by omega
    simp only [this]
    congr 1 <;> ring
  · apply List.map_congr_left
    intro i _
    congr 1 <;> ring

/-- C35: for every number of delays, every non-empty kernel and every zero-bin kernel of odd length that fits, the slices are
increasing and touch each other (so they are disjoint and without gaps), lie in the array, the bin of zero delay holds
`nzero` delays around it, all others exactly `nk`, and on neither side would another bin fit. -/
theorem C35_slices {K : Type} (n z : Nat) (kernel zeroKernel : List K) (hz : zeroKernel.length % 2 = 1)
    (hin : zeroKernel.length / 2 ≤ z ∧ z + zeroKernel.length / 2 < n) (hk : 0 < kernel.length) :
    ∃ neg pos : List (Int × Int), ∃ ks,
      getSlices n (some z) kernel zeroKernel =
        .ok (neg ++ [((z : Int) - (zeroKernel.length / 2 : Nat), (z : Int) + 1 + (zeroKernel.length / 2 : Nat))] ++ pos, ks) ∧
      ks = List.replicate neg.length kernel ++ [zeroKernel] ++ List.replicate pos.length kernel ∧
      List.IsChain (fun a b : Int × Int => a.2 = b.1)
        (neg ++ [((z : Int) - (zeroKernel.length / 2 : Nat), (z : Int) + 1 + (zeroKernel.length / 2 : Nat))] ++ pos) ∧
      (∀ s ∈ neg ++ pos, s.2 = s.1 + kernel.length) ∧
      (∀ s ∈ neg, 0 ≤ s.1) ∧ (∀ s ∈ pos, s.2 ≤ n) ∧
      z - zeroKernel.length / 2 < (neg.length + 1) * kernel.length ∧
      n - 1 - z - zeroKernel.length / 2 < (pos.length + 1) * kernel.length := by
  rw [getSlices_eq n z kernel zeroKernel hz hin hk]
  unfold layout
  set h := zeroKernel.length / 2
  set nk := kernel.length
  set lo := (z - h) / nk with hlo
  set hi := (n - 1 - z - h) / nk with hhi
  refine ⟨_, _, _, rfl, ?_, ?_, ?_, ?_, ?_, ?_, ?_⟩
  · simp
  · rw [List.isChain_iff_getElem]
    intro i hi'
    simp only [List.length_append, List.length_map, List.length_range, List.length_cons, List.length_nil] at hi'
    rcases lt_trichotomy (i + 1) lo with hl | hl | hl
    · rw [List.getElem_append_left (by simp; omega), List.getElem_append_left (by simp; omega),
        List.getElem_append_left (by simp; omega), List.getElem_append_left (by simp; omega)]
      simp only [List.getElem_map, List.getElem_range]
      push_cast; ring
    · rw [List.getElem_append_left (by simp; omega), List.getElem_append_left (by simp; omega),
        List.getElem_append_left (by simp; omega), List.getElem_append_right (by simp; omega)]
      simp only [List.getElem_map, List.getElem_range, List.length_map, List.length_range]
      simp only [List.getElem_singleton]
      have : (lo : Int) = i + 1 := by omega
      rw [this]; ring
    · rcases Nat.lt_or_ge i (lo + 1) with h2 | h2
      · have hi0 : i = lo := by omega
        rw [List.getElem_append_left (by simp; omega), List.getElem_append_right (by simp; omega),
          List.getElem_append_right (by simp; omega)]
        simp only [List.getElem_map, List.getElem_range, List.length_map, List.length_range, List.getElem_singleton,
          List.length_append, List.length_cons, List.length_nil]
        have : ((i + 1 - (lo + (0 + 1)) : Nat) : Int) = 0 := by omega
        rw [this]; ring
      · rw [List.getElem_append_right (by simp; omega), List.getElem_append_right (by simp; omega)]
        simp only [List.getElem_map, List.getElem_range, List.length_map, List.length_range,
          List.length_append, List.length_cons, List.length_nil]
        have : ((i + 1 - (lo + (0 + 1)) : Nat) : Int) = ((i - (lo + (0 + 1)) : Nat) : Int) + 1 := by omega
        rw [this]; ring
  · intro s hs
    rw [List.mem_append, List.mem_map, List.mem_map] at hs
    rcases hs with ⟨i, _, rfl⟩ | ⟨i, _, rfl⟩ <;> rfl
  · intro s hs
    obtain ⟨i, hi, rfl⟩ := List.mem_map.1 hs
    rw [List.mem_range] at hi
    have h1 : lo * nk ≤ z - h := Nat.div_mul_le_self _ _
    have h2 : ((lo : Int) - i) * nk ≤ lo * nk := by nlinarith [Int.natCast_nonneg i, Int.natCast_nonneg nk]
    have h3 : ((lo * nk : Nat) : Int) ≤ (z : Int) - h := by omega
    push_cast at h3
    show (0 : Int) ≤ z - h - (lo - i) * nk
    linarith
  · intro s hs
    obtain ⟨i, hi', rfl⟩ := List.mem_map.1 hs
    rw [List.mem_range] at hi'
    have h1 : hi * nk ≤ n - 1 - z - h := Nat.div_mul_le_self _ _
    have h2 : (i + 1) * nk ≤ hi * nk := Nat.mul_le_mul_right _ hi'
    have h3 : (((i + 1) * nk : Nat) : Int) ≤ (n : Int) - 1 - z - h := by omega
    push_cast at h3
    show (z : Int) + 1 + h + i * nk + nk ≤ n
    linarith
  · simp only [List.length_map, List.length_range]
    exact Nat.lt_mul_of_div_lt (Nat.lt_succ_self _) hk |> fun h => by rw [Nat.mul_comm] at h; rwa [Nat.mul_comm]
  · simp only [List.length_map, List.length_range]
    exact Nat.lt_mul_of_div_lt (Nat.lt_succ_self _) hk |> fun h => by rw [Nat.mul_comm] at h; rwa [Nat.mul_comm]

/-- C35 (partial: odd numbers of delays): with the zero delay in the middle the slices are mirror images of each other. Missing: even numbers of delays, for which the claim is false of the code. -/
theorem C35_mirror_partial {K : Type} (z : Nat) (kernel zeroKernel : List K) (hz : zeroKernel.length % 2 = 1)
    (hin : zeroKernel.length / 2 ≤ z) (hk : 0 < kernel.length) {sl : List (Int × Int)} {ks : List (List K)}
    (h : getSlices (2 * z + 1) (some z) kernel zeroKernel = .ok (sl, ks)) :
    sl.reverse.map (fun s => ((2 * z + 1 : Int) - s.2, (2 * z + 1 : Int) - s.1)) = sl ∧ ks.reverse = ks := by
  rw [getSlices_eq _ z kernel zeroKernel hz (by omega) hk] at h
  have e : 2 * z + 1 - 1 - z - zeroKernel.length / 2 = z - zeroKernel.length / 2 := by omega
  rw [e] at h
  simp only [Except.ok.injEq, Prod.mk.injEq] at h
  obtain ⟨rfl, rfl⟩ := h
  constructor
  · unfold layout
    simp only [List.reverse_append, List.reverse_cons, List.reverse_nil, List.nil_append, List.map_append, List.map_cons, List.map_nil,
      reverse_range_map, List.map_map]
    rw [← List.append_assoc]
    congr 1
    · congr 1
      · apply List.map_congr_left
        intro i hi
        rw [List.mem_range] at hi
        simp only [Function.comp]
        have : ((((z - zeroKernel.length / 2) / kernel.length) - 1 - i : Nat) : Int) = ((z - zeroKernel.length / 2) / kernel.length : Nat) - 1 - i := by omega
        simp only [this]
        congr 1 <;> ring
      · congr 2 <;> ring
    · apply List.map_congr_left
      intro i hi
      rw [List.mem_range] at hi
      simp only [Function.comp]
      have : ((((z - zeroKernel.length / 2) / kernel.length) - 1 - i : Nat) : Int) = ((z - zeroKernel.length / 2) / kernel.length : Nat) - 1 - i := by omega
      simp only [this]
      congr 1 <;> ring
  · simp [List.reverse_append]

/-- C35 counterexample: with an even number of delays the extra negative delay is not ignored, as the documentation says, if it
completes a bin: four delays `-2, -1, 0, 1` in bins of one give two negative bins and a single positive one. -/
theorem C35_counterexample_even : getSlices 4 (some 2) [()] [()] = .ok ([(0, 1), (1, 2), (2, 3), (3, 4)], [[()], [()], [()], [()]]) ∧
    getSlices 8 (some 4) [(), ()] [()] =
      .ok ([(0, 2), (2, 4), (4, 5), (5, 7)], [[(), ()], [(), ()], [()], [(), ()]]) := by
  rw [getSlices_eq, getSlices_eq] <;> first | exact ⟨rfl, rfl⟩ | decide

/-- C35 finding: in general, for an even number `2 z` of delays there is one more negative than positive bin exactly when the
kernel length divides `z - nzero / 2`. -/
theorem C35_finding_even_asymmetric {K : Type} (z : Nat) (kernel zeroKernel : List K) (hz : zeroKernel.length % 2 = 1)
    (hin : zeroKernel.length / 2 < z) (hk : 0 < kernel.length) : ∃ (neg : List (Int × Int)) (mid : Int × Int) (pos : List (Int × Int)) (ks : List (List K)),
    getSlices (2 * z) (some z) kernel zeroKernel = .ok (neg ++ [mid] ++ pos, ks) ∧ mid.1 ≤ z ∧ (z : Int) < mid.2 ∧
    (neg.length = pos.length ∨ neg.length = pos.length + 1) ∧
    (neg.length = pos.length + 1 ↔ kernel.length ∣ z - zeroKernel.length / 2) := by
  rw [getSlices_eq _ z kernel zeroKernel hz (by omega) hk]
  unfold layout
  refine ⟨_, _, _, _, rfl, by show (z : Int) - (zeroKernel.length / 2 : Nat) ≤ z; omega, by show (z : Int) < z + 1 + (zeroKernel.length / 2 : Nat); omega, ?_⟩
  simp only [List.length_map, List.length_range]
  have e : 2 * z - 1 - z - zeroKernel.length / 2 = z - zeroKernel.length / 2 - 1 := by omega
  rw [e]
  obtain ⟨m, hm⟩ : ∃ m, z - zeroKernel.length / 2 = m + 1 := ⟨z - zeroKernel.length / 2 - 1, by omega⟩
  rw [hm, Nat.add_sub_cancel, Nat.succ_div]
  split <;> rename_i hd <;> simp [hd]

/-- C35: a zero-bin kernel of even length is refused, and so is an array without zero delay (for example folded spectra). -/
theorem C35_refuses {K : Type} (n : Nat) (kernel zeroKernel : List K) :
    getSlices n none kernel zeroKernel = .error .index ∧
    (∀ z, zeroKernel.length % 2 = 0 → getSlices n (some z) kernel zeroKernel = .error .value) := by
  refine ⟨rfl, ?_⟩
  intro z h
  simp only [getSlices]
  rw [if_pos h]

/-- C35: given the delays themselves, an array without zero delay is refused, and otherwise the bin of the zero-bin kernel is the one
centred on the first delay that is exactly zero. -/
theorem C35_zero_delay {K : Type} (dly : List ℝ) (kernel zeroKernel : List K) :
    ((0 : ℝ) ∉ dly → getSlices dly.length (zeroIdx dly) kernel zeroKernel = .error .index) ∧
    (∀ sl ks, getSlices dly.length (zeroIdx dly) kernel zeroKernel = .ok (sl, ks) →
      ∃ (z : Nat) (neg pos : List (Int × Int)), dly[z]? = some 0 ∧ (∀ i < z, dly[i]? ≠ some 0) ∧
        sl = neg ++ [((z : Int) - (zeroKernel.length / 2 : Nat), (z : Int) + 1 + (zeroKernel.length / 2 : Nat))] ++ pos ∧
        ks = List.replicate neg.length kernel ++ [zeroKernel] ++ List.replicate pos.length kernel) := by
  constructor
  · intro h
    have : zeroIdx dly = none := by
      unfold zeroIdx
      rw [List.findIdx?_eq_none_iff]
      intro x hx
      simp only [decide_eq_false_iff_not]
      rintro rfl
      exact h hx
    rw [this]; rfl
  · intro sl ks h
    cases hz : zeroIdx dly with
    | none => rw [hz] at h; simp [getSlices] at h
    | some z =>
      rw [hz] at h
      simp only [getSlices] at h
      split at h
      · exact absurd h (by simp)
      split at h
      · exact absurd h (by simp)
      rw [Except.ok.injEq, Prod.mk.injEq] at h
      unfold zeroIdx at hz
      rw [List.findIdx?_eq_some_iff_getElem] at hz
      obtain ⟨hlt, h0, hb⟩ := hz
      refine ⟨z, _, _, ?_, ?_, h.1.symm, ?_⟩
      · rw [List.getElem?_eq_getElem hlt]; simpa using h0
      · intro i hi hs
        have hi' : i < dly.length := by omega
        rw [List.getElem?_eq_getElem hi'] at hs
        have := hb i hi
        simp at this hs
        exact this hs
      · rw [← h.2, List.length_reverse]

/-- C35 finding: an empty kernel makes the loop run forever exactly if the zero bin lies within the array on either side. -/
theorem C35_finding_empty_kernel {K : Type} (n z : Nat) (zeroKernel : List K) (hz : zeroKernel.length % 2 = 1) :
    getSlices n (some z) [] zeroKernel = .error .diverges ↔ zeroKernel.length / 2 ≤ z ∨ z + zeroKernel.length / 2 < n := by
  unfold getSlices
  simp only []
  rw [if_neg (by omega)]
  split
  · rename_i h
    exact ⟨fun _ => h.2.imp (fun _ => by omega) (fun _ => by omega), fun _ => rfl⟩
  · rename_i h
    constructor
    · intro hc; cases hc
    · intro hc
      exact absurd ⟨rfl, hc.imp (fun _ => by omega) (fun _ => by omega)⟩ h

example : ∃ (n z : Nat) (kernel zeroKernel : List ℝ), zeroKernel.length % 2 = 1 ∧
    zeroKernel.length / 2 ≤ z ∧ z + zeroKernel.length / 2 < n ∧ 0 < kernel.length :=
  ⟨13, 6, [1, 1, 1], [0, 1, 0], by decide, by decide, by decide, by decide⟩

/-- The documented example: 13 delays, kernel length 3, default and three-delay zero bin. -/
example : getSlices 13 (some 6) [(), (), ()] [()] = .ok ([(0, 3), (3, 6), (6, 7), (7, 10), (10, 13)],
      [[(), (), ()], [(), (), ()], [()], [(), (), ()], [(), (), ()]]) ∧
    getSlices 13 (some 6) [(), (), ()] [(), (), ()] = .ok ([(2, 5), (5, 8), (8, 11)],
      [[(), (), ()], [(), (), ()], [(), (), ()]]) := by
  rw [getSlices_eq, getSlices_eq] <;> first | exact ⟨rfl, rfl⟩ | decide

/-! ### C36 -/

section
variable {E : Type} [AddCommGroup E] [Module ℝ E]

theorem getD_lt (k : List ℝ) (j : Nat) (h : j < k.length) : k.getD j 0 = k[j] := by simp [List.getD, h]

theorem sum_getD (k : List ℝ) : ∑ j ∈ Finset.range k.length, k.getD j 0 = k.sum := by
  induction k with
  | nil => rfl
  | cons a k ih =>
    rw [List.length_cons, Finset.sum_range_succ', List.sum_cons, add_comm]
    simp only [List.getD_cons_succ, List.getD_cons_zero, ih]

/-- C36: kernels are normalised to unit sum whatever they were. -/
theorem C36_kernel_normalised (k : List ℝ) (h : k.sum ≠ 0) : (normalise k).sum = 1 ∧ (normalise k).length = k.length := by
  unfold normalise
  refine ⟨?_, by simp⟩
  have : ∀ (l : List ℝ) (c : ℝ), (l.map (· / c)).sum = l.sum / c := by
    intro l c
    induction l with
    | nil => simp
    | cons x l ih => rw [List.map_cons, List.sum_cons, List.sum_cons, ih, add_div]
  rw [this, div_self h]

/-- C36: binning preserves constants and is linear. -/
theorem C36_data_linear (k : List ℝ) (a : Int) :
    (k.sum = 1 → ∀ x : E, binData (fun _ => x) a k = x) ∧
    (∀ (d e : Int → E) (r : ℝ), binData (fun i => d i + r • e i) a k = binData d a k + r • binData e a k) := by
  constructor
  · intro h x
    unfold binData
    rw [← Finset.sum_smul, sum_getD, h, one_smul]
  · intro d e r
    unfold binData
    rw [Finset.smul_sum, ← Finset.sum_add_distrib]
    apply Finset.sum_congr rfl
    intro j _
    rw [smul_add, smul_smul, smul_smul, mul_comm]

/-- C36: with a non-negative kernel the binned value lies between the smallest and largest value in the bin; only delays of the
bin matter. -/
theorem C36_data_local (d : Int → ℝ) (a : Int) (k : List ℝ) (hk : k.sum = 1) (hp : ∀ x ∈ k, 0 ≤ x) (lo hi : ℝ)
    (h : ∀ i, a ≤ i → i < a + k.length → lo ≤ d i ∧ d i ≤ hi) : lo ≤ binData d a k ∧ binData d a k ≤ hi := by
  have hpos : ∀ j ∈ Finset.range k.length, 0 ≤ k.getD j 0 := by
    intro j hj
    rw [Finset.mem_range] at hj
    rw [getD_lt _ _ hj]
    exact hp _ (List.getElem_mem hj)
  have e : ∀ c : ℝ, c = ∑ j ∈ Finset.range k.length, k.getD j 0 * c := by
    intro c; rw [← Finset.sum_mul, sum_getD, hk, one_mul]
  have hr : ∀ j ∈ Finset.range k.length, lo ≤ d (a + j) ∧ d (a + j) ≤ hi := by
    intro j hj
    rw [Finset.mem_range] at hj
    exact h _ (by omega) (by omega)
  unfold binData
  simp only [smul_eq_mul]
  constructor
  · rw [e lo]
    exact Finset.sum_le_sum (fun j hj => mul_le_mul_of_nonneg_left (hr j hj).1 (hpos j hj))
  · conv_rhs => rw [e hi]
    exact Finset.sum_le_sum (fun j hj => mul_le_mul_of_nonneg_left (hr j hj).2 (hpos j hj))

/-- C36: the binned covariance is the covariance binned like data along both axes. -/
theorem C36_cov_is_bilinear (c : Int → Int → ℝ) (a b : Int) (k1 k2 : List ℝ) :
    binCov c a k1 b k2 = binData (fun i => binData (c i) b k2) a k1 := by
  unfold binCov binData
  apply Finset.sum_congr rfl
  intro i _
  rw [smul_eq_mul, Finset.mul_sum]
  apply Finset.sum_congr rfl
  intro j _
  rw [smul_eq_mul]; ring

/-- C36: sample covariances: if the covariance is the average of products of deviations `x_r`, with weights `p_r`, then the binned
covariance is the same average of the products of the binned deviations, for any two bins. So binning the covariance is
consistent with binning the data, whatever the correlations between delays. -/
theorem C36_cov_consistent {R : Type} (samples : Finset R) (p : R → ℝ) (x : R → Int → ℝ) (a b : Int) (k1 k2 : List ℝ) :
    binCov (fun i j => ∑ r ∈ samples, p r * (x r i * x r j)) a k1 b k2 =
      ∑ r ∈ samples, p r * (binData (x r) a k1 * binData (x r) b k2) := by
  unfold binCov binData
  simp only [smul_eq_mul, Finset.sum_mul_sum, Finset.mul_sum, Finset.sum_mul]
  conv_rhs => enter [2, r]; rw [Finset.sum_comm]
  conv_rhs => rw [Finset.sum_comm]
  apply Finset.sum_congr rfl
  intro j _
  conv_rhs => rw [Finset.sum_comm]
  apply Finset.sum_congr rfl
  intro i _
  apply Finset.sum_congr rfl
  intro r _
  ring

/-- C36: a symmetric covariance is binned to a symmetric one. -/
theorem C36_cov_symmetric (c : Int → Int → ℝ) (hc : ∀ i j, c i j = c j i) (a b : Int) (k1 k2 : List ℝ) :
    binCov c a k1 b k2 = binCov c b k2 a k1 := by
  unfold binCov
  rw [Finset.sum_comm]
  apply Finset.sum_congr rfl
  intro i _
  apply Finset.sum_congr rfl
  intro j _
  rw [hc]; ring

/-- C36: for a diagonal covariance the binned variance is `sum k^2 s^2`. -/
theorem C36_cov_diagonal (s : Int → ℝ) (a : Int) (k : List ℝ) :
    binCov (fun i j => if i = j then s i ^ 2 else 0) a k a k =
      ∑ j ∈ Finset.range k.length, (k.getD j 0) ^ 2 * s (a + j) ^ 2 := by
  unfold binCov
  apply Finset.sum_congr rfl
  intro i hi
  rw [Finset.sum_eq_single_of_mem i hi]
  · show (if a + (i : Int) = a + i then s (a + i) ^ 2 else 0) * _ = _
    rw [if_pos rfl]; ring
  · intro j _ hj
    show (if a + (i : Int) = a + j then s (a + i) ^ 2 else 0) * _ = _
    rw [if_neg (by omega), zero_mul]

/-- C36 (partial: statistics listed in `cov_weighted_stats`): if the delays are uncorrelated, the binned error is the square
root of the diagonal of the binned covariance of independent errors. Missing: the other statistics, for which the claim is false of the code (`C36_finding_rms_not_cov`). -/
theorem C36_cov_stat_partial (c s : Int → ℝ) (hc : ∀ i, 0 < c i) (a : Int) (k : List ℝ) :
    binCovStat (fun i j => if i = j then c i else 0) s a k =
      Real.sqrt (binCov (fun i j => if i = j then s i ^ 2 else 0) a k a k) := by
  unfold binCovStat
  congr 2
  funext i j
  by_cases h : i = j
  · subst h
    simp only [if_true]
    rw [Real.mul_self_sqrt (hc i).le, div_self (hc i).ne']; ring
  · simp [h]

theorem abs_le_maxAbs (d : Int → ℝ) (a : Int) (n j : Nat) (hj : j < n) : |d (a + j)| ≤ maxAbs d a n := by
  unfold maxAbs
  have : ∀ l : List ℝ, ∀ x ∈ l, x ≤ l.foldr max 0 := by
    intro l
    induction l with
    | nil => intro x hx; cases hx
    | cons y l ih =>
      intro x hx
      rw [List.foldr_cons]
      rcases List.mem_cons.1 hx with rfl | h
      · exact le_max_left _ _
      · exact le_trans (ih x h) (le_max_right _ _)
  exact this _ _ (List.mem_map.2 ⟨j, List.mem_range.2 hj, rfl⟩)

theorem maxAbs_nonneg (d : Int → ℝ) (a : Int) (n : Nat) : 0 ≤ maxAbs d a n := by
  unfold maxAbs
  generalize (List.range n).map _ = l
  induction l with
  | nil => exact le_refl _
  | cons y l ih => exact le_trans ih (le_max_right _ _)

/-- C36: every other statistic is binned to the kernel-weighted root mean square (the rescaling has no effect). -/
theorem C36_rms_formula (d : Int → ℝ) (a : Int) (k : List ℝ) :
    binRms d a k = Real.sqrt (∑ j ∈ Finset.range k.length, k.getD j 0 * d (a + j) ^ 2) := by
  unfold binRms
  simp only []
  set m := maxAbs d a k.length with hm
  have h0 : 0 ≤ m := maxAbs_nonneg d a k.length
  by_cases hz : m = 0
  · have : ∀ j ∈ Finset.range k.length, k.getD j 0 * d (a + j) ^ 2 = 0 := by
      intro j hj
      have h1 := abs_le_maxAbs d a k.length j (Finset.mem_range.1 hj)
      rw [← hm, hz] at h1
      have : d (a + j) = 0 := abs_eq_zero.1 (le_antisymm h1 (abs_nonneg _))
      rw [this]; ring
    rw [Finset.sum_eq_zero this, hz]
    simp
  · have h2 : ∑ j ∈ Finset.range k.length, (if m = 0 then 0 else |d (a + j)| / m) ^ 2 * k.getD j 0 =
        (∑ j ∈ Finset.range k.length, k.getD j 0 * d (a + j) ^ 2) / m ^ 2 := by
      rw [Finset.sum_div]
      apply Finset.sum_congr rfl
      intro j _
      rw [if_neg hz, div_pow, sq_abs]; ring
    rw [h2, Real.sqrt_div' _ (sq_nonneg m), Real.sqrt_sq h0]
    field_simp

/-- C36: constants are preserved by the root mean square as well. -/
theorem C36_rms_constant (x : ℝ) (a : Int) (k : List ℝ) (hk : k.sum = 1) : binRms (fun _ => x) a k = |x| := by
  rw [C36_rms_formula, ← Finset.sum_mul, sum_getD, hk, one_mul, Real.sqrt_sq_eq_abs]

/-- C36 finding: errors outside `cov_weighted_stats` do not average down. For uncorrelated delays of unit error and a uniform
kernel of `n` delays the binned error is 1, the binned variance `1 / n`. -/
theorem C36_finding_rms_not_cov (n : Nat) (hn : 0 < n) (a : Int) :
    binRms (fun _ => 1) a (List.replicate n (1 / (n : ℝ))) = 1 ∧
    binCov (fun i j => if i = j then (fun _ => (1 : ℝ)) i ^ 2 else 0) a (List.replicate n (1 / (n : ℝ))) a (List.replicate n (1 / (n : ℝ)))
      = 1 / n := by
  have hn' : (n : ℝ) ≠ 0 := by exact_mod_cast hn.ne'
  constructor
  · rw [C36_rms_constant _ _ _ (by simp [hn']), abs_one]
  · rw [C36_cov_diagonal]
    have : ∀ j ∈ Finset.range (List.replicate n (1 / (n : ℝ))).length,
        ((List.replicate n (1 / (n : ℝ))).getD j 0) ^ 2 * (1 : ℝ) ^ 2 = 1 / (n : ℝ) ^ 2 := by
      intro j hj
      rw [Finset.mem_range] at hj
      rw [getD_lt _ _ hj, List.getElem_replicate]
      field_simp
    rw [Finset.sum_congr rfl this, Finset.sum_const, Finset.card_range, List.length_replicate, nsmul_eq_mul]
    field_simp

/-- C36: window functions whose rows sum to one still do after binning their first axis. -/
theorem C36_window_normalised (wf : Int → Nat → ℝ) (cols : Finset Nat) (h : ∀ i, ∑ c ∈ cols, wf i c = 1) (a : Int) (k : List ℝ)
    (hk : k.sum = 1) : ∑ c ∈ cols, binData (fun i => wf i c) a k = 1 := by
  unfold binData
  rw [Finset.sum_comm]
  simp only [smul_eq_mul, ← Finset.mul_sum, h, mul_one]
  rw [sum_getD, hk]

end

/-! ### C83: symmetric delays -/

/-- The new delays: `np.sum(dly[slc] * krn)` for every slice, grouping.py L2443. -/
noncomputable def newDelays (dly : Int → ℝ) (sl : List (Int × Int)) (ks : List (List ℝ)) : List ℝ :=
  List.zipWith (fun s k => binData dly s.1 k) sl ks

theorem forall₂_layout {K : Type} (n z nk h lo hi : Nat) (kernel zk : List K) (h1 : kernel.length = nk) (h2 : zk.length = 2 * h + 1) :
    List.Forall₂ (fun (s : Int × Int) (k : List K) => s.2 = s.1 + k.length ∧ (k = kernel ∨ k = zk)) (layout n z nk h lo hi)
      (List.replicate lo kernel ++ [zk] ++ List.replicate hi kernel) := by
  unfold layout
  have rep : ∀ (m : Nat) (f : Nat → Int × Int), (∀ i, (f i).2 = (f i).1 + nk) →
      List.Forall₂ (fun (s : Int × Int) (k : List K) => s.2 = s.1 + k.length ∧ (k = kernel ∨ k = zk)) ((List.range m).map f)
        (List.replicate m kernel) := by
    intro m f hf
    have : List.replicate m kernel = (List.range m).map (fun _ => kernel) := by
      simp [List.map_const']
    rw [this, List.forall₂_map_left_iff, List.forall₂_map_right_iff, List.forall₂_same]
    intro i _
    exact ⟨by rw [hf, h1], Or.inl rfl⟩
  refine List.rel_append (List.rel_append (rep _ _ (fun _ => rfl)) ?_) (rep _ _ (fun _ => rfl))
  refine List.Forall₂.cons ⟨?_, Or.inr rfl⟩ .nil
  rw [h2]; push_cast; ring

/-- C83 (partial: odd number of delays and symmetric kernel): the binned delays come in pairs of opposite sign. Missing: even numbers of delays and other kernels, for which the claim is false of the code. -/
theorem C83_symmetric_partial (z : Nat) (dly : Int → ℝ) (hd : ∀ i, dly (2 * z - i) = - dly i) (kernel zeroKernel : List ℝ)
    (hs : kernel.reverse = kernel) (hzs : zeroKernel.reverse = zeroKernel) (hz : zeroKernel.length % 2 = 1)
    (hin : zeroKernel.length / 2 ≤ z) (hk : 0 < kernel.length) {sl : List (Int × Int)} {ks : List (List ℝ)}
    (h : getSlices (2 * z + 1) (some z) kernel zeroKernel = .ok (sl, ks)) :
    (newDelays dly sl ks).reverse = (newDelays dly sl ks).map (fun x => -x) := by
  obtain ⟨hm, hkr⟩ := C35_mirror_partial z kernel zeroKernel hz hin hk h
  have hf : List.Forall₂ (fun (s : Int × Int) (k : List ℝ) => s.2 = s.1 + k.length ∧ (k = kernel ∨ k = zeroKernel)) sl ks := by
    rw [getSlices_eq _ z kernel zeroKernel hz (by omega) hk] at h
    simp only [Except.ok.injEq, Prod.mk.injEq] at h
    obtain ⟨rfl, rfl⟩ := h
    exact forall₂_layout _ _ _ _ _ _ _ _ rfl (by omega)
  have hrev := List.rel_reverse hf
  unfold newDelays
  rw [List.reverse_zipWith hf.length_eq]
  conv_rhs => rw [← hm, ← hkr]
  rw [List.map_zipWith, List.zipWith_map_left]
  revert hrev
  generalize sl.reverse = A
  generalize ks.reverse = B
  intro hrev
  induction hrev with
  | nil => rfl
  | @cons s k A B h1 h2 ih =>
    rw [List.zipWith_cons_cons, List.zipWith_cons_cons, ih]
    congr 1
    have hsym : k.reverse = k := by
      rcases h1.2 with rfl | rfl
      · exact hs
      · exact hzs
    show binData dly s.1 k = - binData dly (2 * z + 1 - s.2) k
    unfold binData
    rw [← Finset.sum_range_reflect, ← Finset.sum_neg_distrib]
    apply Finset.sum_congr rfl
    intro j hj
    rw [Finset.mem_range] at hj
    have hg : k.getD (k.length - 1 - j) 0 = k.getD j 0 := by
      conv_rhs => rw [← hsym]
      rw [getD_lt _ _ (by omega), getD_lt _ _ (by simpa using hj), List.getElem_reverse]
    have := hd (s.1 + (k.length - 1 - j : Nat))
    have e : (2 * z : Int) - (s.1 + (k.length - 1 - j : Nat)) = 2 * z + 1 - s.2 + j := by rw [h1.1]; omega
    rw [e] at this
    rw [hg, this, smul_neg, neg_neg]

/-- C83 counterexample: an asymmetric kernel is not mirrored for negative delays. Delays -2..2 with kernel `[1, 0]` give -2, 0, 1. -/
theorem C83_counterexample_kernel : ∃ sl ks, getSlices 5 (some 2) [(1 : ℝ), 0] [1] = .ok (sl, ks) ∧
    newDelays (fun i => (i : ℝ) - 2) sl ks = [-2, 0, 1] := by
  refine ⟨[(0, 2), (2, 3), (3, 5)], [[1, 0], [1], [1, 0]], ?_, ?_⟩
  · rw [getSlices_eq] <;> first | rfl | decide
  · simp [newDelays, binData, Finset.sum_range_succ]
    norm_num

/-- C83 counterexample: with an even number of delays, -2, -1, 0, 1, and bins of one, nothing is opposite to -2. -/
theorem C83_counterexample_even : ∃ sl ks, getSlices 4 (some 2) [(1 : ℝ)] [1] = .ok (sl, ks) ∧
    newDelays (fun i => (i : ℝ) - 2) sl ks = [-2, -1, 0, 1] := by
  refine ⟨[(0, 1), (1, 2), (2, 3), (3, 4)], [[1], [1], [1], [1]], ?_, ?_⟩
  · rw [getSlices_eq] <;> first | rfl | decide
  · simp [newDelays, binData, Finset.sum_range_succ]
    norm_num

/-- The hypotheses of C83 are met by the documented example. -/
example : ∃ dly : Int → ℝ, (∀ i, dly (2 * 6 - i) = - dly i) ∧ dly 0 ≠ 0 ∧ ([1, 1, 1] : List ℝ).reverse = [1, 1, 1] :=
  ⟨fun i => i - 6, fun i => by push_cast; ring, by norm_num, rfl⟩

end HeraPspec.DelayBins
