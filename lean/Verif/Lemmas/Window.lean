import Verif.Model.Window
import Mathlib.Tactic.Linarith
import Mathlib.Tactic.FieldSimp
import Mathlib.Tactic.Ring
import Mathlib.Tactic.Push
import Mathlib.Analysis.SpecialFunctions.Complex.Circle
import Mathlib.Algebra.Order.BigOperators.Group.List

namespace HeraPspec.Window

theorem mean_perm {l l' : List ℝ} (h : l.Perm l') : mean l = mean l' := by
  simp only [mean, h.sum_eq, h.length_eq]

theorem binMean_perm (kmin dk : ℝ) (m : ℕ) {l l' : List (ℝ × ℝ)} (h : l.Perm l') : binMean kmin dk m l = binMean kmin dk m l' := by
  classical
  unfold binMean
  have hf := h.filter (fun p => decide (edge kmin dk m ≤ p.1 ∧ p.1 < edge kmin dk (m + 1)))
  by_cases e : (l.filter (fun p => decide (edge kmin dk m ≤ p.1 ∧ p.1 < edge kmin dk (m + 1)))) = []
  · rw [e] at hf
    rw [if_pos e, if_pos hf.nil_eq.symm]
  · rw [if_neg e, if_neg (fun e' => e (by rw [e'] at hf; exact hf.eq_nil))]
    exact mean_perm (hf.map _)

theorem mean_nonneg {l : List ℝ} (h : ∀ x ∈ l, 0 ≤ x) : 0 ≤ mean l :=
  div_nonneg (List.sum_nonneg h) (Nat.cast_nonneg _)

theorem binMean_nonneg (kmin dk : ℝ) (m : ℕ) (l : List (ℝ × ℝ)) (h : ∀ p ∈ l, 0 ≤ p.2) : 0 ≤ binMean kmin dk m l := by
  classical
  unfold binMean
  split
  · exact le_refl _
  · refine mean_nonneg (fun x hx => ?_)
    obtain ⟨p, hp, rfl⟩ := List.mem_map.1 hx
    exact h p (List.mem_filter.1 hp).1

theorem map_range_reverse {β : Type} (N : ℕ) (f : ℕ → β) :
    (List.range N).map (fun i => f (N - 1 - i)) = ((List.range N).map f).reverse := by
  apply List.ext_getElem
  · simp
  · intro i h1 h2
    simp

variable {α : Type}

theorem cylStart_length (N : ℕ) (z : α) (W : ℕ → α) : (cylStart N z W).length = N := by
  simp [cylStart]; omega

theorem cylStart_get (N : ℕ) (z : α) (W : ℕ → α) (i : ℕ) (hi : i < N) (h : i ≤ N / 2) : (cylStart N z W)[i]? = some (W i) := by
  unfold cylStart
  rw [List.getElem?_append_left (by simp; omega)]
  simp [List.getElem?_take, h, hi, Nat.lt_succ_of_le h]

theorem cylMirror_length (N : ℕ) (z : α) (W : ℕ → α) : (cylMirror N (cylStart N z W)).length = N := by
  unfold cylMirror
  have := cylStart_length N z W
  split <;> simp [this] <;> omega

theorem cylMirror_low (N : ℕ) (z : α) (W : ℕ → α) (i : ℕ) (hi : i < N) (h : i ≤ N / 2) :
    (cylMirror N (cylStart N z W))[i]? = some (W i) := by
  unfold cylMirror
  have hl := cylStart_length N z W
  split
  all_goals
    rw [List.getElem?_append_left (by simp [hl]; omega), List.getElem?_take, if_pos (by omega)]
    exact cylStart_get N z W i hi h

theorem cylMirror_high (N : ℕ) (z : α) (W : ℕ → α) (i : ℕ) (hi : i < N) (h : N / 2 < i) :
    (cylMirror N (cylStart N z W))[i]? = some (W (if N % 2 = 0 then N - i else N - 1 - i)) := by
  unfold cylMirror
  have hl := cylStart_length N z W
  have ht : ((cylStart N z W).take (N / 2 + 1)).length = N / 2 + 1 := by simp [hl]; omega
  split <;> rename_i hp
  · rw [List.getElem?_append_right (by omega), ht, List.getElem?_drop, List.getElem?_take, if_pos (by omega),
      List.getElem?_reverse (by omega), hl]
    rw [cylStart_get N z W _ (by omega) (by omega)]
    congr 2; omega
  · rw [List.getElem?_append_right (by omega), ht, List.getElem?_drop,
      List.getElem?_reverse (by omega), hl]
    rw [cylStart_get N z W _ (by omega) (by omega)]
    congr 2; omega

theorem eta_neg_even (N : ℕ) (dnu : ℝ) (i : ℕ) (hN : N % 2 = 0) (hi : i ≤ N) : eta N dnu (N - i) = -eta N dnu i := by
  obtain ⟨k, rfl⟩ : ∃ k, N = 2 * k := ⟨N / 2, by omega⟩
  unfold eta
  rw [Nat.cast_sub hi, show 2 * k / 2 = k by omega]
  push_cast; ring

theorem eta_neg_odd (N : ℕ) (dnu : ℝ) (i : ℕ) (hN : N % 2 = 1) (hi : i < N) : eta N dnu (N - 1 - i) = -eta N dnu i := by
  obtain ⟨k, rfl⟩ : ∃ k, N = 2 * k + 1 := ⟨N / 2, by omega⟩
  unfold eta
  rw [show 2 * k + 1 - 1 - i = 2 * k - i by omega, Nat.cast_sub (by omega), show (2 * k + 1) / 2 = k by omega]
  push_cast; ring

/-- For an odd number of channels and weights symmetric in the delay, the window of `-tau` is that of `tau`. -/
theorem wfForTau_neg (e : Env) (w1 : ℕ → ℕ → ℝ) (tau : ℝ) (hN : e.N % 2 = 1) (hw : ∀ j i, i < e.N → w1 j (e.N - 1 - i) = w1 j i) :
    wfForTau e w1 (-tau) = wfForTau e w1 tau := by
  unfold wfForTau
  refine List.map_congr_left (fun j _ => List.map_congr_left (fun m _ => ?_))
  unfold wfEntry
  have h : (List.range e.N).map (fun i : ℕ => (kpar e (-tau) i, w1 j i))
      = (List.range e.N).map (fun i : ℕ => (fun i : ℕ => (kpar e tau i, w1 j i)) (e.N - 1 - i)) := by
    refine List.map_congr_left (fun i hi => ?_)
    have hi := List.mem_range.1 hi
    simp only [Prod.mk.injEq]
    refine ⟨?_, (hw j i hi).symm⟩
    unfold kpar
    rw [eta_neg_odd e.N e.dnu i hN hi, show e.a * (-eta e.N e.dnu i + tau) = -(e.a * (eta e.N e.dnu i + -tau)) by ring, abs_neg]
  rw [h, map_range_reverse e.N (fun i : ℕ => (kpar e tau i, w1 j i))]
  exact binMean_perm _ _ _ (List.reverse_perm _)

theorem exp_int_mul (n q : ℕ) : Complex.exp (-(2 * Real.pi * Complex.I * (n : ℂ) * (q : ℂ))) = 1 := by
  rw [Complex.exp_eq_one_iff]
  exact ⟨-(n * q : ℤ), by push_cast; ring⟩

theorem dft_conj (N : ℕ) (dnu : ℝ) (x : ℕ → ℝ) (k k' : ℕ) (hN : 0 < N) (h : (k + k') % N = 0) :
    dft N dnu x k' = (starRingEnd ℂ) (dft N dnu x k) := by
  unfold dft
  have hN' : (N : ℂ) ≠ 0 := by exact_mod_cast hN.ne'
  obtain ⟨q, hq⟩ := Nat.dvd_of_mod_eq_zero h
  have hk' : (k' : ℂ) = (N : ℂ) * q - k := by
    have : ((k + k' : ℕ) : ℂ) = ((N * q : ℕ) : ℂ) := by rw [hq]
    push_cast at this
    rw [← this]; ring
  simp only [map_mul, map_div₀, Complex.conj_ofReal, map_list_sum, List.map_map]
  congr 3
  refine List.map_congr_left (fun n _ => ?_)
  simp only [Function.comp, map_mul, Complex.conj_ofReal, ← Complex.exp_conj, map_neg, map_div₀, Complex.conj_I, Complex.conj_natCast,
    map_ofNat]
  congr 1
  have e1 : -(2 * (Real.pi : ℂ) * Complex.I * (n : ℂ) * (k' : ℂ) / (N : ℂ))
      = -(2 * Real.pi * Complex.I * (n : ℂ) * (q : ℂ)) + -(2 * (Real.pi : ℂ) * -Complex.I * (n : ℂ) * (k : ℂ) / (N : ℂ)) := by
    rw [hk']; field_simp; ring
  rw [e1, Complex.exp_add, exp_int_mul, one_mul]

theorem shiftIdx_odd (N i : ℕ) (hN : N % 2 = 1) (hi : i < N) : (shiftIdx N i + shiftIdx N (N - 1 - i)) % N = 0 := by
  unfold shiftIdx
  rw [← Nat.add_mod, show i + (N - N / 2) + (N - 1 - i + (N - N / 2)) = N * 2 by omega]
  exact Nat.mul_mod_right _ _

theorem freqFT_conj (N : ℕ) (dnu : ℝ) (taper beam : ℕ → ℝ) (i : ℕ) (hN : N % 2 = 1) (hi : i < N) :
    freqFT N dnu taper beam (N - 1 - i) = (starRingEnd ℂ) (freqFT N dnu taper beam i) :=
  dft_conj N dnu _ _ _ (by omega) (shiftIdx_odd N i hN hi)

/-- The sky-plane average of real beams is symmetric in delay when the number of channels is odd. -/
theorem wfArray1_symm (e : Env) (taper : ℕ → ℝ) (pts : List Point) (j i : ℕ) (hN : e.N % 2 = 1) (hi : i < e.N) :
    wfArray1 e taper pts j (e.N - 1 - i) = wfArray1 e taper pts j i := by
  unfold wfArray1
  congr 1
  refine List.map_congr_left (fun p _ => ?_)
  rw [freqFT_conj _ _ _ _ i hN hi, freqFT_conj _ _ _ _ i hN hi]
  simp [Complex.mul_re]

theorem wfArray1_nonneg (e : Env) (taper : ℕ → ℝ) (pts : List Point) (h : ∀ p ∈ pts, p.beam0 = p.beam1) (j i : ℕ) :
    0 ≤ wfArray1 e taper pts j i := by
  unfold wfArray1
  refine binMean_nonneg _ _ _ _ (fun q hq => ?_)
  obtain ⟨p, hp, rfl⟩ := List.mem_map.1 hq
  simp only [h p hp, Complex.mul_re, Complex.conj_re, Complex.conj_im]
  nlinarith [sq_nonneg (freqFT e.N e.dnu taper p.beam1 i).re, sq_nonneg (freqFT e.N e.dnu taper p.beam1 i).im]

theorem sum_map_div {β : Type} (l : List β) (f : β → ℝ) (c : ℝ) : (l.map (fun x => f x / c)).sum = (l.map f).sum / c := by
  induction l with
  | nil => simp
  | cons a l ih => simp [ih, add_div]

theorem total_div (w : List (List ℝ)) (c : ℝ) : total (w.map (fun r => r.map (fun x => x / c))) = total w / c := by
  unfold total
  rw [List.map_map]
  have : (List.sum ∘ fun r : List ℝ => r.map (fun x => x / c)) = fun r : List ℝ => r.sum / c := by
    funext r
    have := sum_map_div r id c
    simpa using this
  rw [this, sum_map_div]

theorem total_normalise (w : List (List ℝ)) : total (normalise w) = 1 ∨ total (normalise w) = 0 := by
  classical
  unfold normalise
  split <;> rename_i h
  · left
    rw [total_div, div_self h]
  · right; push Not at h; exact h

theorem total_eq_zero_imp {w : List (List ℝ)} (hn : ∀ r ∈ w, ∀ x ∈ r, 0 ≤ x) (h : total w = 0) : ∀ r ∈ w, ∀ x ∈ r, x = 0 := by
  intro r hr x hx
  have hle : r.sum ≤ total w := List.single_le_sum (fun y hy => by
    obtain ⟨r', hr', rfl⟩ := List.mem_map.1 hy
    exact List.sum_nonneg (hn r' hr')) _ (List.mem_map.2 ⟨r, hr, rfl⟩)
  have hle2 : x ≤ r.sum := List.single_le_sum (hn r hr) x hx
  have := hn r hr x hx
  linarith

theorem edge_succ (kmin dk : ℝ) (m : ℕ) : edge kmin dk (m + 1) = edge kmin dk m + dk := by
  unfold edge; push_cast; ring

theorem edge_mono (kmin dk : ℝ) (h : 0 < dk) {m n : ℕ} (hmn : m ≤ n) : edge kmin dk m ≤ edge kmin dk n := by
  unfold edge
  have : (m : ℝ) ≤ n := by exact_mod_cast hmn
  nlinarith

end HeraPspec.Window
