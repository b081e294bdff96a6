import Verif.Model.Fold
import Mathlib.Tactic.Ring
import Mathlib.Tactic.FieldSimp
import Mathlib.Tactic.Linarith
import Mathlib.Tactic.NormNum

/-!
C27, C28: `fold_spectra`.
The delay of channel `i` out of `N` is `i - N/2` channel widths; `+k` is channel `N/2 + k`, `-k` is channel `N/2 - k`.
-/
namespace HeraPspec.Fold
open HeraPspec.UVP (Err)
variable {F : Type} [Field F]

theorem length_left {α : Type} (x : List α) : (left x).length = x.length / 2 - lo x.length := by
  simp [left]; omega

theorem length_right {α : Type} (x : List α) : (right x).length = x.length - (x.length / 2 + 1) := by simp [right]

theorem len_lr {α : Type} (x : List α) (hx : x ≠ []) : (left x).length = (right x).length := by
  have : 0 < x.length := List.length_pos_iff.2 hx
  rw [length_left, length_right]; unfold lo; split <;> omega

theorem length_foldData (x : List F) : (foldData x).length = x.length := by
  by_cases hx : x = []
  · subst hx; simp [foldData, assign, left, right]
  have : 0 < x.length := List.length_pos_iff.2 hx
  unfold foldData assign
  simp [len_lr x hx, length_right]; omega

theorem left_get {α : Type} (x : List α) (k : Nat) (hk : k < (left x).length) : (left x)[k]? = x[x.length / 2 - 1 - k]? := by
  have hl := length_left x
  unfold left at *
  rw [List.getElem?_reverse (by simpa using hk), List.getElem?_drop, List.getElem?_take]
  simp only [List.length_drop, List.length_take] at *
  have e1 : min (x.length / 2) x.length = x.length / 2 := by omega
  rw [e1] at *
  rw [if_pos (by omega)]
  congr 1; omega

/-- Every channel of the folded spectrum. -/
theorem foldData_get (x : List F) (i : Nat) : (foldData x)[i]? =
    if x.length ≤ i then none else if i < x.length / 2 then some 0 else if i = x.length / 2 then x[i]?
    else some ((x.getD (x.length / 2 - (i - x.length / 2)) 0 + x.getD i 0) / 2) := by
  by_cases h0 : x.length ≤ i
  · rw [if_pos h0, List.getElem?_eq_none_iff, length_foldData]; exact h0
  rw [if_neg h0]
  have hx : x ≠ [] := by rintro rfl; simp at h0
  unfold foldData assign
  by_cases h1 : i < x.length / 2
  · rw [if_pos h1, List.append_assoc, List.getElem?_append_left (by simpa using h1), List.getElem?_replicate, if_pos h1]
  rw [if_neg h1]
  by_cases h2 : i = x.length / 2
  · rw [if_pos h2, List.append_assoc, List.getElem?_append_right (by simp; omega)]
    simp only [List.length_replicate]
    rw [List.getElem?_append_left (by simp; omega), List.getElem?_take, if_pos (by omega), List.getElem?_drop]
    congr 1; omega
  rw [if_neg h2]
  have hl : (List.replicate (x.length / 2) (0 : F) ++ (x.drop (x.length / 2)).take 1).length = x.length / 2 + 1 := by
    simp; omega
  rw [List.getElem?_append_right (by omega), hl, List.getElem?_zipWith]
  have hr := length_right x
  have hll := len_lr x hx
  rw [left_get x _ (by omega)]
  have e : x.length / 2 - 1 - (i - (x.length / 2 + 1)) = x.length / 2 - (i - x.length / 2) := by omega
  rw [e]
  have hi1 : x.length / 2 - (i - x.length / 2) < x.length := by omega
  have hi2 : i < x.length := by omega
  have : (right x)[i - (x.length / 2 + 1)]? = some x[i] := by
    unfold right; rw [List.getElem?_drop, show x.length / 2 + 1 + (i - (x.length / 2 + 1)) = i by omega]
    exact List.getElem?_eq_getElem hi2
  rw [List.getElem?_eq_getElem hi1, this]
  simp [List.getD_eq_getElem?_getD, hi1, hi2]

/-- C27: for every number of delays, odd or even, and every positive delay `+k`, the folded value is the mean of the
values at `+k` and `-k` (which exists); zero delay is kept. -/
theorem C27_positive_delay_is_mean (x : List F) (k : Nat) (hk : 1 ≤ k) (hN : x.length / 2 + k < x.length) :
    ∃ a b, x[x.length / 2 + k]? = some a ∧ k ≤ x.length / 2 ∧ x[x.length / 2 - k]? = some b ∧
      (foldData x)[x.length / 2 + k]? = some ((a + b) / 2) := by
  have h1 : x.length / 2 - k < x.length := by omega
  refine ⟨x[x.length / 2 + k], x[x.length / 2 - k], List.getElem?_eq_getElem hN, by omega, List.getElem?_eq_getElem h1, ?_⟩
  rw [foldData_get, if_neg (by omega), if_neg (by omega), if_neg (by omega)]
  have e : x.length / 2 - (x.length / 2 + k - x.length / 2) = x.length / 2 - k := by omega
  rw [e]
  simp only [List.getD_eq_getElem?_getD, List.getElem?_eq_getElem hN, List.getElem?_eq_getElem h1, Option.getD_some]
  rw [add_comm]

/-- C27: zero delay is kept, negative delays are zeroed, the number of delays does not change. -/
theorem C27_zero_and_negative (x : List F) :
    (foldData x).length = x.length ∧ (foldData x)[x.length / 2]? = x[x.length / 2]? ∧
    ∀ i < x.length / 2, (foldData x)[i]? = some 0 := by
  refine ⟨length_foldData x, ?_, ?_⟩
  · rw [foldData_get]
    by_cases h : x.length ≤ x.length / 2
    · rw [if_pos h]; exact (List.getElem?_eq_none_iff.2 h).symm
    · rw [if_neg h, if_neg (by omega), if_pos rfl]
  · intro i hi; rw [foldData_get, if_neg (by omega), if_pos hi]

/-- C27: an unfolded object is folded: every spectrum's channels from zero delay on are those of `foldData`, `nsample`
doubles, the flag is set; without a `stats_array` the whole spectrum is that of `foldData`. -/
theorem C27_fold_object (nan : F) (u : Obj F) (h : u.folded = false) :
    ∃ v, foldSpectra nan u = .ok v ∧ v.folded = true ∧ v.wins.length = u.wins.length ∧
      ∀ (s : Nat) (w : Win F), u.wins[s]? = some w → ∃ w', v.wins[s]? = some w' ∧
        w'.nsample = w.nsample.map (fun n => 2 * n) ∧ w'.data.length = w.data.length ∧
        ∀ (r : Nat) x, w.data[r]? = some x → ∃ y, w'.data[r]? = some y ∧ y.length = x.length ∧
          (∀ i, x.length / 2 ≤ i → y[i]? = (foldData x)[i]?) ∧ (w.hasStats = false → y = foldData x) := by
  refine ⟨_, by unfold foldSpectra; rw [h]; rfl, rfl, by simp, ?_⟩
  intro s w hw
  refine ⟨foldWin nan w, by simp [hw], by simp [foldWin, mul_comm], by simp [foldWin], ?_⟩
  intro r x hx
  refine ⟨_, by simp only [foldWin, List.getElem?_map, hx]; rfl, ?_⟩
  have hl := length_foldData x
  cases hs : w.hasStats with
  | false => simp [length_foldData]
  | true =>
    simp only [if_true, Bool.true_eq_false, false_imp_iff, and_true]
    refine ⟨by simp [hl]; omega, fun i hi => ?_⟩
    rw [List.getElem?_append_right (by simpa using hi), List.getElem?_drop]
    simp only [List.length_replicate]
    congr 1; omega

/-- C27: folding twice is refused. -/
theorem C27_refuses_twice (nan : F) (u v : Obj F) (h : foldSpectra nan u = .ok v) :
    foldSpectra nan v = .error .assertion := by
  unfold foldSpectra at h
  split at h
  · cases h
  · cases h; rfl

/-- C27 finding: if the object carries a `stats_array` the negative delays of the data become NaN instead of zero. -/
theorem C27_finding_stats_nan (nan : F) (w : Win F) (hs : w.hasStats = true) (r : Nat) (x : List F) (hx : w.data[r]? = some x)
    (i : Nat) (hi : i < x.length / 2) : ∃ y, (foldWin nan w).data[r]? = some y ∧ y[i]? = some nan := by
  refine ⟨_, by simp only [foldWin, List.getElem?_map, hx, hs]; rfl, ?_⟩
  simp only [if_true]
  rw [List.getElem?_append_left (by simpa using hi), List.getElem?_replicate, if_pos hi]

example : (foldSpectra (F := ℚ) 0 ⟨false, [⟨[[1, 2, 3, 4, 6], [10, 20, 30, 50]], [3, 4], false⟩]⟩).map
    (fun v => (v.folded, v.wins.map (fun w => (w.data, w.nsample)))) =
    .ok (true, [([[0, 0, 3, 3, 7 / 2], [0, 0, 30, 35]], [6, 8])]) := by
  simp [foldSpectra, foldWin, foldData, assign, left, right, lo, Except.map]; norm_num

/-! ### C28 -/

/-- C28: a spectrum that is symmetric in delay is unchanged from zero delay on. -/
theorem C28_symmetric_lossless (x : List F) (h2 : (2 : F) ≠ 0)
    (hs : ∀ k, 1 ≤ k → x.length / 2 + k < x.length → x[x.length / 2 + k]? = x[x.length / 2 - k]?) (i : Nat)
    (hi : x.length / 2 ≤ i) : (foldData x)[i]? = x[i]? := by
  by_cases h0 : x.length ≤ i
  · rw [foldData_get, if_pos h0]; exact (List.getElem?_eq_none_iff.2 h0).symm
  rcases Nat.eq_or_lt_of_le hi with rfl | hlt
  · exact (C27_zero_and_negative x).2.1
  · obtain ⟨k, rfl⟩ : ∃ k, i = x.length / 2 + k := ⟨i - x.length / 2, by omega⟩
    obtain ⟨a, b, h1, _, h3, h4⟩ := C27_positive_delay_is_mean x k (by omega) (by omega)
    have := hs k (by omega) (by omega)
    rw [h1, h3] at this; cases this
    rw [h4, h1]; congr 1; field_simp; ring

/-- C28: folding is linear. -/
theorem C28_linear (x y : List F) (h : x.length = y.length) (c d : F) :
    foldData (List.zipWith (fun a b => c * a + d * b) x y) =
      List.zipWith (fun a b => c * a + d * b) (foldData x) (foldData y) := by
  have hl : (List.zipWith (fun a b => c * a + d * b) x y).length = x.length := by simp [h]
  apply List.ext_getElem?
  intro i
  rw [List.getElem?_zipWith, foldData_get, foldData_get, foldData_get, hl, ← h]
  have gd : ∀ j, j < x.length → (List.zipWith (fun a b => c * a + d * b) x y).getD j 0 = c * x.getD j 0 + d * y.getD j 0 := by
    intro j hj
    simp [List.getD_eq_getElem?_getD, List.getElem?_zipWith, hj, (h ▸ hj : j < y.length)]
  by_cases h0 : x.length ≤ i
  · simp [h0]
  · by_cases h1 : i < x.length / 2
    · simp [h0, h1]
    · by_cases h2 : i = x.length / 2
      · have e1 : i < x.length := by omega
        rw [if_neg h0, if_neg h1, if_pos h2, if_neg h0, if_neg h1, if_pos h2, if_neg h0, if_neg h1, if_pos h2,
          List.getElem?_zipWith]
      · rw [if_neg h0, if_neg h1, if_neg h2, if_neg h0, if_neg h1, if_neg h2, if_neg h0, if_neg h1, if_neg h2]
        simp only []
        rw [gd _ (by omega), gd _ (by omega)]
        congr 1; ring

/-- C28: the fold of a symmetric covariance is symmetric. -/
theorem C28_cov_symmetric (N : Nat) (C : Nat → Nat → F) (hs : ∀ i j, C i j = C j i) (i j : Nat) :
    foldCov N C i j = foldCov N C j i := by
  unfold foldCov
  simp only []
  by_cases h1 : i < N / 2 ∨ j < N / 2
  · rw [if_pos h1, if_pos (or_comm.1 h1)]
  · rw [if_neg h1, if_neg (fun h => h1 (or_comm.1 h))]
    by_cases h2 : N / 2 < i ∧ N / 2 < j
    · rw [if_pos h2, if_pos ⟨h2.2, h2.1⟩]
      rw [hs (N / 2 - 1 - (i - (N / 2 + 1))), hs (N / 2 - 1 - (i - (N / 2 + 1))) j, hs i, hs i j]; ring
    · rw [if_neg h2, if_neg (fun h => h2 ⟨h.2, h.1⟩), hs]

/-- C28 (partial: both delays positive): between positive delays `+k`, `+l` the folded covariance is that of the folded
spectra, the average of the four covariances of `±k` with `±l`. For the covariance between zero delay and positive delays
see the counterexample. Missing: the covariance between zero delay and positive delays, which the code does not fold. -/
theorem C28_cov_positive_partial (N : Nat) (C : Nat → Nat → F) (k l : Nat) (hk : 1 ≤ k) (hl : 1 ≤ l) (hkN : N / 2 + k < N)
    (hlN : N / 2 + l < N) :
    foldCov N C (N / 2 + k) (N / 2 + l) = (1 / 2) * (1 / 2) * (C (N / 2 + k) (N / 2 + l) + C (N / 2 + k) (N / 2 - l) +
      C (N / 2 - k) (N / 2 + l) + C (N / 2 - k) (N / 2 - l)) := by
  unfold foldCov
  simp only []
  rw [if_neg (by omega), if_pos (by omega)]
  have e1 : N / 2 - 1 - (N / 2 + k - (N / 2 + 1)) = N / 2 - k := by omega
  have e2 : N / 2 - 1 - (N / 2 + l - (N / 2 + 1)) = N / 2 - l := by omega
  rw [e1, e2, div_eq_mul_inv, show (4 : F) = 2 * 2 by norm_num, mul_inv]; ring

/-- C28 finding: the covariance between zero delay and a positive delay is left as it was, although the folded spectrum at
`+k` is the mean of `±k`, so that their covariance is `(C 0 (+k) + C 0 (-k)) / 2`. -/
theorem C28_finding_zero_delay_cov (N : Nat) (C : Nat → Nat → F) (k : Nat) (hk : N / 2 + k < N) :
    foldCov N C (N / 2) (N / 2 + k) = C (N / 2) (N / 2 + k) := by
  unfold foldCov
  simp only []
  rw [if_neg (by omega), if_neg (by omega)]

/-- C28 counterexample for three delays: the covariance of the folded spectra is 1/2, the folded covariance says 1. -/
theorem C28_counterexample_zero_delay_cov :
    ∃ C : Nat → Nat → ℚ, (∀ i j, C i j = C j i) ∧ foldCov 3 C 1 2 ≠ (C 1 2 + C 1 0) / 2 := by
  refine ⟨fun i j => if (i = 1 ∧ j = 2) ∨ (i = 2 ∧ j = 1) ∨ i = j then 1 else 0, ?_, ?_⟩
  · intro i j; simp only []; congr 1; apply propext; constructor <;> (intro h; omega)
  · simp [foldCov]

theorem foldStat_get (x : List ℝ) (k : Nat) (hk : 1 ≤ k) (hN : x.length / 2 + k < x.length) :
    ∃ a b, x[x.length / 2 + k]? = some a ∧ x[x.length / 2 - k]? = some b ∧
      (foldStat x)[x.length / 2 + k]? = some ((1 / b ^ 2 + 1 / a ^ 2) ^ (-(1 / 2 : ℝ))) := by
  have h1 : x.length / 2 - k < x.length := by omega
  have hx : x ≠ [] := by rintro rfl; simp at hN
  refine ⟨x[x.length / 2 + k], x[x.length / 2 - k], List.getElem?_eq_getElem hN, List.getElem?_eq_getElem h1, ?_⟩
  unfold foldStat
  have hr := length_right x
  have hll := len_lr x hx
  rw [List.getElem?_append_right (by simp; omega), List.getElem?_zipWith]
  have e0 : (x.take (x.length / 2 + 1)).length = x.length / 2 + 1 := by simp; omega
  rw [e0, left_get x _ (by omega)]
  have e : x.length / 2 - 1 - (x.length / 2 + k - (x.length / 2 + 1)) = x.length / 2 - k := by omega
  rw [e]
  have : (right x)[x.length / 2 + k - (x.length / 2 + 1)]? = some x[x.length / 2 + k] := by
    unfold right
    rw [List.getElem?_drop, show x.length / 2 + 1 + (x.length / 2 + k - (x.length / 2 + 1)) = x.length / 2 + k by omega]
    exact List.getElem?_eq_getElem hN
  rw [List.getElem?_eq_getElem h1, this]

/-- C28: errors of both delays combine to a positive error not larger than either, and equal errors `s` give `s / sqrt 2`. -/
theorem C28_stats_fold (x : List ℝ) (k : Nat) (hk : 1 ≤ k) (hN : x.length / 2 + k < x.length) (hp : ∀ a ∈ x, 0 < a) :
    ∃ a b s, x[x.length / 2 + k]? = some a ∧ x[x.length / 2 - k]? = some b ∧ (foldStat x)[x.length / 2 + k]? = some s ∧
      0 < s ∧ s ≤ a ∧ s ≤ b ∧ (1 / s ^ 2 = 1 / a ^ 2 + 1 / b ^ 2) ∧ (a = b → s = a / Real.sqrt 2) := by
  obtain ⟨a, b, ha, hb, hs⟩ := foldStat_get x k hk hN
  have pa := hp a (List.mem_of_getElem? ha)
  have pb := hp b (List.mem_of_getElem? hb)
  have qa : 0 < 1 / a ^ 2 := by positivity
  have qb : 0 < 1 / b ^ 2 := by positivity
  set t := 1 / b ^ 2 + 1 / a ^ 2 with ht
  have pt : 0 < t := by positivity
  have hst : t ^ (-(1 / 2 : ℝ)) = 1 / Real.sqrt t := by
    rw [Real.rpow_neg pt.le, ← Real.sqrt_eq_rpow, one_div]
  have psq : 0 < Real.sqrt t := Real.sqrt_pos.2 pt
  have hle : ∀ c, 0 < c → 1 / c ^ 2 ≤ t → 1 / Real.sqrt t ≤ c := by
    intro c hc h
    rw [div_le_iff₀ psq]
    have h1 : Real.sqrt (1 / c ^ 2) ≤ Real.sqrt t := Real.sqrt_le_sqrt h
    rw [Real.sqrt_div zero_le_one, Real.sqrt_one, Real.sqrt_sq hc.le, div_le_iff₀ hc] at h1
    linarith
  refine ⟨a, b, 1 / Real.sqrt t, ha, hb, by rw [hs, hst], by positivity, hle a pa (by linarith), hle b pb (by linarith), ?_, ?_⟩
  · rw [div_pow, Real.sq_sqrt pt.le, one_pow, one_div_one_div, ht]; ring
  · rintro rfl
    have : t = 2 / a ^ 2 := by rw [ht]; ring
    rw [this, Real.sqrt_div (by norm_num), Real.sqrt_sq pa.le]
    field_simp

/-- C28 finding: the folded spectrum is the mean of the two opposite delays, whose error is `sqrt (a² + b²) / 2` for independent
errors `a`, `b`. The error that is stored is never larger, and smaller whenever `a ≠ b`: inverse-variance weights are assumed that
were not used. -/
theorem C28_finding_error_understated (x : List ℝ) (k : Nat) (hk : 1 ≤ k) (hN : x.length / 2 + k < x.length) (hp : ∀ a ∈ x, 0 < a) :
    ∃ a b s, x[x.length / 2 + k]? = some a ∧ x[x.length / 2 - k]? = some b ∧ (foldStat x)[x.length / 2 + k]? = some s ∧
      s ≤ Real.sqrt (a ^ 2 + b ^ 2) / 2 ∧ (a ≠ b → s < Real.sqrt (a ^ 2 + b ^ 2) / 2) := by
  obtain ⟨a, b, s, h1, h2, h3, h4, _, _, h7, _⟩ := C28_stats_fold x k hk hN hp
  have pa := hp a (List.mem_of_getElem? h1)
  have pb := hp b (List.mem_of_getElem? h2)
  have e : s ^ 2 * (a ^ 2 + b ^ 2) = a ^ 2 * b ^ 2 := by
    field_simp at h7
    linarith
  have hs2 : s ^ 2 = a ^ 2 * b ^ 2 / (a ^ 2 + b ^ 2) := by rw [eq_div_iff (by positivity), e]
  refine ⟨a, b, s, h1, h2, h3, ?_, ?_⟩
  · rw [le_div_iff₀ two_pos]
    refine Real.le_sqrt_of_sq_le ?_
    rw [mul_pow, hs2, div_mul_eq_mul_div, div_le_iff₀ (by positivity)]
    nlinarith [sq_nonneg (a ^ 2 - b ^ 2)]
  · intro hab
    rw [lt_div_iff₀ two_pos]
    refine Real.lt_sqrt_of_sq_lt ?_
    rw [mul_pow, hs2, div_mul_eq_mul_div, div_lt_iff₀ (by positivity)]
    have : 0 < (a ^ 2 - b ^ 2) ^ 2 := by
      have : a ^ 2 - b ^ 2 = (a - b) * (a + b) := by ring
      rw [this]
      have h1 : a - b ≠ 0 := sub_ne_zero.2 hab
      have h2 : a + b ≠ 0 := by positivity
      positivity
    nlinarith

end HeraPspec.Fold
