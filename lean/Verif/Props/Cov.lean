import Verif.Model.Cov
import Mathlib.LinearAlgebra.Matrix.PosDef
import Mathlib.Analysis.Complex.Order
import Mathlib.Analysis.Complex.Basic
import Mathlib.Tactic.Ring
import Mathlib.Tactic.NormNum
import Mathlib.Tactic.FieldSimp
import Mathlib.Tactic.Linarith
import Mathlib.LinearAlgebra.Matrix.Notation

/-!
C45: the empirical covariance `utils.cov`.
-/
namespace HeraPspec.Cov
open Matrix
open scoped ComplexOrder
noncomputable section

variable {m m' n : Type} [Fintype n]

theorem cov2_ok {d1 : Matrix m n ℂ} {w1 : Matrix m n ℝ} {d2 : Matrix m' n ℂ} {w2 : Matrix m' n ℝ} {c1 c2 : Bool} {C : Matrix m m' ℂ}
    (h : cov2 d1 w1 d2 w2 c1 c2 = .ok C) : C = covRaw d1 w1 d2 w2 c1 c2 ∧ (∀ i t, 0 ≤ w1 i t) ∧ (∀ i t, 0 ≤ w2 i t) := by
  unfold cov2 at h
  split at h
  · cases h
  · rename_i hn
    injection h with h
    push Not at hn
    exact ⟨h.symm, hn.1, hn.2⟩

theorem cov2_of_nonneg (d1 : Matrix m n ℂ) (w1 : Matrix m n ℝ) (d2 : Matrix m' n ℂ) (w2 : Matrix m' n ℝ) (c1 c2 : Bool)
    (h1 : ∀ i t, 0 ≤ w1 i t) (h2 : ∀ i t, 0 ≤ w2 i t) : cov2 d1 w1 d2 w2 c1 c2 = .ok (covRaw d1 w1 d2 w2 c1 c2) := by
  unfold cov2
  rw [if_neg]
  push Not
  exact ⟨h1, h2⟩

theorem star_conjIf (c : Bool) (x : ℂ) : star (conjIf c x) = conjIf (!c) x := by cases c <;> simp [conjIf]

theorem conjIf_mul (c : Bool) (x y : ℂ) : conjIf c (x * y) = conjIf c x * conjIf c y := by cases c <;> simp [conjIf]

theorem conjIf_real (c : Bool) (x : ℝ) : conjIf c (x : ℂ) = x := by cases c <;> simp [conjIf]

/-- C45: negative weights are rejected, and nothing else is. -/
theorem C45_rejects_negative (d1 : Matrix m n ℂ) (w1 : Matrix m n ℝ) (d2 : Matrix m' n ℂ) (w2 : Matrix m' n ℝ) (c1 c2 : Bool) :
    cov2 d1 w1 d2 w2 c1 c2 = .error .value ↔ (∃ i t, w1 i t < 0) ∨ (∃ i t, w2 i t < 0) := by
  unfold cov2
  split <;> simp_all

/-- C45: fully flagged channels are safe: no divisor used in the covariance is zero, whatever the weights (in numpy a zero divisor would
give nan, while division by zero is zero in this model). -/
theorem C45_divisors_positive (w1 : Matrix m n ℝ) (w2 : Matrix m' n ℝ) (i : m) (j : m') :
    0 < safe (∑ t, w1 i t) ∧ 0 < safe (∑ t, w2 j t) ∧ 0 < safe (∑ t, w1 i t * w2 j t) := by
  have h : ∀ x : ℝ, 0 < safe x := by
    intro x; unfold safe; split
    · assumption
    · norm_num
  exact ⟨h _, h _, h _⟩

/-- C45: exchanging the two data sets (and the two conjugations) conjugate-transposes the cross-covariance. In particular, with the
default conjugations, `cov(d1, d2)^† = cov(d2, d1)`. -/
theorem C45_cross_adjoint (d1 : Matrix m n ℂ) (w1 : Matrix m n ℝ) (d2 : Matrix m' n ℂ) (w2 : Matrix m' n ℝ) (c1 c2 : Bool)
    (C : Matrix m m' ℂ) (h : cov2 d1 w1 d2 w2 c1 c2 = .ok C) : cov2 d2 w2 d1 w1 (!c2) (!c1) = .ok Cᴴ := by
  obtain ⟨rfl, h1, h2⟩ := cov2_ok h
  rw [cov2_of_nonneg _ _ _ _ _ _ h2 h1]
  congr 1
  ext j i
  simp only [covRaw, conjTranspose_apply, star_sub, star_div₀, star_sum, star_mul', star_conjIf]
  congr 1
  · congr 1
    · exact Finset.sum_congr rfl (fun t _ => mul_comm _ _)
    · simp only [mul_comm (w2 _ _)]
      simp
  · exact mul_comm _ _

/-- C45: the covariance of one data set is Hermitian, for all data and all admissible weights. -/
theorem C45_hermitian (d : Matrix m n ℂ) (w : Matrix m n ℝ) (C : Matrix m m ℂ) (h : cov d w = .ok C) : C.IsHermitian := by
  have h' := C45_cross_adjoint d w d w false true C h
  have : (Except.ok C : Except Err _) = .ok Cᴴ := by rw [← h']; exact h.symm
  injection this with this
  exact this.symm

/-- C45: without conjugation the covariance of one data set is symmetric. -/
theorem C45_symmetric (d : Matrix m n ℂ) (w : Matrix m n ℝ) (c : Bool) (C : Matrix m m ℂ) (h : cov d w c c = .ok C) : Cᵀ = C := by
  obtain ⟨rfl, _, _⟩ := cov2_ok h
  ext j i
  simp only [covRaw, transpose_apply]
  congr 1
  · congr 1
    · exact Finset.sum_congr rfl (fun t _ => mul_comm _ _)
    · simp only [mul_comm (w i _)]
  · exact mul_comm _ _

/-- C45: multiplying the data by complex constants multiplies the covariance by `a · b*`; for one data set, by `|a|²`. -/
theorem C45_scaling (d1 : Matrix m n ℂ) (w1 : Matrix m n ℝ) (d2 : Matrix m' n ℂ) (w2 : Matrix m' n ℝ) (a b : ℂ)
    (C : Matrix m m' ℂ) (h : cov2 d1 w1 d2 w2 = .ok C) : cov2 (a • d1) w1 (b • d2) w2 = .ok ((a * star b) • C) := by
  obtain ⟨rfl, h1, h2⟩ := cov2_ok h
  rw [cov2_of_nonneg _ _ _ _ _ _ h1 h2]
  congr 1
  ext i j
  have hs : ∀ {m : Type} (a : ℂ) (d : Matrix m n ℂ) (w : Matrix m n ℝ) (i : m), wavg (a • d) w i = a * wavg d w i := by
    intro m a d w i
    unfold wavg
    rw [← mul_div_assoc, Finset.mul_sum]
    congr 1
    refine Finset.sum_congr rfl (fun t _ => ?_)
    simp only [Matrix.smul_apply, smul_eq_mul]; ring
  simp only [covRaw, hs, Matrix.smul_apply, smul_eq_mul, mul_sub, ← mul_div_assoc, Finset.mul_sum]
  congr 1
  · congr 1
    refine Finset.sum_congr rfl (fun t _ => ?_)
    simp [conjIf]; ring
  · simp [conjIf]; ring

theorem C45_scaling_auto (d : Matrix m n ℂ) (w : Matrix m n ℝ) (a : ℂ) (C : Matrix m m ℂ) (h : cov d w = .ok C) :
    cov (a • d) w = .ok (((‖a‖ ^ 2 : ℝ) : ℂ) • C) := by
  have h' := C45_scaling d w d w a a C h
  have : a * star a = ((‖a‖ ^ 2 : ℝ) : ℂ) := by
    rw [← Complex.normSq_eq_norm_sq]; exact Complex.mul_conj a
  rw [← this]; exact h'

/-! ### Flags: weights 0 or 1 -/

/-- Number of samples that are good. -/
def nGood (good : n → Bool) : ℕ := (Finset.univ.filter (fun t => good t = true)).card

/-- Mean over the good samples (0 when there is none). -/
def meanOver (good : n → Bool) (x : n → ℂ) : ℂ := (∑ t with good t = true, x t) / (nGood good : ℂ)

/-- Textbook sample cross-covariance of two series over the good samples: mean of `(x - x̄)(y - ȳ)*`. -/
def sampleCov (good : n → Bool) (x y : n → ℂ) : ℂ :=
  (∑ t with good t = true, (x t - meanOver good x) * star (y t - meanOver good y)) / (nGood good : ℂ)

/-- Weights of flags. -/
def flagW (good : m → n → Bool) : Matrix m n ℝ := fun i t => if good i t then 1 else 0

theorem flagW_nonneg (good : m → n → Bool) : ∀ i t, 0 ≤ flagW good i t := by
  intro i t; unfold flagW; split <;> norm_num

theorem sum_flag (good : n → Bool) (x : n → ℂ) : ∑ t, ((if good t then (1 : ℝ) else 0 : ℝ) : ℂ) * x t = ∑ t with good t = true, x t := by
  rw [Finset.sum_filter]
  refine Finset.sum_congr rfl (fun t _ => ?_)
  split <;> simp

theorem sum_flag_one (good : n → Bool) : ∑ t, (if good t then (1 : ℝ) else 0) = nGood good := by
  unfold nGood; rw [Finset.card_filter]; push_cast; rfl

theorem safe_nat (k : ℕ) (x : ℂ) (h : k = 0 → x = 0) : x / (safe (k : ℝ) : ℂ) = x / (k : ℂ) := by
  unfold safe
  by_cases hk : k = 0
  · subst hk; rw [h rfl]; simp
  · rw [if_pos (by positivity)]; simp

theorem sum_zero_of_nGood {good : n → Bool} (h : nGood good = 0) (f : n → ℂ) : ∑ t with good t = true, f t = 0 := by
  unfold nGood at h
  rw [Finset.card_eq_zero] at h
  rw [h]; rfl

theorem wavg_flag (d : Matrix m n ℂ) (good : m → n → Bool) (i : m) : wavg d (flagW good) i = meanOver (good i) (d i) := by
  unfold wavg meanOver flagW
  rw [sum_flag, sum_flag_one, safe_nat]
  intro h; exact sum_zero_of_nGood h _

theorem sampleCov_expand (good : n → Bool) (x y : n → ℂ) :
    sampleCov good x y = (∑ t with good t = true, x t * star (y t)) / (nGood good : ℂ) - meanOver good x * star (meanOver good y) := by
  unfold sampleCov
  by_cases hk : nGood good = 0
  · rw [sum_zero_of_nGood hk, sum_zero_of_nGood hk]
    unfold meanOver
    rw [sum_zero_of_nGood hk]; simp
  · have hk' : (nGood good : ℂ) ≠ 0 := by exact_mod_cast hk
    have hx : ∑ t with good t = true, x t = nGood good * meanOver good x := by
      unfold meanOver; field_simp
    have hy : ∑ t with good t = true, star (y t) = nGood good * star (meanOver good y) := by
      rw [← star_sum]
      have : ∑ t with good t = true, y t = nGood good * meanOver good y := by unfold meanOver; field_simp
      rw [this]; simp
    have : ∑ t with good t = true, (x t - meanOver good x) * star (y t - meanOver good y) =
        (∑ t with good t = true, x t * star (y t)) - nGood good * (meanOver good x * star (meanOver good y)) := by
      have e : ∀ t, (x t - meanOver good x) * star (y t - meanOver good y) =
          x t * star (y t) - x t * star (meanOver good y) - meanOver good x * star (y t) + meanOver good x * star (meanOver good y) := by
        intro t; rw [star_sub]; ring
      simp only [e, Finset.sum_add_distrib, Finset.sum_sub_distrib, ← Finset.sum_mul, ← Finset.mul_sum, hx, hy]
      rw [Finset.sum_const]
      simp only [nsmul_eq_mul]
      have hc : ((Finset.univ.filter (fun t => good t = true)).card : ℂ) = nGood good := rfl
      rw [hc]
      ring
    rw [this, sub_div]
    congr 1
    field_simp

/-- C45: with flags (0/1 weights), every entry whose two channels have the same good times is the textbook sample covariance over
those times. -/
theorem C45_sample_covariance (d : Matrix m n ℂ) (good : m → n → Bool) (C : Matrix m m ℂ) (h : cov d (flagW good) = .ok C)
    (i j : m) (hij : good i = good j) : C i j = sampleCov (good i) (d i) (d j) := by
  obtain ⟨rfl, _, _⟩ := cov2_ok h
  rw [sampleCov_expand]
  unfold covRaw
  rw [wavg_flag, wavg_flag, ← hij]
  congr 1
  have h1 : ∑ t, flagW good i t * flagW good j t = nGood (good i) := by
    rw [← sum_flag_one]
    refine Finset.sum_congr rfl (fun t _ => ?_)
    unfold flagW; rw [hij]; split <;> simp
  have h2 : ∑ t, conjIf false ((flagW good i t : ℂ) * d i t) * conjIf true ((flagW good j t : ℂ) * d j t) =
      ∑ t with good i t = true, d i t * star (d j t) := by
    rw [← sum_flag]
    refine Finset.sum_congr rfl (fun t _ => ?_)
    unfold flagW conjIf; rw [← hij]; by_cases hg : good i t = true <;> simp [hg]
  rw [h1, h2, safe_nat]
  intro hk; exact sum_zero_of_nGood hk _

theorem div_nat_nonneg (x : ℂ) (k : ℕ) (h : 0 ≤ x) : 0 ≤ x / (k : ℂ) := by
  rw [Complex.le_def] at h ⊢
  obtain ⟨h1, h2⟩ := h
  have : x / (k : ℂ) = (((x.re / k : ℝ)) : ℂ) := by
    apply Complex.ext
    · simp
    · simp [← h2]
  rw [this]
  exact ⟨by simpa using div_nonneg h1 (Nat.cast_nonneg k), by simp⟩

/-- C45: with 0/1 weights the diagonal is real and non-negative, whatever the flags. -/
theorem C45_diagonal_nonneg (d : Matrix m n ℂ) (good : m → n → Bool) (C : Matrix m m ℂ) (h : cov d (flagW good) = .ok C) (i : m) :
    (C i i).im = 0 ∧ 0 ≤ (C i i).re := by
  rw [C45_sample_covariance d good C h i i rfl]
  have hnn : (0 : ℂ) ≤ sampleCov (good i) (d i) (d i) := by
    unfold sampleCov
    exact div_nat_nonneg _ _ (Finset.sum_nonneg (fun t _ => mul_star_self_nonneg _))
  rw [Complex.le_def] at hnn
  exact ⟨hnn.2.symm, hnn.1⟩

theorem meanOver_add {good : n → Bool} (hk : nGood good ≠ 0) (x : n → ℂ) (a : ℂ) : meanOver good (fun t => x t + a) = meanOver good x + a := by
  have hk' : (nGood good : ℂ) ≠ 0 := by exact_mod_cast hk
  unfold meanOver
  rw [Finset.sum_add_distrib, Finset.sum_const, nsmul_eq_mul]
  change (_ + (nGood good : ℂ) * a) / _ = _
  field_simp

/-- C45 (partial: only when all channels share their good times): adding a constant to every channel leaves the covariance unchanged. Missing: channels with different flags, for which the claim is false of the code. -/
theorem C45_translation_partial (d : Matrix m n ℂ) (good : n → Bool) (a : m → ℂ) :
    cov (fun i t => d i t + a i) (flagW (fun _ => good)) = cov d (flagW (fun _ => good)) := by
  have hw := flagW_nonneg (fun _ : m => good)
  unfold cov
  have e1 := cov2_of_nonneg (fun i t => d i t + a i) (flagW (fun _ => good)) (fun i t => d i t + a i) (flagW (fun _ => good)) false true hw hw
  have e2 := cov2_of_nonneg d (flagW (fun _ => good)) d (flagW (fun _ => good)) false true hw hw
  rw [e1, e2]
  congr 1
  ext i j
  rw [C45_sample_covariance _ _ _ e1 i j rfl, C45_sample_covariance _ _ _ e2 i j rfl]
  by_cases hk : nGood good = 0
  · unfold sampleCov; rw [sum_zero_of_nGood hk, sum_zero_of_nGood hk]
  · unfold sampleCov
    rw [meanOver_add hk, meanOver_add hk]
    congr 1
    refine Finset.sum_congr rfl (fun t _ => ?_)
    rw [add_sub_add_right_eq_sub, add_sub_add_right_eq_sub]

/-- C45: unflagged data: adding a time-constant offset to every channel leaves the covariance unchanged. -/
theorem C45_translation_unflagged (d : Matrix m n ℂ) (a : m → ℂ) : cov (fun i t => d i t + a i) (fun _ _ => 1) = cov d (fun _ _ => 1) := by
  have h := C45_translation_partial d (fun _ => true) a
  have e : flagW (fun (_ : m) (_ : n) => true) = fun _ _ => 1 := by ext; simp [flagW]
  rwa [e] at h

/-- C45: when all channels share their good times the covariance is positive semi-definite. -/
theorem C45_psd [Fintype m] (d : Matrix m n ℂ) (good : n → Bool) (C : Matrix m m ℂ) (h : cov d (flagW (fun _ => good)) = .ok C) :
    ∀ v : m → ℂ, 0 ≤ star v ⬝ᵥ (C *ᵥ v) := by
  intro v
  have hC : ∀ i j, C i j = sampleCov good (d i) (d j) := fun i j => C45_sample_covariance d _ C h i j rfl
  have : star v ⬝ᵥ (C *ᵥ v) = (∑ t with good t = true, (∑ i, star (v i) * (d i t - meanOver good (d i))) *
      star (∑ i, star (v i) * (d i t - meanOver good (d i)))) / (nGood good : ℂ) := by
    simp only [dotProduct, mulVec, hC, sampleCov, Pi.star_apply, star_sum, star_mul', star_star, Finset.sum_mul_sum, Finset.mul_sum,
      Finset.sum_mul, div_eq_mul_inv]
    have hsw : ∀ f : m → m → n → ℂ, ∑ i, ∑ j, ∑ t with good t = true, f i j t = ∑ t with good t = true, ∑ i, ∑ j, f i j t := by
      intro f
      rw [Finset.sum_congr rfl (fun j _ => Finset.sum_comm), Finset.sum_comm]
    rw [hsw]
    refine Finset.sum_congr rfl (fun t _ => ?_)
    rw [Finset.sum_comm]
    refine (Finset.sum_congr rfl (fun i _ => Finset.sum_congr rfl (fun j _ => ?_)))
    ring
  rw [this]
  exact div_nat_nonneg _ _ (Finset.sum_nonneg (fun t _ => mul_star_self_nonneg _))

/-- C45 counterexample: weights other than 0 and 1 can give a negative variance: `w = (1, 2)`, `d = (2, 1)` gives `-8/45`. -/
theorem C45_counterexample_weights : ∃ (d : Matrix (Fin 1) (Fin 2) ℂ) (w : Matrix (Fin 1) (Fin 2) ℝ) (C : Matrix (Fin 1) (Fin 1) ℂ),
    (∀ i t, 0 < w i t) ∧ cov d w = .ok C ∧ (C 0 0).re < 0 := by
  have hw : ∀ i t, 0 ≤ (!![1, 2] : Matrix (Fin 1) (Fin 2) ℝ) i t := by
    intro i t; fin_cases i; fin_cases t <;> simp
  refine ⟨!![2, 1], !![1, 2], _, ?_, cov2_of_nonneg _ _ _ _ _ _ hw hw, ?_⟩
  · intro i t; fin_cases i; fin_cases t <;> simp
  · simp [covRaw, wavg, safe, conjIf, Fin.sum_univ_two]
    norm_num

/-- C45 counterexample: when two channels have different good times (channel 0: both times; channel 1: the first only), adding 1 to
both channels changes their covariance. -/
theorem C45_counterexample_translation : ∃ (d : Matrix (Fin 2) (Fin 2) ℂ) (good : Fin 2 → Fin 2 → Bool) (C C' : Matrix (Fin 2) (Fin 2) ℂ),
    cov d (flagW good) = .ok C ∧ cov (fun i t => d i t + 1) (flagW good) = .ok C' ∧ C 0 1 = 0 ∧ C' 0 1 ≠ 0 := by
  refine ⟨!![1, 0; 0, 0], fun i t => i == 0 || t == 0, _, _, cov2_of_nonneg _ _ _ _ _ _ (flagW_nonneg _) (flagW_nonneg _),
    cov2_of_nonneg _ _ _ _ _ _ (flagW_nonneg _) (flagW_nonneg _), ?_, ?_⟩
  · simp [covRaw, wavg, safe, conjIf, flagW, Fin.sum_univ_two]
  · simp [covRaw, wavg, safe, conjIf, flagW, Fin.sum_univ_two]
    norm_num

/-- Non-vacuity: two channels, three times, the last time flagged. -/
example : ∃ C, cov (!![1, 3, 9; Complex.I, 0, 9] : Matrix (Fin 2) (Fin 3) ℂ) (flagW (fun _ t => t != 2)) = .ok C ∧ C 0 0 = 1 := by
  refine ⟨_, cov2_of_nonneg _ _ _ _ _ _ (flagW_nonneg _) (flagW_nonneg _), ?_⟩
  have h3 : (starRingEnd ℂ) 3 = 3 := Complex.conj_ofNat 3
  simp [covRaw, wavg, safe, conjIf, flagW, Fin.sum_univ_three, h3]
  norm_num

end
end HeraPspec.Cov
