import Verif.Model.Noise
import Mathlib.LinearAlgebra.Matrix.PosDef
import Mathlib.Algebra.BigOperators.Field
import Mathlib.Tactic.Linarith
import Mathlib.Tactic.FieldSimp
import Mathlib.Tactic.Ring
import Mathlib.Tactic.Positivity

/-!
C70, C85: noise power spectra and the approximate correlation matrix.
-/
namespace HeraPspec.Noise
open Finset

/-- `1` for P(k), `k^3/(2 pi^2)` for `Delta^2`. -/
noncomputable def dsqFactor : Option ℝ → ℝ
  | none => 1
  | some k => k ^ 3 / (2 * Real.pi ^ 2)

/-- The radiometer value: `scalar (1000 Tsys)^2 / (t N_coh sqrt(N_incoh))`, divided by `sqrt 2` for one component, times
`k^3/(2 pi^2)` for `Delta^2`. -/
noncomputable def radiometer (scalar tsys tint ncoh nincoh : ℝ) (oneComponent : Bool) (dsq : Option ℝ) : ℝ :=
  scalar * (1000 * tsys) ^ 2 / (tint * ncoh * Real.sqrt nincoh) * (if oneComponent then 1 / Real.sqrt 2 else 1) *
    dsqFactor dsq

/-- C70: exactly the documented arguments are accepted, and the result is the radiometer formula. -/
theorem C70_value (scalar tsys tint ncoh : ℝ) (nincoh : Option ℝ) (form : Form) (k : Option ℝ) (comp : Comp) :
    calcPN scalar tsys tint ncoh nincoh form k comp =
      if form = .other ∨ comp = .other ∨ (form = .delSq ∧ k = none) then .error .assertion
      else .ok (radiometer scalar tsys tint ncoh (nincoh.getD 1) (decide (comp ≠ .abs)) (if form = .delSq then k else none)) := by
  have e : (tsys * 1e3) = 1000 * tsys := by ring_nf
  cases form <;> cases comp <;> cases k <;> cases nincoh <;> simp [calcPN, radiometer, dsqFactor] <;> field_simp <;> ring_nf <;> simp

/-- C70: scaling by any factor: quadratic in `Tsys`, inverse in `t_int` and `N_coherent`, inverse square root in `N_incoherent`,
linear in the scalar, cubic in `k`. -/
theorem C70_scaling (scalar tsys tint ncoh nincoh a : ℝ) (ha : 0 < a) (hn : 0 ≤ nincoh) (oc : Bool) (k : ℝ) (d : Option ℝ) :
    radiometer (a * scalar) tsys tint ncoh nincoh oc d = a * radiometer scalar tsys tint ncoh nincoh oc d ∧
    radiometer scalar (a * tsys) tint ncoh nincoh oc d = a ^ 2 * radiometer scalar tsys tint ncoh nincoh oc d ∧
    radiometer scalar tsys (a * tint) ncoh nincoh oc d = radiometer scalar tsys tint ncoh nincoh oc d / a ∧
    radiometer scalar tsys tint (a * ncoh) nincoh oc d = radiometer scalar tsys tint ncoh nincoh oc d / a ∧
    radiometer scalar tsys tint ncoh (a * nincoh) oc d = radiometer scalar tsys tint ncoh nincoh oc d / Real.sqrt a ∧
    radiometer scalar tsys tint ncoh nincoh oc (some (a * k)) = a ^ 3 * radiometer scalar tsys tint ncoh nincoh oc (some k) := by
  unfold radiometer
  refine ⟨by ring, by ring, ?_, ?_, ?_, by unfold dsqFactor; ring⟩
  · rw [mul_assoc a tint, mul_assoc a, div_mul_eq_div_div_swap]; ring
  · rw [mul_left_comm tint a, mul_assoc a, div_mul_eq_div_div_swap]; ring
  · rw [Real.sqrt_mul ha.le, mul_left_comm (tint * ncoh), div_mul_eq_div_div_swap]; ring

/-- C70: for positive parameters the noise is positive, grows with the scalar and `Tsys`, and falls with every kind of averaging. -/
theorem C70_monotone (scalar tsys tint ncoh nincoh : ℝ) (hs : 0 < scalar) (hT : 0 < tsys) (ht : 0 < tint) (hc : 0 < ncoh)
    (hi : 0 < nincoh) (oc : Bool) (d : Option ℝ) (hd : ∀ k ∈ d, 0 < k) :
    0 < radiometer scalar tsys tint ncoh nincoh oc d ∧
    (∀ T', tsys < T' → radiometer scalar tsys tint ncoh nincoh oc d < radiometer scalar T' tint ncoh nincoh oc d) ∧
    (∀ t', tint < t' → radiometer scalar tsys t' ncoh nincoh oc d < radiometer scalar tsys tint ncoh nincoh oc d) ∧
    (∀ n', ncoh < n' → radiometer scalar tsys tint n' nincoh oc d < radiometer scalar tsys tint ncoh nincoh oc d) ∧
    (∀ n', nincoh < n' → radiometer scalar tsys tint ncoh n' oc d < radiometer scalar tsys tint ncoh nincoh oc d) := by
  have hsq := Real.sqrt_pos.2 hi
  have h2 : (0 : ℝ) < if oc then 1 / Real.sqrt 2 else 1 := by cases oc <;> simp
  have h3 : (0 : ℝ) < dsqFactor d := by
    cases d with
    | none => exact one_pos
    | some k => unfold dsqFactor; have := hd k rfl; have := Real.pi_pos; positivity
  have hfac := mul_pos h2 h3
  have key : ∀ x y : ℝ, x < y → x * (if oc then 1 / Real.sqrt 2 else 1) * dsqFactor d <
      y * (if oc then 1 / Real.sqrt 2 else 1) * dsqFactor d :=
    fun x y h => by rw [mul_assoc, mul_assoc]; exact mul_lt_mul_of_pos_right h hfac
  have hnum : 0 < scalar * (1000 * tsys) ^ 2 := by positivity
  refine ⟨?_, ?_, ?_, ?_, ?_⟩
  · unfold radiometer; rw [mul_assoc]; exact mul_pos (by positivity) hfac
  · intro T' hT'
    apply key
    apply div_lt_div_of_pos_right _ (by positivity)
    apply mul_lt_mul_of_pos_left _ hs
    nlinarith
  · intro t' h
    apply key
    apply div_lt_div_of_pos_left hnum (by positivity)
    apply mul_lt_mul_of_pos_right _ hsq
    exact mul_lt_mul_of_pos_right h hc
  · intro n' h
    apply key
    apply div_lt_div_of_pos_left hnum (by positivity)
    apply mul_lt_mul_of_pos_right _ hsq
    exact mul_lt_mul_of_pos_left h ht
  · intro n' h
    apply key
    apply div_lt_div_of_pos_left hnum (by positivity)
    apply mul_lt_mul_of_pos_left _ (by positivity)
    exact Real.sqrt_lt_sqrt hi.le h

/-- C70: one component has `1/sqrt 2` of the amplitude: the squares of the two components add up to the square of `abs`. -/
theorem C70_components (scalar tsys tint ncoh nincoh : ℝ) (d : Option ℝ) :
    radiometer scalar tsys tint ncoh nincoh true d ^ 2 + radiometer scalar tsys tint ncoh nincoh true d ^ 2 =
      radiometer scalar tsys tint ncoh nincoh false d ^ 2 := by
  unfold radiometer
  simp only [if_true, Bool.false_eq_true, if_false, mul_pow, one_div, inv_pow]
  rw [Real.sq_sqrt (by norm_num)]
  ring

/-! ### The correlation matrix -/

variable {n : Nat} [NeZero n]

/-- The phase `exp(-2 pi i a k / n)`, with integer `a`, `k`. -/
noncomputable def ph (n : Nat) (m : ℤ) : ℂ := Complex.exp (-2 * Real.pi * Complex.I * m / n)

theorem ph_add (a b : ℤ) : ph n (a + b) = ph n a * ph n b := by
  unfold ph; rw [← Complex.exp_add]; congr 1; push_cast; ring

theorem ph_conj (a : ℤ) : (starRingEnd ℂ) (ph n a) = ph n (-a) := by
  unfold ph
  rw [← Complex.exp_conj]
  congr 1
  simp [map_ofNat]

theorem ph_mul_n (a : ℤ) : ph n (n * a) = 1 := by
  unfold ph
  have hn : (n : ℂ) ≠ 0 := by exact_mod_cast NeZero.ne n
  have : -2 * Real.pi * Complex.I * ((n * a : ℤ) : ℂ) / n = ((-a : ℤ) : ℂ) * (2 * Real.pi * Complex.I) := by
    push_cast; field_simp
  rw [this, Complex.exp_int_mul_two_pi_mul_I]

theorem ph_emod (a b : ℤ) : ph n (a * (b % n)) = ph n (a * b) := by
  conv => rhs; rw [← Int.emod_add_mul_ediv b n]
  rw [mul_add, ph_add, mul_left_comm, ph_mul_n, mul_one]

theorem fft_ph (x : Fin n → ℂ) (k : Fin n) : fft x k = ∑ a : Fin n, x a * ph n ((a : ℕ) * (k : ℕ)) := by
  unfold fft ph
  refine Finset.sum_congr rfl (fun a _ => ?_)
  congr 2; push_cast; ring

/-- `|F(k)|^2` as a double sum. -/
theorem corrCov_double (t : Fin n → ℝ) (k : Fin n) :
    ((corrCov t k : ℝ) : ℂ) = ∑ a : Fin n, ∑ b : Fin n, ((t a ^ 2 * t b ^ 2 : ℝ) : ℂ) * ph n (((a : ℕ) - (b : ℕ) : ℤ) * (k : ℕ)) := by
  unfold corrCov
  rw [Complex.ofReal_pow, ← Complex.mul_conj', fft_ph, map_sum, Finset.sum_mul_sum]
  refine Finset.sum_congr rfl (fun a _ => Finset.sum_congr rfl (fun b _ => ?_))
  rw [map_mul, ph_conj, Complex.conj_ofReal, mul_mul_mul_comm, ← ph_add]
  push_cast
  congr 2; ring

theorem corrCov_nonneg (t : Fin n → ℝ) (k : Fin n) : 0 ≤ corrCov t k := by unfold corrCov; positivity

theorem corrCov_zero (t : Fin n → ℝ) : corrCov t 0 = (∑ a, t a ^ 2) ^ 2 := by
  have := corrCov_double t 0
  have h1 : (((∑ a, t a ^ 2) ^ 2 : ℝ) : ℂ) = ∑ a : Fin n, ∑ b : Fin n, ((t a ^ 2 * t b ^ 2 : ℝ) : ℂ) := by
    rw [sq, Finset.sum_mul_sum]; push_cast; rfl
  have h0 : ph n 0 = 1 := by simp [ph]
  apply Complex.ofReal_injective
  rw [this, h1]
  refine Finset.sum_congr rfl (fun a _ => Finset.sum_congr rfl (fun b _ => ?_))
  simp [h0]

theorem corrCov_le (t : Fin n → ℝ) (k : Fin n) : corrCov t k ≤ corrCov t 0 := by
  rw [corrCov_zero]
  unfold corrCov
  apply pow_le_pow_left₀ (norm_nonneg _)
  rw [fft_ph]
  refine (norm_sum_le _ _).trans (le_of_eq (Finset.sum_congr rfl (fun a _ => ?_)))
  rw [norm_mul]
  have h1 : ‖ph n ((a : ℕ) * (k : ℕ))‖ = 1 := by
    unfold ph
    have : -2 * Real.pi * Complex.I * (((a : ℕ) * (k : ℕ) : ℤ) : ℂ) / n = ((-2 * Real.pi * ((a : ℕ) * (k : ℕ)) / n : ℝ) : ℂ) * Complex.I := by
      push_cast; ring
    rw [this, Complex.norm_exp_ofReal_mul_I]
  rw [h1, mul_one, Complex.norm_real, Real.norm_of_nonneg (by positivity)]

theorem npMax_eq (t : Fin n → ℝ) : npMax (corrCov t) = corrCov t 0 := by
  unfold npMax
  apply le_antisymm
  · exact Finset.sup'_le _ _ (fun k _ => corrCov_le t k)
  · exact Finset.le_sup' (corrCov t) (Finset.mem_univ 0)

/-- Entry `(i, j)` as a double sum of phases. -/
theorem corrCov_sub (t : Fin n → ℝ) (i j : Fin n) :
    ((corrCov t (i - j) : ℝ) : ℂ) = ∑ a : Fin n, ∑ b : Fin n, ((t a ^ 2 * t b ^ 2 : ℝ) : ℂ) *
      (ph n (((a : ℕ) - (b : ℕ) : ℤ) * (i : ℕ)) * (starRingEnd ℂ) (ph n (((a : ℕ) - (b : ℕ) : ℤ) * (j : ℕ)))) := by
  rw [corrCov_double]
  refine Finset.sum_congr rfl (fun a _ => Finset.sum_congr rfl (fun b _ => ?_))
  congr 1
  rw [ph_conj, ← ph_add]
  have h : (((i - j : Fin n) : ℕ) : ℤ) = (((i : ℕ) : ℤ) - (j : ℕ)) % n := by
    rw [Fin.coe_sub]
    have hj : (j : ℕ) ≤ n := j.isLt.le
    push_cast [Nat.cast_sub hj]
    rw [show ((n : ℤ) - (j : ℕ) + (i : ℕ)) = ((i : ℕ) : ℤ) - (j : ℕ) + n by ring, Int.add_emod_right]
  rw [h, ph_emod]
  congr 1; ring

/-- C85: for any taper that is not identically zero and any number of delays, the approximate delay-delay matrix is a correlation
matrix: symmetric, with unit diagonal, entries between 0 and 1, and positive semidefinite. -/
theorem C85_correlation_matrix (t : Fin n → ℝ) (ht : ∃ a, t a ≠ 0) :
    (∀ i, corrMatrix t i i = 1) ∧ (∀ i j, corrMatrix t i j = corrMatrix t j i) ∧
    (∀ i j, 0 ≤ corrMatrix t i j ∧ corrMatrix t i j ≤ 1) ∧
    ∀ x : Fin n → ℝ, 0 ≤ ∑ i, ∑ j, x i * corrMatrix t i j * x j := by
  have hpos : 0 < corrCov t 0 := by
    rw [corrCov_zero]
    obtain ⟨a, ha⟩ := ht
    have : 0 < ∑ a, t a ^ 2 := Finset.sum_pos' (fun _ _ => by positivity) ⟨a, Finset.mem_univ _, by positivity⟩
    positivity
  have hentry : ∀ i j, corrMatrix t i j = corrCov t (i - j) / corrCov t 0 := by
    intro i j; unfold corrMatrix; rw [Matrix.circulant_apply, npMax_eq]
  refine ⟨?_, ?_, ?_, ?_⟩
  · intro i; rw [hentry, sub_self, div_self hpos.ne']
  · intro i j
    rw [hentry, hentry]
    congr 1
    apply Complex.ofReal_injective
    rw [corrCov_sub, corrCov_sub, Finset.sum_comm]
    refine Finset.sum_congr rfl (fun a _ => Finset.sum_congr rfl (fun b _ => ?_))
    rw [ph_conj, ph_conj, mul_comm (t b ^ 2)]
    congr 1
    rw [mul_comm (ph n _)]
    congr 2 <;> ring
  · intro i j
    rw [hentry]
    exact ⟨div_nonneg (corrCov_nonneg t _) hpos.le, (div_le_one hpos).2 (corrCov_le t _)⟩
  · intro x
    have hq : ((∑ i, ∑ j, x i * corrCov t (i - j) * x j : ℝ) : ℂ) =
        ((∑ a : Fin n, ∑ b : Fin n, t a ^ 2 * t b ^ 2 * ‖∑ i : Fin n, (x i : ℂ) * ph n (((a : ℕ) - (b : ℕ) : ℤ) * (i : ℕ))‖ ^ 2 : ℝ) : ℂ) := by
      push_cast
      simp only [← Complex.mul_conj', corrCov_sub, map_sum, map_mul, Complex.conj_ofReal, Finset.sum_mul_sum, Finset.mul_sum, Finset.sum_mul]
      rw [Finset.sum_congr rfl (fun i _ => Finset.sum_comm)]
      rw [Finset.sum_comm]
      refine Finset.sum_congr rfl (fun a _ => ?_)
      rw [Finset.sum_congr rfl (fun i _ => Finset.sum_comm)]
      rw [Finset.sum_comm]
      refine Finset.sum_congr rfl (fun b _ => ?_)
      rw [Finset.sum_comm]
      refine Finset.sum_congr rfl (fun i _ => Finset.sum_congr rfl (fun j _ => ?_))
      push_cast; ring
    have hq' := Complex.ofReal_injective hq
    have hsum : ∑ i, ∑ j, x i * corrMatrix t i j * x j = (∑ i, ∑ j, x i * corrCov t (i - j) * x j) / corrCov t 0 := by
      rw [Finset.sum_div]
      refine Finset.sum_congr rfl (fun i _ => ?_)
      rw [Finset.sum_div]
      refine Finset.sum_congr rfl (fun j _ => ?_)
      rw [hentry]; ring
    rw [hsum, hq']
    apply div_nonneg _ hpos.le
    exact Finset.sum_nonneg (fun a _ => Finset.sum_nonneg (fun b _ => by positivity))

/-- Non-vacuity: a taper; and the noise of some parameters. -/
example : ∃ a : Fin 3, (fun i : Fin 3 => if i = 1 then (1 : ℝ) else 1/2) a ≠ 0 := ⟨1, by norm_num⟩
example : calcPN 2 3 4 5 (some 4) .pk none .abs = .ok (450000) := by
  rw [C70_value]
  have : Real.sqrt 4 = 2 := by rw [show (4 : ℝ) = 2 ^ 2 by norm_num]; exact Real.sqrt_sq (by norm_num)
  simp [radiometer, dsqFactor, this]; norm_num

end HeraPspec.Noise
