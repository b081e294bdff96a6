import Verif.Props.Oqe2
import Mathlib.Analysis.SpecialFunctions.Integrals.Basic

/-!
C49: the normalisation matrix `G`. C88: the response matrix `H`. C51: the bandpower covariance is Hermitian.
-/
namespace HeraPspec.Oqe
open Matrix Complex
open scoped ComplexOrder
noncomputable section

/-! ### Specification -/

/-- A spectral tone on the extended band at delay `s / nd + u / n` (in units of the inverse channel width), with phase zero at the first
channel of the unextended window. -/
def tone (nd : ℕ) (s : ℤ) (n left : ℕ) (u : ℝ) : Fin n → ℂ :=
  fun j => Complex.exp (2 * Real.pi * I * ((s : ℝ) / nd + u / n : ℝ) * ((j.1 : ℝ) - left : ℝ))

/-- Response at delay index `s` of the weighting `R` to a spectrum. -/
def respTo {nf ne : ℕ} (nd : ℕ) (s : ℤ) (R : Matrix (Fin nf) (Fin ne) ℂ) (x : Fin ne → ℂ) : ℂ := amp nd s (R *ᵥ x)

/-! ### Algebra -/

theorem qPlain_vec (nf : ℕ) {nd : ℕ} (a : Fin nd) :
    qPlain nf a = vecMulVec (star (fun k : Fin nf => wave nd (delayIdx nd a) k.1)) (fun k : Fin nf => wave nd (delayIdx nd a) k.1) := by
  ext i j
  rw [qPlain_eq]; rfl

theorem traceForm {nf ne : ℕ} (R1 R2 : Matrix (Fin nf) (Fin ne) ℂ) (m : Fin nf → ℂ) (K : Matrix (Fin ne) (Fin ne) ℂ) :
    trace (R1ᴴ * vecMulVec (star m) m * (R2 * K)) = ∑ i, ∑ j, (m ᵥ* R2) i * K i j * star ((m ᵥ* R1) j) := by
  rw [Matrix.mul_vecMulVec, Matrix.vecMulVec_mul, trace_vecMulVec, ← vecMul_vecMul]
  have h : R1ᴴ *ᵥ star m = star (m ᵥ* R1) := (star_vecMul _ _).symm
  rw [h, dotProduct_comm]
  simp only [dotProduct, vecMul, Pi.star_apply]
  simp only [Finset.sum_mul]
  rw [Finset.sum_comm]

theorem resp_eq {nf ne : ℕ} (nd : ℕ) (s : ℤ) (R : Matrix (Fin nf) (Fin ne) ℂ) (x : Fin ne → ℂ) :
    ∑ i, ((fun k : Fin nf => wave nd s k.1) ᵥ* R) i * x i = respTo nd s R x := by
  have h1 : ∑ i, ((fun k : Fin nf => wave nd s k.1) ᵥ* R) i * x i = ((fun k : Fin nf => wave nd s k.1) ᵥ* R) ⬝ᵥ x := rfl
  rw [h1, ← dotProduct_mulVec]
  unfold respTo amp dotProduct
  exact Finset.sum_congr rfl (fun k _ => mul_comm _ _)

theorem qExt_tone (nf : ℕ) {nd : ℕ} (b : Fin nd) (left right : ℕ) (i j : Fin (nf + (left + right))) :
    qExt nf b left right i j = tone nd (delayIdx nd b) (nf + (left + right)) left 0 i * star (tone nd (delayIdx nd b) (nf + (left + right)) left 0 j) := by
  unfold qExt
  rw [qMat_eq _ _ _ b.2]
  unfold tone wave
  rw [Complex.star_def, ← Complex.exp_conj, ← Complex.exp_add]
  congr 1
  simp [map_ofNat]
  ring

theorem sum_rank_one {n : ℕ} (c d x y : Fin n → ℂ) : ∑ i, ∑ j, c i * (x i * star (y j)) * star (d j) = (∑ i, c i * x i) * star (∑ j, d j * y j) := by
  rw [star_sum, Finset.sum_mul_sum]
  refine Finset.sum_congr rfl (fun i _ => Finset.sum_congr rfl (fun j _ => ?_))
  rw [star_mul']; ring

/-- Before the treatment of all-zero matrices. -/
def rawG {nf left right : ℕ} (nd : ℕ) (R1 R2 : Matrix (Fin nf) (Fin (nf + (left + right))) ℂ) : Matrix (Fin nd) (Fin nd) ℂ :=
  fun a b => trace (R1ᴴ * qPlain nf a * (R2 * qExt nf b left right))

theorem rawG_eq {nf left right : ℕ} (nd : ℕ) (R1 R2 : Matrix (Fin nf) (Fin (nf + (left + right))) ℂ) (a b : Fin nd) :
    rawG nd R1 R2 a b = respTo nd (delayIdx nd a) R2 (tone nd (delayIdx nd b) (nf + (left + right)) left 0) *
      star (respTo nd (delayIdx nd a) R1 (tone nd (delayIdx nd b) (nf + (left + right)) left 0)) := by
  unfold rawG
  rw [qPlain_vec, traceForm]
  simp only [qExt_tone]
  rw [sum_rank_one, resp_eq, resp_eq]

/-- C49: `G_ab` is half the product of the responses, at delay `a`, of the two weightings to a tone at delay `b` (the first
conjugated), for all weightings, window sizes, delay counts and extensions; only a matrix that vanishes entirely is replaced, by half
the identity. -/
theorem C49_value {nf left right : ℕ} (nd : ℕ) (R1 R2 : Matrix (Fin nf) (Fin (nf + (left + right))) ℂ) :
    ((∃ a b : Fin nd, star (respTo nd (delayIdx nd a) R1 (tone nd (delayIdx nd b) (nf + (left + right)) left 0)) *
        respTo nd (delayIdx nd a) R2 (tone nd (delayIdx nd b) (nf + (left + right)) left 0) ≠ 0) →
      ∀ a b, getG nd R1 R2 a b = 1 / 2 * (star (respTo nd (delayIdx nd a) R1 (tone nd (delayIdx nd b) (nf + (left + right)) left 0)) *
        respTo nd (delayIdx nd a) R2 (tone nd (delayIdx nd b) (nf + (left + right)) left 0))) ∧
    ((∀ a b : Fin nd, star (respTo nd (delayIdx nd a) R1 (tone nd (delayIdx nd b) (nf + (left + right)) left 0)) *
        respTo nd (delayIdx nd a) R2 (tone nd (delayIdx nd b) (nf + (left + right)) left 0) = 0) →
      getG nd R1 R2 = (1 / 2 : ℂ) • (1 : Matrix (Fin nd) (Fin nd) ℂ)) := by
  have hraw : ∀ a b, rawG nd R1 R2 a b = star (respTo nd (delayIdx nd a) R1 (tone nd (delayIdx nd b) (nf + (left + right)) left 0)) *
        respTo nd (delayIdx nd a) R2 (tone nd (delayIdx nd b) (nf + (left + right)) left 0) := by
    intro a b; rw [rawG_eq, mul_comm]
  constructor
  · rintro ⟨a₀, b₀, h0⟩ a b
    have : rawG nd R1 R2 ≠ 0 := by
      intro hz
      rw [← hraw, hz] at h0
      exact h0 rfl
    unfold getG finishGH
    change ((1 / 2 : ℂ) • (if rawG nd R1 R2 = 0 then 1 else rawG nd R1 R2)) a b = _
    rw [if_neg this, Matrix.smul_apply, hraw, smul_eq_mul]
  · intro h
    have : rawG nd R1 R2 = 0 := by
      ext a b; rw [hraw, h]; rfl
    unfold getG finishGH
    change ((1 / 2 : ℂ) • (if rawG nd R1 R2 = 0 then 1 else rawG nd R1 R2)) = _
    rw [if_pos this]

/-- C49: with equal weightings every entry is real and non-negative. -/
theorem C49_nonneg {nf left right : ℕ} (nd : ℕ) (R : Matrix (Fin nf) (Fin (nf + (left + right))) ℂ) (a b : Fin nd) :
    (getG nd R R a b).im = 0 ∧ 0 ≤ (getG nd R R a b).re := by
  have hnn : (0 : ℂ) ≤ getG nd R R a b := by
    have half : (0 : ℂ) ≤ 1 / 2 := by rw [Complex.le_def]; norm_num
    by_cases h : ∃ a b : Fin nd, star (respTo nd (delayIdx nd a) R (tone nd (delayIdx nd b) (nf + (left + right)) left 0)) *
        respTo nd (delayIdx nd a) R (tone nd (delayIdx nd b) (nf + (left + right)) left 0) ≠ 0
    · rw [(C49_value nd R R).1 h]
      exact mul_nonneg half (star_mul_self_nonneg _)
    · push Not at h
      rw [(C49_value nd R R).2 h, Matrix.smul_apply, smul_eq_mul]
      apply mul_nonneg half
      rw [Matrix.one_apply]
      split <;> norm_num
  rw [Complex.le_def] at hnn
  exact ⟨hnn.2.symm, hnn.1⟩

/-- C49: exchanging the weightings conjugates `G`. -/
theorem C49_exchange {nf left right : ℕ} (nd : ℕ) (R1 R2 : Matrix (Fin nf) (Fin (nf + (left + right))) ℂ) (a b : Fin nd) :
    getG nd R2 R1 a b = star (getG nd R1 R2 a b) := by
  have half : star (1 / 2 : ℂ) = 1 / 2 := by simp
  by_cases h : ∃ a b : Fin nd, star (respTo nd (delayIdx nd a) R1 (tone nd (delayIdx nd b) (nf + (left + right)) left 0)) *
        respTo nd (delayIdx nd a) R2 (tone nd (delayIdx nd b) (nf + (left + right)) left 0) ≠ 0
  · have h' : ∃ a b : Fin nd, star (respTo nd (delayIdx nd a) R2 (tone nd (delayIdx nd b) (nf + (left + right)) left 0)) *
        respTo nd (delayIdx nd a) R1 (tone nd (delayIdx nd b) (nf + (left + right)) left 0) ≠ 0 := by
      obtain ⟨a, b, h⟩ := h
      refine ⟨a, b, fun hz => h ?_⟩
      rcases mul_eq_zero.1 hz with h1 | h1
      · rw [star_eq_zero.1 h1, mul_zero]
      · rw [h1, star_zero, zero_mul]
    rw [(C49_value nd R1 R2).1 h, (C49_value nd R2 R1).1 h', star_mul', star_mul', star_star, half]
    ring
  · push Not at h
    have h' : ∀ a b : Fin nd, star (respTo nd (delayIdx nd a) R2 (tone nd (delayIdx nd b) (nf + (left + right)) left 0)) *
        respTo nd (delayIdx nd a) R1 (tone nd (delayIdx nd b) (nf + (left + right)) left 0) = 0 := by
      intro a b
      rcases mul_eq_zero.1 (h a b) with h1 | h1
      · rw [star_eq_zero.1 h1, mul_zero]
      · rw [h1, star_zero, zero_mul]
    rw [(C49_value nd R1 R2).2 h, (C49_value nd R2 R1).2 h', Matrix.smul_apply, smul_eq_mul, star_mul', half, Matrix.one_apply]
    split <;> simp

/-- C49: `G` is symmetric when both weightings are one Hermitian matrix (no filter extension). -/
theorem C49_symmetric {nf : ℕ} (nd : ℕ) (R : Matrix (Fin nf) (Fin nf) ℂ) (hR : Rᴴ = R) :
    (getG (left := 0) (right := 0) nd R R)ᵀ = getG (left := 0) (right := 0) nd R R := by
  have hs : ∀ a b : Fin nd, rawG (left := 0) (right := 0) nd R R b a = rawG (left := 0) (right := 0) nd R R a b := by
    intro a b
    unfold rawG
    have e : ∀ c : Fin nd, (qExt nf c 0 0 : Matrix (Fin nf) (Fin nf) ℂ) = qPlain nf c := by
      intro c
      unfold qExt qPlain
      simp
    show trace (Rᴴ * qPlain nf b * (R * (qExt nf a 0 0 : Matrix (Fin nf) (Fin nf) ℂ))) =
      trace (Rᴴ * qPlain nf a * (R * (qExt nf b 0 0 : Matrix (Fin nf) (Fin nf) ℂ)))
    rw [e, e, hR, trace_mul_comm]
  have hm : (rawG (left := 0) (right := 0) nd R R)ᵀ = rawG (left := 0) (right := 0) nd R R := by
    ext a b; exact hs a b
  have hg : getG (left := 0) (right := 0) nd R R = (1 / 2 : ℂ) • (if rawG (left := 0) (right := 0) nd R R = 0 then 1 else rawG (left := 0) (right := 0) nd R R) := rfl
  rw [hg]
  split
  · rw [transpose_smul, transpose_one]
  · rw [transpose_smul, hm]

/-- C49: `G` is never the zero matrix, so row sums in 'I' mode cannot all vanish through an all-zero `G`. -/
theorem C49_never_zero {nf left right : ℕ} (nd : ℕ) (hnd : 0 < nd) (R1 R2 : Matrix (Fin nf) (Fin (nf + (left + right))) ℂ) : getG nd R1 R2 ≠ 0 := by
  have hg : getG nd R1 R2 = (1 / 2 : ℂ) • (if rawG nd R1 R2 = 0 then 1 else rawG nd R1 R2) := rfl
  rw [hg]
  intro h
  rw [smul_eq_zero] at h
  rcases h with h | h
  · norm_num at h
  · split at h
    · have := congrFun (congrFun h ⟨0, hnd⟩) ⟨0, hnd⟩
      simp at this
    · rename_i hn; exact hn h

/-! ### H -/

/-- Before the treatment of all-zero matrices. -/
def rawH {nf left right : ℕ} (nd : ℕ) (R1 R2 : Matrix (Fin nf) (Fin (nf + (left + right))) ℂ) : Matrix (Fin nd) (Fin nd) ℂ :=
  fun a b => trace (R1ᴴ * qPlain nf a *
    (R2 * Matrix.of (fun i j => qExt nf b left right i j * (sincMat (nf + (left + right)) i j : ℂ))))

theorem integral_phase (r : ℝ) : ∫ u in (-(1 / 2) : ℝ)..(1 / 2), Complex.exp (2 * Real.pi * I * (u * r)) = (npSinc r : ℂ) := by
  by_cases hr : r = 0
  · subst hr
    simp [npSinc]
    norm_num
  · have hc : (2 * Real.pi * r : ℝ) ≠ 0 := by
      have := Real.pi_ne_zero; positivity
    have h1 : ∫ u in (-(1 / 2) : ℝ)..(1 / 2), Complex.exp (2 * Real.pi * I * (u * r)) =
        ∫ u in (-(1 / 2) : ℝ)..(1 / 2), (fun t : ℝ => Complex.exp (t * I)) (u * (2 * Real.pi * r)) := by
      congr 1
      funext u
      simp only
      congr 1
      push_cast; ring
    rw [h1, intervalIntegral.integral_comp_mul_right (fun t : ℝ => Complex.exp (t * I)) hc]
    have h2 : (-(1 / 2) : ℝ) * (2 * Real.pi * r) = -(Real.pi * r) := by ring
    have h3 : (1 / 2 : ℝ) * (2 * Real.pi * r) = Real.pi * r := by ring
    rw [h2, h3, integral_exp_mul_I_eq_sinc]
    unfold npSinc
    have hc' : (r : ℂ) ≠ 0 := by exact_mod_cast hr
    have hpi : (Real.pi : ℂ) ≠ 0 := by exact_mod_cast Real.pi_ne_zero
    rw [Complex.real_smul]
    push_cast
    field_simp

theorem tone_prod (nd : ℕ) (s : ℤ) (n left : ℕ) (i j : Fin n) (u : ℝ) :
    tone nd s n left u i * star (tone nd s n left u j) =
      tone nd s n left 0 i * star (tone nd s n left 0 j) * Complex.exp (2 * Real.pi * I * (u * (((i.1 : ℝ) - j.1) / n : ℝ))) := by
  unfold tone
  rw [Complex.star_def, ← Complex.exp_conj, ← Complex.exp_conj, ← Complex.exp_add, ← Complex.exp_add, ← Complex.exp_add]
  congr 1
  simp [map_ofNat]
  ring

theorem tone_cont (nd : ℕ) (s : ℤ) (n left : ℕ) (i : Fin n) : Continuous (fun u => tone nd s n left u i) := by
  unfold tone
  fun_prop

theorem rawH_eq {nf left right : ℕ} (nd : ℕ) (R1 R2 : Matrix (Fin nf) (Fin (nf + (left + right))) ℂ) (a b : Fin nd) :
    rawH nd R1 R2 a b = ∫ u in (-(1 / 2) : ℝ)..(1 / 2),
      respTo nd (delayIdx nd a) R2 (tone nd (delayIdx nd b) (nf + (left + right)) left u) *
        star (respTo nd (delayIdx nd a) R1 (tone nd (delayIdx nd b) (nf + (left + right)) left u)) := by
  unfold rawH
  rw [qPlain_vec, traceForm]
  set c := (fun k : Fin nf => wave nd (delayIdx nd a) k.1) ᵥ* R2 with hc
  set d := (fun k : Fin nf => wave nd (delayIdx nd a) k.1) ᵥ* R1 with hd
  have hint : ∀ u, respTo nd (delayIdx nd a) R2 (tone nd (delayIdx nd b) (nf + (left + right)) left u) *
        star (respTo nd (delayIdx nd a) R1 (tone nd (delayIdx nd b) (nf + (left + right)) left u)) =
      ∑ i, ∑ j, c i * (tone nd (delayIdx nd b) (nf + (left + right)) left u i * star (tone nd (delayIdx nd b) (nf + (left + right)) left u j)) * star (d j) := by
    intro u
    rw [sum_rank_one, resp_eq, resp_eq]
  simp only [hint]
  have hci : ∀ i j, Continuous (fun u => c i * (tone nd (delayIdx nd b) (nf + (left + right)) left u i * star (tone nd (delayIdx nd b) (nf + (left + right)) left u j)) * star (d j)) := by
    intro i j
    have h1 := tone_cont nd (delayIdx nd b) (nf + (left + right)) left i
    have h2 := tone_cont nd (delayIdx nd b) (nf + (left + right)) left j
    exact ((continuous_const.mul (h1.mul h2.star)).mul continuous_const)
  rw [intervalIntegral.integral_finset_sum]
  · refine Finset.sum_congr rfl (fun i _ => ?_)
    rw [intervalIntegral.integral_finset_sum]
    · refine Finset.sum_congr rfl (fun j _ => ?_)
      rw [Matrix.of_apply, qExt_tone]
      have e : ∀ u : ℝ, c i * (tone nd (delayIdx nd b) (nf + (left + right)) left u i * star (tone nd (delayIdx nd b) (nf + (left + right)) left u j)) * star (d j) =
          (c i * (tone nd (delayIdx nd b) (nf + (left + right)) left 0 i * star (tone nd (delayIdx nd b) (nf + (left + right)) left 0 j)) * star (d j)) *
            Complex.exp (2 * Real.pi * I * (u * (((i.1 : ℝ) - j.1) / (nf + (left + right) : ℕ) : ℝ))) := by
        intro u
        rw [tone_prod]; ring
      rw [intervalIntegral.integral_congr (fun u _ => e u), intervalIntegral.integral_const_mul, integral_phase]
      unfold sincMat
      ring
    · intro j _; exact (hci i j).intervalIntegrable _ _
  · intro i _
    exact (continuous_finset_sum _ (fun j _ => hci i j)).intervalIntegrable _ _

/-- The average of the `G`-type response over tones across a delay bin centred on delay `b`, of width one inverse (extended) bandwidth. -/
def binResp {nf ne : ℕ} (nd left : ℕ) (R1 R2 : Matrix (Fin nf) (Fin ne) ℂ) (a b : Fin nd) : ℂ :=
  ∫ u in (-(1 / 2) : ℝ)..(1 / 2), star (respTo nd (delayIdx nd a) R1 (tone nd (delayIdx nd b) ne left u)) *
      respTo nd (delayIdx nd a) R2 (tone nd (delayIdx nd b) ne left u)

/-- C88: without sampling, `H_ab` is half the average of the `G`-type response over tones across the whole delay bin centred on delay
`b`; only a matrix that vanishes entirely is replaced, by half the identity. -/
theorem C88_bin_average {nf left right : ℕ} (nd : ℕ) (R1 R2 : Matrix (Fin nf) (Fin (nf + (left + right))) ℂ) :
    ((∃ a b : Fin nd, binResp nd left R1 R2 a b ≠ 0) → ∀ a b, getH nd false R1 R2 a b = 1 / 2 * binResp nd left R1 R2 a b) ∧
    ((∀ a b : Fin nd, binResp nd left R1 R2 a b = 0) → getH nd false R1 R2 = (1 / 2 : ℂ) • (1 : Matrix (Fin nd) (Fin nd) ℂ)) := by
  have hg : getH nd false R1 R2 = (1 / 2 : ℂ) • (if rawH nd R1 R2 = 0 then 1 else rawH nd R1 R2) := rfl
  have hb : ∀ a b, rawH nd R1 R2 a b = binResp nd left R1 R2 a b := by
    intro a b
    rw [rawH_eq]
    unfold binResp
    congr 1
    funext u
    exact mul_comm _ _
  constructor
  · rintro ⟨a₀, b₀, h0⟩ a b
    have hne : rawH nd R1 R2 ≠ 0 := by
      intro hz
      rw [← hb, hz] at h0
      exact h0 rfl
    rw [hg, if_neg hne, Matrix.smul_apply, hb, smul_eq_mul]
  · intro h
    have hz : rawH nd R1 R2 = 0 := by
      ext a b; rw [hb, h]; rfl
    rw [hg, if_pos hz]

/-- C88: with sampling, `H` is `G`. -/
theorem C88_sampling {nf left right : ℕ} (nd : ℕ) (R1 R2 : Matrix (Fin nf) (Fin (nf + (left + right))) ℂ) : getH nd true R1 R2 = getG nd R1 R2 := rfl

/-- C88: with equal weightings every entry of `H` is real and non-negative. -/
theorem C88_nonneg {nf left right : ℕ} (nd : ℕ) (sampling : Bool) (R : Matrix (Fin nf) (Fin (nf + (left + right))) ℂ) (a b : Fin nd) :
    (getH nd sampling R R a b).im = 0 ∧ 0 ≤ (getH nd sampling R R a b).re := by
  cases sampling with
  | true => exact C49_nonneg nd R a b
  | false =>
    have hg : getH nd false R R = (1 / 2 : ℂ) • (if rawH nd R R = 0 then 1 else rawH nd R R) := rfl
    have hnn : (0 : ℂ) ≤ getH nd false R R a b := by
      have half : (0 : ℂ) ≤ 1 / 2 := by rw [Complex.le_def]; norm_num
      rw [hg, Matrix.smul_apply, smul_eq_mul]
      apply mul_nonneg half
      split
      · rw [Matrix.one_apply]; split <;> norm_num
      · rw [rawH_eq]
        have e : ∀ u : ℝ, respTo nd (delayIdx nd a) R (tone nd (delayIdx nd b) (nf + (left + right)) left u) *
            star (respTo nd (delayIdx nd a) R (tone nd (delayIdx nd b) (nf + (left + right)) left u)) =
            ((‖respTo nd (delayIdx nd a) R (tone nd (delayIdx nd b) (nf + (left + right)) left u)‖ ^ 2 : ℝ) : ℂ) := by
          intro u
          rw [← Complex.normSq_eq_norm_sq]; exact Complex.mul_conj _
        simp only [e]
        rw [intervalIntegral.integral_ofReal]
        have : (0 : ℝ) ≤ ∫ u in (-(1 / 2) : ℝ)..(1 / 2), ‖respTo nd (delayIdx nd a) R (tone nd (delayIdx nd b) (nf + (left + right)) left u)‖ ^ 2 :=
          intervalIntegral.integral_nonneg (by norm_num) (fun u _ => by positivity)
        exact_mod_cast this
    rw [Complex.le_def] at hnn
    exact ⟨hnn.2.symm, hnn.1⟩

/-! ### V -/

/-- C51: the covariance of the unnormalised bandpowers is Hermitian, for all data, weights, matrices `E` and covariance models. -/
theorem C51_hermitian {ne nd : ℕ} {T : Type} [Fintype T] (E : Fin nd → Matrix (Fin ne) (Fin ne) ℂ) (x1 x2 : Matrix (Fin ne) T ℂ)
    (model : CovModel ne T) (V : Matrix (Fin nd) (Fin nd) ℂ) (h : unnormedV E x1 x2 model = .ok V) : V.IsHermitian := by
  have key : ∀ C1 C2 P S : Matrix (Fin ne) (Fin ne) ℂ, C1ᴴ = C1 → C2ᴴ = C2 → S = P.map star →
      covInputs x1 x2 model = .ok (C1, C2, P, S) → V.IsHermitian := by
    intro C1 C2 P S h1 h2 hS hin
    unfold unnormedV at h
    rw [hin] at h
    injection h with h
    subst h
    ext a b
    simp only [vMat, conjTranspose_apply, Matrix.of_apply, star_add, ← trace_conjTranspose, conjTranspose_mul, conjTranspose_conjTranspose, h1, h2]
    congr 1
    · rw [← Matrix.mul_assoc, trace_mul_comm, Matrix.mul_assoc, Matrix.mul_assoc]
      rw [trace_mul_comm]
      simp only [Matrix.mul_assoc]
      rw [trace_mul_comm]
      simp only [Matrix.mul_assoc]
    · have e1 : ∀ A : Matrix (Fin ne) (Fin ne) ℂ, (A.map star)ᴴ = Aᵀ := by
        intro A; ext i j; simp
      have e2 : Sᴴ = Pᵀ := by rw [hS, e1]
      have e3 : Pᴴ = Sᵀ := by rw [hS]; rfl
      have e4 : ∀ A : Matrix (Fin ne) (Fin ne) ℂ, Aᴴ = (A.map star)ᵀ := fun A => rfl
      rw [e2, e1, e3, e4 (E b)]
      rw [← trace_transpose]
      simp only [transpose_mul, transpose_transpose, Matrix.mul_assoc]
      rw [trace_mul_comm]
      simp only [Matrix.mul_assoc]
      rw [trace_mul_comm]
      simp only [Matrix.mul_assoc]
  cases model with
  | diagonal v1 v2 =>
    refine key (diagonal (fun i => (v1 i : ℂ))) (diagonal (fun i => (v2 i : ℂ))) 0 0 ?_ ?_ ?_ rfl
    · rw [diagonal_conjTranspose]; congr 1; funext i; simp
    · rw [diagonal_conjTranspose]; congr 1; funext i; simp
    · ext i j; simp
  | empirical w1 w2 =>
    unfold unnormedV at h
    cases hA : Cov.cov x1 w1 with
    | error e => simp only [covInputs, covEmp, hA] at h; cases h
    | ok A =>
      cases hB : Cov.cov x2 w2 with
      | error e => simp only [covInputs, covEmp, hA, hB] at h; cases h
      | ok B =>
        cases hP : Cov.cov2 x2 w2 x1 w1 false false with
        | error e => simp only [covInputs, covEmp, hA, hB, hP] at h; cases h
        | ok P' =>
          cases hS : Cov.cov2 x2 w2 x1 w1 true true with
          | error e => simp only [covInputs, covEmp, hA, hB, hP, hS] at h; cases h
          | ok S' =>
              have hc : covInputs x1 x2 (.empirical w1 w2) = .ok (A, B, P', S') := by
                simp only [covInputs, covEmp, hA, hB, hP, hS]; rfl
              refine key A B P' S' (Cov.C45_hermitian _ _ _ hA) (Cov.C45_hermitian _ _ _ hB) ?_ hc
              have eP := (Cov.cov2_ok hP).1
              have eS := (Cov.cov2_ok hS).1
              rw [eP, eS]
              ext i j
              simp [Cov.covRaw, Cov.conjIf]

end
end HeraPspec.Oqe
