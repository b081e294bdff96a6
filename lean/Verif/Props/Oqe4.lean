import Verif.Props.Oqe3

/-!
C50: window functions. C86: decorrelation by `V^-1/2`. C87: covariance of normalised bandpowers.
-/
namespace HeraPspec.Oqe
open Matrix Complex
open scoped ComplexOrder
noncomputable section

theorem rowSum_diag_mul {nd : ℕ} (d : Fin nd → ℂ) (A : Matrix (Fin nd) (Fin nd) ℂ) (i : Fin nd) : rowSum (diagonal d * A) i = d i * rowSum A i := by
  unfold rowSum
  simp only [Matrix.diagonal_mul, Finset.mul_sum]

/-- C50, mode 'I': each window function sums to one (where the row of `H` has a non-zero sum), and the normalisation is such that the
rows of `M G` sum to one. -/
theorem C50_identity {nd : ℕ} (pinv : Matrix (Fin nd) (Fin nd) ℂ → Matrix (Fin nd) (Fin nd) ℂ) (G H M W : Matrix (Fin nd) (Fin nd) ℂ)
    (eig : Option (Eig nd)) (ex : Bool) (h : getMW pinv G H .I eig ex = .ok (M, W)) (i : Fin nd) :
    (∑ j, H i j ≠ 0 → ∑ j, W i j = 1) ∧ (∑ j, G i j ≠ 0 → ∑ j, (M * G) i j = 1) ∧ (∀ j, i ≠ j → M i j = 0) := by
  unfold getMW at h
  simp only [reduceCtorEq, if_false, ne_eq, not_true, false_and] at h
  injection h with h
  injection h with h1 h2
  subst h1 h2
  refine ⟨fun hs => ?_, fun hs => ?_, fun j hij => Matrix.diagonal_apply_ne _ hij⟩
  · have := rowSum_diag_mul (fun i => 1 / rowSum H i) H i
    unfold rowSum at this ⊢
    rw [this]
    field_simp
  · have := rowSum_diag_mul (fun i => 1 / rowSum G i) G i
    unfold rowSum at this ⊢
    rw [this]
    field_simp

/-- C50, mode 'H^-1': each window function sums to one (where the sum before normalisation is not zero), whatever pseudo-inverse is used;
and when `H` is invertible, `M` is its inverse and the window functions are exactly the identity. -/
theorem C50_inverse {nd : ℕ} (pinv : Matrix (Fin nd) (Fin nd) ℂ → Matrix (Fin nd) (Fin nd) ℂ) (G H M W : Matrix (Fin nd) (Fin nd) ℂ)
    (eig : Option (Eig nd)) (ex : Bool) (h : getMW pinv G H .Hinv eig ex = .ok (M, W)) :
    (∀ i, ∑ j, (M * H) i j ≠ 0 → ∑ j, W i j = 1) ∧ (H.det ≠ 0 → M * H = 1 ∧ W = 1) := by
  unfold getMW at h
  by_cases hex : ex = true
  · simp [hex] at h
  · simp only [reduceCtorEq, if_false, ne_eq, not_false_eq_true, true_and, hex] at h
    injection h with h
    injection h with h1 h2
    subst h2
    rw [h1]
    constructor
    · intro i hs
      unfold rowSum
      rw [← Finset.sum_div]
      exact div_self hs
    · intro hd
      have hM : M * H = 1 := by
        rw [← h1, if_pos hd]
        exact Matrix.nonsing_inv_mul _ (isUnit_iff_ne_zero.2 hd)
      refine ⟨hM, ?_⟩
      rw [hM]
      ext i j
      have : rowSum (1 : Matrix (Fin nd) (Fin nd) ℂ) i = 1 := by
        unfold rowSum
        simp [Matrix.one_apply]
      rw [this, div_one]

/-- C50, mode 'V^-1/2': `W` is exactly `M H`, and each window function sums to one (where the sum before normalisation is not zero),
whatever eigen-decomposition is used. -/
theorem C50_root {nd : ℕ} (pinv : Matrix (Fin nd) (Fin nd) ℂ → Matrix (Fin nd) (Fin nd) ℂ) (G H M W : Matrix (Fin nd) (Fin nd) ℂ)
    (eig : Option (Eig nd)) (ex : Bool) (h : getMW pinv G H .Vhalf eig ex = .ok (M, W)) :
    W = M * H ∧ ∃ e, eig = some e ∧ ∀ i, ∑ j, (vMinusHalf e * H) i j ≠ 0 → ∑ j, W i j = 1 := by
  unfold getMW at h
  by_cases hex : ex = true
  · simp [hex] at h
  · simp only [reduceCtorEq, if_false, ne_eq, not_false_eq_true, true_and, hex] at h
    cases eig with
    | none => cases h
    | some e =>
      injection h with h
      injection h with h1 h2
      subst h1
      refine ⟨h2.symm, e, rfl, fun i hs => ?_⟩
      rw [← h2, Matrix.mul_assoc]
      have := rowSum_diag_mul (fun i => 1 / rowSum (vMinusHalf e * H) i) (vMinusHalf e * H) i
      unfold rowSum at this ⊢
      rw [this]
      field_simp

/-- C50: what is refused: an unknown mode, the Cholesky mode, any mode but 'I' with exact normalisation, and 'V^-1/2' without a
covariance; nothing else. -/
theorem C50_errors {nd : ℕ} (pinv : Matrix (Fin nd) (Fin nd) ℂ → Matrix (Fin nd) (Fin nd) ℂ) (G H : Matrix (Fin nd) (Fin nd) ℂ) (mode : Mode)
    (eig : Option (Eig nd)) (ex : Bool) :
    (getMW pinv G H mode eig ex = .error .assertion ↔ mode = .other) ∧
    (getMW pinv G H mode eig ex = .error .notImpl ↔ mode = .Linv ∨ (ex = true ∧ (mode = .Hinv ∨ mode = .Vhalf))) ∧
    (getMW pinv G H mode eig ex = .error .value ↔ mode = .Vhalf ∧ ex = false ∧ eig = none) ∧
    getMW pinv G H mode eig ex ≠ .error .index := by
  cases mode <;> cases ex <;> cases eig <;> simp [getMW]

/-! ### C86: decorrelation -/

/-- The eigen-decomposition of a covariance: all eigenvalues positive, orthonormal eigenvectors. -/
def IsEig {nd : ℕ} (V : Matrix (Fin nd) (Fin nd) ℂ) (vals : Fin nd → ℝ) (U : Matrix (Fin nd) (Fin nd) ℂ) : Prop :=
  (∀ i, 0 < vals i) ∧ Uᴴ * U = 1 ∧ V = U * diagonal (fun i => (vals i : ℂ)) * Uᴴ

/-- C86 (partial: real eigenvectors, i.e. a real covariance): in 'V^-1/2' mode the normalised bandpowers `M q` are uncorrelated: the
covariance `M V M†` is diagonal. Missing: complex covariances, for which the claim is false of the code. -/
theorem C86_decorrelates_partial {nd : ℕ} (pinv : Matrix (Fin nd) (Fin nd) ℂ → Matrix (Fin nd) (Fin nd) ℂ) (G H M W V U : Matrix (Fin nd) (Fin nd) ℂ)
    (vals : Fin nd → ℝ) (hV : IsEig V vals U) (hreal : ∀ i j, (U i j).im = 0)
    (h : getMW pinv G H .Vhalf (some ⟨nd, vals, U⟩) false = .ok (M, W)) : ∀ i j, i ≠ j → (M * V * Mᴴ) i j = 0 := by
  obtain ⟨hpos, hU, rfl⟩ := hV
  unfold getMW at h
  simp only [reduceCtorEq, if_false, ne_eq, not_false_eq_true, true_and, Bool.false_eq_true] at h
  injection h with h
  injection h with h1 _
  subst h1
  have hUt : Uᵀ = Uᴴ := by
    ext i j
    simp only [transpose_apply, conjTranspose_apply]
    exact (Complex.conj_eq_iff_im.2 (hreal j i)).symm
  have hUU : U * Uᴴ = 1 := mul_eq_one_comm.1 hU
  have hS : vMinusHalf (⟨nd, vals, U⟩ : Eig nd) * (U * diagonal (fun i => (vals i : ℂ)) * Uᴴ) * (vMinusHalf (⟨nd, vals, U⟩ : Eig nd))ᴴ = 1 := by
    unfold vMinusHalf
    simp only [hUt, conjTranspose_mul, conjTranspose_conjTranspose, diagonal_conjTranspose]
    have e1 : U * (diagonal (fun i => ((1 / Real.sqrt (vals i) : ℝ) : ℂ)) * Uᴴ) * (U * diagonal (fun i => (vals i : ℂ)) * Uᴴ) *
        (U * diagonal (star fun i => ((1 / Real.sqrt (vals i) : ℝ) : ℂ)) * Uᴴ) =
        U * diagonal (fun i => ((1 / Real.sqrt (vals i) : ℝ) : ℂ)) * (Uᴴ * U) * diagonal (fun i => (vals i : ℂ)) * (Uᴴ * U) *
          diagonal (star fun i => ((1 / Real.sqrt (vals i) : ℝ) : ℂ)) * Uᴴ := by simp only [Matrix.mul_assoc]
    rw [e1, hU]
    simp only [Matrix.mul_one]
    have e2 : diagonal (fun i => ((1 / Real.sqrt (vals i) : ℝ) : ℂ)) * diagonal (fun i => (vals i : ℂ)) *
        diagonal (star fun i => ((1 / Real.sqrt (vals i) : ℝ) : ℂ)) = (1 : Matrix (Fin nd) (Fin nd) ℂ) := by
      rw [diagonal_mul_diagonal, diagonal_mul_diagonal, ← diagonal_one]
      congr 1
      funext i
      have hs : Real.sqrt (vals i) ≠ 0 := (Real.sqrt_pos.2 (hpos i)).ne'
      have hsq : Real.sqrt (vals i) * Real.sqrt (vals i) = vals i := Real.mul_self_sqrt (hpos i).le
      have : (1 / Real.sqrt (vals i)) * vals i * (1 / Real.sqrt (vals i)) = 1 := by
        rw [← hsq]; simp only [Real.sqrt_mul_self (Real.sqrt_nonneg _)]
        field_simp
      simp only [Pi.star_apply, Complex.star_def, Complex.conj_ofReal]
      exact_mod_cast this
    have e3 : ∀ A B C : Matrix (Fin nd) (Fin nd) ℂ, U * A * B * C * Uᴴ = U * (A * B * C) * Uᴴ := by
      intro A B C; simp only [Matrix.mul_assoc]
    rw [e3, e2, Matrix.mul_one, hUU]
  intro i j hij
  set D := diagonal (fun i => 1 / rowSum (vMinusHalf (⟨nd, vals, U⟩ : Eig nd) * H) i) with hD
  have : D * vMinusHalf ⟨nd, vals, U⟩ * (U * diagonal (fun i => (vals i : ℂ)) * Uᴴ) * (D * vMinusHalf ⟨nd, vals, U⟩)ᴴ = D * Dᴴ := by
    rw [conjTranspose_mul]
    have : D * vMinusHalf ⟨nd, vals, U⟩ * (U * diagonal (fun i => (vals i : ℂ)) * Uᴴ) * ((vMinusHalf ⟨nd, vals, U⟩)ᴴ * Dᴴ) =
        D * (vMinusHalf ⟨nd, vals, U⟩ * (U * diagonal (fun i => (vals i : ℂ)) * Uᴴ) * (vMinusHalf ⟨nd, vals, U⟩)ᴴ) * Dᴴ := by
      simp only [Matrix.mul_assoc]
    rw [this, hS, Matrix.mul_one]
  rw [this, hD, diagonal_conjTranspose, diagonal_mul_diagonal, Matrix.diagonal_apply_ne _ hij]

/-- C86 counterexample: with complex eigenvectors (a Hermitian covariance that is not real) the code's `eigvects · diag · eigvects.T` is
not `V^-1/2` and the bandpowers stay correlated. -/
theorem C86_counterexample_complex : ∃ (V U : Matrix (Fin 2) (Fin 2) ℂ) (vals : Fin 2 → ℝ) (M W : Matrix (Fin 2) (Fin 2) ℂ),
    V.IsHermitian ∧ IsEig V vals U ∧ getMW id 1 1 .Vhalf (some ⟨2, vals, U⟩) false = .ok (M, W) ∧ (M * V * Mᴴ) 0 1 ≠ 0 := by
  have c3 : (starRingEnd ℂ) 3 = 3 := Complex.conj_ofNat 3
  have c4 : (starRingEnd ℂ) 4 = 4 := Complex.conj_ofNat 4
  have c5 : (starRingEnd ℂ) 5 = 5 := Complex.conj_ofNat 5
  have c6 : (starRingEnd ℂ) 6 = 6 := Complex.conj_ofNat 6
  have c25 : (starRingEnd ℂ) 25 = 25 := Complex.conj_ofNat 25
  have c41 : (starRingEnd ℂ) 41 = 41 := Complex.conj_ofNat 41
  have c50 : (starRingEnd ℂ) 50 = 50 := Complex.conj_ofNat 50
  refine ⟨_, !![3 / 5, 4 / 5; 4 / 5 * I, -(3 / 5) * I], ![1, 4], _, _, ?_, ⟨?_, ?_, rfl⟩, rfl, ?_⟩
  · unfold Matrix.IsHermitian
    rw [conjTranspose_mul, conjTranspose_mul, conjTranspose_conjTranspose, diagonal_conjTranspose, Matrix.mul_assoc]
    congr 2
    congr 1
    funext i; simp
  · intro i; fin_cases i <;> simp
  · ext i j
    fin_cases i <;> fin_cases j <;> simp [Matrix.mul_apply, Fin.sum_univ_two, c3, c4, c5] <;> ring_nf <;> simp <;> norm_num
  · have h4 : Real.sqrt 4 = 2 := by
      rw [show (4 : ℝ) = 2 * 2 by norm_num]; exact Real.sqrt_mul_self (by norm_num)
    have hv : vMinusHalf (⟨2, ![1, 4], !![3 / 5, 4 / 5; 4 / 5 * I, -(3 / 5) * I]⟩ : Eig 2) = !![17 / 25, 6 / 25 * I; 6 / 25 * I, -(41 / 50)] := by
      unfold vMinusHalf
      ext i j
      rw [Matrix.mul_apply, Fin.sum_univ_two, Matrix.diagonal_mul, Matrix.diagonal_mul]
      fin_cases i <;> fin_cases j <;> simp [h4] <;> ring_nf <;> simp <;> norm_num
    have hV : (!![3 / 5, 4 / 5; 4 / 5 * I, -(3 / 5) * I] * diagonal (fun i => ((![1, 4] : Fin 2 → ℝ) i : ℂ)) * (!![3 / 5, 4 / 5; 4 / 5 * I, -(3 / 5) * I])ᴴ :
        Matrix (Fin 2) (Fin 2) ℂ) = !![73 / 25, 36 / 25 * I; -(36 / 25) * I, 52 / 25] := by
      ext i j
      rw [Matrix.mul_apply, Fin.sum_univ_two, Matrix.mul_diagonal, Matrix.mul_diagonal]
      fin_cases i <;> fin_cases j <;> simp [c3, c4, c5] <;> ring_nf <;> simp <;> norm_num
    rw [hV, hv]
    simp only [Matrix.mul_one]
    have hD : ∀ (d : Fin 2 → ℂ) (S V : Matrix (Fin 2) (Fin 2) ℂ), (diagonal d * S * V * (diagonal d * S)ᴴ) 0 1 = d 0 * (S * V * Sᴴ) 0 1 * star (d 1) := by
      intro d S V
      rw [conjTranspose_mul, diagonal_conjTranspose, ← Matrix.mul_assoc, Matrix.mul_diagonal, Matrix.mul_assoc, Matrix.mul_assoc, Matrix.diagonal_mul,
        ← Matrix.mul_assoc]
      rfl
    rw [hD]
    refine mul_ne_zero (mul_ne_zero ?_ ?_) (star_ne_zero.2 ?_)
    · apply one_div_ne_zero
      unfold rowSum
      intro h
      have := congrArg Complex.re h
      simp [Fin.sum_univ_two] at this
    · intro h
      have := congrArg Complex.im h
      simp [Matrix.mul_apply, Fin.sum_univ_two, c6, c25, c41, c50] at this
      norm_num at this
    · apply one_div_ne_zero
      unfold rowSum
      intro h
      have := congrArg Complex.re h
      simp [Fin.sum_univ_two] at this

/-! ### C87: covariance of normalised bandpowers -/

/-- Textbook propagation of a covariance through `p = M q`: `M C M†`. -/
def propagated {nd : ℕ} (M C : Matrix (Fin nd) (Fin nd) ℂ) : Matrix (Fin nd) (Fin nd) ℂ := M * C * Mᴴ

/-- C87 (partial: real `M`): `cov_p_hat` is the propagated covariance `M C M†`. Missing: complex `M`, for which the claim is false of the code. -/
theorem C87_propagates_partial {nd : ℕ} (M C : Matrix (Fin nd) (Fin nd) ℂ) (hreal : ∀ i j, (M i j).im = 0) : covPhat M C = propagated M C := by
  ext a c
  unfold covPhat propagated
  simp only [Matrix.mul_apply, Finset.sum_mul, conjTranspose_apply]
  rw [Finset.sum_comm]
  refine Finset.sum_congr rfl (fun d _ => Finset.sum_congr rfl (fun b _ => ?_))
  have : star (M c d) = M c d := Complex.conj_eq_iff_im.2 (hreal c d)
  rw [this]; ring

/-- C87: for every `M`, `cov_p_hat` is `M C Mᵀ`. -/
theorem C87_value {nd : ℕ} (M C : Matrix (Fin nd) (Fin nd) ℂ) : covPhat M C = M * C * Mᵀ := by
  ext a c
  unfold covPhat
  simp only [Matrix.mul_apply, Finset.sum_mul, transpose_apply]
  rw [Finset.sum_comm]
  refine Finset.sum_congr rfl (fun d _ => Finset.sum_congr rfl (fun b _ => ?_))
  ring

/-- C87: with real `M`, a Hermitian covariance stays Hermitian and a positive semi-definite one stays so. -/
theorem C87_hermitian_psd {nd : ℕ} (M C : Matrix (Fin nd) (Fin nd) ℂ) (hreal : ∀ i j, (M i j).im = 0) :
    (C.IsHermitian → (covPhat M C).IsHermitian) ∧
    ((∀ v : Fin nd → ℂ, 0 ≤ star v ⬝ᵥ (C *ᵥ v)) → ∀ v : Fin nd → ℂ, 0 ≤ star v ⬝ᵥ (covPhat M C *ᵥ v)) := by
  rw [C87_propagates_partial M C hreal]
  unfold propagated
  constructor
  · intro h
    exact Matrix.isHermitian_mul_mul_conjTranspose M h
  · intro h v
    have := h (Mᴴ *ᵥ v)
    rw [star_mulVec, conjTranspose_conjTranspose, ← dotProduct_mulVec, mulVec_mulVec, mulVec_mulVec] at this
    exact this

/-- C87: in 'I' mode with equal weightings the normalisation is real, so there `cov_p_hat` is the propagated covariance. -/
theorem C87_identity_mode {nf left right nd : ℕ} (pinv : Matrix (Fin nd) (Fin nd) ℂ → Matrix (Fin nd) (Fin nd) ℂ)
    (R : Matrix (Fin nf) (Fin (nf + (left + right))) ℂ) (H M W : Matrix (Fin nd) (Fin nd) ℂ) (ex : Bool)
    (h : getMW pinv (getG nd R R) H .I none ex = .ok (M, W)) (C : Matrix (Fin nd) (Fin nd) ℂ) : covPhat M C = propagated M C := by
  apply C87_propagates_partial
  unfold getMW at h
  simp only [reduceCtorEq, if_false, ne_eq, not_true, false_and] at h
  injection h with h
  injection h with h1 _
  subst h1
  intro i j
  by_cases hij : i = j
  · subst hij
    rw [Matrix.diagonal_apply_eq]
    have : (rowSum (getG nd R R) i).im = 0 := by
      unfold rowSum
      rw [Complex.im_sum]
      exact Finset.sum_eq_zero (fun j _ => (C49_nonneg nd R i j).1)
    rw [one_div, Complex.inv_im, this]
    simp
  · rw [Matrix.diagonal_apply_ne _ hij]; rfl

/-- C87 counterexample: for complex `M` the missing conjugation can make a variance negative. -/
theorem C87_counterexample_complex : ∃ M C : Matrix (Fin 2) (Fin 2) ℂ, C.IsHermitian ∧ (∀ v : Fin 2 → ℂ, 0 ≤ star v ⬝ᵥ (C *ᵥ v)) ∧
    (covPhat M C 1 1).re < 0 := by
  refine ⟨!![1, 0; 0, I], 1, Matrix.isHermitian_one, ?_, ?_⟩
  · intro v
    rw [Matrix.one_mulVec]
    exact dotProduct_star_self_nonneg v
  · simp [covPhat, Fin.sum_univ_two, Matrix.one_apply]

/-! ### Non-vacuity -/

/-- Two channels, two delays, unit weighting: `G` is twice the identity, the rows sum to 2 and 'I' mode gives `M = 1/2`. -/
example : respTo 2 (delayIdx 2 1) (1 : Matrix (Fin 2) (Fin 2) ℂ) (tone 2 (delayIdx 2 1) 2 0 0) = 2 := by
  simp [respTo, amp, tone, delayIdx, Fin.sum_univ_two, wave]

example : ∃ M W, getMW (nd := 2) id 1 !![2, 1; 1, 2] .Hinv none false = .ok (M, W) := ⟨_, _, rfl⟩

end
end HeraPspec.Oqe
