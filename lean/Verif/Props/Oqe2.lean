import Verif.Props.Oqe
import Verif.Props.Cov
import Mathlib.LinearAlgebra.Matrix.Notation
import Mathlib.Data.Real.StarOrdered

/-!
C48 (continued): algebra of unnormalised bandpowers. C49: normalisation matrices. C51: bandpower covariance.
-/
namespace HeraPspec.Oqe
open Matrix Complex
open scoped ComplexOrder
noncomputable section

/-- The kernel that `q_hat` sandwiches. -/
def kernel {nf nd : ℕ} (norm : Norm nf) (a : Fin nd) : Matrix (Fin nf) (Fin nf) ℂ :=
  fun i j => if norm.exact then (norm.delTau : ℂ) * qPlain nf a i j * norm.beam i j else qPlain nf a i j

theorem qHat_kernel {nf nd ne : ℕ} {T : Type} {allowFft : Bool} {norm : Norm nf}
    {l1 l2 : List (Matrix (Fin nf) (Fin ne) ℂ × Matrix (Fin ne) T ℂ)} {q : Fin nd → T → ℂ} (h : qHat allowFft norm l1 l2 = .ok q) :
    q = fun a t => 1 / 2 * ∑ i, star (sumRx l1 i t) * ∑ j, kernel norm a i j * sumRx l2 j t := by
  by_cases hn : norm.exact = true
  · unfold qHat at h
    cases allowFft
    · simp only [hn, Bool.false_eq_true, and_false, if_false, if_true] at h
      injection h with h
      rw [← h]
      simp only [kernel, hn, if_true]
    · simp [hn] at h
  · have hn' : norm.exact = false := by simpa using hn
    rw [C48_value allowFft norm hn'] at h
    injection h with h
    rw [← h]
    funext a t
    simp only [kernel, hn', Bool.false_eq_true, if_false]
    rw [sandwich, ← sumRx_eq, ← sumRx_eq]

theorem qHat_defined {nf nd ne ne' : ℕ} {T T' : Type} {allowFft : Bool} {norm : Norm nf}
    {l1 l2 : List (Matrix (Fin nf) (Fin ne) ℂ × Matrix (Fin ne) T ℂ)} {q : Fin nd → T → ℂ} (h : qHat allowFft norm l1 l2 = .ok q)
    (l1' l2' : List (Matrix (Fin nf) (Fin ne') ℂ × Matrix (Fin ne') T' ℂ)) :
    (qHat allowFft norm l1' l2' : Except Err (Fin nd → T' → ℂ)) =
      .ok (fun a t => 1 / 2 * ∑ i, star (sumRx l1' i t) * ∑ j, kernel norm a i j * sumRx l2' j t) := by
  have : ¬ (norm.exact = true ∧ allowFft = true) := by
    intro hc
    unfold qHat at h
    rw [if_pos hc] at h; cases h
  have hex : ∃ q', (qHat allowFft norm l1' l2' : Except Err (Fin nd → T' → ℂ)) = .ok q' := by
    unfold qHat
    rw [if_neg this]
    split
    · exact ⟨_, rfl⟩
    · split <;> exact ⟨_, rfl⟩
  obtain ⟨q', hq'⟩ := hex
  rw [hq', qHat_kernel hq']

/-- C48: `q_hat` is linear in the second data set, for every choice of options. -/
theorem C48_linear {nf nd ne : ℕ} {T : Type} (allowFft : Bool) (norm : Norm nf) (R1 R2 : Matrix (Fin nf) (Fin ne) ℂ)
    (x1 x2 y2 : Matrix (Fin ne) T ℂ) (c : ℂ) (q q' : Fin nd → T → ℂ) (h : qHat allowFft norm [(R1, x1)] [(R2, x2)] = .ok q)
    (h' : qHat allowFft norm [(R1, x1)] [(R2, y2)] = .ok q') :
    qHat allowFft norm [(R1, x1)] [(R2, x2 + c • y2)] = .ok (fun a t => q a t + c * q' a t) := by
  rw [qHat_defined h, qHat_kernel h, qHat_kernel h']
  simp only [sumRx_one]
  congr 1
  funext a t
  simp only [Matrix.mul_add, Matrix.mul_smul, Matrix.add_apply, Matrix.smul_apply, smul_eq_mul, mul_add, Finset.sum_add_distrib, Finset.mul_sum]
  congr 1
  refine Finset.sum_congr rfl (fun i _ => Finset.sum_congr rfl (fun j _ => ?_))
  ring

/-- C48: `q_hat` is conjugate-linear in the first data set, for every choice of options. -/
theorem C48_conj_linear {nf nd ne : ℕ} {T : Type} (allowFft : Bool) (norm : Norm nf) (R1 R2 : Matrix (Fin nf) (Fin ne) ℂ)
    (x1 y1 x2 : Matrix (Fin ne) T ℂ) (c : ℂ) (q q' : Fin nd → T → ℂ) (h : qHat allowFft norm [(R1, x1)] [(R2, x2)] = .ok q)
    (h' : qHat allowFft norm [(R1, y1)] [(R2, x2)] = .ok q') :
    qHat allowFft norm [(R1, x1 + c • y1)] [(R2, x2)] = .ok (fun a t => q a t + star c * q' a t) := by
  rw [qHat_defined h, qHat_kernel h, qHat_kernel h']
  simp only [sumRx_one]
  congr 1
  funext a t
  simp only [Matrix.mul_add, Matrix.mul_smul, Matrix.add_apply, Matrix.smul_apply, smul_eq_mul, mul_add, Finset.sum_add_distrib, Finset.mul_sum,
    star_add, star_mul', add_mul]
  congr 1
  refine Finset.sum_congr rfl (fun i _ => Finset.sum_congr rfl (fun j _ => ?_))
  ring

/-- C48: a list of keys gives the sum over all pairs of keys. -/
theorem C48_key_lists {nf nd ne : ℕ} {T : Type} (allowFft : Bool) (norm : Norm nf) (l1 l2 : List (Matrix (Fin nf) (Fin ne) ℂ × Matrix (Fin ne) T ℂ))
    (p : Matrix (Fin nf) (Fin ne) ℂ × Matrix (Fin ne) T ℂ) (q q' : Fin nd → T → ℂ) (h : qHat allowFft norm l1 l2 = .ok q)
    (h' : qHat allowFft norm [p] l2 = .ok q') : qHat allowFft norm (p :: l1) l2 = .ok (fun a t => q' a t + q a t) := by
  rw [qHat_defined h, qHat_kernel h, qHat_kernel h']
  simp only [sumRx_eq, List.map_cons, List.sum_cons, List.map_nil, List.sum_nil, add_zero]
  congr 1
  funext a t
  simp only [Matrix.add_apply, star_add, add_mul, Finset.sum_add_distrib, mul_add]

theorem kernel_hermitian {nf nd : ℕ} (norm : Norm nf) (hb : norm.exact = true → norm.beamᵀ = norm.beam) (a : Fin nd) (i j : Fin nf) :
    star (kernel norm a i j) = kernel norm a j i := by
  unfold kernel
  have hq : star (qPlain nf a i j) = qPlain nf a j i := by
    rw [qPlain_eq, qPlain_eq, star_mul', star_star, mul_comm]
  by_cases hn : norm.exact = true
  · simp only [hn, if_true, star_mul', hq]
    have : norm.beam i j = norm.beam j i := by
      conv_lhs => rw [← hb hn]
      rfl
    rw [this]
    simp
  · simp only [hn, if_false]
    exact hq

/-- C48: exchanging the two data sets conjugates `q_hat` (with exact normalisation: for a symmetric beam integral, which
`get_integral_beam` always returns, see `C48_beam_symmetric`). -/
theorem C48_exchange {nf nd ne : ℕ} {T : Type} (allowFft : Bool) (norm : Norm nf) (hb : norm.exact = true → norm.beamᵀ = norm.beam)
    (l1 l2 : List (Matrix (Fin nf) (Fin ne) ℂ × Matrix (Fin ne) T ℂ)) (q : Fin nd → T → ℂ) (h : qHat allowFft norm l1 l2 = .ok q) :
    qHat allowFft norm l2 l1 = .ok (fun a t => star (q a t)) := by
  rw [qHat_defined h, qHat_kernel h]
  congr 1
  funext a t
  simp only [star_mul', star_sum, star_star, kernel_hermitian norm hb]
  congr 1
  · simp
  · simp only [Finset.mul_sum]
    rw [Finset.sum_comm]
    refine Finset.sum_congr rfl (fun i _ => Finset.sum_congr rfl (fun j _ => ?_))
    ring

theorem C48_beam_symmetric {nf np : ℕ} (beam : Option (Matrix (Fin nf) (Fin np) ℝ × (Fin nf → ℝ) × ℝ)) : (integralBeam beam)ᵀ = integralBeam beam := by
  cases beam with
  | none => rfl
  | some b =>
    unfold integralBeam
    rw [Matrix.transpose_smul, Matrix.transpose_mul, Matrix.transpose_transpose]

/-- C48: when both sides are the same, every bandpower is real and non-negative: without exact normalisation for all weightings, and
with it for every beam (or none) and `del_tau ≥ 0`. -/
theorem C48_auto_nonneg {nf nd ne np : ℕ} {T : Type} (allowFft : Bool) (norm : Norm nf)
    (hb : norm.exact = true → 0 ≤ norm.delTau ∧ ∃ beam : Option (Matrix (Fin nf) (Fin np) ℝ × (Fin nf → ℝ) × ℝ), norm.beam = integralBeam beam)
    (l : List (Matrix (Fin nf) (Fin ne) ℂ × Matrix (Fin ne) T ℂ)) (q : Fin nd → T → ℂ) (h : qHat allowFft norm l l = .ok q) (a : Fin nd) (t : T) :
    (q a t).im = 0 ∧ 0 ≤ (q a t).re := by
  have key : ∀ y : Fin nf → ℂ, 0 ≤ ∑ i, star (y i) * ∑ j, qPlain nf a i j * y j := by
    intro y
    rw [sandwich]
    exact star_mul_self_nonneg _
  have hnn : (0 : ℂ) ≤ q a t := by
    rw [qHat_kernel h]
    apply mul_nonneg
    · rw [Complex.le_def]; norm_num
    · by_cases hn : norm.exact = true
      · obtain ⟨hd, beam, hbeam⟩ := hb hn
        simp only [kernel, hn, if_true, hbeam]
        cases beam with
        | none =>
          have e : (integralBeam (none : Option (Matrix (Fin nf) (Fin np) ℝ × (Fin nf → ℝ) × ℝ))) = fun _ _ => 1 := rfl
          rw [e]
          have : ∑ i, star (sumRx l i t) * ∑ j, (norm.delTau : ℂ) * qPlain nf a i j * ((1 : ℝ) : ℂ) * sumRx l j t
              = (norm.delTau : ℂ) * ∑ i, star (sumRx l i t) * ∑ j, qPlain nf a i j * sumRx l j t := by
            simp only [Finset.mul_sum]
            refine Finset.sum_congr rfl (fun i _ => Finset.sum_congr rfl (fun j _ => ?_))
            push_cast; ring
          rw [this]
          exact mul_nonneg (by exact_mod_cast hd) (key _)
        | some b =>
          obtain ⟨res, omega, N⟩ := b
          have : ∑ i, star (sumRx l i t) * ∑ j, (norm.delTau : ℂ) * qPlain nf a i j * (integralBeam (some (res, omega, N)) i j : ℂ) * sumRx l j t
              = ((norm.delTau * (Real.pi / (3 * N * N)) : ℝ) : ℂ) * ∑ p : Fin np, ∑ i, star ((beamProd res omega i p : ℂ) * sumRx l i t) *
                ∑ j, qPlain nf a i j * ((beamProd res omega j p : ℂ) * sumRx l j t) := by
            simp only [integralBeam, Matrix.smul_apply, Matrix.mul_apply, Matrix.transpose_apply, smul_eq_mul, Finset.mul_sum, star_mul',
              Complex.ofReal_mul, Complex.ofReal_sum, Finset.sum_mul]
            rw [Finset.sum_congr rfl (fun i _ => Finset.sum_comm), Finset.sum_comm]
            refine Finset.sum_congr rfl (fun p _ => Finset.sum_congr rfl (fun i _ => Finset.sum_congr rfl (fun j _ => ?_)))
            simp
            ring
          rw [this]
          apply mul_nonneg
          · have : 0 ≤ norm.delTau * (Real.pi / (3 * N * N)) := by
              apply mul_nonneg hd
              apply div_nonneg Real.pi_pos.le
              nlinarith [mul_self_nonneg N]
            exact_mod_cast this
          · exact Finset.sum_nonneg (fun p _ => key _)
      · simp only [kernel, hn, if_false]
        exact key _
  rw [Complex.le_def] at hnn
  exact ⟨hnn.2.symm, hnn.1⟩

/-- Quadratic form `x₁† E x₂` at one time. -/
def sand {ne : ℕ} {T : Type} (x1 : Matrix (Fin ne) T ℂ) (E : Matrix (Fin ne) (Fin ne) ℂ) (x2 : Matrix (Fin ne) T ℂ) (t : T) : ℂ :=
  ∑ i, star (x1 i t) * ∑ j, E i j * x2 j t

theorem sand_mul {nf ne : ℕ} {T : Type} (R1 R2 : Matrix (Fin nf) (Fin ne) ℂ) (K : Matrix (Fin nf) (Fin nf) ℂ) (x1 x2 : Matrix (Fin ne) T ℂ) (t : T) :
    sand x1 (R1ᴴ * (K * R2)) x2 t = ∑ i, star ((R1 * x1) i t) * ∑ j, K i j * (R2 * x2) j t := by
  have e1 : ∀ (x : Matrix (Fin ne) T ℂ) (v : Fin ne → ℂ), ∑ i, star (x i t) * v i = star (fun i => x i t) ⬝ᵥ v := fun _ _ => rfl
  have e2 : ∀ (E : Matrix (Fin ne) (Fin ne) ℂ) (v : Fin ne → ℂ), (fun i => ∑ j, E i j * v j) = E *ᵥ v := fun _ _ => rfl
  have e3 : ∀ (R : Matrix (Fin nf) (Fin ne) ℂ) (x : Matrix (Fin ne) T ℂ), (fun i => (R * x) i t) = R *ᵥ (fun i => x i t) := fun _ _ => rfl
  have lhs : sand x1 (R1ᴴ * (K * R2)) x2 t = star (fun i => x1 i t) ⬝ᵥ ((R1ᴴ * (K * R2)) *ᵥ (fun j => x2 j t)) := rfl
  have rhs : ∑ i, star ((R1 * x1) i t) * ∑ j, K i j * (R2 * x2) j t = star (R1 *ᵥ (fun i => x1 i t)) ⬝ᵥ (K *ᵥ (R2 *ᵥ (fun i => x2 i t))) := rfl
  rw [lhs, rhs, star_mulVec, ← dotProduct_mulVec, mulVec_mulVec, mulVec_mulVec, Matrix.mul_assoc]

/-- C48: without exact normalisation `q_hat` is `x₁† E x₂` with the matrices of `get_unnormed_E`, for all weightings, extensions, data
and modes. -/
theorem C48_E_form {nf nd ne : ℕ} {T : Type} (allowFft : Bool) (norm : Norm nf) (hn : norm.exact = false) (R1 R2 : Matrix (Fin nf) (Fin ne) ℂ)
    (x1 x2 : Matrix (Fin ne) T ℂ) (q : Fin nd → T → ℂ) (h : qHat allowFft norm [(R1, x1)] [(R2, x2)] = .ok q) (a : Fin nd) (t : T) :
    q a t = sand x1 (unnormedE R1 R2 a) x2 t := by
  rw [qHat_kernel h]
  simp only [sumRx_one]
  have : kernel norm a = qPlain nf a := by ext i j; simp [kernel, hn]
  rw [this, ← sand_mul]
  unfold sand unnormedE
  simp only [Matrix.smul_apply, smul_eq_mul, Finset.mul_sum]
  refine Finset.sum_congr rfl (fun i _ => Finset.sum_congr rfl (fun j _ => ?_))
  ring

/-- C48 (partial: only for a diagonal second weighting matrix): with exact normalisation `q_hat` is `x₁† E x₂`. Missing: second weighting matrices that are not diagonal, for which the claim is false of the code. -/
theorem C48_E_form_exact_partial {nf nd : ℕ} {T : Type} (norm : Norm nf) (hn : norm.exact = true) (R1 : Matrix (Fin nf) (Fin nf) ℂ)
    (r2 : Fin nf → ℂ) (x1 x2 : Matrix (Fin nf) T ℂ) (q : Fin nd → T → ℂ) (h : qHat false norm [(R1, x1)] [(diagonal r2, x2)] = .ok q)
    (a : Fin nd) (t : T) : q a t = sand x1 (unnormedEexact norm R1 (diagonal r2) a) x2 t := by
  rw [qHat_kernel h]
  simp only [sumRx_one]
  rw [← sand_mul]
  unfold sand unnormedEexact
  have : (Matrix.of fun i j => (norm.delTau : ℂ) * norm.beam i j * (qPlain nf a * diagonal r2) i j) = kernel norm a * diagonal r2 := by
    ext i j
    simp only [Matrix.of_apply, Matrix.mul_diagonal, kernel, hn, if_true]
    ring
  rw [this]
  simp only [Matrix.smul_apply, smul_eq_mul, Finset.mul_sum]
  refine Finset.sum_congr rfl (fun i _ => Finset.sum_congr rfl (fun j _ => ?_))
  ring

/-- C48 counterexample: with exact normalisation and a non-diagonal weighting, `get_unnormed_E` multiplies the beam integral into the
wrong product, and `x₁† E x₂` is not `q_hat`: two channels, one delay, `R₂` all ones, a symmetric beam integral. -/
theorem C48_counterexample_exact_E : ∃ (norm : Norm 2) (R1 R2 : Matrix (Fin 2) (Fin 2) ℂ) (x1 x2 : Matrix (Fin 2) Unit ℂ) (q : Fin 1 → Unit → ℂ),
    norm.exact = true ∧ norm.beamᵀ = norm.beam ∧ qHat false norm [(R1, x1)] [(R2, x2)] = .ok q ∧
      q 0 () ≠ sand x1 (unnormedEexact norm R1 R2 (0 : Fin 1)) x2 () := by
  refine ⟨⟨true, 1, !![2, 1; 1, 2]⟩, 1, !![1, 1; 1, 1], Matrix.of (fun i _ => if i = 0 then 1 else 0), Matrix.of (fun i _ => if i = 0 then 1 else 0), _, rfl, ?_,
    qHat_defined (T := Unit) (T' := Unit) (ne := 2) (l1 := []) (l2 := []) (q := fun _ _ => 0) ?_ _ _, ?_⟩
  · ext i j; fin_cases i <;> fin_cases j <;> rfl
  · unfold qHat; simp [sumRx]
  · have hq : ∀ i j : Fin 2, qPlain 2 (0 : Fin 1) i j = 1 := by
      intro i j
      rw [qPlain_eq]
      have : delayIdx 1 ((0 : Fin 1) : ℕ) = 0 := rfl
      rw [this]
      unfold wave; simp
    simp only [sumRx_one]
    simp [sand, unnormedEexact, kernel, hq, Matrix.mul_apply, Fin.sum_univ_two, Matrix.one_apply, Matrix.conjTranspose_apply]
    norm_num

end
end HeraPspec.Oqe
