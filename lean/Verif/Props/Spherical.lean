import Verif.Model.Spherical
import Mathlib.Tactic.FieldSimp
import Mathlib.Tactic.Linarith
import Mathlib.LinearAlgebra.Matrix.NonsingularInverse
import Mathlib.LinearAlgebra.Matrix.PosDef

/-!
C33, C34, C82: spherical averaging.
-/
namespace HeraPspec.Spherical
open Matrix
variable {nb nd nk : Nat}

/-! ### C33 -/

/-- C33: the bin of a mode contains it, and no mode has two bins: every row of the design matrix has at most one entry 1, all
others are 0. -/
theorem C33_one_bin_per_mode (kbins widths : Fin nk → ℝ) (km : Fin nb × Fin nd → ℝ) (m : Fin nb × Fin nd) :
    (∀ k, designMatrix kbins widths km m k = 0 ∨ (designMatrix kbins widths km m k = 1 ∧
      left kbins widths k < km m ∧ km m ≤ right kbins widths k)) ∧
    (∀ k k', designMatrix kbins widths km m k = 1 → designMatrix kbins widths km m k' = 1 → k = k') := by
  unfold designMatrix
  constructor
  · intro k
    by_cases h : binOf kbins widths (km m) = some k
    · right
      rw [if_pos h]
      unfold binOf at h
      have := List.find?_some h
      simp at this
      exact ⟨rfl, this.1, this.2⟩
    · left; rw [if_neg h]
  · intro k k' h h'
    by_cases h1 : binOf kbins widths (km m) = some k
    · by_cases h2 : binOf kbins widths (km m) = some k'
      · rw [h1] at h2; exact Option.some.inj h2
      · rw [if_neg h2] at h'; norm_num at h'
    · rw [if_neg h1] at h; norm_num at h

/-- C33: a mode contributes to some bin iff it lies in some bin; modes outside all bins have a zero row. -/
theorem C33_outside_modes_zero (kbins widths : Fin nk → ℝ) (km : Fin nb × Fin nd → ℝ) (m : Fin nb × Fin nd) :
    (∀ k, designMatrix kbins widths km m k = 0) ↔ ∀ k, ¬ (left kbins widths k < km m ∧ km m ≤ right kbins widths k) := by
  unfold designMatrix
  cases h : binOf kbins widths (km m) with
  | none =>
    simp only [reduceCtorEq, if_false, true_iff, implies_true]
    unfold binOf at h
    rw [List.find?_eq_none] at h
    intro k
    simpa using h k (List.mem_finRange k)
  | some k =>
    constructor
    · intro h0; have := h0 k; simp at this
    · intro h0
      unfold binOf at h
      have := List.find?_some h
      simp at this
      exact absurd this (h0 k)

theorem left_le_of_lt (kbins widths : Fin nk → ℝ) (hw : ∀ i, 0 ≤ widths i)
    (hno : ∀ (i : Nat) (h : i + 1 < nk), right kbins widths ⟨i, by omega⟩ ≤ left kbins widths ⟨i + 1, h⟩) (i : Fin nk) :
    ∀ (j : Nat) (hj : j < nk), i.1 < j → right kbins widths i ≤ left kbins widths ⟨j, hj⟩ := by
  intro j
  induction j with
  | zero => intro _ h; omega
  | succ j ih =>
    intro hj hlt
    by_cases he : i.1 = j
    · have := hno j hj
      have hi : i = ⟨j, by omega⟩ := Fin.ext he
      rw [hi]; exact this
    · have h1 := ih (by omega) (by omega)
      have h2 := hno j hj
      have h3 : left kbins widths ⟨j, by omega⟩ ≤ right kbins widths ⟨j, by omega⟩ := by
        have := hw ⟨j, by omega⟩
        unfold left right; linarith
      linarith

/-- C33: for bins that do not overlap, every |k| is in at most one bin `(left, right]`, and the design matrix holds a 1 exactly
where the mode is in the bin. -/
theorem C33_bins_disjoint (kbins widths : Fin nk → ℝ) (hw : ∀ i, 0 ≤ widths i)
    (hno : ∀ (i : Nat) (h : i + 1 < nk), right kbins widths ⟨i, by omega⟩ ≤ left kbins widths ⟨i + 1, h⟩)
    (km : Fin nb × Fin nd → ℝ) (m : Fin nb × Fin nd) :
    (∀ k k', left kbins widths k < km m → km m ≤ right kbins widths k → left kbins widths k' < km m →
      km m ≤ right kbins widths k' → k = k') ∧
    ∀ k, designMatrix kbins widths km m k = 1 ↔ (left kbins widths k < km m ∧ km m ≤ right kbins widths k) := by
  have huniq : ∀ k k', left kbins widths k < km m → km m ≤ right kbins widths k → left kbins widths k' < km m →
      km m ≤ right kbins widths k' → k = k' := by
    intro k k' h1 h2 h3 h4
    rcases lt_trichotomy k.1 k'.1 with h | h | h
    · have := left_le_of_lt kbins widths hw hno k k'.1 k'.2 h
      exfalso; linarith
    · exact Fin.ext h
    · have := left_le_of_lt kbins widths hw hno k' k.1 k.2 h
      exfalso; linarith
  refine ⟨huniq, ?_⟩
  intro k
  obtain ⟨h1, h2⟩ := C33_one_bin_per_mode kbins widths km m
  constructor
  · intro h
    rcases h1 k with h0 | ⟨_, h3⟩
    · rw [h] at h0; norm_num at h0
    · exact h3
  · intro h
    by_contra hne
    have hnz : ¬ ∀ k, designMatrix kbins widths km m k = 0 := by
      rw [C33_outside_modes_zero]
      push Not
      exact ⟨k, h⟩
    push Not at hnz
    obtain ⟨k', hk'⟩ := hnz
    rcases h1 k' with h0 | ⟨h3, h4⟩
    · exact hk' h0
    · have := huniq k k' h.1 h.2 h4.1 h4.2
      subst this; exact hne h3

/-- C33: bins that touch exactly are accepted. -/
theorem C33_accepts_disjoint (kbins widths : Fin nk → ℝ)
    (hno : ∀ (i : Nat) (h : i + 1 < nk), right kbins widths ⟨i, by omega⟩ ≤ left kbins widths ⟨i + 1, h⟩) :
    accepted kbins widths := by
  intro i h
  have := hno i h
  linarith [show (0 : ℝ) ≤ 1 / 10 ^ 6 by positivity]

/-- C33, with the bins written out: bin `k` is `kbins k - widths k / 2 < |k| ≤ kbins k + widths k / 2`, where `|k|^2` is
`kperp^2 + kpara^2`. -/
theorem C33_bin_edges (kbins widths : Fin nk → ℝ) (kperp : Fin nb → ℝ) (kpara : Fin nd → ℝ) (b : Fin nb) (d : Fin nd) (k : Fin nk)
    (h : designMatrix kbins widths (kmag kperp kpara) (b, d) k ≠ 0) :
    kbins k - widths k / 2 < Real.sqrt (kperp b ^ 2 + kpara d ^ 2) ∧
    Real.sqrt (kperp b ^ 2 + kpara d ^ 2) ≤ kbins k + widths k / 2 := by
  rcases (C33_one_bin_per_mode kbins widths (kmag kperp kpara) (b, d)).1 k with h0 | ⟨_, h1⟩
  · exact absurd h0 h
  · exact h1

/-! ### C34 -/

/-- The Moore-Penrose equations. -/
structure IsPinv (M X : Matrix (Fin nk) (Fin nk) ℝ) : Prop where
  mxm : M * X * M = M
  xmx : X * M * X = X
  mx : (M * X)ᵀ = M * X
  xm : (X * M)ᵀ = X * M

/-- The pseudo-inverse of an invertible matrix is its inverse. -/
theorem pinv_of_isUnit {M X : Matrix (Fin nk) (Fin nk) ℝ} (h : IsPinv M X) (hu : IsUnit M.det) : M * X = 1 := by
  have h1 := h.mxm
  calc M * X = M * X * (M * M⁻¹) := by rw [Matrix.mul_nonsing_inv M hu, Matrix.mul_one]
    _ = (M * X * M) * M⁻¹ := by rw [Matrix.mul_assoc, Matrix.mul_assoc, Matrix.mul_assoc]
    _ = 1 := by rw [h1, Matrix.mul_nonsing_inv M hu]

/-- The pseudo-inverse of a diagonal matrix. -/
theorem pinv_diagonal {v : Fin nk → ℝ} {X : Matrix (Fin nk) (Fin nk) ℝ} (h : IsPinv (Matrix.diagonal v) X) :
    X = Matrix.diagonal (fun k => (v k)⁻¹) := by
  have e1 : ∀ i j, v i * X i j * v j = (Matrix.diagonal v) i j := by
    intro i j
    have := congrFun (congrFun h.mxm i) j
    rw [Matrix.mul_diagonal, Matrix.diagonal_mul] at this
    exact this
  have e2 : ∀ i j, v j * X j i = v i * X i j := by
    intro i j
    have := congrFun (congrFun h.mx i) j
    rw [Matrix.transpose_apply, Matrix.diagonal_mul, Matrix.diagonal_mul] at this
    exact this
  have e3 : ∀ i j, X j i * v i = X i j * v j := by
    intro i j
    have := congrFun (congrFun h.xm i) j
    rw [Matrix.transpose_apply, Matrix.mul_diagonal, Matrix.mul_diagonal] at this
    exact this
  have e4 : ∀ i j, v i = 0 → v j ≠ 0 → X i j = 0 := by
    intro i j hi hj
    have := e3 i j
    rw [hi, mul_zero] at this
    rcases mul_eq_zero.1 this.symm with h | h
    · exact h
    · exact absurd h hj
  ext i j
  rw [Matrix.diagonal_apply]
  by_cases hij : i = j
  · subst hij
    rw [if_pos rfl]
    by_cases hv : v i = 0
    · rw [hv, _root_.inv_zero]
      have := congrFun (congrFun h.xmx i) i
      rw [Matrix.mul_apply] at this
      rw [← this]
      apply Finset.sum_eq_zero
      intro k _
      rw [Matrix.mul_diagonal]
      by_cases hk : v k = 0
      · rw [hk]; ring
      · rw [e4 i k hv hk]; ring
    · have := e1 i i
      rw [Matrix.diagonal_apply_eq] at this
      rw [eq_comm, inv_eq_iff_eq_inv]
      have h2 : X i i * v i = 1 := by
        apply mul_left_cancel₀ hv
        rw [mul_one, ← mul_assoc]; exact this
      exact (inv_eq_of_mul_eq_one_right h2).symm
  · rw [if_neg hij]
    by_cases hi : v i = 0
    · by_cases hj : v j = 0
      · have := congrFun (congrFun h.xmx i) j
        rw [Matrix.mul_apply] at this
        rw [← this]
        apply Finset.sum_eq_zero
        intro k _
        rw [Matrix.mul_diagonal]
        by_cases hk : v k = 0
        · rw [hk]; ring
        · rw [e4 i k hi hk]; ring
      · exact e4 i j hi hj
    · have := e1 i j
      rw [Matrix.diagonal_apply_ne _ hij] at this
      by_cases hj : v j = 0
      · have h2 := e2 i j
        rw [hj, zero_mul] at h2
        rcases mul_eq_zero.1 h2.symm with h | h
        · exact absurd h hi
        · exact h
      · rcases mul_eq_zero.1 this with h | h
        · rcases mul_eq_zero.1 h with h | h
          · exact absurd h hi
          · exact h
        · exact absurd h hj

/-- C34: whenever `Aᵀ E A` is invertible, the estimator applied to the design matrix is the identity (any weights, also
covariance weights): a spectrum that is constant in every bin is returned exactly. -/
theorem C34_unbiased (pinv : Matrix (Fin nk) (Fin nk) ℝ → Matrix (Fin nk) (Fin nk) ℝ) (hp : ∀ M, IsPinv M (pinv M))
    (E : Fin nb → Matrix (Fin nd) (Fin nd) ℝ) (A : Matrix (Fin nb × Fin nd) (Fin nk) ℝ)
    (hs : ∀ b, (E b)ᵀ = E b) (hu : IsUnit (Aᵀ * EA E A).det) :
    (hMatrix pinv E A)ᵀ * A = 1 ∧ ∀ p : Fin nk → ℝ, binData (hMatrix pinv E A) (A *ᵥ p) = p := by
  have hEA : EA E A = (Matrix.of fun m m' : Fin nb × Fin nd => if m.1 = m'.1 then E m.1 m.2 m'.2 else 0) * A := by
    ext m k
    unfold EA
    rw [Matrix.mul_apply, Fintype.sum_prod_type]
    simp only [Matrix.of_apply, ite_mul, zero_mul]
    rw [Finset.sum_eq_single m.1]
    · simp
    · intro b _ hb
      simp [Ne.symm hb]
    · simp
  have hsym : (Aᵀ * EA E A)ᵀ = Aᵀ * EA E A := by
    rw [hEA, Matrix.transpose_mul, Matrix.transpose_mul, Matrix.transpose_transpose, Matrix.mul_assoc]
    congr 2
    ext m m'
    simp only [Matrix.transpose_apply, Matrix.of_apply]
    by_cases h : m.1 = m'.1
    · rw [if_pos h, if_pos h.symm]
      have := congrFun (congrFun (hs m.1) m.2) m'.2
      rw [Matrix.transpose_apply] at this
      rw [← h]; exact this
    · rw [if_neg h, if_neg (Ne.symm h)]
  have h1 : (hMatrix pinv E A)ᵀ * A = 1 := by
    have hM := pinv_of_isUnit (hp _) hu
    unfold hMatrix
    rw [Matrix.transpose_mul, Matrix.mul_assoc]
    have e : (EA E A)ᵀ * A = Aᵀ * EA E A := by
      conv_rhs => rw [← hsym]
      rw [Matrix.transpose_mul, Matrix.transpose_transpose]
    rw [e]
    have : (pinv (Aᵀ * EA E A))ᵀ * (Aᵀ * EA E A) = ((Aᵀ * EA E A) * pinv (Aᵀ * EA E A))ᵀ := by
      rw [Matrix.transpose_mul, hsym]
    rw [this, hM, Matrix.transpose_one]
  refine ⟨h1, ?_⟩
  intro p
  unfold binData
  rw [Matrix.mulVec_mulVec, h1, Matrix.one_mulVec]

/-- Total weight of a bin. -/
noncomputable def binWeight (e : Fin nb × Fin nd → ℝ) (A : Matrix (Fin nb × Fin nd) (Fin nk) ℝ) (k : Fin nk) : ℝ :=
  ∑ m, e m * A m k

/-- A design matrix: zeros and ones, at most a single one in a row. -/
def IsDesign (A : Matrix (Fin nb × Fin nd) (Fin nk) ℝ) : Prop :=
  ∀ m, (∀ k, A m k = 0 ∨ A m k = 1) ∧ ∀ k k', A m k = 1 → A m k' = 1 → k = k'

theorem isDesign (kbins widths : Fin nk → ℝ) (km : Fin nb × Fin nd → ℝ) : IsDesign (designMatrix kbins widths km) := by
  intro m
  obtain ⟨h1, h2⟩ := C33_one_bin_per_mode kbins widths km m
  exact ⟨fun k => (h1 k).imp id (·.1), h2⟩

theorem EA_diag (e : Fin nb × Fin nd → ℝ) (A : Matrix (Fin nb × Fin nd) (Fin nk) ℝ) (m : Fin nb × Fin nd) (k : Fin nk) :
    EA (fun b => Matrix.diagonal (fun d => e (b, d))) A m k = e m * A m k := by
  unfold EA
  rw [Finset.sum_eq_single m.2]
  · show Matrix.diagonal (fun d => e (m.1, d)) m.2 m.2 * A m k = _
    rw [Matrix.diagonal_apply_eq]
  · intro d _ hd
    show Matrix.diagonal (fun d => e (m.1, d)) m.2 d * _ = _
    rw [Matrix.diagonal_apply_ne _ (Ne.symm hd), zero_mul]
  · simp

theorem hMatrix_diag (pinv : Matrix (Fin nk) (Fin nk) ℝ → Matrix (Fin nk) (Fin nk) ℝ) (hp : ∀ M, IsPinv M (pinv M))
    (e : Fin nb × Fin nd → ℝ) (A : Matrix (Fin nb × Fin nd) (Fin nk) ℝ) (hA : IsDesign A) (m : Fin nb × Fin nd) (k : Fin nk) :
    hMatrix pinv (fun b => Matrix.diagonal (fun d => e (b, d))) A m k = e m * A m k * (binWeight e A k)⁻¹ := by
  have hM : Aᵀ * EA (fun b => Matrix.diagonal (fun d => e (b, d))) A = Matrix.diagonal (binWeight e A) := by
    ext i j
    rw [Matrix.mul_apply, Matrix.diagonal_apply]
    simp only [Matrix.transpose_apply, EA_diag]
    by_cases hij : i = j
    · subst hij
      rw [if_pos rfl]
      unfold binWeight
      apply Finset.sum_congr rfl
      intro x _
      rcases (hA x).1 i with h | h <;> rw [h] <;> ring
    · rw [if_neg hij]
      apply Finset.sum_eq_zero
      intro x _
      rcases (hA x).1 i with h | h
      · rw [h]; ring
      · rcases (hA x).1 j with h' | h'
        · rw [h']; ring
        · exact absurd ((hA x).2 i j h h') hij
  unfold hMatrix
  rw [hM, pinv_diagonal (hp _), Matrix.mul_diagonal, EA_diag]

/-- C34: with diagonal weights `e` the value of a bin is the weighted mean of the modes in it, `sum e x / sum e`; bins
without weight give 0. -/
theorem C34_bin_is_weighted_mean (pinv : Matrix (Fin nk) (Fin nk) ℝ → Matrix (Fin nk) (Fin nk) ℝ) (hp : ∀ M, IsPinv M (pinv M))
    (e : Fin nb × Fin nd → ℝ) (kbins widths : Fin nk → ℝ) (km x : Fin nb × Fin nd → ℝ) (k : Fin nk) :
    binData (hMatrix pinv (fun b => Matrix.diagonal (fun d => e (b, d))) (designMatrix kbins widths km)) x k =
      (∑ m with binOf kbins widths (km m) = some k, e m * x m) / ∑ m with binOf kbins widths (km m) = some k, e m := by
  unfold binData Matrix.mulVec dotProduct
  simp only [Matrix.transpose_apply]
  simp_rw [hMatrix_diag pinv hp e _ (isDesign kbins widths km)]
  rw [Finset.sum_filter, Finset.sum_filter, div_eq_mul_inv, Finset.sum_mul]
  have hB : binWeight e (designMatrix kbins widths km) k = ∑ m, if binOf kbins widths (km m) = some k then e m else 0 := by
    unfold binWeight designMatrix
    apply Finset.sum_congr rfl
    intro m _
    split <;> ring
  rw [hB]
  apply Finset.sum_congr rfl
  intro m _
  unfold designMatrix
  split <;> ring

/-- C34: every weighting mode without covariance is of that form: uniform weights (0 for pairs without integration time), or
inverse variances (limited to `1e40`; 0 for infinite errors, represented by `none`). -/
theorem C34_weights (w : Weighting nb nd) (hw : ∀ E, w ≠ .cov E) : ∃ e : Fin nb × Fin nd → ℝ,
    blocks w = (fun b => Matrix.diagonal (fun d => e (b, d))) ∧ (∀ m, 0 ≤ e m) ∧
    match w with
    | .cov _ => True
    | .error s => (∀ m x, s m.1 m.2 = some x → 1 / 10 ^ 40 ≤ x ^ 2 → e m = 1 / x ^ 2) ∧
        (∀ m x, s m.1 m.2 = some x → x ^ 2 < 1 / 10 ^ 40 → e m = 10 ^ 40) ∧ ∀ m, s m.1 m.2 = none → e m = 0
    | .uniform y => ∀ m, (1 / 10 ^ 8 < |y m.1| → e m = 1) ∧ (y m.1 = 0 → e m = 0) := by
  cases w with
  | cov E => exact absurd rfl (hw E)
  | error s =>
    refine ⟨fun m => invVar (s m.1 m.2), rfl, ?_, ?_⟩
    · intro m
      show 0 ≤ invVar (s m.1 m.2)
      unfold invVar
      split <;> positivity
    · refine ⟨?_, ?_, ?_⟩
      · intro m x hx hle
        show invVar (s m.1 m.2) = _
        rw [hx]
        simp only [invVar]
        rw [max_eq_left hle]
      · intro m x hx hlt
        show invVar (s m.1 m.2) = _
        rw [hx]
        simp only [invVar]
        rw [max_eq_right (le_of_lt hlt), one_div_one_div]
      · intro m hm
        show invVar (s m.1 m.2) = _
        rw [hm]; rfl
  | uniform y =>
    refine ⟨fun m => if |y m.1| ≤ 1 / 10 ^ 8 then 0 else 1, rfl, ?_, ?_⟩
    · intro m; simp only []; split <;> norm_num
    · intro m
      refine ⟨fun h => if_neg (not_le.2 h), fun h => if_pos ?_⟩
      rw [h, abs_zero]; positivity

/-- C34: the error of a bin is the quadrature error of that weighted mean, `sqrt(sum e^2 s^2) / sum e` (if above `1e-8`), so
with inverse-variance weights it is `1 / sqrt(sum 1/s^2)`. -/
theorem C34_bin_error (pinv : Matrix (Fin nk) (Fin nk) ℝ → Matrix (Fin nk) (Fin nk) ℝ) (hp : ∀ M, IsPinv M (pinv M))
    (s : Fin nb × Fin nd → ℝ) (hs : ∀ m, 1 / 10 ^ 20 ≤ s m ∧ s m ≤ 10 ^ 20) (kbins widths : Fin nk → ℝ)
    (km : Fin nb × Fin nd → ℝ) (k : Fin nk)
    (hbig : 1 / 10 ^ 8 < 1 / Real.sqrt (∑ m with binOf kbins widths (km m) = some k, 1 / s m ^ 2)) :
    binStat (hMatrix pinv (blocks (.error fun b d => some (s (b, d)))) (designMatrix kbins widths km)) (fun m => some (s m)) k =
      1 / Real.sqrt (∑ m with binOf kbins widths (km m) = some k, 1 / s m ^ 2) := by
  have hpos : ∀ m, 0 < s m := fun m => lt_of_lt_of_le (by positivity) (hs m).1
  have hb : blocks (.error fun b d => some (s (b, d))) = (fun b : Fin nb => Matrix.diagonal (fun d : Fin nd => (fun m : Fin nb × Fin nd => 1 / s m ^ 2) (b, d))) := by
    funext b
    simp only [blocks]
    congr 1
    funext d
    simp only [invVar]
    rw [max_eq_left]
    have : (1 / 10 ^ 20 : ℝ) ^ 2 ≤ s (b, d) ^ 2 := by have := (hs (b, d)).1; gcongr
    refine le_trans (le_of_eq ?_) this
    norm_num
  rw [hb]
  have hB : binWeight (fun m => 1 / s m ^ 2) (designMatrix kbins widths km) k =
      ∑ m with binOf kbins widths (km m) = some k, 1 / s m ^ 2 := by
    unfold binWeight designMatrix
    rw [Finset.sum_filter]
    apply Finset.sum_congr rfl
    intro m _
    split <;> ring
  set B := ∑ m with binOf kbins widths (km m) = some k, 1 / s m ^ 2 with hBdef
  have hBpos : 0 < B := by
    by_contra hn
    have : Real.sqrt B = 0 := Real.sqrt_eq_zero_of_nonpos (not_lt.1 hn)
    rw [this, div_zero] at hbig
    exact absurd hbig (not_lt.2 (by positivity))
  have hsum : ∑ m, hMatrix pinv (fun b => Matrix.diagonal (fun d => (fun m : Fin nb × Fin nd => 1 / s m ^ 2) (b, d))) (designMatrix kbins widths km) m k *
      clipStat (some (s m)) * hMatrix pinv (fun b => Matrix.diagonal (fun d => (fun m : Fin nb × Fin nd => 1 / s m ^ 2) (b, d))) (designMatrix kbins widths km) m k = 1 / B := by
    simp_rw [hMatrix_diag pinv hp (fun m => 1 / s m ^ 2) _ (isDesign kbins widths km), hB]
    have : ∀ m, 1 / s m ^ 2 * designMatrix kbins widths km m k * B⁻¹ * clipStat (some (s m)) *
        (1 / s m ^ 2 * designMatrix kbins widths km m k * B⁻¹) = (if binOf kbins widths (km m) = some k then 1 / s m ^ 2 else 0) * (B⁻¹ * B⁻¹) := by
      intro m
      have hc : clipStat (some (s m)) = s m ^ 2 := by
        simp only [clipStat]
        rw [max_eq_left (sq_nonneg _), min_eq_left]
        have : s m ^ 2 ≤ (10 ^ 20) ^ 2 := by have := (hs m).2; have := (hpos m).le; gcongr
        refine le_trans this (le_of_eq ?_)
        norm_num
      rw [hc]
      unfold designMatrix
      have := (hpos m).ne'
      split
      · field_simp
      · ring
    simp_rw [this]
    rw [← Finset.sum_mul, ← Finset.sum_filter, ← hBdef]
    field_simp
  unfold binStat
  simp only []
  rw [hsum, Real.sqrt_div zero_le_one, Real.sqrt_one]
  rw [if_neg]
  rw [abs_of_pos (by have := Real.sqrt_pos.2 hBpos; positivity)]
  exact not_le.2 hbig

/-- C34: the binned covariance is symmetric if the covariances are. -/
theorem C34_cov_symmetric (H : Matrix (Fin nb × Fin nd) (Fin nk) ℝ) (C : Fin nb → Matrix (Fin nd) (Fin nd) ℝ)
    (hs : ∀ b, (C b)ᵀ = C b) : (binCov H C)ᵀ = binCov H C := by
  unfold binCov
  rw [Matrix.transpose_mul, Matrix.transpose_mul, Matrix.transpose_transpose, Matrix.mul_assoc]
  congr 2
  ext m m'
  simp only [Matrix.transpose_apply, Matrix.of_apply]
  by_cases h : m.1 = m'.1
  · rw [if_pos h, if_pos h.symm]
    have := congrFun (congrFun (hs m.1) m.2) m'.2
    rw [Matrix.transpose_apply] at this
    rw [← h, this]
  · rw [if_neg h, if_neg (Ne.symm h)]

/-- C34: for a diagonal covariance with variances `s^2` (at most `1e40`) the diagonal of the binned covariance is the square of the
binned error. -/
theorem C34_cov_matches_error (H : Matrix (Fin nb × Fin nd) (Fin nk) ℝ) (s : Fin nb × Fin nd → ℝ) (hs : ∀ m, s m ^ 2 ≤ 10 ^ 40)
    (k : Fin nk) (hbig : 1 / 10 ^ 16 < binCov H (fun b => Matrix.diagonal (fun d => s (b, d) ^ 2)) k k) :
    binStat H (fun m => some (s m)) k ^ 2 = binCov H (fun b => Matrix.diagonal (fun d => s (b, d) ^ 2)) k k := by
  have hcov : binCov H (fun b => Matrix.diagonal (fun d => s (b, d) ^ 2)) k k = ∑ m, H m k * clipStat (some (s m)) * H m k := by
    unfold binCov
    rw [Matrix.mul_apply]
    apply Finset.sum_congr rfl
    intro m _
    rw [Matrix.mul_apply, Finset.sum_eq_single m]
    · simp only [Matrix.transpose_apply, Matrix.of_apply, if_true, Matrix.diagonal_apply_eq, clipStat]
      rw [max_eq_left (sq_nonneg _), min_eq_left (hs m), max_eq_right (by have := sq_nonneg (s m); linarith [show (0:ℝ) ≤ 10 ^ 40 by positivity])]
    · intro m' _ hne
      simp only [Matrix.transpose_apply, Matrix.of_apply]
      by_cases h : m'.1 = m.1
      · rw [if_pos h, Matrix.diagonal_apply_ne]
        · norm_num
        · intro h2; exact hne (Prod.ext h h2)
      · rw [if_neg h, mul_zero]
    · simp
  rw [hcov] at hbig ⊢
  unfold binStat
  simp only []
  set V := ∑ m, H m k * clipStat (some (s m)) * H m k
  have hV : 0 < V := lt_trans (by positivity) hbig
  rw [if_neg, Real.sq_sqrt hV.le]
  rw [abs_of_nonneg (Real.sqrt_nonneg _), not_le]
  rw [Real.lt_sqrt (by positivity)]
  refine lt_of_le_of_lt (le_of_eq ?_) hbig
  norm_num

/-- Non-vacuity: a pseudo-inverse exists for diagonal matrices, the case at hand, and three modes in two bins meet the
hypotheses of C33. -/
example (v : Fin nk → ℝ) : IsPinv (Matrix.diagonal v) (Matrix.diagonal fun k => (v k)⁻¹) := by
  constructor
  · rw [Matrix.diagonal_mul_diagonal, Matrix.diagonal_mul_diagonal]
    congr 1; funext k; by_cases h : v k = 0 <;> simp [h]
  · rw [Matrix.diagonal_mul_diagonal, Matrix.diagonal_mul_diagonal]
    congr 1; funext k; by_cases h : v k = 0 <;> simp [h]
  · rw [Matrix.diagonal_mul_diagonal, Matrix.diagonal_transpose]
  · rw [Matrix.diagonal_mul_diagonal, Matrix.diagonal_transpose]

example : ∀ (i : Nat) (h : i + 1 < 2), right ![(1 : ℝ), 2] ![1, 1] ⟨i, by omega⟩ ≤ left ![(1 : ℝ), 2] ![1, 1] ⟨i + 1, h⟩ := by
  intro i h
  have : i = 0 := by omega
  subst this
  norm_num [left, right]

/-! ### C82: integration time -/

/-- C82 (partial: a single baseline-pair): the integration time is the weighted mean, here that of the pair. Missing: several baseline-pairs, for which the claim is false of the code. -/
theorem C82_single_pair_partial (E : Fin 1 → Matrix (Fin nd) (Fin nd) ℝ) (ints : Fin 1 → ℝ) (h : 1 / 10 ^ 40 ≤ (E 0).trace) :
    integration E ints 0 = ints 0 := by
  unfold integration
  rw [max_eq_left h]
  have : 0 < (E 0).trace := lt_of_lt_of_le (by positivity) h
  simp
  field_simp

/-- C82 finding: the normalisation is the trace of the first pair's block only; `n` pairs with equal weights and integration time
`t` are reported with `n * t`. -/
theorem C82_finding_integration_multiplied (E0 : Matrix (Fin nd) (Fin nd) ℝ) (t : ℝ) (b0 : Fin nb) (h : 1 / 10 ^ 40 ≤ E0.trace) :
    integration (fun _ : Fin nb => E0) (fun _ => t) b0 = nb * t := by
  unfold integration
  rw [max_eq_left h]
  have : 0 < E0.trace := lt_of_lt_of_le (by positivity) h
  simp
  field_simp

/-- C82 counterexample: two pairs of 10 s with unit weights average to 20 s. -/
theorem C82_counterexample : integration (fun _ : Fin 2 => (1 : Matrix (Fin 1) (Fin 1) ℝ)) (fun _ => 10) 0 = 20 := by
  rw [C82_finding_integration_multiplied]
  · norm_num
  · rw [Matrix.trace_one]; norm_num

end HeraPspec.Spherical
