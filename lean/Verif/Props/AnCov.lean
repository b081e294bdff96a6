import Verif.Lemmas.AnCov
import Mathlib.LinearAlgebra.Matrix.PosDef
import Mathlib.Analysis.Complex.Order
import Mathlib.Data.Complex.BigOperators
import Mathlib.Tactic.FieldSimp
import Mathlib.Tactic.FinCases
import Mathlib.Tactic.NormNum

/-! C110: `get_analytic_covariance` gives the covariances of the real and imaginary parts of the band powers of Gaussian data. -/
namespace HeraPspec.AnCov
open Matrix AnCovSpec

variable {ι κ : Type} [Fintype ι] [Fintype κ]
variable {A : Type} [CommRing A] [StarRing A] [Algebra ℂ A] [StarModule ℂ A]

/-! Specification. -/

/-- The covariance matrices given to the code are those of the random data vectors. -/
structure Given (Ex : Expectation A) (x1 x2 : ι → A) (d : Inp ι) : Prop where
  C11 : ∀ i j, d.C11 i j = Cov Ex (x1 i) (star (x1 j))
  C22 : ∀ i j, d.C22 i j = Cov Ex (x2 i) (star (x2 j))
  C21 : ∀ i j, d.C21 i j = Cov Ex (x2 i) (star (x1 j))
  C12 : ∀ i j, d.C12 i j = Cov Ex (x1 i) (star (x2 j))
  P11 : ∀ i j, d.P11 i j = Cov Ex (x1 i) (x1 j)
  S11 : ∀ i j, d.S11 i j = Cov Ex (star (x1 i)) (star (x1 j))
  P22 : ∀ i j, d.P22 i j = Cov Ex (x2 i) (x2 j)
  S22 : ∀ i j, d.S22 i j = Cov Ex (star (x2 i)) (star (x2 j))
  P21 : ∀ i j, d.P21 i j = Cov Ex (x2 i) (x1 j)
  S21 : ∀ i j, d.S21 i j = Cov Ex (star (x2 i)) (star (x1 j))

/-- Independent noise of the two data vectors, independent from channel to channel, without a preferred phase; `C11` and `C22` are its variances. -/
structure Noise (Ex : Expectation A) (x1 x2 : ι → A) (d : Inp ι) : Prop where
  C11 : ∀ i j, d.C11 i j = Cov Ex (x1 i) (star (x1 j))
  C22 : ∀ i j, d.C22 i j = Cov Ex (x2 i) (star (x2 j))
  diag11 : ∀ i j, i ≠ j → Cov Ex (x1 i) (star (x1 j)) = 0
  diag22 : ∀ i j, i ≠ j → Cov Ex (x2 i) (star (x2 j)) = 0
  indep : ∀ i j, Cov Ex (x1 i) (star (x2 j)) = 0 ∧ Cov Ex (x1 i) (x2 j) = 0
  phase : ∀ i j, Cov Ex (x1 i) (x1 j) = 0 ∧ Cov Ex (x2 i) (x2 j) = 0

/-- No matrix is small without being zero: all its elements being at most 1e-8 in modulus means they are zero. -/
def NotTiny {α β : Type} (m : α → β → ℂ) : Prop := (∀ i j, ‖m i j‖ ≤ 1 / 10 ^ 8) → ∀ i j, m i j = 0

/-- The data of one time fit the model chosen. -/
def Fits (k : Kind) (Ex : Expectation A) (x1 x2 : ι → A) (d : Inp ι) : Prop :=
  match k with
  | .general => Given Ex x1 x2 d ∧ NotTiny d.P22 ∧ NotTiny d.S11 ∧ NotTiny d.C21 ∧ NotTiny d.P21 ∧ NotTiny d.S21 ∧ NotTiny d.C12 ∧ NotTiny d.P11 ∧
      NotTiny d.S22
  | .diagonal => Noise Ex x1 x2 d
  | .foreground => False

/-! Proofs. -/

private theorem tiny_zero {α β : Type} {m : Matrix α β ℂ} (h : NotTiny m) (hc : close0 m) : m = 0 := by
  ext i j; exact h hc i j

private theorem var1 (x1 x2 : ι → A) (i : ι) : Var x1 x2 (x1 i) := ⟨i, .inl rfl⟩
private theorem var2 (x1 x2 : ι → A) (i : ι) : Var x1 x2 (x2 i) := ⟨i, .inr (.inl rfl)⟩
private theorem var3 (x1 x2 : ι → A) (i : ι) : Var x1 x2 (star (x1 i)) := ⟨i, .inr (.inr (.inl rfl))⟩
private theorem var4 (x1 x2 : ι → A) (i : ι) : Var x1 x2 (star (x2 i)) := ⟨i, .inr (.inr (.inr rfl))⟩

private theorem cov_zero_mean {Ex : Expectation A} {x1 x2 : ι → A} (hg : Gaussian Ex x1 x2) {a : A} (ha : Var x1 x2 a) (b : A) :
    Cov Ex a b = Ex.toLin (a * b) := by
  unfold Cov; rw [hg.mean a ha]; ring

section
variable {Ex : Expectation A} {x1 x2 : ι → A} (hg : Gaussian Ex x1 x2) (E : κ → Matrix ι ι ℂ)
include hg

theorem cov_qq (b c : κ) : Cov Ex (qOf E x1 x2 b) (qOf E x1 x2 c) =
    trProd (fun b => E b * sec Ex x2 x2) (fun c => (E c)ᵀ * sec Ex (fun i => star (x1 i)) (fun i => star (x1 i))) b c +
    trProd (fun b => E b * sec Ex x2 (fun i => star (x1 i))) (fun c => E c * sec Ex x2 (fun i => star (x1 i))) b c := by
  rw [qOf_eq, qOf_eq, cov_form, first_term, second_term]
  intro i j k l
  exact hg.pairings _ _ _ _ (var3 _ _ _) (var2 _ _ _) (var3 _ _ _) (var2 _ _ _)

theorem cov_qqd (b c : κ) : Cov Ex (qOf E x1 x2 b) (star (qOf E x1 x2 c)) =
    trProd (fun b => E b * sec Ex x2 (fun i => star (x2 i))) (fun c => (E c)ᴴ * sec Ex x1 (fun i => star (x1 i))) b c +
    trProd (fun b => E b * sec Ex x2 x1) (fun c => (E c).map star * sec Ex (fun i => star (x2 i)) (fun i => star (x1 i))) b c := by
  rw [qOf_eq, star_qOf, cov_form Ex _ _ _ _ _ _ (fun i j k l => hg.pairings _ _ _ _ (var3 _ _ _) (var2 _ _ _) (var1 _ _ _) (var4 _ _ _)),
    first_term Ex E (fun c => (E c).map star), second_term Ex E (fun c => (E c).map star)]
  rfl

theorem cov_qdqd (b c : κ) : Cov Ex (star (qOf E x1 x2 b)) (star (qOf E x1 x2 c)) =
    trProd (fun b => (E b)ᴴ * sec Ex x1 (fun i => star (x2 i))) (fun c => (E c)ᴴ * sec Ex x1 (fun i => star (x2 i))) b c +
    trProd (fun b => (E b)ᴴ * sec Ex x1 x1) (fun c => (E c).map star * sec Ex (fun i => star (x2 i)) (fun i => star (x2 i))) b c := by
  rw [cov_comm, star_qOf, star_qOf,
    cov_form Ex _ _ _ _ _ _ (fun i j k l => hg.pairings _ _ _ _ (var1 _ _ _) (var4 _ _ _) (var1 _ _ _) (var4 _ _ _)),
    first_term Ex (fun c => (E c).map star) (fun c => (E c).map star), second_term Ex (fun c => (E c).map star) (fun c => (E c).map star),
    trProd_comm _ _ c b, trProd_comm _ _ c b, add_comm]
  congr 1
  have hs : sec Ex (fun i => star (x2 i)) x1 = (sec Ex x1 (fun i => star (x2 i)))ᵀ := by
    ext i j; simp only [sec, of_apply, transpose_apply, mul_comm]
  rw [hs]
  simp only [trProd_mul]
  -- both are sums over four indices of the same terms
  have : ∀ i j k l : ι, ((E b).map star) i j * (sec Ex x1 fun i => star (x2 i))ᵀ j k * (((E c).map star) k l * (sec Ex x1 fun i => star (x2 i))ᵀ l i) =
      (E b)ᴴ j i * (sec Ex x1 fun i => star (x2 i)) i l * ((E c)ᴴ l k * (sec Ex x1 fun i => star (x2 i)) k j) := by
    intro i j k l
    simp only [transpose_apply, conjTranspose_apply, Matrix.map_apply]
    ring
  simp only [this]
  rw [Finset.sum_comm]
  refine Finset.sum_congr rfl fun j _ => Finset.sum_congr rfl fun i _ => ?_
  rw [Finset.sum_comm]
end

private theorem moments_general {Ex : Expectation A} {x1 x2 : ι → A} (hg : Gaussian Ex x1 x2) (E : κ → Matrix ι ι ℂ) (d : Inp ι)
    (hf : Fits .general Ex x1 x2 d) (b c : κ) :
    (generalMom E d).qq b c = Cov Ex (qOf E x1 x2 b) (qOf E x1 x2 c) ∧
    (generalMom E d).qqd b c = Cov Ex (qOf E x1 x2 b) (star (qOf E x1 x2 c)) ∧
    (generalMom E d).qdqd b c = Cov Ex (star (qOf E x1 x2 b)) (star (qOf E x1 x2 c)) := by
  obtain ⟨h, t1, t2, t3, t4, t5, t6, t7, t8⟩ := hf
  have e11 : sec Ex x1 (fun i => star (x1 i)) = d.C11 := by
    ext i j; rw [h.C11, cov_zero_mean hg (var1 _ _ _)]; rfl
  have e22 : sec Ex x2 (fun i => star (x2 i)) = d.C22 := by
    ext i j; rw [h.C22, cov_zero_mean hg (var2 _ _ _)]; rfl
  have e21 : sec Ex x2 (fun i => star (x1 i)) = d.C21 := by
    ext i j; rw [h.C21, cov_zero_mean hg (var2 _ _ _)]; rfl
  have e12 : sec Ex x1 (fun i => star (x2 i)) = d.C12 := by
    ext i j; rw [h.C12, cov_zero_mean hg (var1 _ _ _)]; rfl
  have f11 : sec Ex x1 x1 = d.P11 := by
    ext i j; rw [h.P11, cov_zero_mean hg (var1 _ _ _)]; rfl
  have f22 : sec Ex x2 x2 = d.P22 := by
    ext i j; rw [h.P22, cov_zero_mean hg (var2 _ _ _)]; rfl
  have f21 : sec Ex x2 x1 = d.P21 := by
    ext i j; rw [h.P21, cov_zero_mean hg (var2 _ _ _)]; rfl
  have s11 : sec Ex (fun i => star (x1 i)) (fun i => star (x1 i)) = d.S11 := by
    ext i j; rw [h.S11, cov_zero_mean hg (var3 _ _ _)]; rfl
  have s22 : sec Ex (fun i => star (x2 i)) (fun i => star (x2 i)) = d.S22 := by
    ext i j; rw [h.S22, cov_zero_mean hg (var4 _ _ _)]; rfl
  have s21 : sec Ex (fun i => star (x2 i)) (fun i => star (x1 i)) = d.S21 := by
    ext i j; rw [h.S21, cov_zero_mean hg (var4 _ _ _)]; rfl
  have drop2 : ∀ (F G : κ → Matrix ι ι ℂ) (U W : Matrix ι ι ℂ), NotTiny U → NotTiny W →
      (open Classical in if close0 U ∨ close0 W then (0 : Matrix κ κ ℂ) else trProd (fun b => F b * U) (fun c => G c * W)) =
        trProd (fun b => F b * U) (fun c => G c * W) := by
    intro F G U W hU hW
    split_ifs with hc
    · rcases hc with hc | hc
      · rw [tiny_zero hU hc]; simp only [Matrix.mul_zero, trProd_zero_left]
      · rw [tiny_zero hW hc]; simp only [Matrix.mul_zero, trProd_zero_right]
    · rfl
  have drop1 : ∀ (F G : κ → Matrix ι ι ℂ) (U : Matrix ι ι ℂ), NotTiny U →
      (open Classical in if close0 U then (0 : Matrix κ κ ℂ) else trProd (fun b => F b * U) (fun c => G c * U)) =
        trProd (fun b => F b * U) (fun c => G c * U) := by
    intro F G U hU
    split_ifs with hc
    · rw [tiny_zero hU hc]; simp only [Matrix.mul_zero, trProd_zero_left]
    · rfl
  rw [cov_qq hg, cov_qqd hg, cov_qdqd hg]
  rw [e11, e22, e21, e12, f11, f22, f21, s11, s22, s21]
  simp only [generalMom, Matrix.add_apply]
  rw [drop2 _ _ _ _ t1 t2, drop1 _ _ _ t3, drop2 _ _ _ _ t4 t5, drop1 _ _ _ t6, drop2 _ _ _ _ t7 t8]
  exact ⟨rfl, rfl, rfl⟩

private theorem moments_diagonal {Ex : Expectation A} {x1 x2 : ι → A} (hg : Gaussian Ex x1 x2) (E : κ → Matrix ι ι ℂ) (d : Inp ι)
    (h : Noise Ex x1 x2 d) (b c : κ) :
    (diagonalMom E d).qq b c = Cov Ex (qOf E x1 x2 b) (qOf E x1 x2 c) ∧
    (diagonalMom E d).qqd b c = Cov Ex (qOf E x1 x2 b) (star (qOf E x1 x2 c)) ∧
    (diagonalMom E d).qdqd b c = Cov Ex (star (qOf E x1 x2 b)) (star (qOf E x1 x2 c)) := by
  classical
  have e11 : ∀ i j, sec Ex x1 (fun i => star (x1 i)) i j = if i = j then d.C11 i i else 0 := by
    intro i j
    have : sec Ex x1 (fun i => star (x1 i)) i j = Cov Ex (x1 i) (star (x1 j)) := by rw [cov_zero_mean hg (var1 _ _ _)]; rfl
    rw [this]
    split_ifs with hij
    · subst hij; rw [h.C11]
    · exact h.diag11 i j hij
  have e22 : ∀ i j, sec Ex x2 (fun i => star (x2 i)) i j = if i = j then d.C22 i i else 0 := by
    intro i j
    have : sec Ex x2 (fun i => star (x2 i)) i j = Cov Ex (x2 i) (star (x2 j)) := by rw [cov_zero_mean hg (var2 _ _ _)]; rfl
    rw [this]
    split_ifs with hij
    · subst hij; rw [h.C22]
    · exact h.diag22 i j hij
  have e12 : sec Ex x1 (fun i => star (x2 i)) = 0 := by
    ext i j
    have := (h.indep i j).1
    rw [cov_zero_mean hg (var1 _ _ _)] at this; exact this
  have e21 : sec Ex x2 (fun i => star (x1 i)) = 0 := by
    ext i j
    have := congrArg star (h.indep j i).1
    rw [← cov_star, star_star, cov_comm, cov_zero_mean hg (var2 _ _ _), star_zero] at this; exact this
  have f11 : sec Ex x1 x1 = 0 := by
    ext i j
    have := (h.phase i j).1
    rw [cov_zero_mean hg (var1 _ _ _)] at this; exact this
  have f22 : sec Ex x2 x2 = 0 := by
    ext i j
    have := (h.phase i j).2
    rw [cov_zero_mean hg (var2 _ _ _)] at this; exact this
  have f21 : sec Ex x2 x1 = 0 := by
    ext i j
    have := (h.indep j i).2
    rw [cov_comm, cov_zero_mean hg (var2 _ _ _)] at this; exact this
  rw [cov_qq hg, cov_qqd hg, cov_qdqd hg, e12, e21, f11, f22, f21]
  simp only [Matrix.mul_zero, trProd_zero_left, Matrix.zero_apply, add_zero, diagonalMom]
  refine ⟨trivial, ?_, trivial⟩
  simp only [trProd, of_apply, mulDiag, Matrix.mul_apply, e11, e22]
  simp

private theorem sandwich_eq {Ex : Expectation A} (M N : Matrix κ κ ℂ) (Q : Matrix κ κ ℂ) (u v : κ → A)
    (hQ : ∀ b c, Q b c = Cov Ex (u b) (v c)) (hT : NotTiny Q) (a c : κ) : sandwich M N Q a c = Cov Ex (pOf M u a) (pOf N v c) := by
  have hval : (∑ b, ∑ d, M a b * N c d * Q b d) = Cov Ex (pOf M u a) (pOf N v c) := by
    unfold pOf
    rw [cov_sum_left]
    refine Finset.sum_congr rfl fun b _ => ?_
    rw [cov_sum_right]
    refine Finset.sum_congr rfl fun e _ => ?_
    rw [cov_smul_left, cov_smul_right, hQ]
    ring
  rw [← hval]
  unfold sandwich
  split_ifs with hc
  · rw [tiny_zero hT hc]; simp
  · rfl

private theorem star_pOf (M : Matrix κ κ ℂ) (q : κ → A) (a : κ) : star (pOf M q a) = pOf (M.map star) (fun b => star (q b)) a := by
  simp only [pOf, star_sum, star_smul, Matrix.map_apply]

private theorem out_cov {Ex : Expectation A} (M : Matrix κ κ ℂ) (s : Mom κ) (q : κ → A)
    (h1 : ∀ b c, s.qq b c = Cov Ex (q b) (q c)) (h2 : ∀ b c, s.qqd b c = Cov Ex (q b) (star (q c)))
    (h3 : ∀ b c, s.qdqd b c = Cov Ex (star (q b)) (star (q c)))
    (t1 : NotTiny fun b c => Cov Ex (q b) (q c)) (t2 : NotTiny fun b c => Cov Ex (q b) (star (q c))) (a c : κ) :
    (outOf M s).qReal a c = Cov Ex (re (q a)) (re (q c)) ∧ (outOf M s).qImag a c = Cov Ex (im (q a)) (im (q c)) ∧
    (outOf M s).pReal a c = Cov Ex (re (pOf M q a)) (re (pOf M q c)) ∧ (outOf M s).pImag a c = Cov Ex (im (pOf M q a)) (im (pOf M q c)) := by
  have t1' : NotTiny s.qq := by
    intro hc i j; rw [h1]; exact t1 (fun i j => by simp only [← h1]; exact hc i j) i j
  have t2' : NotTiny s.qqd := by
    intro hc i j; rw [h2]; exact t2 (fun i j => by simp only [← h2]; exact hc i j) i j
  have t3' : NotTiny s.qdqd := by
    intro hc i j
    rw [h3, cov_star]
    have := t1 (fun i j => by
      have := hc i j
      rw [h3, cov_star, norm_star] at this
      exact this) i j
    simp only at this
    rw [this, star_zero]
  have hc : ∀ b c, Cov Ex (star (q b)) (q c) = star (s.qqd b c) := by
    intro b c; rw [h2, ← cov_star, star_star]
  have s1 := sandwich_eq M M s.qq q q h1 t1' a c
  have s2 := sandwich_eq M (M.map star) s.qqd q (fun b => star (q b)) h2 t2' a c
  have s4 := sandwich_eq (M.map star) (M.map star) s.qdqd (fun b => star (q b)) (fun b => star (q b)) h3 t3' a c
  have s3 : sandwichConj (M.map star) M s.qqd a c = Cov Ex (pOf (M.map star) (fun b => star (q b)) a) (pOf M q c) := by
    have e : sandwichConj (M.map star) M s.qqd = sandwich (M.map star) M (s.qqd.map star) := by
      have : close0 s.qqd ↔ close0 (s.qqd.map star) := by
        unfold close0; simp only [Matrix.map_apply, norm_star]
      unfold sandwichConj sandwich
      by_cases hcl : close0 s.qqd
      · rw [if_pos hcl, if_pos (this.1 hcl)]
      · rw [if_neg hcl, if_neg (fun h => hcl (this.2 h))]
    rw [e]
    refine sandwich_eq (M.map star) M (s.qqd.map star) _ _ (fun b c => by rw [hc]; rfl) ?_ a c
    intro hcl i j
    have := t2' (fun i j => by have := hcl i j; rwa [Matrix.map_apply, norm_star] at this) i j
    rw [Matrix.map_apply, this, star_zero]
  refine ⟨?_, ?_, ?_, ?_⟩
  · rw [cov_re, hc, ← h1, ← h2, ← h3]
    simp only [outOf, Matrix.smul_apply, Matrix.add_apply, Matrix.map_apply, smul_eq_mul]
  · rw [cov_im, hc, ← h1, ← h2, ← h3]
    simp only [outOf, Matrix.smul_apply, Matrix.add_apply, Matrix.sub_apply, Matrix.map_apply, smul_eq_mul]
  · rw [cov_re, star_pOf, star_pOf, ← s1, ← s2, ← s3, ← s4]
    simp only [outOf, Matrix.smul_apply, Matrix.add_apply, smul_eq_mul]
    ring
  · rw [cov_im, star_pOf, star_pOf, ← s1, ← s2, ← s3, ← s4]
    simp only [outOf, Matrix.smul_apply, Matrix.add_apply, Matrix.sub_apply, smul_eq_mul]
    ring

/-- **C110** (partial). For data that are Gaussian with mean zero and covariances as given (or independent noise, for the models "dsets" and
"autos"), the four matrices returned for a time are the covariances of the real and imaginary parts of the band powers `q_b = x1^† E^b x2` and of the
normalized band powers `p = M q` of that time.

Missing: matrices that are small but not zero are taken as zero (`C110_finding_small`, `C110_counterexample_units`), and when the covariance of the first
data vector is the same at the first and the last time the results of the first time are returned for all times, although the other inputs may differ
(`C110_counterexample_uniform`); the hypotheses `NotTiny` and `hu` exclude these cases. -/
theorem C110_covariance_partial (k : Kind) (E : κ → Matrix ι ι ℂ) (M : ℕ → Matrix κ κ ℂ) (nt : ℕ) (inp : ℕ → Inp ι) (t : ℕ) (ht : t < nt)
    (hu : k ≠ .foreground → (∀ i j, ‖(inp 0).C11 i j - (inp (nt - 1)).C11 i j‖ ≤ 1e-8 + 1e-5 * ‖(inp (nt - 1)).C11 i j‖) → inp t = inp 0 ∧ M t = M 0)
    (Ex : Expectation A) (x1 x2 : ι → A) (hg : Gaussian Ex x1 x2) (hf : Fits k Ex x1 x2 (inp t))
    (t1 : NotTiny fun b c => Cov Ex (qOf E x1 x2 b) (qOf E x1 x2 c)) (t2 : NotTiny fun b c => Cov Ex (qOf E x1 x2 b) (star (qOf E x1 x2 c))) :
    ∃ o, (analytic k E M nt inp)[t]? = some o ∧ ∀ a c,
      o.qReal a c = Cov Ex (re (qOf E x1 x2 a)) (re (qOf E x1 x2 c)) ∧
      o.qImag a c = Cov Ex (im (qOf E x1 x2 a)) (im (qOf E x1 x2 c)) ∧
      o.pReal a c = Cov Ex (re (pOf (M t) (qOf E x1 x2) a)) (re (pOf (M t) (qOf E x1 x2) c)) ∧
      o.pImag a c = Cov Ex (im (pOf (M t) (qOf E x1 x2) a)) (im (pOf (M t) (qOf E x1 x2) c)) := by
  refine ⟨outOf (M t) (mom k E (inp t)), ?_, ?_⟩
  · unfold analytic
    by_cases hc : uniform k nt inp
    · obtain ⟨e1, e2⟩ := hu hc.1 (fun i j => by have := hc.2 i j; norm_num at this ⊢; exact this)
      rw [if_pos hc, e1, e2, List.getElem?_replicate, if_pos ht]
    · rw [if_neg hc]
      simp [ht]
  · intro a c
    have hm : ∀ b c, (mom k E (inp t)).qq b c = Cov Ex (qOf E x1 x2 b) (qOf E x1 x2 c) ∧
        (mom k E (inp t)).qqd b c = Cov Ex (qOf E x1 x2 b) (star (qOf E x1 x2 c)) ∧
        (mom k E (inp t)).qdqd b c = Cov Ex (star (qOf E x1 x2 b)) (star (qOf E x1 x2 c)) := by
      intro b c
      cases k with
      | general => exact moments_general hg E _ hf b c
      | diagonal => exact moments_diagonal hg E _ hf b c
      | foreground => exact hf.elim
    exact out_cov (M t) _ (qOf E x1 x2) (fun b c => (hm b c).1) (fun b c => (hm b c).2.1) (fun b c => (hm b c).2.2) t1 t2 a c

/-- One result per time. -/
theorem C110_times (k : Kind) (E : κ → Matrix ι ι ℂ) (M : ℕ → Matrix κ κ ℂ) (nt : ℕ) (inp : ℕ → Inp ι) : (analytic k E M nt inp).length = nt := by
  unfold analytic
  split_ifs <;> simp

/-! The model "foreground_dependent". -/

/-- The model of the systematics, `Cs = 1/2 (x1 x2^† + x2 x1^†)`. -/
noncomputable def Cs (x1 x2 : ι → ℂ) : Matrix ι ι ℂ := of fun i j => 1 / 2 * (x1 i * star (x2 j) + x2 i * star (x1 j))

/-- The signal-noise term of the documentation, `tr(E^b Cs E^c† Cn11 + E^b Cn22 E^c† Cs)`. -/
noncomputable def signalNoise (E : κ → Matrix ι ι ℂ) (N1 N2 : Matrix ι ι ℂ) (x1 x2 : ι → ℂ) (b c : κ) : ℂ :=
  (E b * Cs x1 x2 * (E c)ᴴ * N1).trace + (E b * N2 * (E c)ᴴ * Cs x1 x2).trace

private theorem cs_eq (x1 x2 : ι → ℂ) : Cs x1 x2 = (1 / 2 : ℂ) • (vecMulVec x1 (star x2) + vecMulVec x2 (star x1)) := by
  ext i j; simp [Cs, vecMulVec_apply]

private theorem trace_outer_left (F G : Matrix ι ι ℂ) (u v d : ι → ℂ) [DecidableEq ι] :
    (F * vecMulVec u (star v) * Gᴴ * diagonal d).trace = ∑ i, (F *ᵥ u) i * star (G *ᵥ v) i * d i := by
  rw [mul_vecMulVec, vecMulVec_mul, ← star_mulVec]
  simp only [trace, diag_apply, mul_diagonal, vecMulVec_apply]

private theorem trace_outer_right (F G : Matrix ι ι ℂ) (u v d : ι → ℂ) [DecidableEq ι] :
    (F * diagonal d * Gᴴ * vecMulVec u (star v)).trace = ∑ i, (Fᵀ *ᵥ star v) i * star (Gᵀ *ᵥ star u) i * d i := by
  rw [mul_vecMulVec, trace_vecMulVec, ← mulVec_mulVec, ← mulVec_mulVec, dotProduct_comm, dotProduct_mulVec, mulVec_transpose]
  have h : star (Gᵀ *ᵥ star u) = Gᴴ *ᵥ u := by
    rw [star_mulVec, star_star, ← mulVec_transpose]; rfl
  rw [h]
  simp only [dotProduct, mulVec_diagonal, Pi.star_apply]
  exact Finset.sum_congr rfl fun i _ => by ring

theorem snCov_eq [DecidableEq ι] (E : κ → Matrix ι ι ℂ) (d : Inp ι) (b c : κ) :
    snCov E d b c = signalNoise E (diagonal d.C11.diag) (diagonal d.C22.diag) d.x1 d.x2 b c := by
  unfold signalNoise
  rw [cs_eq]
  simp only [Matrix.mul_smul, Matrix.smul_mul, Matrix.mul_add, Matrix.add_mul, trace_smul, trace_add, trace_outer_left, trace_outer_right, smul_eq_mul]
  simp only [snCov, tri, Matrix.add_apply, Matrix.smul_apply, of_apply, smul_eq_mul]
  ring

/-- **C110**, model "foreground_dependent". The covariance `<q_b q_c^*>` used is the noise term `tr(E^b Cn22 E^c† Cn11)` plus the signal-noise term of
the documentation, for those b and c whose own signal-noise terms are positive, and without it for the others. -/
theorem C110_foreground [DecidableEq ι] (E : κ → Matrix ι ι ℂ) (d : Inp ι) (b c : κ) :
    let N1 := diagonal d.C11.diag
    let N2 := diagonal d.C22.diag
    let sn := signalNoise E N1 N2 d.x1 d.x2
    (mom .foreground E d).qq = 0 ∧ (mom .foreground E d).qdqd = 0 ∧
    (0 < (sn b b).re → 0 < (sn c c).re → (mom .foreground E d).qqd b c = (E b * N2 * (E c)ᴴ * N1).trace + sn b c) ∧
    ((sn b b).re ≤ 0 ∨ (sn c c).re ≤ 0 → (mom .foreground E d).qqd b c = (E b * N2 * (E c)ᴴ * N1).trace) := by
  intro N1 N2 sn
  have hn : trProd (fun b => mulDiag (E b) d.C22) (fun c => mulDiag (E c)ᴴ d.C11) b c = (E b * N2 * (E c)ᴴ * N1).trace := by
    rw [Matrix.mul_assoc (E b * N2)]
    simp only [trace, diag_apply, Matrix.mul_apply (M := E b * N2), trProd, of_apply, mulDiag, N1, N2, mul_diagonal]
  have hs : ∀ b c, snCov E d b c = sn b c := fun b c => snCov_eq E d b c
  refine ⟨rfl, rfl, ?_, ?_⟩
  · intro h1 h2
    simp only [mom, foregroundMom, Matrix.add_apply, hn, clipCols, clipRows, of_apply, hs]
    rw [if_neg (not_le.2 h1), if_neg (not_le.2 h2), if_neg (not_le.2 h2)]
  · intro h
    simp only [mom, foregroundMom, Matrix.add_apply, hn, clipCols, clipRows, of_apply, hs]
    rcases h with h | h
    · rw [if_pos h]; simp
    · have hz : (if (sn c c).re ≤ 0 then (0 : ℂ) else sn c c).re ≤ 0 := by rw [if_pos h]; simp
      rw [if_pos hz, add_zero]

/-- The signal-noise term never lowers the variance. -/
theorem C110_foreground_variance [DecidableEq ι] (E : κ → Matrix ι ι ℂ) (d : Inp ι) (b : κ) :
    ((mom .diagonal E d).qqd b b).re ≤ ((mom .foreground E d).qqd b b).re := by
  obtain ⟨_, _, h1, h2⟩ := C110_foreground E d b b
  have hn : (mom .diagonal E d).qqd b b = (E b * diagonal d.C22.diag * (E b)ᴴ * diagonal d.C11.diag).trace := by
    rw [Matrix.mul_assoc (E b * _)]
    simp only [trace, diag_apply, Matrix.mul_apply (M := E b * diagonal d.C22.diag), trProd, of_apply, mulDiag, mul_diagonal, mom, diagonalMom]
  by_cases hp : 0 < (signalNoise E (diagonal d.C11.diag) (diagonal d.C22.diag) d.x1 d.x2 b b).re
  · rw [h1 hp hp, hn, Complex.add_re]; linarith
  · rw [h2 (.inl (not_lt.1 hp)), hn]

/-! Positivity. -/

open ComplexOrder

theorem diagonal_psd (E : κ → Matrix ι ι ℂ) (d : Inp ι) (h1 : ∀ i, 0 ≤ d.C11 i i) (h2 : ∀ i, 0 ≤ d.C22 i i) : (diagonalMom E d).qqd.PosSemidef := by
  have key : (diagonalMom E d).qqd = ∑ i, ∑ j, (d.C11 i i * d.C22 j j) • vecMulVec (fun b => E b i j) (star fun b => E b i j) := by
    ext b c
    simp only [diagonalMom, trProd, of_apply, mulDiag, conjTranspose_apply, Matrix.sum_apply, Matrix.smul_apply, vecMulVec_apply, smul_eq_mul, Pi.star_apply]
    exact Finset.sum_congr rfl fun i _ => Finset.sum_congr rfl fun j _ => by ring
  rw [key]
  refine Matrix.posSemidef_sum _ fun i _ => Matrix.posSemidef_sum _ fun j _ => ?_
  exact (posSemidef_vecMulVec_self_star _).smul (mul_nonneg (h1 i) (h2 j))

theorem sandwich_zero (A B : Matrix κ κ ℂ) : sandwich A B (0 : Matrix κ κ ℂ) = 0 := by
  unfold sandwich; split_ifs
  · rfl
  · ext; simp

/-- With non-negative variances ("dsets" and "autos") all four results are Hermitian and positive semi-definite: no variance is negative, for any
normalization matrix. -/
theorem C110_positive (E : κ → Matrix ι ι ℂ) (d : Inp ι) (h1 : ∀ i, 0 ≤ d.C11 i i) (h2 : ∀ i, 0 ≤ d.C22 i i) (M : Matrix κ κ ℂ) :
    let o := outOf M (mom .diagonal E d)
    o.qReal.PosSemidef ∧ o.qImag.PosSemidef ∧ o.pReal.PosSemidef ∧ o.pImag.PosSemidef := by
  intro o
  have hV := diagonal_psd E d h1 h2
  have hconj : ∀ X : Matrix κ κ ℂ, X.PosSemidef → (X.map star).PosSemidef := by
    intro X hX
    have : X.map star = Xᵀ := by
      ext i j
      have := congrFun (congrFun hX.1 j) i
      simpa [conjTranspose_apply] using this
    rw [this]
    exact hX.transpose
  have quarter : (0 : ℂ) ≤ 1 / 4 := by rw [Complex.le_def]; norm_num
  have hq : o.qReal = (1 / 4 : ℂ) • ((diagonalMom E d).qqd + (diagonalMom E d).qqd.map star) := by
    simp [o, outOf, mom, diagonalMom]
  have hq' : o.qImag = (1 / 4 : ℂ) • ((diagonalMom E d).qqd + (diagonalMom E d).qqd.map star) := by
    ext a c; simp [o, outOf, mom, diagonalMom]; ring
  have s0 := sandwich_zero (κ := κ)
  have hX : ∃ X : Matrix κ κ ℂ, X.PosSemidef ∧ sandwich M (M.map star) (diagonalMom E d).qqd = X ∧
      sandwichConj (M.map star) M (diagonalMom E d).qqd = X.map star := by
    unfold sandwich sandwichConj
    by_cases hc : close0 (diagonalMom E d).qqd
    · rw [if_pos hc, if_pos hc]
      exact ⟨0, PosSemidef.zero, rfl, by ext; simp⟩
    · rw [if_neg hc, if_neg hc]
      refine ⟨M * (diagonalMom E d).qqd * Mᴴ, hV.mul_mul_conjTranspose_same M, ?_, ?_⟩
      · ext a c
        simp only [of_apply, Matrix.mul_apply, Finset.sum_mul, conjTranspose_apply, Matrix.map_apply]
        rw [Finset.sum_comm]
        exact Finset.sum_congr rfl fun e _ => Finset.sum_congr rfl fun b _ => by ring
      · ext a c
        simp only [of_apply, Matrix.mul_apply, Finset.sum_mul, conjTranspose_apply, Matrix.map_apply, star_sum, star_mul', star_star]
        rw [Finset.sum_comm]
        exact Finset.sum_congr rfl fun e _ => Finset.sum_congr rfl fun b _ => by ring
  obtain ⟨X, hXp, hX1, hX2⟩ := hX
  have hp : o.pReal = (1 / 4 : ℂ) • (X + X.map star) := by
    simp only [o, outOf, mom]
    rw [hX1, hX2]
    simp only [diagonalMom, s0]
    simp
  have hp' : o.pImag = (1 / 4 : ℂ) • (X + X.map star) := by
    simp only [o, outOf, mom]
    rw [hX1, hX2]
    simp only [diagonalMom, s0]
    ext a c
    simp
    ring
  rw [hq, hq', hp, hp']
  exact ⟨(hV.add (hconj _ hV)).smul quarter, (hV.add (hconj _ hV)).smul quarter, (hXp.add (hconj _ hXp)).smul quarter, (hXp.add (hconj _ hXp)).smul quarter⟩

/-! Findings. -/

/-- Finding: whatever the normalization, the covariance of `p` is zero as soon as the covariances of `q` are at most 1e-8 in modulus, i.e. it depends on the
units of the data. -/
theorem C110_finding_small (E : κ → Matrix ι ι ℂ) (d : Inp ι) (h : ∀ b c, ‖(mom .diagonal E d).qqd b c‖ ≤ 1 / 10 ^ 8) (M : Matrix κ κ ℂ) :
    (outOf M (mom .diagonal E d)).pReal = 0 ∧ (outOf M (mom .diagonal E d)).pImag = 0 := by
  have hc : close0 (mom .diagonal E d).qqd := h
  have e1 : (mom .diagonal E d).qq = 0 := rfl
  have e2 : (mom .diagonal E d).qdqd = 0 := rfl
  have e3 : ∀ A B, sandwich A B (mom .diagonal E d).qqd = 0 := fun A B => if_pos hc
  have e4 : ∀ A B, sandwichConj A B (mom .diagonal E d).qqd = 0 := fun A B => if_pos hc
  simp only [outOf, e1, e2, e3, e4, sandwich_zero]
  simp

/-- All inputs zero, except the variances of the two data vectors. -/
noncomputable def exInp (a b : ℂ) : Inp (Fin 1) :=
  { C11 := of fun _ _ => a, C22 := of fun _ _ => b, C21 := 0, C12 := 0, P11 := 0, S11 := 0, P22 := 0, S22 := 0, P21 := 0, S21 := 0, x1 := 0, x2 := 0 }

theorem exInp_qqd (a b : ℂ) : (mom .diagonal (fun _ : Fin 1 => (1 : Matrix (Fin 1) (Fin 1) ℂ)) (exInp a b)).qqd = of fun _ _ => b * a := by
  ext i j; fin_cases i; fin_cases j
  simp [mom, diagonalMom, trProd, mulDiag, exInp]

/-- The same data in two units: with variances 1 the covariance of `p = q` is that of `q`; with variances 1e-5 it is zero, that of `q` is not. -/
theorem C110_counterexample_units :
    (outOf (1 : Matrix (Fin 1) (Fin 1) ℂ) (mom .diagonal (fun _ : Fin 1 => 1) (exInp 1 1))).pReal 0 0 = 1 / 2 ∧
    (outOf (1 : Matrix (Fin 1) (Fin 1) ℂ) (mom .diagonal (fun _ : Fin 1 => 1) (exInp (1 / 10 ^ 5) (1 / 10 ^ 5)))).pReal 0 0 = 0 ∧
    (outOf (1 : Matrix (Fin 1) (Fin 1) ℂ) (mom .diagonal (fun _ : Fin 1 => 1) (exInp (1 / 10 ^ 5) (1 / 10 ^ 5)))).qReal 0 0 ≠ 0 := by
  refine ⟨?_, ?_, ?_⟩
  · have hc : ¬ close0 (mom .diagonal (fun _ : Fin 1 => (1 : Matrix (Fin 1) (Fin 1) ℂ)) (exInp 1 1)).qqd := by
      rw [exInp_qqd]; intro h; have := h 0 0; norm_num at this
    have e1 : (mom .diagonal (fun _ : Fin 1 => (1 : Matrix (Fin 1) (Fin 1) ℂ)) (exInp 1 1)).qq = 0 := rfl
    have e2 : (mom .diagonal (fun _ : Fin 1 => (1 : Matrix (Fin 1) (Fin 1) ℂ)) (exInp 1 1)).qdqd = 0 := rfl
    simp only [outOf, e1, e2, sandwich_zero]
    simp only [sandwich, sandwichConj, if_neg hc]
    rw [exInp_qqd]
    simp
    norm_num
  · have := (C110_finding_small (fun _ : Fin 1 => (1 : Matrix (Fin 1) (Fin 1) ℂ)) (exInp (1 / 10 ^ 5) (1 / 10 ^ 5)) (by
      intro b c; rw [exInp_qqd]; norm_num) 1).1
    rw [this]; rfl
  · simp only [outOf]
    rw [exInp_qqd]
    have e1 : (mom .diagonal (fun _ : Fin 1 => (1 : Matrix (Fin 1) (Fin 1) ℂ)) (exInp (1 / 10 ^ 5) (1 / 10 ^ 5))).qq = 0 := rfl
    have e2 : (mom .diagonal (fun _ : Fin 1 => (1 : Matrix (Fin 1) (Fin 1) ℂ)) (exInp (1 / 10 ^ 5) (1 / 10 ^ 5))).qdqd = 0 := rfl
    rw [e1, e2]
    simp
    rw [Complex.conj_ofNat]
    norm_num

/-- The second data vector is twice as noisy at the second time as at the first; the first one is the same. -/
noncomputable def exTimes (t : ℕ) : Inp (Fin 1) := if t = 0 then exInp 1 1 else exInp 1 4

/-- The result of both times is that of the first; computed for the second time alone it is four times as large. -/
theorem C110_counterexample_uniform :
    ∃ o o', (analytic .diagonal (fun _ : Fin 1 => (1 : Matrix (Fin 1) (Fin 1) ℂ)) (fun _ => 1) 2 exTimes)[1]? = some o ∧
      (analytic .diagonal (fun _ : Fin 1 => (1 : Matrix (Fin 1) (Fin 1) ℂ)) (fun _ => 1) 1 (fun t => exTimes (t + 1)))[0]? = some o' ∧
      o.qReal 0 0 = 1 / 2 ∧ o'.qReal 0 0 = 2 := by
  have h1 : uniform .diagonal 2 exTimes := by
    refine ⟨by decide, ?_⟩
    intro i j; simp [exTimes, exInp]; norm_num
  have h2 : uniform .diagonal 1 (fun t => exTimes (t + 1)) := by
    refine ⟨by decide, ?_⟩
    intro i j; simp [exTimes, exInp]; norm_num
  refine ⟨outOf 1 (mom .diagonal (fun _ : Fin 1 => 1) (exInp 1 1)), outOf 1 (mom .diagonal (fun _ : Fin 1 => 1) (exInp 1 4)), ?_, ?_, ?_, ?_⟩
  · unfold analytic; rw [if_pos h1]; simp [exTimes]
  · unfold analytic; rw [if_pos h2]; simp [exTimes]
  · simp only [outOf]
    rw [exInp_qqd]
    have e1 : (mom .diagonal (fun _ : Fin 1 => (1 : Matrix (Fin 1) (Fin 1) ℂ)) (exInp 1 1)).qq = 0 := rfl
    have e2 : (mom .diagonal (fun _ : Fin 1 => (1 : Matrix (Fin 1) (Fin 1) ℂ)) (exInp 1 1)).qdqd = 0 := rfl
    rw [e1, e2]
    simp
    norm_num
  · simp only [outOf]
    rw [exInp_qqd]
    have e1 : (mom .diagonal (fun _ : Fin 1 => (1 : Matrix (Fin 1) (Fin 1) ℂ)) (exInp 1 4)).qq = 0 := rfl
    have e2 : (mom .diagonal (fun _ : Fin 1 => (1 : Matrix (Fin 1) (Fin 1) ℂ)) (exInp 1 4)).qdqd = 0 := rfl
    rw [e1, e2]
    simp
    rw [Complex.conj_ofNat]
    norm_num

/-! Non-vacuity: random variables on finite probability spaces. -/

/-- The expectation on a finite probability space. -/
noncomputable def finEx {Ω : Type} [Fintype Ω] (w : Ω → ℝ) (h : ∑ o, w o = 1) : Expectation (Ω → ℂ) where
  toLin :=
    { toFun := fun f => ∑ o, (w o : ℂ) * f o
      map_add' := fun f g => by simp only [Pi.add_apply, mul_add, Finset.sum_add_distrib]
      map_smul' := fun r f => by simp only [Pi.smul_apply, smul_eq_mul, RingHom.id_apply, Finset.mul_sum]; exact Finset.sum_congr rfl fun _ _ => by ring }
  one := by
    simp only [LinearMap.coe_mk, AddHom.coe_mk, Pi.one_apply, mul_one]
    exact_mod_cast congrArg (fun x : ℝ => (x : ℂ)) h
  conj := fun f => by
    simp only [LinearMap.coe_mk, AddHom.coe_mk, Pi.star_apply, star_sum, star_mul']
    refine Finset.sum_congr rfl fun o _ => ?_
    congr 1
    exact (Complex.conj_ofReal _).symm

/-- Probabilities of nine outcomes. -/
noncomputable def exW : Fin 9 → ℝ := ![1 / 9, 1 / 9, 1 / 9, 1 / 9, 1 / 36, 1 / 36, 1 / 36, 1 / 36, 4 / 9]
/-- A complex random variable with variance 2/3 and the moments up to the fourth of a Gaussian one. -/
noncomputable def exZ : Fin 9 → ℂ :=
  ![1, Complex.I, -1, -Complex.I, 1 + Complex.I, -1 + Complex.I, -1 - Complex.I, 1 - Complex.I, 0]

theorem exW_sum : ∑ o, exW o = 1 := by simp [exW, Fin.sum_univ_succ]; norm_num

/-- The expectation of one outcome. -/
noncomputable abbrev E1 : Expectation (Fin 9 → ℂ) := finEx exW exW_sum

theorem E1_apply (f : Fin 9 → ℂ) : E1.toLin f = 1 / 9 * f 0 + 1 / 9 * f 1 + 1 / 9 * f 2 + 1 / 9 * f 3 + 1 / 36 * f 4 + 1 / 36 * f 5 + 1 / 36 * f 6 + 1 / 36 * f 7 + 4 / 9 * f 8 := by
  change ∑ o, (exW o : ℂ) * f o = _
  simp only [Fin.sum_univ_succ, exW]
  simp [Fin.succ]
  ring

theorem E1_single (a : Fin 9 → ℂ) (ha : a = exZ ∨ a = star exZ) : E1.toLin a = 0 := by
  rcases ha with rfl | rfl <;> rw [E1_apply] <;> simp [exZ, Pi.star_apply] <;> ring

theorem E1_second : E1.toLin (exZ * exZ) = 0 ∧ E1.toLin (star exZ * star exZ) = 0 ∧ E1.toLin (exZ * star exZ) = 2 / 3 := by
  refine ⟨?_, ?_, ?_⟩ <;> rw [E1_apply] <;> simp [exZ, Pi.star_apply, Complex.ext_iff] <;> norm_num

theorem E1_fourth : E1.toLin (exZ * exZ * (exZ * exZ)) = 0 ∧ E1.toLin (exZ * exZ * (exZ * star exZ)) = 0 ∧
    E1.toLin (exZ * exZ * (star exZ * star exZ)) = 8 / 9 ∧ E1.toLin (exZ * star exZ * (star exZ * star exZ)) = 0 ∧
    E1.toLin (star exZ * star exZ * (star exZ * star exZ)) = 0 := by
  refine ⟨?_, ?_, ?_, ?_, ?_⟩ <;> rw [E1_apply] <;> simp [exZ, Pi.star_apply, Complex.ext_iff] <;> norm_num

theorem E1_pairings (a b c d : Fin 9 → ℂ) (ha : a = exZ ∨ a = star exZ) (hb : b = exZ ∨ b = star exZ) (hc : c = exZ ∨ c = star exZ)
    (hd : d = exZ ∨ d = star exZ) :
    E1.toLin (a * b * (c * d)) = E1.toLin (a * b) * E1.toLin (c * d) + E1.toLin (a * c) * E1.toLin (b * d) + E1.toLin (a * d) * E1.toLin (b * c) := by
  obtain ⟨s1, s2, s3⟩ := E1_second
  obtain ⟨f1, f2, f3, f4, f5⟩ := E1_fourth
  have s3' : E1.toLin (star exZ * exZ) = 2 / 3 := by rw [mul_comm]; exact s3
  generalize exZ = z at *
  generalize star z = y at *
  have g1 : ∀ u, u = z * z * (z * z) → E1.toLin u = 0 := by rintro _ rfl; exact f1
  have g2 : ∀ u, u = z * z * (z * y) → E1.toLin u = 0 := by rintro _ rfl; exact f2
  have g3 : ∀ u, u = z * z * (y * y) → E1.toLin u = 8 / 9 := by rintro _ rfl; exact f3
  have g4 : ∀ u, u = z * y * (y * y) → E1.toLin u = 0 := by rintro _ rfl; exact f4
  have g5 : ∀ u, u = y * y * (y * y) → E1.toLin u = 0 := by rintro _ rfl; exact f5
  rcases ha with ha | ha <;> rcases hb with hb | hb <;> rcases hc with hc | hc <;> rcases hd with hd | hd <;>
    rw [ha, hb, hc, hd] <;> simp only [s1, s2, s3, s3'] <;>
    first
    | (rw [g1 _ (by ring1)]; norm_num; done)
    | (rw [g2 _ (by ring1)]; norm_num; done)
    | (rw [g3 _ (by ring1)]; norm_num; done)
    | (rw [g4 _ (by ring1)]; norm_num; done)
    | (rw [g5 _ (by ring1)]; norm_num; done)

/-- Two independent outcomes. -/
noncomputable def E2 : Expectation (Fin 9 × Fin 9 → ℂ) :=
  finEx (fun o => exW o.1 * exW o.2) (by rw [Fintype.sum_prod_type]; simp only [← Finset.mul_sum, exW_sum, mul_one])

/-- The product of a variable of the first and a variable of the second outcome. -/
def tensor (f g : Fin 9 → ℂ) : Fin 9 × Fin 9 → ℂ := fun o => f o.1 * g o.2

theorem E2_tensor (f g : Fin 9 → ℂ) : E2.toLin (tensor f g) = E1.toLin f * E1.toLin g := by
  change ∑ o : Fin 9 × Fin 9, ((exW o.1 * exW o.2 : ℝ) : ℂ) * (f o.1 * g o.2) = (∑ o, (exW o : ℂ) * f o) * ∑ o, (exW o : ℂ) * g o
  rw [Fintype.sum_prod_type, Finset.sum_mul_sum]
  refine Finset.sum_congr rfl fun i _ => Finset.sum_congr rfl fun j _ => ?_
  push_cast
  ring

theorem tensor_mul (f g f' g' : Fin 9 → ℂ) : tensor f g * tensor f' g' = tensor (f * f') (g * g') := by
  ext o; simp only [tensor, Pi.mul_apply]; ring

theorem tensor_star (f g : Fin 9 → ℂ) : star (tensor f g) = tensor (star f) (star g) := by
  ext o; simp only [tensor, Pi.star_apply, star_mul']

/-- The first data vector depends on the first outcome, the second on the second. -/
noncomputable def exX1 (_ : Fin 1) : Fin 9 × Fin 9 → ℂ := tensor exZ 1
/-- The second data vector. -/
noncomputable def exX2 (_ : Fin 1) : Fin 9 × Fin 9 → ℂ := tensor 1 exZ

theorem exVar (a : Fin 9 × Fin 9 → ℂ) (h : Var exX1 exX2 a) :
    (∃ f, (f = exZ ∨ f = star exZ) ∧ a = tensor f 1) ∨ ∃ g, (g = exZ ∨ g = star exZ) ∧ a = tensor 1 g := by
  obtain ⟨_, rfl | rfl | rfl | rfl⟩ := h
  · exact .inl ⟨_, .inl rfl, rfl⟩
  · exact .inr ⟨_, .inl rfl, rfl⟩
  · exact .inl ⟨_, .inr rfl, by rw [exX1, tensor_star, star_one]⟩
  · exact .inr ⟨_, .inr rfl, by rw [exX2, tensor_star, star_one]⟩

theorem exGaussian : Gaussian E2 exX1 exX2 where
  mean := by
    intro a ha
    rcases exVar a ha with ⟨f, hf, rfl⟩ | ⟨g, hg, rfl⟩
    · rw [E2_tensor, E1_single f hf, zero_mul]
    · rw [E2_tensor, E1_single g hg, mul_zero]
  pairings := by
    intro a b c d ha hb hc hd
    rcases exVar a ha with ⟨f1, h1, rfl⟩ | ⟨f1, h1, rfl⟩ <;> rcases exVar b hb with ⟨f2, h2, rfl⟩ | ⟨f2, h2, rfl⟩ <;>
      rcases exVar c hc with ⟨f3, h3, rfl⟩ | ⟨f3, h3, rfl⟩ <;> rcases exVar d hd with ⟨f4, h4, rfl⟩ | ⟨f4, h4, rfl⟩ <;>
      simp only [tensor_mul, E2_tensor, mul_one, one_mul, E1.one, E1_single f1 h1, E1_single f2 h2, E1_single f3 h3, E1_single f4 h4, mul_zero, zero_mul,
        add_zero, zero_add] <;>
      first
      | exact E1_pairings _ _ _ _ h1 h2 h3 h4
      | exact mul_comm _ _
      | rfl

/-- The variances of the example. -/
noncomputable def exNoise : Inp (Fin 1) := exInp (2 / 3) (2 / 3)

/-- The hypotheses of `C110_covariance_partial` are met for the model "autos", ... -/
example : Gaussian E2 exX1 exX2 ∧ Fits .diagonal E2 exX1 exX2 exNoise := by
  refine ⟨exGaussian, ?_⟩
  have z1 := E1_single exZ (.inl rfl)
  have z2 := E1_single (star exZ) (.inr rfl)
  obtain ⟨s1, s2, s3⟩ := E1_second
  constructor
  · intro i j
    simp only [Cov, exX1, tensor_star, tensor_mul, E2_tensor, star_one, mul_one, E1.one, s3, z1, exNoise, exInp, of_apply, zero_mul, sub_zero]
  · intro i j
    simp only [Cov, exX2, tensor_star, tensor_mul, E2_tensor, star_one, mul_one, one_mul, E1.one, s3, z1, exNoise, exInp, of_apply, zero_mul, sub_zero]
  · intro i j h; exact absurd (Subsingleton.elim i j) h
  · intro i j h; exact absurd (Subsingleton.elim i j) h
  · intro i j
    simp only [Cov, exX1, exX2, tensor_star, tensor_mul, E2_tensor, star_one, mul_one, one_mul, E1.one, z1, z2, zero_mul, mul_zero, sub_zero, and_self]
  · intro i j
    simp only [Cov, exX1, exX2, tensor_mul, E2_tensor, mul_one, one_mul, E1.one, s1, z1, zero_mul, mul_zero, sub_zero, and_self]

/-- The covariances of a data vector with itself. -/
noncomputable def exSelf : Inp (Fin 1) :=
  { C11 := of fun _ _ => 2 / 3, C22 := of fun _ _ => 2 / 3, C21 := of fun _ _ => 2 / 3, C12 := of fun _ _ => 2 / 3, P11 := 0, S11 := 0, P22 := 0, S22 := 0,
    P21 := 0, S21 := 0, x1 := 0, x2 := 0 }

private theorem notTiny_big : NotTiny (of fun (_ _ : Fin 1) => (2 / 3 : ℂ)) := by
  intro h; have := h 0 0; norm_num at this
private theorem notTiny_zero : NotTiny (0 : Matrix (Fin 1) (Fin 1) ℂ) := fun _ _ _ => rfl

/-- ... and for the general model, where a data vector is combined with itself. -/
example : Gaussian E2 exX1 exX1 ∧ Fits .general E2 exX1 exX1 exSelf := by
  have z1 := E1_single exZ (.inl rfl)
  have z2 := E1_single (star exZ) (.inr rfl)
  obtain ⟨s1, s2, s3⟩ := E1_second
  have hv : ∀ a, Var exX1 exX1 a → Var exX1 exX2 a := by
    rintro a ⟨i, h | h | h | h⟩
    · exact ⟨i, .inl h⟩
    · exact ⟨i, .inl h⟩
    · exact ⟨i, .inr (.inr (.inl h))⟩
    · exact ⟨i, .inr (.inr (.inl h))⟩
  refine ⟨⟨fun a h => exGaussian.mean a (hv a h), fun a b c d h1 h2 h3 h4 => exGaussian.pairings a b c d (hv _ h1) (hv _ h2) (hv _ h3) (hv _ h4)⟩,
    ⟨⟨?_, ?_, ?_, ?_, ?_, ?_, ?_, ?_, ?_, ?_⟩, notTiny_zero, notTiny_zero, notTiny_big, notTiny_zero, notTiny_zero, notTiny_big, notTiny_zero, notTiny_zero⟩⟩ <;>
    intro i j <;>
    simp only [Cov, exX1, tensor_star, tensor_mul, E2_tensor, star_one, mul_one, E1.one, s1, s2, s3, z1, z2, exSelf, of_apply, zero_mul, sub_zero,
      Matrix.zero_apply]

end HeraPspec.AnCov
