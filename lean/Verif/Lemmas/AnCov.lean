import Verif.Model.AnCov
import Verif.Spec.AnCov
import Mathlib.Tactic.Ring
import Mathlib.Tactic.LinearCombination
import Mathlib.Tactic.Module

namespace HeraPspec.AnCov
open Matrix AnCovSpec

variable {ι κ : Type} [Fintype ι] [Fintype κ]
variable {A : Type} [CommRing A] [StarRing A] [Algebra ℂ A] [StarModule ℂ A]

/-- The matrix of second moments `<u_i v_j>`. -/
def sec (Ex : Expectation A) (u v : ι → A) : Matrix ι ι ℂ := of fun i j => Ex.toLin (u i * v j)

/-- A bilinear form in two vectors of variables. -/
def form (F : Matrix ι ι ℂ) (u v : ι → A) : A := ∑ i, ∑ j, F i j • (u i * v j)

theorem sum2_mul {B : Type} [CommRing B] (f g : ι → ι → B) : (∑ i, ∑ j, f i j) * (∑ k, ∑ l, g k l) = ∑ i, ∑ j, ∑ k, ∑ l, f i j * g k l := by
  rw [Finset.sum_mul]
  refine Finset.sum_congr rfl fun i _ => ?_
  rw [Finset.sum_mul]
  refine Finset.sum_congr rfl fun j _ => ?_
  rw [Finset.mul_sum]
  exact Finset.sum_congr rfl fun k _ => Finset.mul_sum _ _ _

theorem ex_form (Ex : Expectation A) (F : Matrix ι ι ℂ) (u v : ι → A) : Ex.toLin (form F u v) = ∑ i, ∑ j, F i j * Ex.toLin (u i * v j) := by
  simp only [form, map_sum, map_smul, smul_eq_mul]

theorem ex_form_mul (Ex : Expectation A) (F G : Matrix ι ι ℂ) (u v w z : ι → A) :
    Ex.toLin (form F u v * form G w z) = ∑ i, ∑ j, ∑ k, ∑ l, F i j * G k l * Ex.toLin (u i * v j * (w k * z l)) := by
  unfold form
  rw [sum2_mul]
  simp only [map_sum, smul_mul_smul_comm, map_smul, smul_eq_mul]

theorem cov_form (Ex : Expectation A) (F G : Matrix ι ι ℂ) (u v w z : ι → A)
    (h : ∀ i j k l, Ex.toLin (u i * v j * (w k * z l)) = Ex.toLin (u i * v j) * Ex.toLin (w k * z l) +
      Ex.toLin (u i * w k) * Ex.toLin (v j * z l) + Ex.toLin (u i * z l) * Ex.toLin (v j * w k)) :
    Cov Ex (form F u v) (form G w z) = ∑ i, ∑ j, ∑ k, ∑ l, F i j * G k l * (Ex.toLin (u i * w k) * Ex.toLin (v j * z l)) +
      ∑ i, ∑ j, ∑ k, ∑ l, F i j * G k l * (Ex.toLin (u i * z l) * Ex.toLin (v j * w k)) := by
  unfold Cov
  rw [ex_form_mul, ex_form, ex_form, sum2_mul]
  simp only [← Finset.sum_add_distrib, ← Finset.sum_sub_distrib, h]
  refine Finset.sum_congr rfl fun i _ => Finset.sum_congr rfl fun j _ => Finset.sum_congr rfl fun k _ => Finset.sum_congr rfl fun l _ => ?_
  ring

/-- The product of two matrix products, traced. -/
theorem trProd_mul (F G : κ → Matrix ι ι ℂ) (U W : Matrix ι ι ℂ) (b c : κ) :
    trProd (fun b => F b * U) (fun c => G c * W) b c = ∑ i, ∑ j, ∑ k, ∑ l, F b i j * U j k * (G c k l * W l i) := by
  simp only [trProd, of_apply, Matrix.mul_apply, Finset.sum_mul, Finset.mul_sum]
  refine Finset.sum_congr rfl fun i _ => ?_
  rw [Finset.sum_comm' (t' := Finset.univ) (s' := fun _ => Finset.univ) (by simp)]
  rw [Finset.sum_congr rfl fun l _ => Finset.sum_comm]
  rw [Finset.sum_comm]
  refine Finset.sum_congr rfl fun j _ => ?_
  rw [Finset.sum_comm]

theorem first_term (Ex : Expectation A) (F G : κ → Matrix ι ι ℂ) (u v w z : ι → A) (b c : κ) :
    ∑ i, ∑ j, ∑ k, ∑ l, F b i j * G c k l * (Ex.toLin (u i * w k) * Ex.toLin (v j * z l)) =
      trProd (fun b => F b * sec Ex v z) (fun c => (G c)ᵀ * sec Ex w u) b c := by
  rw [trProd_mul]
  refine Finset.sum_congr rfl fun i _ => Finset.sum_congr rfl fun j _ => ?_
  rw [Finset.sum_comm]
  refine Finset.sum_congr rfl fun k _ => Finset.sum_congr rfl fun l _ => ?_
  simp only [sec, of_apply, transpose_apply, mul_comm (u i)]
  ring

theorem second_term (Ex : Expectation A) (F G : κ → Matrix ι ι ℂ) (u v w z : ι → A) (b c : κ) :
    ∑ i, ∑ j, ∑ k, ∑ l, F b i j * G c k l * (Ex.toLin (u i * z l) * Ex.toLin (v j * w k)) =
      trProd (fun b => F b * sec Ex v w) (fun c => G c * sec Ex z u) b c := by
  rw [trProd_mul]
  refine Finset.sum_congr rfl fun i _ => Finset.sum_congr rfl fun j _ => Finset.sum_congr rfl fun k _ => Finset.sum_congr rfl fun l _ => ?_
  simp only [sec, of_apply, mul_comm (u i)]
  ring

theorem cov_comm (Ex : Expectation A) (a b : A) : Cov Ex a b = Cov Ex b a := by
  unfold Cov; rw [mul_comm a b, mul_comm (Ex.toLin a)]

theorem cov_star (Ex : Expectation A) (a b : A) : Cov Ex (star a) (star b) = star (Cov Ex a b) := by
  unfold Cov
  rw [← star_mul', Ex.conj, Ex.conj, Ex.conj]
  simp

theorem cov_add_left (Ex : Expectation A) (a b c : A) : Cov Ex (a + b) c = Cov Ex a c + Cov Ex b c := by
  unfold Cov; rw [add_mul, map_add, map_add]; ring

theorem cov_smul_left (Ex : Expectation A) (r : ℂ) (a c : A) : Cov Ex (r • a) c = r * Cov Ex a c := by
  unfold Cov; rw [smul_mul_assoc, map_smul, map_smul, smul_eq_mul, smul_eq_mul]; ring

theorem cov_add_right (Ex : Expectation A) (a b c : A) : Cov Ex c (a + b) = Cov Ex c a + Cov Ex c b := by
  rw [cov_comm, cov_add_left, cov_comm Ex a, cov_comm Ex b]

theorem cov_smul_right (Ex : Expectation A) (r : ℂ) (a c : A) : Cov Ex c (r • a) = r * Cov Ex c a := by
  rw [cov_comm, cov_smul_left, cov_comm]

theorem cov_sum_left {α : Type} (Ex : Expectation A) (s : Finset α) (f : α → A) (c : A) : Cov Ex (∑ x ∈ s, f x) c = ∑ x ∈ s, Cov Ex (f x) c := by
  classical
  induction s using Finset.induction_on with
  | empty => simp [Cov]
  | insert a s ha ih => rw [Finset.sum_insert ha, Finset.sum_insert ha, cov_add_left, ih]

theorem cov_sum_right {α : Type} (Ex : Expectation A) (s : Finset α) (f : α → A) (c : A) : Cov Ex c (∑ x ∈ s, f x) = ∑ x ∈ s, Cov Ex c (f x) := by
  rw [cov_comm, cov_sum_left]; exact Finset.sum_congr rfl fun x _ => cov_comm Ex _ _

theorem cov_sub_left (Ex : Expectation A) (a b c : A) : Cov Ex (a - b) c = Cov Ex a c - Cov Ex b c := by
  unfold Cov; rw [sub_mul, map_sub, map_sub]; ring

theorem cov_sub_right (Ex : Expectation A) (a b c : A) : Cov Ex c (a - b) = Cov Ex c a - Cov Ex c b := by
  rw [cov_comm, cov_sub_left, cov_comm Ex a, cov_comm Ex b]

theorem cov_re (Ex : Expectation A) (a b : A) :
    Cov Ex (re a) (re b) = (1 / 4 : ℂ) * (Cov Ex a b + Cov Ex (star a) (star b) + Cov Ex a (star b) + Cov Ex (star a) b) := by
  unfold re
  rw [cov_smul_left, cov_smul_right, cov_add_left, cov_add_right, cov_add_right]
  ring

theorem cov_im (Ex : Expectation A) (a b : A) :
    Cov Ex (im a) (im b) = -(1 / 4 : ℂ) * (Cov Ex a b + Cov Ex (star a) (star b) - Cov Ex a (star b) - Cov Ex (star a) b) := by
  unfold im
  rw [cov_smul_left, cov_smul_right, cov_sub_left, cov_sub_right, cov_sub_right]
  have hI : (1 / (2 * Complex.I) : ℂ) * (1 / (2 * Complex.I)) = -(1 / 4) := by
    rw [div_mul_div_comm, one_mul, mul_mul_mul_comm, Complex.I_mul_I]; norm_num
  linear_combination (Cov Ex a b - Cov Ex a (star b) - (Cov Ex (star a) b - Cov Ex (star a) (star b))) * hI

theorem qOf_eq (E : κ → Matrix ι ι ℂ) (x1 x2 : ι → A) (b : κ) : qOf E x1 x2 b = form (E b) (fun i => star (x1 i)) x2 := rfl

theorem star_qOf (E : κ → Matrix ι ι ℂ) (x1 x2 : ι → A) (b : κ) :
    star (qOf E x1 x2 b) = form ((E b).map star) x1 (fun i => star (x2 i)) := by
  simp only [qOf, form, star_sum, star_smul, star_mul', star_star, Matrix.map_apply]

theorem trProd_comm (F G : κ → Matrix ι ι ℂ) (b c : κ) : trProd F G b c = trProd G F c b := by
  simp only [trProd, of_apply]
  rw [Finset.sum_comm]
  exact Finset.sum_congr rfl fun i _ => Finset.sum_congr rfl fun j _ => mul_comm _ _

theorem trProd_transpose (F G : κ → Matrix ι ι ℂ) (b c : κ) : trProd (fun b => (F b)ᵀ) (fun c => (G c)ᵀ) b c = trProd F G b c := by
  simp only [trProd, of_apply, transpose_apply]
  rw [Finset.sum_comm]

theorem trProd_zero_left (G : κ → Matrix ι ι ℂ) : trProd (fun _ => 0) G = 0 := by
  ext b c; simp [trProd]
theorem trProd_zero_right (F : κ → Matrix ι ι ℂ) : trProd F (fun _ => 0) = 0 := by
  ext b c; simp [trProd]

end HeraPspec.AnCov
