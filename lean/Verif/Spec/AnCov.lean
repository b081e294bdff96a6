import Mathlib.Analysis.Complex.Basic
import Mathlib.Algebra.Star.Module

/-!
Specification for C110: random variables are elements of a commutative algebra over the complex numbers with conjugation, `Ex` is the expectation.
For jointly Gaussian variables of mean zero the expectation of a product of four is the sum over the three pairings (Isserlis).
-/
namespace HeraPspec.AnCovSpec

variable {A : Type} [CommRing A] [StarRing A] [Algebra ℂ A] [StarModule ℂ A]

/-- An expectation: linear and compatible with conjugation. -/
structure Expectation (A : Type) [CommRing A] [StarRing A] [Algebra ℂ A] [StarModule ℂ A] where
  toLin : A →ₗ[ℂ] ℂ
  one : toLin 1 = 1
  conj : ∀ a, toLin (star a) = star (toLin a)

/-- The covariance of two random variables. -/
def Cov (Ex : Expectation A) (a b : A) : ℂ := Ex.toLin (a * b) - Ex.toLin a * Ex.toLin b

/-- The real part of a random variable. -/
noncomputable def re (a : A) : A := (1 / 2 : ℂ) • (a + star a)
/-- The imaginary part of a random variable. -/
noncomputable def im (a : A) : A := (1 / (2 * Complex.I) : ℂ) • (a - star a)

variable {ι κ : Type} [Fintype ι] [Fintype κ]

/-- The unnormalized band powers `q_b = x1^† E^b x2`. -/
def qOf (E : κ → Matrix ι ι ℂ) (x1 x2 : ι → A) (b : κ) : A := ∑ i, ∑ j, E b i j • (star (x1 i) * x2 j)

/-- The normalized band powers `p = M q`. -/
def pOf (M : Matrix κ κ ℂ) (q : κ → A) (a : κ) : A := ∑ b, M a b • q b

/-- The variables the two data vectors consist of, and their conjugates. -/
def Var (x1 x2 : ι → A) (a : A) : Prop := ∃ i, a = x1 i ∨ a = x2 i ∨ a = star (x1 i) ∨ a = star (x2 i)

/-- Mean zero and Gaussian: the fourth moments are sums over pairings. -/
structure Gaussian (Ex : Expectation A) (x1 x2 : ι → A) : Prop where
  mean : ∀ a, Var x1 x2 a → Ex.toLin a = 0
  pairings : ∀ a b c d, Var x1 x2 a → Var x1 x2 b → Var x1 x2 c → Var x1 x2 d →
    Ex.toLin (a * b * (c * d)) = Ex.toLin (a * b) * Ex.toLin (c * d) + Ex.toLin (a * c) * Ex.toLin (b * d) + Ex.toLin (a * d) * Ex.toLin (b * c)

end HeraPspec.AnCovSpec
