import Mathlib.Analysis.SpecialFunctions.Trigonometric.Basic
import Mathlib.Analysis.SpecialFunctions.Pow.Real
import Mathlib.LinearAlgebra.Matrix.Circulant
import Mathlib.Algebra.BigOperators.Fin

/-!
Model of `calc_P_N` and `get_approximate_delay_delay_corr_matrix` (noise.py L20-91, L272-297) over the reals.
-/
namespace HeraPspec.Noise
noncomputable section

/-- `AssertionError`. Used by `calcPN`, noise.py L20-91. -/
inductive Err | assertion
  deriving DecidableEq

/-- The argument `form`; any other string is `other`. Used by `calcPN`, noise.py L20-91. -/
inductive Form | pk | delSq | other
  deriving DecidableEq
/-- The argument `component`. Used by `calcPN`, noise.py L20-91. -/
inductive Comp | abs | real | imag | other
  deriving DecidableEq

/-- `calc_P_N(scalar, Tsys, t_int, Ncoherent, Nincoherent, form, k, component)`, noise.py L20-91, for one value of `k`. The counts
are real numbers here. -/
def calcPN (scalar tsys tint ncoh : ℝ) (nincoh : Option ℝ) (form : Form) (k : Option ℝ) (comp : Comp) : Except Err ℝ :=
  if form = .other then .error .assertion
  else if comp = .other then .error .assertion
  else
    let p0 := scalar * (tsys * 1e3) ^ 2
    let p1 := p0 / (tint * ncoh)
    let p2 := match nincoh with
      | none => p1
      | some n => p1 / Real.sqrt n
    let p3 := if comp = .real ∨ comp = .imag then p2 / Real.sqrt 2 else p2
    if form = .delSq then
      match k with
      | none => .error .assertion
      | some k => .ok (p3 * k ^ 3 / (2 * Real.pi ^ 2))
    else .ok p3

/-- `np.fft.fft(x)[k] = Σ_a x[a] exp(-2 pi i a k / n)`. Used by `corrCov`, noise.py L296. -/
def fft {n : Nat} (x : Fin n → ℂ) (k : Fin n) : ℂ :=
  ∑ a : Fin n, x a * Complex.exp (-2 * Real.pi * Complex.I * (a : ℕ) * (k : ℕ) / n)

/-- `cov = np.abs(np.fft.fft(taper**2)) ** 2`, noise.py L296. -/
def corrCov {n : Nat} (taper : Fin n → ℝ) (k : Fin n) : ℝ := ‖fft (fun a => ((taper a ^ 2 : ℝ) : ℂ)) k‖ ^ 2

/-- `cov.max()`; zero delays are not modelled. Used by `corrMatrix`, noise.py L297. -/
def npMax {n : Nat} [NeZero n] (v : Fin n → ℝ) : ℝ := Finset.univ.sup' ⟨0, Finset.mem_univ _⟩ v

/-- `circulant(cov / cov.max())`, noise.py L297: entry `(i, j)` is element `(i - j) mod n`. -/
def corrMatrix {n : Nat} [NeZero n] (taper : Fin n → ℝ) : Matrix (Fin n) (Fin n) ℝ :=
  Matrix.circulant (fun i => corrCov taper i / npMax (corrCov taper))

end
end HeraPspec.Noise
