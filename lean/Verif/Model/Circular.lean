import Mathlib.Analysis.SpecialFunctions.Complex.Arg
import Mathlib.Analysis.SpecialFunctions.Trigonometric.Basic

/-!
Model of `circular_average` (utils.py L22-62) along one axis, over the reals (rounding left out).
-/
namespace HeraPspec.Circular
open Complex
noncomputable section

/-- `z_mean = np.mean(np.exp(1j * angles))`, utils.py L57-60. For no angles numpy gives `nan`; here 0 (theorems assume at least one). -/
def zMean (angles : List ℝ) : ℂ := (angles.map (fun t : ℝ => exp (I * (t : ℂ)))).sum / (angles.length : ℂ)

/-- Python's `x % m` for a positive real `m`. Used by `circularAverage`, utils.py L62. -/
def pyMod (x m : ℝ) : ℝ := x - m * (⌊x / m⌋ : ℝ)

/-- `np.angle(z_mean) % (2 * np.pi)`, utils.py L62. -/
def circularAverage (angles : List ℝ) : ℝ := pyMod (arg (zMean angles)) (2 * Real.pi)

end
end HeraPspec.Circular
