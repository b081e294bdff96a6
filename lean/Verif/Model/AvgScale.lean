import Verif.Model.Average
import Mathlib.Analysis.SpecialFunctions.Trigonometric.Basic

/-!
Multiplying the spectra of an object by factors of window, baseline-pair and delay, as `convert_to_deltasq` and `apply_bias_correction` do, on the object that
`average_spectra` reads (`Verif.Model.Average`).
-/
namespace HeraPspec.AvgScale
open HeraPspec.Average
variable {E : Type} [AddCommGroup E] [Module ℝ E]

/-- One spectrum multiplied by the factors `f` of its delays: data and statistics once, the covariance with the factors of both delays; weights, integration time, samples and
window functions stay, uvpspec.py L1219-1236 and loss.py L41-53. -/
noncomputable def scaleCell (f : Nat → ℝ) (c : Cell E) : Cell E :=
  { c with
    data := fun d => f d • c.data d
    stat := fun s d => (c.stat s d).map (f d * ·)
    cov := fun d e => f d * c.cov d e * f e }

/-- The spectrum at row `j` multiplied by the factor of the baseline-pair of the row: one row of the arrays multiplied, uvpspec.py L1219-1220. -/
noncomputable def scaleRow (c : Nat → Nat → Nat → ℝ) (rows : List Meta) (s j : Nat) (x : Cell E) : Cell E :=
  match rows[j]? with
  | some m => scaleCell (c s m.blp) x
  | none => x

/-- All spectra multiplied by factors `c s b d` of window `s`, baseline-pair `b` and delay `d`: the loop of `convert_to_deltasq` over windows, uvpspec.py L1211-1236, and of
`apply_bias_correction`, loss.py L41-53. -/
noncomputable def rescale (c : Nat → Nat → Nat → ℝ) (u : Obj E) : Obj E :=
  { u with cells := u.cells.mapIdx (fun s ps => ps.map (fun cs => cs.mapIdx (scaleRow c u.rows s))) }

/-- `k_mag**3 / (2 * np.pi**2)` with `k_perp` of the baseline-pair (`get_kperps`, uvpspec.py L916-946) and `k_para` of the delay, uvpspec.py L1213-1217. -/
noncomputable def deltaFactor (kperp : Nat → Nat → ℝ) (kpara : Nat → Nat → ℝ) (s b d : Nat) : ℝ :=
  Real.sqrt (kperp s b ^ 2 + kpara s d ^ 2) ^ 3 / (2 * Real.pi ^ 2)

/-- `convert_to_deltasq` of an unfolded object, uvpspec.py L1183-1242 (the units are left out, see `Verif.Model.Rescale`). -/
noncomputable def toDeltaSq (kperp : Nat → Nat → ℝ) (kpara : Nat → Nat → ℝ) (u : Obj E) : Obj E := rescale (deltaFactor kperp kpara) u

/-- `apply_bias_correction(uvp, total_bias)` with a factor for every window, loss.py L41-53. -/
noncomputable def totalBias (b : Nat → ℝ) (u : Obj E) : Obj E := rescale (fun s _ _ => b s) u

end HeraPspec.AvgScale
