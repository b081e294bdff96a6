import Verif.Model.AvgScale
import Verif.Model.FoldAvg

/-!
Multiplying the spectra of an object with delay axes by factors of window, baseline-pair and delay, before it is folded.
-/
namespace HeraPspec.FoldScale
open HeraPspec.FoldAvg
variable {E : Type} [AddCommGroup E] [Module ℝ E]

/-- All spectra of an unfolded object multiplied by factors of window, baseline-pair and delay; the delay axes stay: the loop of `convert_to_deltasq`, uvpspec.py L1211-1236. -/
noncomputable def scaled (c : Nat → Nat → Nat → ℝ) (x : DObj E) : DObj E := { x with u := AvgScale.rescale c x.u }

/-- `convert_to_deltasq` of an unfolded object, uvpspec.py L1183-1242 (without the units). -/
noncomputable def toDeltaSq (kperp kpara : Nat → Nat → ℝ) (x : DObj E) : DObj E := { x with u := AvgScale.toDeltaSq kperp kpara x.u }

/-- `apply_bias_correction(uvp, total_bias)` of an object, folded or not: all stored elements of window `s` are multiplied by `b s`, loss.py L41-53. -/
noncomputable def totalBias (b : Nat → ℝ) (x : DObj E) : DObj E := { x with u := AvgScale.totalBias b x.u }

end HeraPspec.FoldScale
