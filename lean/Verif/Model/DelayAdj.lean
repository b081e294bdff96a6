import Verif.Model.Oqe

/-!
Model of `PSpecData.scalar_delay_adjustment` (pspecdata.py L3111-3201).
-/
namespace HeraPspec.DelayAdj
open HeraPspec.Oqe (Err rowSum)
noncomputable section

/-- `ratio`, pspecdata.py L3172-3178: real parts of the row sums; `0/0` (nan) and `x/0` (inf) are replaced by 1. -/
def ratio {nd : ℕ} (G H : Matrix (Fin nd) (Fin nd) ℂ) (a : Fin nd) : ℝ :=
  if (rowSum G a).re = 0 then 1 else (rowSum H a).re / (rowSum G a).re

/-- `np.mean`, as used at pspecdata.py L3189 and L3199. -/
def mean {n : ℕ} (x : Fin n → ℝ) : ℝ := (∑ i, x i) / n

/-- `np.mean(tapering_fct**2)`, or nothing for `taper='none'`, pspecdata.py L3197-3199. -/
def taperFactor {nf : ℕ} : Option (Fin nf → ℝ) → ℝ
  | none => 1
  | some t => mean (fun i => t i ^ 2)

open Classical in
/-- `scalar_delay_adjustment` with `Gv` and `Hv` given, pspecdata.py L3111-3201. For identity weighting one number is returned, here
a constant vector. `taper` holds the values of the taper. -/
def adjustment {nd nf : ℕ} (identity : Bool) (G H : Matrix (Fin nd) (Fin nd) ℂ) (taper : Option (Fin nf → ℝ)) : Except Err (Fin nd → ℝ) :=
  if identity then
    if ∃ a, (1 / 10000 : ℝ) * mean (ratio G H) < |ratio G H a - mean (ratio G H)| then .error .value
    else .ok (fun _ => nd / (nf * mean (ratio G H)) * taperFactor taper)
  else .ok (fun a => nd / (nf * ratio G H a) * taperFactor taper)

end
end HeraPspec.DelayAdj
