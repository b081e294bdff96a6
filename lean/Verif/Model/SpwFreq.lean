import Mathlib.Order.Defs.LinearOrder
import Mathlib.Algebra.Field.Defs
import Mathlib.Data.Rat.Defs
import Verif.Model.UVP

/-!
Model of `spw_range_from_freqs` and `spw_range_from_redshifts` (utils.py L576-705), over any ordered field of frequencies.
-/
namespace HeraPspec.SpwFreq
open HeraPspec.UVP (mapE)

/-- `ValueError`. Used by `oneRange`, utils.py L621-645. -/
inductive Err | value
  deriving DecidableEq, Repr

variable {K : Type} [LinearOrder K]

/-- `np.min`; `none` for an empty array (a `ValueError`). Used by `oneRange`, utils.py L621-645. -/
def npMin : List K → Option K
  | [] => none
  | a :: l => some (l.foldl min a)

/-- `np.max`. Used by `oneRange`, utils.py L621-645. -/
def npMax : List K → Option K
  | [] => none
  | a :: l => some (l.foldl max a)

/-- `np.where(np.logical_and(freqs >= fmin, freqs < fmax))[0]`, utils.py L643. -/
def idxs (freqs : List K) (fmin fmax : K) : List Nat :=
  (freqs.zipIdx.filter (fun fi => decide (fmin ≤ fi.1) && decide (fi.1 < fmax))).map (·.2)

/-- `(idxs[0], idxs[-1]) if idxs.size > 0 else (None, None)`, utils.py L644. -/
def ends (l : List Nat) : Option (Nat × Nat) :=
  match l.head?, l.getLast? with
  | some a, some b => some (a, b)
  | _, _ => none

/-- One turn of the loop, utils.py L621-645. The evaluation order of `fmin < np.min(freqs) and bounds_error` makes an empty array
raise in any case. -/
def oneRange (freqs : List K) (boundsError : Bool) (r : K × K) : Except Err (Option (Nat × Nat)) :=
  if r.2 < r.1 then .error .value
  else match npMin freqs, npMax freqs with
    | some lo, some hi =>
      if r.1 < lo ∧ boundsError then .error .value
      else if hi < r.2 ∧ boundsError then .error .value
      else .ok (ends (idxs freqs r.1 r.2))
    | _, _ => .error .value

/-- `spw_range_from_freqs(data, freq_range, bounds_error)` for a list of ranges, utils.py L576-648. `none` is `(None, None)`. -/
def spwRangeFromFreqs (freqs : List K) (ranges : List (K × K)) (boundsError : Bool) : Except Err (List (Option (Nat × Nat))) :=
  mapE (oneRange freqs boundsError) ranges

/-- `Cosmo_Conversions.z2f`, conversions.py L160-179 (with `f21` the line frequency). -/
def z2f [Field K] (f21 z : K) : K := f21 / (z + 1)

/-- `spw_range_from_redshifts(data, z_range, bounds_error)`, utils.py L651-705. -/
def spwRangeFromRedshifts [Field K] (f21 : K) (freqs : List K) (ranges : List (K × K)) (boundsError : Bool) :
    Except Err (List (Option (Nat × Nat))) :=
  spwRangeFromFreqs freqs (ranges.map (fun z => (z2f f21 z.2, z2f f21 z.1))) boundsError

end HeraPspec.SpwFreq
