import Mathlib.Data.List.Basic

/-!
Specification vocabulary for C160: which calibrations a caller asks for an object, read off the arguments of the call.
-/
namespace HeraPspec.Labels

/-- Calibrating data `d` with the calibrations of a list, one after the other; `none` if one of them is refused. -/
def calibrated {D C : Type} (cal : C → D → Option D) : D → List C → Option D
  | d, [] => some d
  | d, c :: cs => (cal c d).bind (fun d' => calibrated cal d' cs)

/-- The calibrations requested for the object `a`: for every position of the lists `ds` (data sets), `ss` (error sets) and
`cs` (calibrations), the calibration at that position once if `a` is the data set there, and once more if it is the
error set there. -/
def requested {C : Type} (a : ℕ) (ds : List ℕ) (ss : List (Option ℕ)) (cs : List (Option C)) : List C :=
  (ds.zip (ss.zip cs)).flatMap (fun x =>
    (if x.1 = a then x.2.2.toList else []) ++ (if x.2.1 = some a then x.2.2.toList else []))

/-- The order in which the objects are to be calibrated: position by position, the data set before the error set. -/
def inOrder {C : Type} (ds : List ℕ) (ss : List (Option ℕ)) (cs : List (Option C)) : List (ℕ × C) :=
  (ds.zip (ss.zip cs)).flatMap (fun x =>
    (x.2.2.toList).map (fun c => (x.1, c)) ++ (x.2.1.toList).flatMap (fun s => (x.2.2.toList).map (fun c => (s, c))))

end HeraPspec.Labels
