import Verif.Model.PyDict
import Mathlib.Analysis.Normed.Group.Basic

/-!
Model of the two checks `PSpecData.pspec` makes of its arguments: `validate_blpairs` (pspecdata.py L5492-5556) and
`PSpecData.validate_pol` (pspecdata.py L3203-3268). Positions are vectors of a normed space over the reals (in the code: ENU metres, floating
point). Printed warnings are the result.
-/
namespace HeraPspec.Validate

/-- A baseline (antenna pair). Used by `checkPair`, pspecdata.py L5542-5543. -/
abbrev Bl := ℤ × ℤ

/-- Exceptions: AssertionError for antenna positions that differ, KeyError for an antenna without position. Used by `validateBlpairs`,
pspecdata.py L5529, L5542. -/
inductive Err | assertion | key
  deriving DecidableEq, Repr

/-- An element of the list of baseline-pairs: a pair or a group of pairs, L5539-5540. -/
inductive Item
  | pair (p : Bl × Bl)
  | group (l : List (Bl × Bl))
  deriving DecidableEq, Repr

/-- `if isinstance(blg, tuple): blg = [blg]`, L5539-5540. -/
def Item.pairs : Item → List (Bl × Bl)
  | .pair p => [p]
  | .group l => l

variable {V : Type} [NormedAddCommGroup V]

open Classical in
/-- The assertion over shared antennas, L5527-5532 (`sorted` does not matter). -/
noncomputable def agree (ap1 ap2 : Dict ℤ V) (tol : ℝ) : Bool :=
  ap1.all (fun e => match Dict.get ap1 e.1, Dict.get ap2 e.1 with
    | some x, some y => decide (‖x - y‖ ≤ tol)
    | _, _ => true)

/-- `ap.update(ap2)`, L5533-5534. -/
def update (ap1 ap2 : Dict ℤ V) : Dict ℤ V := ap2.foldl (fun d e => Dict.set d e.1 e.2) ap1

/-- `ap[bl[0]] - ap[bl[1]]`, L5542-5543. -/
def blVec (ap : Dict ℤ V) (b : Bl) : Except Err V :=
  match Dict.get ap b.1, Dict.get ap b.2 with
  | some x, some y => .ok (x - y)
  | _, _ => .error .key

open Classical in
/-- The body of the inner loop, L5542-5548: the pairs a warning is printed for. -/
noncomputable def checkPair (ap : Dict ℤ V) (tol : ℝ) (p : Bl × Bl) : Except Err (List (Bl × Bl)) :=
  match blVec ap p.1 with
  | .error e => .error e
  | .ok v1 => match blVec ap p.2 with
    | .error e => .error e
    | .ok v2 => .ok (if ‖v1 - v2‖ ≥ tol then [p] else [])

/-- The two loops, L5538-5548. -/
noncomputable def checkAll (ap : Dict ℤ V) (tol : ℝ) : List (Bl × Bl) → Except Err (List (Bl × Bl))
  | [] => .ok []
  | p :: l => match checkPair ap tol p with
    | .error e => .error e
    | .ok w => match checkAll ap tol l with
      | .error e => .error e
      | .ok ws => .ok (w ++ ws)

/-- `validate_blpairs`, L5492-5548: the baseline-pairs warned about. `ants1`, `ants2` are `dict(zip(ants, positions))` of the two objects. -/
noncomputable def validateBlpairs (blpairs : List Item) (ap1 ap2 : Dict ℤ V) (tol : ℝ) : Except Err (List (Bl × Bl)) :=
  if agree ap1 ap2 tol then checkAll (update ap1 ap2) tol (blpairs.flatMap Item.pairs) else .error .assertion

/-- A polarization as an integer or a string. Used by `validatePol`, pspecdata.py L3233-3242. -/
inductive Pol | int (n : ℤ) | str (s : String)
  deriving DecidableEq, Repr

/-- What `validate_pol` reads of a dataset: its polarizations and its orientation. Used by `validatePol`, pspecdata.py L3230, L3250-3262. -/
structure Dset where
  pols : List ℤ
  xOrient : Option String

/-- Conversion of a polarization to an integer, L3233-3242; `polstr2num` is a parameter, `none` if it raises. -/
def toInt (polstr2num : String → Option String → Option ℤ) (x : Option String) : Pol → Option ℤ
  | .int n => some n
  | .str s => polstr2num s x

/-- `validate_pol`, L3203-3268: `none` for an exception; `d1` and `d2` are the indices `dset_idx` gives. -/
def validatePol (polstr2num : String → Option String → Option ℤ) (dsets : List Dset) (d1 d2 : ℕ) (pp : Pol × Pol) : Option Bool :=
  match dsets[0]? with
  | none => none
  | some d0 => match toInt polstr2num d0.xOrient pp.1, toInt polstr2num d0.xOrient pp.2, dsets[d1]?, dsets[d2]? with
    | some p1, some p2, some e1, some e2 => some (decide (p1 ∈ e1.pols) && decide (p2 ∈ e2.pols))
    | _, _, _, _ => none

end HeraPspec.Validate
