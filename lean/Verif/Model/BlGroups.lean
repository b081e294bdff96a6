import Verif.Model.UVP
import Verif.Model.Sort

/-!
Model of `get_blpair_groups_from_bl_groups` (uvpspec.py L2802-2834) with `_normalize_nested_sequence` (uvpspec.py L18-30) and the
argument conversion of `_get_blpairs_from_bls` (uvpspec_utils.py L507-516).
-/
namespace HeraPspec.BlGroups
open HeraPspec.UVP

variable {D W : Type}

/-- `TypeError` and `ValueError`. Used by `normalizeNested`, uvpspec.py L18-30. -/
inductive BErr | type | value
  deriving DecidableEq

/-- An element of a group: an integer, a tuple of two integers, or something else (e.g. a list). Used by `toBls`, uvpspec_utils.py L507-516. -/
inductive BlArg | int (n : ℤ) | pair (a b : ℤ) | other
  deriving DecidableEq

/-- A value that should be a sequence. Used by `normalizeNested`, uvpspec.py L18-30. -/
inductive SeqArg (α : Type) | notSeq | seq (l : List α)

/-- The elements of a sequence; `TypeError` for other values (uvpspec.py L19-20, L24-25). -/
def SeqArg.get {α : Type} : SeqArg α → Except BErr (List α)
  | .notSeq => .error .type
  | .seq l => .ok l

/-- One group must be a non-empty sequence, uvpspec.py L24-28. -/
def normalizeGroup {α : Type} (g : SeqArg α) : Except BErr (List α) :=
  match g.get with
  | .error e => .error e
  | .ok [] => .error .value
  | .ok (a :: l) => .ok (a :: l)

/-- `_normalize_nested_sequence`, uvpspec.py L18-30. -/
def normalizeNested {α : Type} (v : SeqArg (SeqArg α)) : Except BErr (List (List α)) :=
  match v.get with
  | .error e => .error e
  | .ok l => mapE normalizeGroup l

/-- `uvp.antnums_to_bl(b)` for a tuple, uvpspec_utils.py L1055-1062 (in exact arithmetic); `TypeError` for an integer. A list of two
numbers would also be converted; it is not modelled in this position. -/
def convert : BlArg → Except BErr (Option ℤ)
  | .pair a b => .ok (some (Antnums.antnumsToBl (a, b)))
  | _ => .error .type

/-- An element that is compared as it is: only an integer can equal a baseline integer. Used by `toBls`, uvpspec_utils.py L514-516. -/
def keep : BlArg → Option ℤ
  | .int n => some n
  | _ => none

/-- The conversion of a list of baselines, decided by its first element, uvpspec_utils.py L513-515. Elements that can equal no baseline
integer are dropped. -/
def toBls : List BlArg → Except BErr (List ℤ)
  | .pair a b :: l => (mapE convert (.pair a b :: l)).map (fun r => r.filterMap id)
  | l => .ok (l.filterMap keep)

/-- `sorted(set(self.blpair_array[blp_select]))` for one group, uvpspec.py L2827-2830. -/
def oneGroup (u : UVP D W) (only : Bool) (g : List BlArg) : Except BErr (List ℤ) :=
  (toBls g).map (fun bls => pySorted (fun a b => decide (a ≤ b))
    (((u.blpairArray.zip (blsMask u bls only)).filter (·.2)).map (·.1)).dedup)

/-- `get_blpair_groups_from_bl_groups`, uvpspec.py L2823-2834: groups without baseline-pairs are dropped. -/
def blpairGroups (u : UVP D W) (v : SeqArg (SeqArg BlArg)) (only : Bool) : Except BErr (List (List ℤ)) :=
  match normalizeNested v with
  | .error e => .error e
  | .ok gs => (mapE (oneGroup u only) gs).map (fun r => r.filter (fun l => decide (0 < l.length)))

end HeraPspec.BlGroups
