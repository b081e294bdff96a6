import Verif.Model.PspecCall
import Verif.Model.Blpairs

/-!
Model of `uvpspec_from_data` (testing.py L211-338): from a data object and groups of baselines to the call of `PSpecData.pspec`
(`Verif.Model.PspecCall`).

Simplifications: reading of files (L268-280) is not modelled; a `data` argument that is neither a file name nor a UVData object is not
modelled (`uvd` would be undefined); an element of a group that is not a baseline is not modelled; keyword arguments that the function itself
passes on cannot be given twice (a TypeError of Python) and are not modelled as errors: the fields of `rest` that the function sets are ignored.
-/
namespace HeraPspec.FromData
open HeraPspec.PspecCall (Err Bl Blp BlArg PolsArg DsetArg World Call Out)

/-- An element of `bl_grps`: a baseline, or a list of baselines, testing.py L227-231, L311-321. -/
inductive GArg | bl (b : Bl) | grp (l : List Bl)
  deriving DecidableEq, Repr

/-- The baseline in an element, if it is one. Used by `groupsOf`, testing.py L313-314. -/
def GArg.bl? : GArg → Option Bl
  | .bl b => some b
  | .grp _ => none

/-- The group in an element, if it is one. Used by `groupsOf`, testing.py L315-317. -/
def GArg.grp? : GArg → Option (List Bl)
  | .bl _ => none
  | .grp l => some l

/-- The groups, testing.py L311-321. A list beginning with a baseline is taken to be one group; if it also has a list, `pspec` refuses the pair
of the first baseline with that list (pspecdata.py L3588-3589). -/
def groupsOf (a : List GArg) : Except Err (List (List Bl)) :=
  match a with
  | [] => .error .index
  | .bl _ :: _ => if a.all (fun x => x.bl?.isSome) then .ok [a.filterMap GArg.bl?] else .error .assertion
  | .grp _ :: _ =>
    if a.all (fun x => x.grp?.isSome) then
      if (a.filterMap GArg.grp?).all (fun g => decide (g ≠ [])) then .ok (a.filterMap GArg.grp?) else .error .index
    else .error .assertion

/-- `bls1` and `bls2`, testing.py L322-328. -/
def collect : List (List Bl) → Except Err (List Bl × List Bl)
  | [] => .ok ([], [])
  | g :: gs =>
    match Blpairs.construct g true false true with
    | .error _ => .error .index
    | .ok r => match collect gs with
      | .error e => .error e
      | .ok s => .ok (r.1 ++ s.1, r.2.1 ++ s.2)

/-- What the function reads from its arguments: the polarizations of the data, and whether standard deviations are given, testing.py L275-295. -/
structure Source where
  pols : List ℤ
  std : Bool

/-- The `PSpecData` object, testing.py L302-309: the data twice, under the labels "d1" and "d2"; and the name of the covariance model, L286-291. -/
def worldOf {D W : Type} (w : World D W) (s : Source) : World D W :=
  { w with labels := ["d1", "d2"], covModel := if s.std then "dsets" else "empirical" }

/-- The call of `pspec`, testing.py L330-337; `rest` has the other keyword arguments. -/
def callOf (s : Source) (pol : ℤ) (b : List Bl × List Bl) (rest : Call) : Call :=
  { rest with dsets := [.int 0, .int 1], bls1 := b.1.map .one, bls2 := b.2.map .one, pols := .one (.pair (.int pol) (.int pol)), storeCov := s.std }

/-- `uvpspec_from_data`, testing.py L264-338. `w` has what the data and the beam say. -/
def fromData {D W : Type} (w : World D W) (s : Source) (a : List GArg) (rest : Call) : Except Err (Out D W) :=
  match s.pols with
  | [] => .error .index
  | pol :: _ => match groupsOf a with
    | .error e => .error e
    | .ok gs => match collect gs with
      | .error e => .error e
      | .ok b => PspecCall.pspec (worldOf w s) (callOf s pol b rest)

/-- The `beam` argument: none, the name of a file, or a beam object with its cosmology, testing.py L247-249. -/
inductive BeamArg (κ : Type) | none | file | obj (c : κ)
  deriving DecidableEq, Repr

/-- The cosmology of the beam that is used, if there is one, testing.py L295-300; `dflt` is the cosmology of a beam built from a file without one. The copy
leaves the beam of the caller as it was. -/
def cosmoUsed {κ : Type} (dflt : κ) : BeamArg κ → Option κ → Option κ
  | .none, _ => Option.none
  | .file, c => some (c.getD dflt)
  | .obj b, Option.none => some b
  | .obj _, some c => some c

end HeraPspec.FromData
