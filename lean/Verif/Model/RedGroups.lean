import Verif.Model.Antnums
import Verif.Model.Blpairs
import Verif.Model.PyDict
import Mathlib.Algebra.Order.Group.Abs
import Mathlib.Data.Nat.Digits.Defs

/-!
Model of the redundant-group construction: `_get_red_bls`, `_get_red_blpairs` (uvpspec_utils.py L1221-1367),
`get_blvec_reds`, `get_reds`, `calc_blpair_reds` (utils.py L299-541, L983-1088, L1227-1360).
Lengths and angles are elements of an arbitrary linearly ordered additive group (no rounding, no NaN).
-/
namespace HeraPspec.RedGroups
open Antnums (Bl Blp)

section RedBls
variable {F : Type} [AddCommGroup F] [LinearOrder F]

/-- A baseline with its length and angle: entry `i` of `uvp.bl_array`, `lens`, `angs`. Used by `matches_`, uvpspec_utils.py L1273-1277. -/
structure Item (F : Type) where
  bl : Int
  len : F
  ang : F

/-- The match condition, uvpspec_utils.py L1273-1277. -/
def matches_ (lenTol angTol : F) (x y : Item F) : Bool :=
  decide (|y.len - x.len| < lenTol) && decide (|y.ang - x.ang| < angTol)

/-- The `while` loop of `_get_red_bls`, uvpspec_utils.py L1269-1287, `fuel` being `max_loops - nloops`. (`np.delete`
of the matched positions is the filter of the rest; the group means of length and angle are not modelled.) -/
def redLoop (lenTol angTol : F) : Nat → List (Item F) → List (List Int)
  | 0, _ => []
  | _, [] => []
  | n + 1, x :: xs =>
    ((x :: xs).filter (matches_ lenTol angTol x)).map (·.bl) ::
      redLoop lenTol angTol n ((x :: xs).filter (fun y => !matches_ lenTol angTol x y))

/-- `_get_red_bls`, uvpspec_utils.py L1256-1289. -/
def getRedBls (lenTol angTol : F) (items : List (Item F)) : List (List Int) :=
  redLoop lenTol angTol items.length items

end RedBls

/-- Exceptions. Used by `lookupAll`, uvpspec_utils.py L1349-1350. -/
inductive Err | key | value | construct (e : Blpairs.Err)
  deriving DecidableEq, Repr

/-- `int("%d%d" % (a, b))` for non-negative integers with `b > 0`: concatenation of the decimal representations. Used by `getRedBlpairs`, uvpspec_utils.py L1336-1367. -/
def concatInt (a b : Int) : Int :=
  ((Nat.ofDigits 10 (Nat.digits 10 b.toNat ++ Nat.digits 10 a.toNat) : Nat) : Int)

/-- The dictionary `group_idx`, uvpspec_utils.py L1343-1346. -/
def groupIdx (redBls : List (List Int)) : Dict Int Nat :=
  redBls.zipIdx.foldl (fun d gi => gi.1.foldl (fun d bl => Dict.set d bl gi.2) d) []

/-- Look up a list of keys, raising `KeyError` on a missing one (uvpspec_utils.py L1349-1350). -/
def lookupAll (d : Dict Int Nat) : List Int → Except Err (List Nat)
  | [] => .ok []
  | b :: bs => match Dict.get d b with
    | none => .error .key
    | some i => match lookupAll d bs with
      | .error e => .error e
      | .ok is => .ok (i :: is)

/-- `_get_red_blpairs` given the redundant groups, uvpspec_utils.py L1336-1367. (`zip(*[])` of an object without
baseline-pairs raises ValueError.) -/
def getRedBlpairs (redBls : List (List Int)) (blpairs : List Blp) : Except Err (List (List Int)) :=
  if blpairs = [] then .error .value
  else
    let bl1 := blpairs.map (fun p => Antnums.antnumsToBl p.1)
    let bl2 := blpairs.map (fun p => Antnums.antnumsToBl p.2)
    match lookupAll (groupIdx redBls) bl1 with
    | .error e => .error e
    | .ok g1 =>
      match lookupAll (groupIdx redBls) bl2 with
      | .error e => .error e
      | .ok g2 => .ok ((List.range redBls.length).map (fun i =>
          (((bl1.zip bl2).zip (g1.zip g2)).filter (fun x => x.2.1 = i ∧ x.2.2 = i)).map
            (fun x => concatInt x.1.1 x.1.2)))

section Blvec
variable {K V : Type}

/-- Append to the first group whose representative matches, utils.py L1055-1078 (`np.where(match)[0][0]`); otherwise
append a new group. A group is the representative's vector with its members. -/
def insertFirst (close : V → V → Bool) (k : K) (v : V) : List (V × List K) → List (V × List K)
  | [] => [(v, [k])]
  | (u, ks) :: gs => if close u v then (u, ks ++ [k]) :: gs else (u, ks) :: insertFirst close k v gs

/-- `get_blvec_reds` for a dictionary of vectors, utils.py L1045-1087. `V` is the quantity compared (vector or, with
`match_bl_lens`, length), `close u v` the `np.isclose(u, v, rtol=0, atol=tol)` test and `order` the permutation given by
sorting on tags. -/
def getBlvecReds (close : V → V → Bool) (order : List (V × List K) → List (V × List K)) (blvecs : List (K × V)) :
    List (List K) :=
  (order (blvecs.foldl (fun gs e => insertFirst close e.1 e.2 gs) [])).map (·.2)

end Blvec

/-- The filters of `get_reds` after the redundancies were found, utils.py L1323-1360: drop groups outside the length
and angle ranges (`keep`), optionally put all autos first (or keep only those), and remove excluded antennas, dropping
empty groups. -/
def getReds (posReds : List (List Bl)) (keep : List Bl → Bool) (ants : List Int) (addAutos autosOnly : Bool)
    (xants : List Int) : List (List Bl) :=
  let reds := posReds.filter keep
  let reds := if addAutos then
      (let r := ants.zip ants :: reds
       if autosOnly then r.take 1 else r)
    else reds
  (reds.map (fun r => r.filter (fun bl => bl.1 ∉ xants ∧ bl.2 ∉ xants))).filter (fun r => decide (r.length > 0))

/-- The flag-based antenna exclusion for one data set, utils.py L421-464: start from all antennas and remove those of
every considered baseline of the data whose flagged fraction is below threshold (`good bl`). -/
def flagXants (ants : List Int) (bls : List Bl) (good : Bl → Bool) (inclAuto inclCross : Bool) : List Int :=
  bls.foldl (fun xs bl =>
    if (!inclAuto && bl.1 == bl.2) || (!inclCross && bl.1 != bl.2) then xs
    else if good bl then xs.filter (fun a => a ≠ bl.1 ∧ a ≠ bl.2) else xs) ants

/-- The per-group step of `calc_blpair_reds` without sub-grouping, utils.py L483-508: construct the pairs, then (with
`filter_blpairs`) keep those whose baselines are in the data in either orientation. -/
def groupPairs (filterBlpairs exclAuto exclCross exclPerm : Bool) (antpairs1 antpairs2 : List Bl) (r : List Bl) :
    Except Err (List (Bl × Bl)) :=
  match Blpairs.construct r exclAuto exclCross exclPerm with
  | .error e => .error (.construct e)
  | .ok (_, _, blps) =>
    if filterBlpairs then
      .ok (blps.filter (fun p => (p.1 ∈ antpairs1 ∨ (p.1.2, p.1.1) ∈ antpairs1) ∧
                                 (p.2 ∈ antpairs2 ∨ (p.2.2, p.2.1) ∈ antpairs2)))
    else .ok blps

/-- The loop over redundant groups of `calc_blpair_reds` (`Nblps_per_group=None`), utils.py L482-536: the baseline-pairs
with their redundant-group index. -/
def calcPairs (filterBlpairs exclAuto exclCross exclPerm : Bool) (antpairs1 antpairs2 : List Bl) :
    List (List Bl) → Nat → Except Err (List ((Bl × Bl) × Nat))
  | [], _ => .ok []
  | r :: rs, j =>
    match groupPairs filterBlpairs exclAuto exclCross exclPerm antpairs1 antpairs2 r with
    | .error e => .error e
    | .ok blps => match calcPairs filterBlpairs exclAuto exclCross exclPerm antpairs1 antpairs2 rs (j + 1) with
      | .error e => .error e
      | .ok rest => .ok (blps.map (fun p => (p, j)) ++ rest)

/-- `calc_blpair_reds`, utils.py L405-541, for two data sets whose antenna positions agree: `posReds` are the groups
returned by hera_cal, `xants` the hand-flagged antennas, `xants1`/`xants2` the flag-based ones. -/
def calcBlpairReds (posReds : List (List Bl)) (keep : List Bl → Bool) (ants : List Int)
    (antpairs1 antpairs2 : List Bl) (xants1 xants2 xants : List Int)
    (filterBlpairs exclAuto exclCross exclPerm inclAuto inclCross : Bool) : Except Err (List ((Bl × Bl) × Nat)) :=
  calcPairs filterBlpairs exclAuto exclCross exclPerm antpairs1 antpairs2
    (getReds posReds keep ants inclAuto (!inclCross) ((xants1 ++ xants) ++ (xants2 ++ xants))) 0

end HeraPspec.RedGroups
