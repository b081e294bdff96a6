import Verif.Model.Average
import Verif.Model.Antnums

/-!
Model of the argument handling of `average_spectra` (grouping.py L265-347, with `_normalize_grouped_input` L25-40): the baseline-pair groups and
their weights as Python values. The averaging itself is the one of `Verif.Model.Average`.
-/
namespace HeraPspec.AvgArgs
open HeraPspec.UVP (Err mapE)
open HeraPspec.Combine (uniq)
open HeraPspec.Average

/-- The Python values that can appear in `blpair_groups` and `blpair_weights`. `arr` is a numpy array, seen as the list of what iterating over it gives.
Used by `normalizeGrouped`, grouping.py L25-40. -/
inductive Val
  | none
  | int (n : Int)
  | num (q : ℚ)
  | str (s : String)
  | tup (l : List Val)
  | lst (l : List Val)
  | arr (l : List Val)

/-- A TypeError, or one of the exceptions of the averaging. Used by `normalizeGrouped`, grouping.py L25-40. -/
inductive VErr
  | type
  | err (e : Err)
  deriving DecidableEq

/-- `isinstance(value, (list, tuple, np.ndarray))`, with the elements, L26 and L31. -/
def seqOf : Val → Option (List Val)
  | .tup l => some l
  | .lst l => some l
  | .arr l => some l
  | _ => Option.none

/-- The body of the loop of `_normalize_grouped_input`, L30-36. -/
def groupList (g : Val) : Except VErr (List Val) :=
  match seqOf g with
  | Option.none => .error .type
  | some l => if l.isEmpty then .error (.err .value) else .ok l

/-- `_normalize_grouped_input`, L25-40. -/
def normalizeGrouped (v : Val) : Except VErr (List (List Val)) :=
  match seqOf v with
  | Option.none => .error .type
  | some gs => mapE groupList gs

/-- `v[i]`: numbers and `None` cannot be indexed; of a string one gets a string, which the caller cannot add to 100 (uvpspec_utils.py L1000-1003). -/
def getItem (v : Val) (i : Nat) : Except VErr Val :=
  match seqOf v with
  | Option.none => .error .type
  | some l => match l[i]? with
    | Option.none => .error (.err .index)
    | some x => .ok x

/-- The antenna number `v[i][j]`. Simplified: only integers are antenna numbers, anything else is a TypeError (uvpspec_utils.py L1000-1003). -/
def antOf (v : Val) (i j : Nat) : Except VErr Int :=
  match getItem v i with
  | .error e => .error e
  | .ok b => match getItem b j with
    | .error e => .error e
    | .ok (.int n) => .ok n
    | .ok _ => .error .type

/-- `_antnums_to_blpair`, uvpspec_utils.py L999-1008, of any value. -/
def antnumsV (v : Val) : Except VErr Int :=
  match antOf v 0 0 with
  | .error e => .error e
  | .ok a1 => match antOf v 0 1 with
    | .error e => .error e
    | .ok a2 => match antOf v 1 0 with
      | .error e => .error e
      | .ok a3 => match antOf v 1 1 with
        | .error e => .error e
        | .ok a4 => .ok (Antnums.antnumsToBlpair ((a1, a2), (a3, a4)))

/-- `isinstance(blpair_groups[0][0], tuple)`: whether the groups are converted is decided by the first item of the first group alone, L276. -/
def firstIsTuple (gs : List (List Val)) : Bool :=
  match gs with
  | (.tup _ :: _) :: _ => true
  | _ => false

/-- The conversion to baseline-pair integers, L275-280. -/
def convert (gs : List (List Val)) : Except VErr (List (List Val)) :=
  if firstIsTuple gs then
    mapE (fun g => mapE (fun v => match antnumsV v with
      | .error e => .error e
      | .ok b => .ok (Val.int b)) g) gs
  else .ok gs

/-- `value == b` for a baseline-pair integer of the object (L286 `list.index` and L345 set difference). -/
def eqNat (v : Val) (b : Nat) : Bool :=
  match v with
  | .int n => n = b
  | .num q => q = b
  | _ => false

/-- `uvp_blpairs.index(group[0])` finds the pair, L286; otherwise it is a ValueError. -/
def firstKnown (blps : List Nat) (g : List Val) : Bool :=
  match g.head? with
  | some v => blps.any (eqNat v)
  | Option.none => false

mutual
/-- Whether `set(...)` accepts the value, L304. -/
def hashable : Val → Bool
  | .lst _ => false
  | .arr _ => false
  | .tup l => hashableL l
  | _ => true
/-- `hashable` of all elements of a tuple, L304. -/
def hashableL : List Val → Bool
  | [] => true
  | v :: l => hashable v && hashableL l
end

/-- A weight as a float; anything that is not a number is a TypeError when the weights are summed, L400-401. -/
def weightOf (v : Val) : Except VErr ℚ :=
  match v with
  | .int n => .ok n
  | .num q => .ok q
  | _ => .error .type

/-- The baseline-pair that `uvp.get_data((spw, blp, p))` looks up: an integer, or a tuple which is converted then (`key_to_indices`, uvpspec.py L1590-1605);
anything else is an AssertionError. (A negative integer is the pair 0, which no object has.) -/
def resolve (v : Val) : Except VErr Nat :=
  match v with
  | .int n => .ok n.toNat
  | .tup l => match antnumsV (.tup l) with
    | .error e => .error e
    | .ok b => .ok b.toNat
  | _ => .error (.err .assertion)

/-- The weights, or unit weights, L309-322. -/
def weightLists (wv : Option Val) (gs : List (List Val)) : Except VErr (List (List Val)) :=
  match wv with
  | Option.none => .ok (gs.map (fun g => g.map (fun _ => Val.num 1)))
  | some w => match normalizeGrouped w with
    | .error e => .error e
    | .ok ws => if (List.range gs.length).all (fun i => (ws[i]?.map (·.length)) = (gs[i]?.map (·.length))) then .ok ws else .error (.err .value)

/-- Given `blpair_groups` and `blpair_weights` up to L347, for an object with the baseline-pairs `blps`; `exact`: it has exact window functions.
`known` are the names of the statistics of the object and `stats` those asked for (L324-341). -/
def prepareGiven (setOrder : List Nat → List Nat) (gv : Val) (wv : Option Val) (blps : List Nat) (exact : Bool) (stats known : List String) :
    Except VErr (List (List Val × List Val)) :=
  match normalizeGrouped gv with
  | .error e => .error e
  | .ok gs0 => match convert gs0 with
    | .error e => .error e
    | .ok gs =>
      if !gs.all (firstKnown blps) then .error (.err .value)
      else if gs.isEmpty then .error (.err .index)
      else if !gs.flatten.all hashable then .error .type
      else match weightLists wv gs with
        | .error e => .error e
        | .ok ws =>
          if !stats.all (· ∈ known) then .error (.err .key)
          else
            let extra := if exact then [] else setOrder ((uniq blps).filter (fun b => !gs.flatten.any (fun v => eqNat v b)))
            .ok ((gs ++ extra.map (fun b : Nat => [Val.int b])).zip (ws ++ extra.map (fun _ => [Val.num 1])))

/-- `blpair_groups` and `blpair_weights`, each possibly `None`, up to L347; without groups every pair is its own group, in the order of first
appearance (L292-300). -/
def prepare (setOrder : List Nat → List Nat) (gv wv : Option Val) (blps : List Nat) (exact : Bool) (stats known : List String) :
    Except VErr (List (List Val × List Val)) :=
  match gv with
  | some g => prepareGiven setOrder g wv blps exact stats known
  | Option.none =>
    match wv with
    | some _ => .error (.err .value)
    | Option.none =>
      if !stats.all (· ∈ known) then .error (.err .key)
      else .ok ((uniq blps).map (fun b : Nat => ([Val.int b], [Val.num 1])))

/-- One group as the loop reads it, L396-422. Simplified: the exceptions of all groups come before those of the averaging. -/
def resolveGroup (g : List Val × List Val) : Except VErr (List Nat × List ℚ) :=
  match mapE weightOf g.2 with
  | .error e => .error e
  | .ok ws => match mapE resolve g.1 with
    | .error e => .error e
    | .ok bs => .ok (bs, ws)

variable {E : Type} [AddCommGroup E] [Module ℝ E]

/-- The averaging of the prepared groups, L350-707, as in `Average.averageSpectra`. -/
noncomputable def averageOn (circ : List ℝ → ℝ) (a : Args) (u : Obj E) (gs : List (List Nat × List ℝ)) : Except Err (Obj E) :=
  match mapE (fun s => mapE (fun p => mapE (groupRows a.errorWeights a.timeAvg a.normalize u s p) gs)
    (List.range ((u.cells[s]?.map (·.length)).getD 0))) (List.range u.cells.length) with
  | .error e => .error e
  | .ok blocks =>
    match mapE (groupMeta circ a.timeAvg u) gs with
    | .error e => .error e
    | .ok ms =>
      .ok { rows := ms.flatten
            cells := blocks.map (fun ps => ps.map (fun bs => bs.flatten))
            statNames := statNames a
            exact := u.exact }

/-- `average_spectra(uvp, blpair_groups=gv, blpair_weights=wv, ...)` with the remaining arguments of `a`, L156-707. -/
noncomputable def averageVal (circ : List ℝ → ℝ) (setOrder : List Nat → List Nat) (gv wv : Option Val) (a : Args) (u : Obj E) :
    Except VErr (Obj E) :=
  match prepare setOrder gv wv (u.rows.map (·.blp)) u.exact (statNames a) u.statNames with
  | .error e => .error e
  | .ok gs => match mapE resolveGroup gs with
    | .error e => .error e
    | .ok rs => match averageOn circ a u (rs.map (fun g => (g.1, g.2.map (fun q : ℚ => (q : ℝ))))) with
      | .error e => .error (.err e)
      | .ok v => .ok v

end HeraPspec.AvgArgs
