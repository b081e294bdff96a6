import Verif.Model.PspecLoop
import Verif.Model.Validate
import Verif.Model.Polpair
import Verif.Model.UVP
import Verif.Model.Sort

/-!
Model of the frame of `PSpecData.pspec` (pspecdata.py L3540-4289): how the arguments are checked and brought into a normal form
(L3540-3673), how the accumulated lists become the arrays of the UVPSpec object (L4100-4184, L4253-4270), its dataset labels
(L4205-4214), units (L4190, L2960-2980) and history (L4222-4241). The loops are `Verif.Model.PspecLoop`; the value of one
baseline-pair, polarization pair and window is a parameter here (`Verif.Model.PspecValue`).

Simplifications: the two datasets have the same number of times (`validate_datasets`); `validate_blpairs`
(`Verif.Model.Validate`) is a parameter saying whether it raises; the final `check` and exact window functions
(`Verif.Model.ExactWin`) are not modelled here. When several errors are possible the model need not report the same one as the code.
-/
namespace HeraPspec.PspecCall
open HeraPspec.UVP (mapE UVP)
open HeraPspec.Validate (Item Pol)

/-- Exceptions. Used by `normalise`, pspecdata.py L3560-3643, L3797-3806. -/
inductive Err | assertion | type | key | index | value | notImpl | name
  deriving DecidableEq, Repr

/-- A baseline (antenna pair). Used by `pairUp`, pspecdata.py L3592-3599. -/
abbrev Bl := ℤ × ℤ

/-- A baseline-pair. Used by `pairUp`, pspecdata.py L3592-3599. -/
abbrev Blp := Bl × Bl

/-- An element of `bls1` or `bls2`: a baseline (tuple) or a list of baselines, pspecdata.py L3581-3589. -/
inductive BlArg | one (b : Bl) | many (l : List Bl)
  deriving DecidableEq, Repr

/-- Arguments given as `None`, one object or a list, pspecdata.py L3605-3614, L3627-3630. -/
inductive OneMany (α : Type) | none | one (a : α) | many (l : List α)
  deriving DecidableEq, Repr

/-- An element of `pols`: a string or a pair, pspecdata.py L3660-3672. -/
inductive PolArg | str (s : String) | pair (p q : Pol)
  deriving DecidableEq, Repr

/-- `pols`: one element or a list, pspecdata.py L3655-3656. -/
inductive PolsArg | one (p : PolArg) | many (l : List PolArg)
  deriving DecidableEq, Repr

/-- An element of `dsets`: an integer or a label, pspecdata.py L3564-3566. -/
inductive DsetArg | int (n : ℤ) | label (s : String)
  deriving DecidableEq, Repr

/-- The arguments of `pspec` that are modelled, pspecdata.py L3270-3300. -/
structure Call where
  dsets : List DsetArg
  bls1 : List BlArg
  bls2 : List BlArg
  pols : PolsArg
  spws : OneMany (ℕ × ℕ)
  exts : OneMany (ℕ × ℕ)
  ndlys : OneMany (Option ℕ)
  storeCov : Bool
  storeDiag : Bool
  storeWindow : Bool
  exactWindows : Bool
  returnQ : Bool
  norm : String
  littleH : Bool
  history : String

/-- Python indexing of a list by an integer that may be negative; used for `self.dsets[...]`, pspecdata.py L3567-3568. -/
def pyGet {α : Type} (l : List α) (n : ℤ) : Except Err α :=
  match (if 0 ≤ n then l[n.toNat]? else if -(l.length : ℤ) ≤ n then l[(l.length + n).toNat]? else none) with
  | some x => .ok x
  | none => .error .index

/-- The checks of `dsets`, pspecdata.py L3560-3566: two integers. -/
def dsetPair : List DsetArg → Except Err (ℤ × ℤ)
  | [.int a, .int b] => .ok (a, b)
  | _ => .error .assertion

/-- One element of `bl_pairs`, pspecdata.py L3581-3599. A list of two baselines against a single baseline passes the length check
(a tuple has length two) and fails when `validate_blpairs` indexes an antenna number (L5543). -/
def pairUp : BlArg → BlArg → Except Err Item
  | .one a, .one b => .ok (.pair (a, b))
  | .one _, .many _ => .error .assertion
  | .many l, .one _ => if l.length = 2 then .error .type else .error .assertion
  | .many l, .many m =>
    if l.length ≠ m.length then .error .assertion
    else match l, m with
      | [a], [b] => .ok (.pair (a, b))
      | l, m => .ok (.group (l.zip m))

/-- `bl_pairs`, pspecdata.py L3571-3599. -/
def blPairs (bls1 bls2 : List BlArg) : Except Err (List Item) :=
  if bls1.length = bls2.length ∧ bls1 ≠ [] then mapE (fun x => pairUp x.1 x.2) (bls1.zip bls2) else .error .assertion

/-- `None`, one or many, with a default for `None`, pspecdata.py L3605-3614, L3627-3630. -/
def OneMany.get {α : Type} (d : List α) : OneMany α → List α
  | .none => d
  | .one a => [a]
  | .many l => l

/-- One polarization as a number, pspecdata.py L3662-3671; `polnum` is `polstr2num` with the orientation of the first dataset. -/
def polInt (polnum : String → Option ℤ) : Pol → Except Err ℤ
  | .int n => .ok n
  | .str s => match polnum s with
    | some n => .ok n
    | none => .error .key

/-- One polarization pair, pspecdata.py L3660-3672. -/
def polPair (polnum : String → Option ℤ) : PolArg → Except Err (ℤ × ℤ)
  | .str s => match polInt polnum (.str s) with
    | .ok n => .ok (n, n)
    | .error e => .error e
  | .pair p q => match polInt polnum p, polInt polnum q with
    | .ok m, .ok n => .ok (m, n)
    | .error e, _ => .error e
    | _, .error e => .error e

/-- `pols` as a list of pairs of numbers, pspecdata.py L3655-3673. -/
def polPairs (polnum : String → Option ℤ) : PolsArg → Except Err (List (ℤ × ℤ))
  | .one p => mapE (polPair polnum) [p]
  | .many l => mapE (polPair polnum) l

/-- The arguments in normal form, and the labels of the two datasets, pspecdata.py L3541-3673, L4205-4206. -/
structure Norm where
  d1 : ℤ
  d2 : ℤ
  label1 : String
  label2 : String
  pairs : List Item
  spws : List (ℕ × ℕ)
  exts : List (ℕ × ℕ)
  ndlys : List (Option ℕ)
  pols : List (ℤ × ℤ)
  storeCov : Bool
  storeDiag : Bool
  storeWindow : Bool
  deriving DecidableEq

/-- The part of `pspec` before its loops, pspecdata.py L3541-3673: `labels` are the labels of the datasets of the object, `nfreqs` its number
of channels, `posOk` says whether `validate_blpairs` returns. The assertion at L3634-3637 can never fail, because `spw_ranges` is no
longer `None` there. -/
def normalise (polnum : String → Option ℤ) (labels : List String) (nfreqs : ℕ) (posOk : List Item → Bool) (c : Call) : Except Err Norm := do
  let (d1, d2) ← dsetPair c.dsets
  let l1 ← pyGet labels d1
  let l2 ← pyGet labels d2
  let pairs ← blPairs c.bls1 c.bls2
  if ¬ posOk pairs then .error .assertion
  let spws := c.spws.get [(0, nfreqs)]
  let exts := c.exts.get (spws.map (fun _ => (0, 0)))
  if spws.length ≠ exts.length then .error .assertion
  let ndlys := c.ndlys.get (spws.map (fun _ => none))
  if spws.length ≠ ndlys.length then .error .assertion
  let pols ← polPairs polnum c.pols
  .ok { d1 := d1, d2 := d2, label1 := l1, label2 := l2, pairs := pairs, spws := spws, exts := exts, ndlys := ndlys, pols := pols
        storeCov := c.storeCov && !c.storeDiag
        storeDiag := c.storeDiag
        storeWindow := c.storeWindow || c.exactWindows }

/-- Groups of baselines are refused inside the loop over baseline-pairs, pspecdata.py L3797-3813. -/
def onlyPairs : List Item → Except Err (List Blp)
  | [] => .ok []
  | .pair p :: l => match onlyPairs l with
    | .ok ps => .ok (p :: ps)
    | .error e => .error e
  | .group _ :: _ => .error .notImpl

/-- Time and LST of one integration of a baseline-pair in the two datasets, pspecdata.py L4077-4083. -/
structure Obs where
  t1 : ℚ
  t2 : ℚ
  l1 : ℚ
  l2 : ℚ
  deriving DecidableEq

/-- What is computed for one integration: the spectrum and the integration time, pspecdata.py L4012-4066. -/
structure Entry (D W : Type) where
  spec : List D
  integ : W

variable {D W : Type}

/-- `np.array(spw_data)`: ragged lists raise, pspecdata.py L4101-4103. -/
def rectangular (a : List (List (Entry D W))) : Bool :=
  match a with
  | [] => true
  | p0 :: _ => a.all (fun p => decide (p.length = p0.length)) &&
      a.all (fun p => p.all (fun e => decide (some e.spec.length = p0.head?.map (·.spec.length))))

/-- `np.moveaxis(np.array(spw_data), 0, -1)`: from polarization, row, delay to row, delay, polarization, pspecdata.py L4101. -/
def moveData (a : List (List (Entry D W))) : List (List (List D)) :=
  match a with
  | [] => []
  | p0 :: _ => (List.range p0.length).map (fun j =>
      (List.range ((p0.head?.map (·.spec.length)).getD 0)).map (fun d => a.filterMap (fun p => (p[j]?).bind (fun e => e.spec[d]?))))

/-- `np.moveaxis(np.array(spw_ints), 0, -1)`, pspecdata.py L4103. -/
def moveInts (a : List (List (Entry D W))) : List (List W) :=
  match a with
  | [] => []
  | p0 :: _ => (List.range p0.length).map (fun j => a.filterMap (fun p => (p[j]?).map (·.integ)))

/-- The windows of channels or delays: the number of the window, once for each of its values, and the values,
pspecdata.py L3725-3730, L4172-4177. -/
def spwAxis (n : ℕ) (vals : ℕ → List ℚ) : List (ℕ × ℚ) := (List.range n).flatMap (fun i => (vals i).map (fun v => (i, v)))

/-- The object that `pspec` returns: its UVPSpec arrays, the labels and `label_*_array`, the units, `norm`, which optional arrays exist,
pspecdata.py L4133-4289. -/
structure Out (D W : Type) where
  u : UVP D W
  labels : List String
  label1 : List (List (List ℕ))
  label2 : List (List (List ℕ))
  visUnits : String
  normUnits : String
  norm : String
  history : String
  hasCov : Bool
  stats : Option (List String)
  hasWindow : Bool

/-- `uvp.labels`, pspecdata.py L4207: `sorted(set([label1, label2]))`. -/
def outLabels (l1 l2 : String) : List String := pySorted (fun a b => decide (a ≤ b)) [l1, l2].dedup

/-- `label_1_array` and `label_2_array`: one number everywhere, pspecdata.py L4208-4213. -/
def labelArray (nspw nrow npol k : ℕ) : List (List (List ℕ)) :=
  List.replicate nspw (List.replicate nrow (List.replicate npol k))

/-- `units`, pspecdata.py L2960-2980; `vis` are the units of the first dataset. -/
def units (vis : String) (beam littleH : Bool) : String × String :=
  (vis, if beam then (if littleH then "h^-3 " else "") ++ "Mpc^3" else "Hz str [beam normalization not specified]")

/-- What `pspec` knows besides its arguments: `polnum`, labels, number of channels, `validate_blpairs`, `validate_pol`, the integrations
of a baseline-pair, frequencies and delays (in seconds, L3725-3726) of a window, the value of a baseline-pair, the circular average of two
LSTs, the histories of the two datasets (with their file names and labels), the units of the data and whether there is a beam, the name of
the covariance model. Used by `pspec`, pspecdata.py L3540-4289. -/
structure World (D W : Type) where
  polnum : String → Option ℤ
  labels : List String
  nfreqs : ℕ
  posOk : List Item → Bool
  polOk : ℤ × ℤ → Bool
  obs : Blp → List Obs
  freqs : ℕ → List ℚ
  dlys : ℕ → List ℚ
  val : ℕ → ℤ × ℤ → Blp → Except Err (List (Entry D W))
  circ : ℚ → ℚ → ℚ
  histories : String
  visUnits : String
  beam : Bool
  covModel : String

/-- `pspec`, pspecdata.py L3540-4289. Without windows `spw_polpair` is undefined at L4182. -/
def pspec (w : World D W) (c : Call) : Except Err (Out D W) := do
  let n ← normalise w.polnum w.labels w.nfreqs w.posOk c
  let blps ← onlyPairs n.pairs
  if n.spws = [] then .error .name
  let times (b : Blp) : List ((Obs × ℕ) × (Obs × ℕ)) := (w.obs b).zipIdx.map (fun o => (o, o))
  let mk (i : ℕ) (p : ℤ × ℤ) (b : Blp) (t : (Obs × ℕ) × (Obs × ℕ)) : Except Err (Entry D W) :=
    (w.val i p b).bind (fun l => match l[t.1.2]? with | some e => .ok e | none => .error .value)
  let r ← (match PspecLoop.pspecRows w.polOk times blps mk n.pols n.spws.length with
    | .ok r => .ok r
    | .error _ => .error .value)
  let data ← mapE (mapE (mapE id)) r.data
  if ¬ data.all rectangular then .error .value
  let dlys := spwAxis n.spws.length w.dlys
  let freqs := spwAxis n.spws.length w.freqs
  let nspws := (dlys.map (·.1)).dedup.length
  let nrows := (r.metaRows.map (fun m => (m.1, m.2.1.1.t1, m.2.2.1.t2))).dedup.length
  let ls := outLabels n.label1 n.label2
  .ok {
    u := {
      spwArray := List.range nspws
      spwFreqArray := freqs.map (·.1), freqArray := freqs.map (·.2)
      spwDlyArray := dlys.map (·.1), dlyArray := dlys.map (·.2)
      folded := false
      blpairArray := r.metaRows.map (fun m => Antnums.antnumsToBlpair m.1)
      time1 := r.metaRows.map (fun m => m.2.1.1.t1)
      time2 := r.metaRows.map (fun m => m.2.2.1.t2)
      timeAvg := r.metaRows.map (fun m => (m.2.1.1.t1 + m.2.2.1.t2) / 2)
      lst1 := r.metaRows.map (fun m => m.2.1.1.l1)
      lst2 := r.metaRows.map (fun m => m.2.2.1.l2)
      lstAvg := r.metaRows.map (fun m => w.circ m.2.1.1.l1 m.2.2.1.l2)
      polpairArray := r.polpairs.map Polpair.tuple2int
      data := data.zipIdx.map (fun a => (a.2, moveData a.1))
      integ := data.zipIdx.map (fun a => (a.2, moveInts a.1))
      label1 := labelArray nspws nrows r.polpairs.length (ls.idxOf n.label1) }
    labels := ls
    label1 := labelArray nspws nrows r.polpairs.length (ls.idxOf n.label1)
    label2 := labelArray nspws nrows r.polpairs.length (ls.idxOf n.label2)
    visUnits := (units w.visUnits w.beam c.littleH).1
    normUnits := (units w.visUnits w.beam c.littleH).2
    norm := if c.returnQ then "Unnormalized" else c.norm
    history := w.histories
    hasCov := n.storeCov
    stats := if n.storeDiag then some [w.covModel ++ "_diag"] else none
    hasWindow := n.storeWindow }

end HeraPspec.PspecCall
