import Verif.Model.PyDict
import Verif.Model.Antnums
import Mathlib.Data.Rat.Defs
import Mathlib.Algebra.Order.Ring.Abs
import Mathlib.Algebra.Order.Ring.Rat
import Mathlib.Data.List.Dedup
import Mathlib.Data.List.Sort

/-!
Model of the UVPSpec object, its index functions (uvpspec.py L679-719, L991-1064, L1312-1635) and of `_select`
(uvpspec_utils.py L479-905).

Arrays along the baseline-pair-time axis are parallel lists. `D` is the type of one delay-spectrum sample, `W` of one
per-spectrum number. Only `data_array` (axes row, delay, polpair) and `integration_array` (axes row, polpair) are
modelled; `wgt_array`, `cov_array_*`, `stats_array`, `window_function_array` are sliced by the same expressions as
`data_array`, and `nsample_array` as `integration_array`. The counters (`Nspws`, `Nbltpairs`, ...) are the lengths of
the lists. Times are rational numbers.
-/
namespace HeraPspec.UVP

/-- Exceptions. Used by `toSel`, uvpspec_utils.py L671-680. -/
inductive Err | assertion | index | key | value
  deriving DecidableEq, Repr

/-- The UVPSpec object (uvpspec.py L58-330). -/
structure UVP (D W : Type) where
  spwArray : List Nat
  spwFreqArray : List Nat
  freqArray : List ℚ
  spwDlyArray : List Nat
  dlyArray : List ℚ
  folded : Bool
  blpairArray : List Int
  time1 : List ℚ
  time2 : List ℚ
  timeAvg : List ℚ
  lst1 : List ℚ
  lst2 : List ℚ
  lstAvg : List ℚ
  polpairArray : List Int
  data : Dict Nat (List (List (List D)))
  integ : Dict Nat (List (List W))
  label1 : List (List (List Nat))

variable {D W : Type}

/-! ### numpy indexing -/

/-- `np.where(mask)[0]`, and equally `np.arange(N)[mask]`: positions of `True`. Used by `blpairToIndices`, uvpspec.py L1332-1338. -/
def whereTrue (bs : List Bool) : List Nat := (bs.zipIdx.filter (·.1)).map (·.2)

/-- An axis selection: a Python slice or an index array. Used by `toSel`, uvpspec_utils.py L671-680. -/
inductive Sel | all | slice (a b step : Nat) | idx (l : List Nat)
  deriving DecidableEq, Repr

/-- numpy indexing of one axis. A slice keeps positions `a, a+step, ... < b`. Used by `select`, uvpspec_utils.py L587-905. -/
def Sel.apply {α : Type} : Sel → List α → List α
  | .all, l => l
  | .slice a b step, l => (l.zipIdx.filter (fun x => decide (a ≤ x.2 ∧ x.2 < b ∧ (x.2 - a) % step = 0))).map (·.1)
  | .idx is, l => is.filterMap (fun i => l[i]?)

/-- `np.diff` of an increasing index array. Used by `toSel`, uvpspec_utils.py L671-680. -/
def diffs : List Nat → List Nat
  | a :: b :: l => (b - a) :: diffs (b :: l)
  | _ => []

/-- Turning an index array into a slice if possible, uvpspec_utils.py L671-680 and L728-739: no differences (one
element) or one distinct difference. An empty index array raises `IndexError` at `idx[0]`. -/
def toSel (idx : List Nat) : Except Err Sel :=
  match idx with
  | [] => .error .index
  | a :: rest =>
    match diffs (a :: rest) with
    | [] => .ok (.slice a ((a :: rest).getLast (by simp) + 1) 1)
    | d :: ds => if ds.all (· = d) then .ok (.slice a ((a :: rest).getLast (by simp) + 1) d)
                 else .ok (.idx (a :: rest))

/-- `np.isclose(x, t, rtol=r)` with the default `atol=1e-8`: `|x - t| <= atol + r * |t|`. Used by `timeToIndices`, uvpspec.py L1522-1534. -/
def isclose (r : ℚ) (x t : ℚ) : Bool := decide (|x - t| ≤ 1 / 100000000 + r * |t|)

/-! ### Index functions of UVPSpec -/

/-- `blpair_to_indices` for a list of integers, uvpspec.py L1332-1338. -/
def blpairToIndices (u : UVP D W) (blps : List Int) : Except Err (List Nat) :=
  if blps.all (· ∈ u.blpairArray) then .ok (whereTrue (u.blpairArray.map (fun x => decide (x ∈ blps))))
  else .error .assertion

/-- `spw_to_freq_indices` for a non-empty list of window integers, uvpspec.py L1365-1375. (An empty list is treated as
an error; numpy would index with a scalar `False`.) -/
def spwToFreqIndices (u : UVP D W) (spws : List Nat) : Except Err (List Nat) :=
  if spws = [] then .error .value
  else if spws.all (· ∈ u.spwFreqArray) then .ok (whereTrue (u.spwFreqArray.map (fun x => decide (x ∈ spws))))
  else .error .assertion

/-- `spw_to_dly_indices`, uvpspec.py L1402-1416: for folded objects only the delays not below 1e-10. -/
def spwToDlyIndices (u : UVP D W) (spws : List Nat) : Except Err (List Nat) :=
  if spws = [] then .error .value
  else if spws.all (· ∈ u.spwDlyArray) then
    .ok (whereTrue ((u.spwDlyArray.zip u.dlyArray).map (fun x => decide (x.1 ∈ spws) &&
      !(u.folded && decide (x.2 < 1 / 10000000000)))))
  else .error .assertion

/-- `spw_indices`, uvpspec.py L1443-1455. -/
def spwIndices (u : UVP D W) (spws : List Nat) : Except Err (List Nat) :=
  if spws = [] then .error .value
  else if spws.all (· ∈ u.spwArray) then .ok (whereTrue (u.spwArray.map (fun x => decide (x ∈ spws))))
  else .error .assertion

/-- `polpair_to_indices` for integers, uvpspec.py L1492-1500. -/
def polpairToIndices (u : UVP D W) (pps : List Int) : Except Err (List Nat) :=
  if pps.all (· ∈ u.polpairArray) then .ok (whereTrue (u.polpairArray.map (fun x => decide (x ∈ pps))))
  else .error .assertion

/-- `time_to_indices`, uvpspec.py L1522-1534. -/
def timeToIndices (u : UVP D W) (t : ℚ) (blpairs : Option (List Int)) : Except Err (List Nat) :=
  let tsel := u.timeAvg.map (fun x => isclose (1 / 10000000000) x t)
  match blpairs with
  | none => .ok (whereTrue tsel)
  | some bs =>
    if bs.all (· ∈ u.blpairArray) then
      .ok (whereTrue (List.zipWith (· && ·) tsel (u.blpairArray.map (fun x => decide (x ∈ bs)))))
    else .error .assertion

/-- `key_to_indices` for an integer key with `omit_flags=False`, uvpspec.py L1604-1635. -/
def keyToIndices (u : UVP D W) (spw : Nat) (blpair polpair : Int) : Except Err (Nat × List Nat × Nat) := do
  if ¬ (spw ∈ u.spwFreqArray ∧ spw ∈ u.spwDlyArray) then .error .assertion
  else if blpair ∉ u.blpairArray then .error .assertion
  else if polpair ∉ u.polpairArray then .error .assertion
  else
    match ← polpairToIndices u [polpair] with
    | [p] => let is ← blpairToIndices u [blpair]
             .ok (spw, is, p)
    | _ => .error .assertion

/-- Python `l[-k:]`; `l[-0:]` is the whole list. Used by `getData`, uvpspec.py L708-717. -/
def negSlice {α : Type} (l : List α) (k : Nat) : List α := if k = 0 then l else l.drop (l.length - k)

/-- `get_data`, uvpspec.py L708-717: rows `blpairts`, all delays (or `-(N - N//2 - 1):` if folded), one polpair. -/
def getData (u : UVP D W) (spw : Nat) (blpair polpair : Int) : Except Err (List (List D)) := do
  let (s, is, p) ← keyToIndices u spw blpair polpair
  match Dict.get u.data s with
  | none => .error .key
  | some a =>
    let rows := is.filterMap (fun i => a[i]?)
    let rows := if u.folded then
        (let N := u.spwDlyArray.count s
         rows.map (fun r => negSlice r (N - N / 2 - 1)))
      else rows
    .ok (rows.map (fun r => r.filterMap (fun d => d[p]?)))

/-- `get_dlys`, uvpspec.py L836-850. -/
def getDlys (u : UVP D W) (spw : Nat) : Except Err (List ℚ) := do
  let is ← spwToDlyIndices u [spw]
  .ok (is.filterMap (fun i => u.dlyArray[i]?))

/-- Run a function over a list, stopping at the first exception. Used by `getSpwRanges`, uvpspec.py L1046-1064. -/
def mapE {α β ε : Type} (f : α → Except ε β) : List α → Except ε (List β)
  | [] => .ok []
  | a :: l => match f a with
    | .error e => .error e
    | .ok b => match mapE f l with
      | .error e => .error e
      | .ok bs => .ok (b :: bs)

/-- `np.median`: the middle of the sorted values, or the mean of the two middle ones; `none` stands for `nan`. Used by `getSpwRange`, uvpspec.py L1053-1062. -/
def median (l : List ℚ) : Option ℚ :=
  let s := l.mergeSort (fun a b => decide (a ≤ b))
  let n := l.length
  if n = 0 then none
  else if n % 2 = 1 then s[n / 2]?
  else match s[n / 2 - 1]?, s[n / 2]? with
    | some a, some b => some ((a + b) / 2)
    | _, _ => none

/-- `np.diff` of a float array. Used by `getSpwRange`, uvpspec.py L1053-1062. -/
def diffsQ : List ℚ → List ℚ
  | a :: b :: l => (b - a) :: diffsQ (b :: l)
  | _ => []

/-- `get_spw_ranges` for one window, uvpspec.py L1053-1062. The stop frequency is `none` (nan) for a one-channel window. -/
def getSpwRange (u : UVP D W) (spw : Nat) : Except Err (ℚ × Option ℚ × Nat × Nat) := do
  let fi ← spwToFreqIndices u [spw]
  let fs : List ℚ := fi.filterMap (fun i => u.freqArray[i]?)
  let di ← spwToDlyIndices u [spw]
  match fs.min? with
  | none => .error .value
  | some m => .ok (m, (median (diffsQ fs)).map (fun df => m + fs.length * df), fs.length, di.length)

/-- `get_spw_ranges()` for all windows, uvpspec.py L1046-1064. -/
def getSpwRanges (u : UVP D W) : Except Err (List (ℚ × Option ℚ × Nat × Nat)) :=
  mapE (getSpwRange u) (List.range u.spwArray.length)

/-- Ordered unique elements (`_ordered_unique`, uvpspec.py L3638-3645). -/
def orderedUnique (l : List Int) : List Int :=
  l.foldl (fun acc x => if x ∈ acc then acc else acc ++ [x]) []

/-- `get_all_keys`, uvpspec.py L1009-1028, with integer baseline-pairs and polpairs in place of tuples and strings. -/
def getAllKeys (u : UVP D W) : List (Nat × Int × Int) :=
  (List.range u.spwArray.length).flatMap (fun s =>
    u.polpairArray.flatMap (fun p => (orderedUnique u.blpairArray).map (fun b => (s, b, p))))

/-! ### `_select` -/

/-- The arguments of `_select` (lists of integers; tuples are converted to integers first). Used by `rowMask`, uvpspec_utils.py L622-664. -/
structure Args where
  spws : Option (List Nat) := none
  bls : Option (List Int) := none
  onlyPairs : Bool := false
  blpairs : Option (List Int) := none
  times : Option (List ℚ) := none
  lsts : Option (List ℚ) := none
  polpairs : Option (List Int) := none

/-- Renumber one window: all entries equal to `old` become `new` (uvpspec_utils.py L617-620). -/
def renum (old new : Nat) (l : List Nat) : List Nat := l.map (fun x => if x = old then new else x)

/-- Smallest element greater than `i` (`np.min(spw_array[spw_array > i])`); raises on an empty selection. Used by `downConvert`, uvpspec_utils.py L610-620. -/
def minAbove (i : Nat) (l : List Nat) : Option Nat := (l.filter (fun x => decide (i < x))).min?

/-- The down-conversion loop, uvpspec_utils.py L610-620, for `i` in the given list. -/
def downConvert : List Nat → UVP D W → Except Err (UVP D W)
  | [], u => .ok u
  | i :: is, u =>
    if i ∈ u.spwArray then downConvert is u
    else match minAbove i u.spwArray with
      | none => .error .value
      | some s => downConvert is { u with
          spwFreqArray := renum s i u.spwFreqArray
          spwDlyArray := renum s i u.spwDlyArray
          spwArray := renum s i u.spwArray }

/-- The spectral-window part of `_select`, uvpspec_utils.py L587-620: returns the object with new labels and the list of
old labels of the kept windows. -/
def selectSpws (u : UVP D W) : Option (List Nat) → Except Err (UVP D W × List Nat)
  | none => .ok (u, u.spwArray)
  | some spws => do
    let fi ← spwToFreqIndices u spws
    let di ← spwToDlyIndices u spws
    let si ← spwIndices u spws
    let mapping := si.filterMap (fun i => u.spwArray[i]?)
    let u' := { u with
      spwFreqArray := fi.filterMap (fun i => u.spwFreqArray[i]?)
      spwDlyArray := di.filterMap (fun i => u.spwDlyArray[i]?)
      spwArray := mapping
      freqArray := fi.filterMap (fun i => u.freqArray[i]?)
      dlyArray := di.filterMap (fun i => u.dlyArray[i]?) }
    let u'' ← downConvert (List.range mapping.dedup.length) u'
    .ok (u'', mapping)

/-- `_get_blpairs_from_bls`, uvpspec_utils.py L503-530: the baselines are the six leading and six trailing digits. -/
def blsMask (u : UVP D W) (bls : List Int) (only : Bool) : List Bool :=
  u.blpairArray.map (fun b =>
    let b1 := decide (b / 1000000 ∈ bls)
    let b2 := decide (b % 1000000 ∈ bls)
    if only then b1 && b2 else b1 || b2)

/-- The row mask of `_select`, uvpspec_utils.py L622-664; `none` if no row selection was requested. An empty `bls` or
`blpairs` list raises `IndexError`. -/
def rowMask (u : UVP D W) (a : Args) : Except Err (Option (List Bool)) := do
  let m : Option (List Bool) ← match a.bls with
    | none => .ok none
    | some [] => .error .index
    | some bls => .ok (some (blsMask u bls a.onlyPairs))
  let m : Option (List Bool) ← match a.blpairs with
    | none => .ok m
    | some [] => .error .index
    | some blps =>
      let sel := u.blpairArray.map (fun b => decide (b ∈ blps))
      .ok (some (List.zipWith (· || ·) (m.getD (u.blpairArray.map (fun _ => false))) sel))
  let m : Option (List Bool) ← match a.times with
    | none => .ok m
    | some ts =>
      let base := if a.bls = none ∧ a.blpairs = none then u.blpairArray.map (fun _ => true) else m.getD []
      .ok (some (List.zipWith (· && ·) base (u.timeAvg.map (fun x => ts.any (isclose (1 / 10000000000000000) x)))))
  match a.lsts with
  | none => .ok m
  | some ls =>
    if a.times ≠ none then .error .assertion
    else
      let base := if a.bls = none ∧ a.blpairs = none then u.blpairArray.map (fun _ => true) else m.getD []
      .ok (some (List.zipWith (· && ·) base (u.lstAvg.map (fun x => ls.any (isclose (1 / 10000000000000000) x)))))

/-- The row selection, uvpspec_utils.py L664-680. -/
def rowSel (u : UVP D W) (a : Args) : Except Err Sel := do
  match ← rowMask u a with
  | none => .ok .all
  | some m => if m.any id then toSel (whereTrue m) else .error .assertion

/-- The polarization selection, uvpspec_utils.py L705-746. -/
def polSel (u : UVP D W) : Option (List Int) → Except Err Sel
  | none => .ok .all
  | some [] => .error .index
  | some ps => toSel (whereTrue (u.polpairArray.map (fun p => decide (p ∈ ps))))

/-- The data loop, uvpspec_utils.py L798-905: for each (new label, old label) slice the old array. -/
def sliceDict {α β : Type} (f : List α → List β) (d : Dict Nat (List α)) :
    List (Nat × Nat) → Except Err (Dict Nat (List β))
  | [] => .ok []
  | (s, old) :: rest => match Dict.get d old with
    | none => .error .key
    | some a => match sliceDict f d rest with
      | .error e => .error e
      | .ok r => .ok ((s, f a) :: r)

/-- `_select` on an object with its data in memory, uvpspec_utils.py L587-905. The `hdf5` branch slices datasets of the
same shape; `r_params`, beam arrays and `bl_array` are not modelled; `label_1_array` is not touched by the code. -/
def select (u : UVP D W) (a : Args) : Except Err (UVP D W) := do
  let (u1, mapping) ← selectSpws u a.spws
  let rs ← rowSel u1 a
  let ps ← polSel u1 a.polpairs
  let pairs := u1.spwArray.zip mapping
  let data ← sliceDict (fun rows => (rs.apply rows).map (fun r => r.map ps.apply)) u1.data pairs
  let integ ← sliceDict (fun rows => (rs.apply rows).map ps.apply) u1.integ pairs
  .ok { u1 with
    blpairArray := rs.apply u1.blpairArray
    time1 := rs.apply u1.time1
    time2 := rs.apply u1.time2
    timeAvg := rs.apply u1.timeAvg
    lst1 := rs.apply u1.lst1
    lst2 := rs.apply u1.lst2
    lstAvg := rs.apply u1.lstAvg
    polpairArray := ps.apply u1.polpairArray
    data := data
    integ := integ }

/-! ### `select_common` -/

/-- The boolean arguments of `select_common` (uvpspec_utils.py L228-237). -/
structure Flags where
  spws : Bool := true
  blpairs : Bool := true
  times : Bool := true
  polpairs : Bool := true
  lsts : Bool := false

/-- `common = np.unique(first); common[np.all([np.isin(common, x) for x in arrays])]` (uvpspec_utils.py L292-325). Only
membership in the result is used, so the sorting of `np.unique` is not modelled. -/
def common {α : Type} [DecidableEq α] (arrays : List (List α)) : List α :=
  match arrays with
  | [] => []
  | a :: _ => a.dedup.filter (fun x => arrays.all (fun b => decide (x ∈ b)))

/-- Equality of two window ranges; a `nan` stop frequency is never equal to anything. Used by `selectCommon`, uvpspec_utils.py L288-385. -/
def rangeEq (r r' : ℚ × Option ℚ × Nat × Nat) : Bool := r.2.1.isSome && decide (r = r')

/-- `select_common` with `inplace=False`, uvpspec_utils.py L288-385. The common polarization pairs are computed and then
not used: they are assigned to `_pols` while `select` receives `_polpairs`, which stays `None`. -/
def selectCommon (us : List (UVP D W)) (f : Flags) : Except Err (List (UVP D W)) := do
  if us.length < 2 then .error .index
  else
    let ct := common (us.map (·.timeAvg))
    let cl := common (us.map (·.lstAvg))
    let cb := common (us.map (·.blpairArray))
    let cp := common (us.map (·.polpairArray))
    let ranges ← if f.spws then mapE getSpwRanges us else .ok []
    let cs := (ranges.head?.getD []).filter (fun r => ranges.all (fun rs => rs.any (rangeEq r)))
    if f.spws ∧ cs = [] then .error .value
    else if f.blpairs ∧ cb = [] then .error .value
    else if f.times ∧ ct = [] then .error .value
    else if f.lsts ∧ cl = [] then .error .value
    else if f.polpairs ∧ cp = [] then .error .value
    else mapE (fun u => do
      let spws ← if f.spws then (do
          let rs ← getSpwRanges u
          .ok (some (cs.map (fun r => rs.findIdx (rangeEq r))))) else .ok none
      select u { spws := spws
                 blpairs := if f.blpairs then some cb else none
                 times := if f.times then some ct else none
                 lsts := if f.lsts then some cl else none
                 polpairs := none }) us

end HeraPspec.UVP
