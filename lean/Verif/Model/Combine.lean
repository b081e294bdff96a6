import Verif.Model.UVP
import Verif.Model.Sort

/-!
Model of `get_uvp_overlap` and `combine_uvpspec` (uvpspec.py L2978-3399, L3440-3635) and of `_fast_lookup_blpairts`,
`_is_in` (uvpspec_utils.py L1156-1219).

An object is described by its axes and, for each (window, row, polpair), one cell. The payload `X` of a cell stands for
everything the code copies with the same index triple: the delay spectrum, `wgt_array`, `integration_array`,
`nsample_array`, `cov_array_*`, `window_function_array` and `stats_array`. `M` is the frequency and delay metadata of a
window and `rangeOf` is `get_spw_ranges` (modelled in `Verif.Model.UVP`); `T` is the type of times and `rnd` is
`np.around(., 8)`; `Z` is the remaining row metadata (`time_avg`, the three LSTs). Windows with a single channel have a
`nan` in their range and always make the code fail; they are outside this model. The final `u.check()` is not modelled.
`bl_array`, `bl_vecs`, `history` and the "store optional arrays only if all inputs have them" logic are in
`Verif.Model.CombineOpt`.
-/
namespace HeraPspec.Combine
open HeraPspec.UVP (mapE Err)

/-- One (window, row, polpair) cell: payload and the two dataset label indices (`label_1_array`, `label_2_array`). Used by `copyCell`, uvpspec.py L3221-3232. -/
structure Cell (X : Type) where
  val : X
  lab1 : Nat
  lab2 : Nat
  deriving DecidableEq, Repr

/-- The part of a UVPSpec object that `combine_uvpspec` reads and writes. Used by `Obj.blpts`, uvpspec.py L3028-3031. -/
structure Obj (M T Z S X C K V : Type) where
  /-- `freq_array`, `dly_array` grouped by window, in `spw_array` order -/
  spwMeta : List M
  blpair : List Int
  time1 : List T
  time2 : List T
  rowMeta : List Z
  pols : List Int
  /-- `scalar_array`, window x polpair -/
  scalar : List (List S)
  /-- all data arrays, window x row x polpair -/
  data : List (List (List (Cell X)))
  labels : List String
  rparams : Dict K V
  /-- the fourteen attributes that must agree -/
  static : C
  deriving DecidableEq

/-- The concatenation axis. Used by `pairAxis`, uvpspec.py L3573-3609. -/
inductive Axis | spw | blpairts | polpairs
  deriving DecidableEq, Repr

variable {R M T Z S X C K V : Type}

/-- `list(zip(blpair_array, time_1_array, time_2_array))`, e.g. uvpspec.py L3028-3031. -/
def Obj.blpts (u : Obj M T Z S X C K V) : List (Int × T × T) := u.blpair.zip (u.time1.zip u.time2)

/-- Order of `(blpair, time_1, time_2)` tuples: Python compares tuples lexicographically. Used by `newBlpts`, uvpspec.py L3023. -/
def bleT [LinearOrder T] (a b : Int × T × T) : Bool :=
  decide (a.1 < b.1) || (decide (a.1 = b.1) &&
    (decide (a.2.1 < b.2.1) || (decide (a.2.1 = b.2.1) && decide (a.2.2 ≤ b.2.2))))

/-- `set(a) ^ set(b)` is empty. Used by `pairAxis`, uvpspec.py L3573-3609. -/
def setEq {α : Type} [DecidableEq α] (a b : List α) : Bool := a.all (· ∈ b) && b.all (· ∈ a)

/-- `set(a) & set(b)` is empty. Used by `pairAxis`, uvpspec.py L3573-3609. -/
def disj {α : Type} [DecidableEq α] (a b : List α) : Bool := a.all (· ∉ b)

/-- Unique elements in order of first appearance (uvpspec.py L3545-3551). -/
def uniq {α : Type} [DecidableEq α] (l : List α) : List α :=
  l.foldl (fun acc x => if x ∈ acc then acc else acc ++ [x]) []

section
variable [LinearOrder R] [LinearOrder T] [DecidableEq C] [DecidableEq K] [DecidableEq V]
variable (rangeOf : M → R) (rnd : T → T) (close : S → S → Bool)

/-- `get_spw_ranges()`. Used by `pairAxis`, uvpspec.py L3573-3609. -/
def Obj.spws (u : Obj M T Z S X C K V) : List R := u.spwMeta.map rangeOf

/-- The axis along which two objects may be concatenated, uvpspec.py L3573-3609. -/
def pairAxis (u v : Obj M T Z S X C K V) : Except Err Axis :=
  let sm := setEq (u.spws rangeOf) (v.spws rangeOf)
  let bm := setEq u.blpts v.blpts
  let pm := setEq u.pols v.pols
  if !sm && !disj (u.spws rangeOf) (v.spws rangeOf) then .error .assertion
  else if !bm && !disj u.blpts v.blpts then .error .assertion
  else if !pm && !disj u.pols v.pols then .error .assertion
  else if sm.toNat + bm.toNat + pm.toNat = 3 then .error .assertion
  else if ¬ sm.toNat + bm.toNat + pm.toNat > 1 then .error .assertion
  else .ok (if !sm then .spw else if !bm then .blpairts else .polpairs)

/-- All pairs `i < j` of a list, in loop order (uvpspec.py L3562-3572). -/
def pairs {α : Type} : List α → List (α × α)
  | [] => []
  | a :: l => l.map (fun b => (a, b)) ++ pairs l

/-- All entries of two arrays of the same shape are close, `np.all(np.isclose(a, b))`. Used by `overlap`, uvpspec.py L3484-3635. -/
def allClose (a b : List (List S)) : Bool :=
  (a.zip b).all (fun x => (x.1.zip x.2).all (fun y => close y.1 y.2))

/-- `get_uvp_overlap` for objects in memory, uvpspec.py L3484-3635; the result is the axis and the unique windows,
baseline-pair-times (a set, in some order) and polpairs. -/
def overlap (us : List (Obj M T Z S X C K V)) : Except Err (Axis × List R × List (Int × T × T) × List Int) :=
  match us with
  | [] => .error .index
  | u0 :: rest =>
    if !rest.all (fun u => u0.static = u.static) then .error .assertion
    else match mapE (fun p => pairAxis rangeOf p.1 p.2) (pairs (u0 :: rest)) with
      | .error e => .error e
      | .ok [] => .error .assertion
      | .ok (ax :: axs) =>
        if !axs.all (· = ax) then .error .assertion
        else if ax = .blpairts ∧ !rest.all (fun u => allClose close u0.scalar u.scalar) then .error .assertion
        else .ok (ax, uniq ((u0 :: rest).flatMap (fun u => u.spws rangeOf)),
          (((u0 :: rest).flatMap Obj.blpts).dedup), uniq ((u0 :: rest).flatMap (·.pols)))

/-- `_fast_lookup_blpairts`, uvpspec_utils.py L1208-1219: rows are compared by baseline-pair and rounded first time
only; `np.where(src == query[:, newaxis])[1]` lists, query by query, all matching source positions. -/
def fastLookup (src query : List (Int × T × T)) : List Nat :=
  query.flatMap (fun q => UVP.whereTrue (src.map (fun s => decide (s.1 = q.1 ∧ rnd s.2.1 = rnd q.2.1))))

/-- `l.index(x)`, raising `ValueError`. Used by `copyCell`, uvpspec.py L3221-3232. -/
def indexOf {α : Type} [DecidableEq α] (l : List α) (x : α) : Except Err Nat :=
  if x ∈ l then .ok (l.idxOf x) else .error .value

/-- `l[i]`, raising `IndexError`. Used by `copyCell`, uvpspec.py L3221-3232. -/
def at? {α : Type} (l : List α) (i : Nat) : Except Err α :=
  match l[i]? with
  | some x => .ok x
  | none => .error .index

/-- `[f(u) for u in us].index(True)` followed by `uvps[l]`. Used by `source`, uvpspec.py L3271-3273. -/
def owner {α : Type} (p : α → Bool) (us : List α) : Except Err α :=
  match us.find? p with
  | some u => .ok u
  | none => .error .value

/-- `a[m][n, q]`. Used by `copyCell`, uvpspec.py L3221-3232. -/
def at3 {α : Type} (a : List (List (List α))) (m n q : Nat) : Except Err α := do
  let x ← at? a m
  let y ← at? x n
  at? y q

/-- Copying one cell out of object `v` at (window `r`, row `n`, polpair `p`), with its label indices translated by
`u_lbls[uvps[l].labels[lbl]]`, uvpspec.py L3221-3232, 3281-3310, 3338-3364. -/
def copyCell (newLabels : List String) (v : Obj M T Z S X C K V) (r : R) (n : Nat) (p : Int) : Except Err (Cell X) := do
  let m ← indexOf (v.spws rangeOf) r
  let q ← indexOf v.pols p
  let c ← at3 v.data m n q
  let s1 ← at? v.labels c.lab1
  let s2 ← at? v.labels c.lab2
  let l1 ← indexOf newLabels s1
  let l2 ← indexOf newLabels s2
  .ok ⟨c.val, l1, l2⟩

/-- `scalar_array[m, q]` of object `v`. Used by `scalarOf`, uvpspec.py L3207. -/
def copyScalar (v : Obj M T Z S X C K V) (r : R) (p : Int) : Except Err S := do
  let m ← indexOf (v.spws rangeOf) r
  let q ← indexOf v.pols p
  let x ← at? v.scalar m
  at? x q

/-- The object and row a new cell is copied from: along baseline-pair-times the first object containing the row and
`list.index` (L3271-3273); along polpairs and windows the first object containing the polpair or window and the
`j`-th entry of the fast lookup (L3325-3341, L3190-3216). -/
def source (ax : Axis) (us : List (Obj M T Z S X C K V)) (blpts : List (Int × T × T)) (r : R) (j : Nat)
    (b : Int × T × T) (p : Int) : Except Err (Obj M T Z S X C K V × Nat) :=
  match ax with
  | .blpairts => do
    let v ← owner (fun v => decide (b ∈ v.blpts)) us
    let n ← indexOf v.blpts b
    .ok (v, n)
  | .polpairs => do
    let v ← owner (fun v => decide (p ∈ v.pols)) us
    let n ← at? (fastLookup rnd v.blpts blpts) j
    .ok (v, n)
  | .spw => do
    let v ← owner (fun v => decide (r ∈ v.spws rangeOf)) us
    let n ← at? (fastLookup rnd v.blpts blpts) j
    .ok (v, n)

/-- The object and row the times, LSTs and baseline-pair of new row `j` are copied from: along baseline-pair-times the
owner of the row (L3313-3320); otherwise always `uvps[0]`, but with the lookup indices of the object owning the first
new polpair or window (L3191-3193, L3253-3261, L3332-3333, L3366-3374). -/
def rowSource (ax : Axis) (us : List (Obj M T Z S X C K V)) (spws : List R) (blpts : List (Int × T × T))
    (pols : List Int) (j : Nat) (b : Int × T × T) : Except Err (Obj M T Z S X C K V × Nat) :=
  match ax with
  | .blpairts => do
    let v ← owner (fun v => decide (b ∈ v.blpts)) us
    let n ← indexOf v.blpts b
    .ok (v, n)
  | .polpairs => do
    let p ← at? pols 0
    let v ← owner (fun v => decide (p ∈ v.pols)) us
    let n ← at? (fastLookup rnd v.blpts blpts) j
    let u0 ← at? us 0
    .ok (u0, n)
  | .spw => do
    let r ← at? spws 0
    let v ← owner (fun v => decide (r ∈ v.spws rangeOf)) us
    let n ← at? (fastLookup rnd v.blpts blpts) j
    let u0 ← at? us 0
    .ok (u0, n)

/-- The object the scalars of (`r`, `p`) are copied from (L3207, L3312-3313, L3337): along baseline-pair-times the owner
of the first row. -/
def scalarSource (ax : Axis) (us : List (Obj M T Z S X C K V)) (blpts : List (Int × T × T)) (r : R) (p : Int) :
    Except Err (Obj M T Z S X C K V) :=
  match ax with
  | .blpairts => do
    let b ← at? blpts 0
    owner (fun v => decide (b ∈ v.blpts)) us
  | .polpairs => owner (fun v => decide (p ∈ v.pols)) us
  | .spw => owner (fun v => decide (r ∈ v.spws rangeOf)) us

/-- Merging one object's `r_params` into the accumulated ones, uvpspec.py L3166-3178. -/
def mergeDict (acc : Dict K V) : Dict K V → Except Err (Dict K V)
  | [] => .ok acc
  | (k, v) :: d =>
    match Dict.get acc k with
    | none => mergeDict (Dict.set acc k v) d
    | some w => if w = v then mergeDict acc d else .error .value

/-- Merging all `r_params`, L3153-3178: a mixture of empty and non-empty ones is refused. -/
def mergeR (ds : List (Dict K V)) : Except Err (Dict K V) :=
  if ds.any (·.isEmpty) && !ds.all (·.isEmpty) then .error .value
  else ds.foldl (fun acc d => match acc with | .ok a => mergeDict a d | .error e => .error e) (.ok [])

/-- New windows: `sorted(new_spws)`, uvpspec.py L3022, of the unique windows L3545-3548. -/
def newSpws (us : List (Obj M T Z S X C K V)) : List R :=
  pySorted (fun a b => decide (a ≤ b)) (uniq (us.flatMap (fun u => u.spws rangeOf)))
/-- New rows: `sorted(new_blpts)`, uvpspec.py L3023, of the set L3559. -/
def newBlpts (us : List (Obj M T Z S X C K V)) : List (Int × T × T) :=
  pySorted bleT ((us.flatMap Obj.blpts).dedup)
/-- New polpairs, sorted by absolute value, uvpspec.py L3024 (`np.argsort` is taken to be stable, which matters only for
equal absolute values). -/
def newPols (us : List (Obj M T Z S X C K V)) : List Int :=
  pySorted (fun a b => decide (a.natAbs ≤ b.natAbs)) (uniq (us.flatMap (·.pols)))
/-- `sorted(set(np.concatenate([uvp.labels ...])))`, uvpspec.py L3145. -/
def newLabels (us : List (Obj M T Z S X C K V)) : List String :=
  pySorted (fun a b => decide (a ≤ b)) ((us.flatMap (·.labels)).dedup)

/-- Window metadata of the result: rebuilt when windows are concatenated (L3179-3203, L3240-3247), otherwise copied from
the first object as they are (L3117-3128). -/
def metaOf (ax : Axis) (us : List (Obj M T Z S X C K V)) (u0 : Obj M T Z S X C K V) : Except Err (List M) :=
  if ax = .spw then
    mapE (fun r => do
      let v ← owner (fun v => decide (r ∈ v.spws rangeOf)) us
      let m ← indexOf (v.spws rangeOf) r
      at? v.spwMeta m) (newSpws rangeOf us)
  else .ok u0.spwMeta

/-- `scalar_array` of the result (L3207, L3311-3313, L3337). -/
def scalarOf (ax : Axis) (us : List (Obj M T Z S X C K V)) : Except Err (List (List S)) :=
  mapE (fun r => mapE (fun p => do
      let v ← scalarSource rangeOf ax us (newBlpts us) r p
      copyScalar rangeOf v r p) (newPols us)) (newSpws rangeOf us)

/-- All data arrays of the result (L3206-3238, L3271-3313, L3325-3364). -/
def dataOf (ax : Axis) (us : List (Obj M T Z S X C K V)) :
    Except Err (List (List (List (Cell X)))) :=
  mapE (fun r => mapE (fun (jb : (Int × T × T) × Nat) => mapE (fun p => do
      let (v, n) ← source rangeOf rnd ax us (newBlpts us) r jb.2 jb.1 p
      copyCell rangeOf (newLabels us) v r n p) (newPols us)) (newBlpts us).zipIdx) (newSpws rangeOf us)

/-- Times, LSTs and baseline-pairs of the result (L3250-3261, L3316-3322, L3366-3374). -/
def rowsOf (ax : Axis) (us : List (Obj M T Z S X C K V)) :
    Except Err (List ((Int × T × T) × Z)) :=
  mapE (fun (jb : (Int × T × T) × Nat) => do
      let (v, n) ← rowSource rangeOf rnd ax us (newSpws rangeOf us) (newBlpts us) (newPols us) jb.2 jb.1
      let bp ← at? v.blpair n
      let t1 ← at? v.time1 n
      let t2 ← at? v.time2 n
      let z ← at? v.rowMeta n
      .ok ((bp, t1, t2), z)) (newBlpts us).zipIdx

/-- `combine_uvpspec`, uvpspec.py L2978-3399. -/
def combine (us : List (Obj M T Z S X C K V)) : Except Err (Obj M T Z S X C K V) :=
  match us with
  | [u] => .ok u
  | _ => do
    let (ax, _) ← overlap rangeOf close us
    let u0 ← at? us 0
    let rparams ← mergeR (us.map (·.rparams))
    let spwMeta ← metaOf rangeOf ax us u0
    let scalar ← scalarOf rangeOf ax us
    let data ← dataOf rangeOf rnd ax us
    let rows ← rowsOf rangeOf rnd ax us
    .ok { spwMeta := spwMeta
          blpair := rows.map (·.1.1)
          time1 := rows.map (·.1.2.1)
          time2 := rows.map (·.1.2.2)
          rowMeta := rows.map (·.2)
          pols := newPols us
          scalar := scalar
          data := data
          labels := newLabels us
          rparams := rparams
          static := u0.static }

end
end HeraPspec.Combine
