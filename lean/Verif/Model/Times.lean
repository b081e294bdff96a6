import Mathlib.Data.List.Sort
import Mathlib.Data.List.Dedup
import Mathlib.Algebra.Order.Ring.Rat

/-!
Model of `PSpecData.trim_dset_lsts`, pspecdata.py L4457-4497, and of the time interleaving of `pspec_run`, L5019-5055.
A data set is its list of rows (baseline-times). `UVData.select(times=...)` is part of pyuvdata: it keeps the rows whose time is
listed, in order, and raises when no time is listed. Floats are exact rationals; the rounding of an LST to a string is an argument.
-/
namespace HeraPspec.Times

/-- A row: its time, its LST, and a tag standing for everything else in the row. Used by `step`, pspecdata.py L4471-4473. -/
structure Row where
  time : ℚ
  lst : ℚ
  tag : ℕ
deriving DecidableEq

/-- `np.unique`: the distinct values in increasing order. Used by `step`, pspecdata.py L4471-4473. -/
def unique (l : List ℚ) : List ℚ := l.dedup.insertionSort (· ≤ ·)

/-- `np.diff`. Used by `step`, pspecdata.py L4471-4473. -/
def diff (l : List ℚ) : List ℚ := l.zipWith (fun a b => b - a) l.tail

/-- `np.median`; `none` is the nan of an empty array. Used by `step`, pspecdata.py L4471-4473. -/
def median (l : List ℚ) : Option ℚ :=
  if l = [] then none
  else if l.length % 2 = 1 then (l.insertionSort (· ≤ ·))[l.length / 2]?
  else some (((l.insertionSort (· ≤ ·)).getD (l.length / 2 - 1) 0 + (l.insertionSort (· ≤ ·)).getD (l.length / 2) 0) / 2)

/-- `np.median(np.diff(np.unique(dset.lst_array)))`, L4471-4473. -/
def step (d : List Row) : Option ℚ := median (diff (unique (d.map Row.lst)))

/-- `np.isclose(a, b, atol=...)` with the default relative tolerance; false for nan, L4474. -/
def close (atol : ℚ) : Option ℚ → Option ℚ → Bool
  | some a, some b => decide (|a - b| ≤ atol + |b| / 100000)
  | _, _ => false

/-- The grid check, L4471-4478. `tol` is `10 ** (-lst_tol)`; `Ntimes` is the number of distinct times. -/
def sameGrid (tol : ℚ) (ds : List (List Row)) : Bool :=
  match ds with
  | [] => false
  | d0 :: _ => ds.all (fun d => close (tol / (unique (d.map Row.time)).length) (step d0) (step d))

variable {K : Type} [DecidableEq K]

/-- `common_lsts`, L4481-4489: the rounded LSTs of the first data set that occur in every data set. -/
def common (rnd : ℚ → K) (ds : List (List Row)) : List K :=
  match ds with
  | [] => []
  | d0 :: rest => rest.foldl (fun c d => c.filter (fun k => decide (k ∈ d.map (fun r => rnd r.lst)))) (d0.map (fun r => rnd r.lst))

/-- `UVData.select(times=ts)`; `none` when it raises because nothing is selected. Used by `trimOne`, pspecdata.py L4494-4496. -/
def select (ts : List ℚ) (d : List Row) : Option (List Row) := if ts = [] then none else some (d.filter (fun r => decide (r.time ∈ ts)))

/-- `trim_inds`, L4494: the row's rounded LST is not common. -/
def trimmed (rnd : ℚ → K) (c : List K) (r : Row) : Bool := !decide (rnd r.lst ∈ c)

/-- The loop body L4494-4496. -/
def trimOne (rnd : ℚ → K) (c : List K) (d : List Row) : Option (List Row) :=
  if d.any (trimmed rnd c) then select ((d.filter (fun r => !trimmed rnd c r)).map Row.time) d else some d

/-- The loop L4493-4496; on an exception the sets trimmed so far stay trimmed. -/
def trimLoop (rnd : ℚ → K) (c : List K) : List (List Row) → List (List Row) × Bool
  | [] => ([], true)
  | d :: ds =>
    match trimOne rnd c d with
    | none => (d :: ds, false)
    | some d' => (d' :: (trimLoop rnd c ds).1, (trimLoop rnd c ds).2)

/-- `trim_dset_lsts`, L4457-4496: the data sets afterwards and whether the call returned normally. -/
def trim (rnd : ℚ → K) (tol : ℚ) (ds : List (List Row)) : List (List Row) × Bool :=
  if sameGrid tol ds then trimLoop rnd (common rnd ds) ds else (ds, false)

/-- A slice `l[start:stop:stp]` with non-negative bounds and positive step. Used by `interleave`, pspecdata.py L5019-5034. -/
def pySlice (start stop stp : ℕ) (l : List ℚ) : List ℚ :=
  (List.range' start ((min stop l.length - start + stp - 1) / stp) stp).filterMap (fun i => l[i]?)

/-- `interleave_times`, L5019-5034: the data sets and labels afterwards. `none` when it raises: not exactly one data set, or
nothing to select. -/
def interleave (ds : List (List Row)) (labels : List String) : Option (List (List Row) × List String) :=
  match ds with
  | [d] =>
    let u := unique (d.map Row.time)
    let n := u.length - u.length % 2
    match select (pySlice 1 n 2 u) d, select (pySlice 0 n 2 u) d with
    | some d1, some d0 => some ([d0, d1], labels ++ ["dset1"])
    | _, _ => none
  | _ => none

end HeraPspec.Times
