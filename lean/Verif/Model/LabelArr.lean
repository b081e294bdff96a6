import Verif.Model.Sort
import Mathlib.Data.List.Dedup
import Mathlib.Data.List.Basic

/-!
Model of the label arrays of UVPSpec objects through their life: `pspec` (pspecdata.py L4205-4214), `_select` (uvpspec_utils.py L533-947),
`average_spectra` (grouping.py L156-708), `fold_spectra` (grouping.py L1421-1620, which leaves them alone) and `combine_uvpspec` (uvpspec.py L3139-3144, L3213-3217, L3291-3295,
L3350-3354, L3389).

Simplifications: only the shape of the data and the labels are kept; where each entry of the result of a combination comes from is an input here
(`Verif.Model.Combine`); `label_1_array` only (`label_2_array` is treated in the same way in the same statements).
-/
namespace HeraPspec.LabelArr

/-- Exceptions. Used by `combine`, uvpspec.py L3213-3217. -/
inductive Err | index | key
  deriving DecidableEq, Repr

/-- Shape of the data, `labels` and `label_1_array`, uvpspec.py L348-362. -/
structure Obj where
  nspw : ℕ
  nrow : ℕ
  npol : ℕ
  labels : List String
  arr : List (List (List ℕ))
  deriving DecidableEq

/-- The object `pspec` makes from two data sets, pspecdata.py L4205-4214. -/
def fresh (nspw nrow npol : ℕ) (label1 label2 : String) : Obj where
  nspw := nspw
  nrow := nrow
  npol := npol
  labels := pySorted (fun a b => decide (a ≤ b)) [label1, label2].dedup
  arr := List.replicate nspw (List.replicate nrow (List.replicate npol
    ((pySorted (fun a b => decide (a ≤ b)) [label1, label2].dedup).idxOf label1)))

/-- `_select`, uvpspec_utils.py L533-947: keeps the windows, rows and polarizations at the given places; the label arrays are not touched. -/
def select (o : Obj) (spws rows pols : List ℕ) : Obj := { o with nspw := spws.length, nrow := rows.length, npol := pols.length }

/-- `average_spectra`, grouping.py L156-708: one row for each group of rows; the label arrays are not touched. -/
def average (o : Obj) (groups : List (List ℕ)) : Obj := { o with nrow := groups.length }

/-- One entry of the new array: object, window, row and polarization it comes from, uvpspec.py L3213-3217. -/
def entry (us : List Obj) (labels : List String) (src : ℕ × ℕ × ℕ × ℕ) : Except Err ℕ :=
  match us[src.1]? with
  | none => .error .index
  | some u => match ((u.arr[src.2.1]?).bind (fun a => a[src.2.2.1]?)).bind (fun r => r[src.2.2.2]?) with
    | none => .error .index
    | some l => match u.labels[l]? with
      | none => .error .index
      | some s => if s ∈ labels then .ok (labels.idxOf s) else .error .key

/-- Run over a list, stopping at the first exception. Used by `combine`, uvpspec.py L3213-3217. -/
def mapE {α β : Type} (f : α → Except Err β) : List α → Except Err (List β)
  | [] => .ok []
  | a :: l => match f a with
    | .error e => .error e
    | .ok b => match mapE f l with
      | .error e => .error e
      | .ok bs => .ok (b :: bs)

/-- `combine_uvpspec`, uvpspec.py L3139-3144, L3213-3217, L3291-3295, L3350-3354, L3389; `place` says where each entry of the result comes from. -/
def combine (us : List Obj) (nspw nrow npol : ℕ) (place : List (List (List (ℕ × ℕ × ℕ × ℕ)))) : Except Err Obj :=
  let labels := pySorted (fun a b => decide (a ≤ b)) ((us.flatMap (·.labels)).dedup)
  match mapE (mapE (mapE (entry us labels))) place with
  | .error e => .error e
  | .ok arr => .ok { nspw := nspw, nrow := nrow, npol := npol, labels := labels, arr := arr }

end HeraPspec.LabelArr
