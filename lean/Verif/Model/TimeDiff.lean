import Verif.Model.Times
import Mathlib.Analysis.SpecialFunctions.Sqrt

/-!
Model of `uvd_time_difference` (utils.py L1389-1419).

Times are rational numbers (Julian days). The visibilities of a row are a vector of a real vector space. `UVData.select` (pyuvdata) keeps
the rows at the given times in their order.
-/
namespace HeraPspec.TimeDiff
open HeraPspec.Times (unique diff pySlice)
noncomputable section

/-- A row of a `UVData` object: baseline, time, visibilities. Used by `timeDifference`, utils.py L1389-1419. -/
structure Row (E : Type) where
  bl : ℕ
  time : ℚ
  vis : E

/-- `int(x)`: truncation. Used by `indexDiff`, utils.py L1407. -/
def trunc (x : ℚ) : ℤ := x.num.tdiv x.den

/-- `min_time_diff`, utils.py L1404-1406; `none` is the nan of an empty array. -/
def timeStep (ts : List ℚ) : Option ℚ :=
  if diff ts = [] then none else some ((diff ts).sum / (diff ts).length)

/-- `index_diff`, utils.py L1407-1409; `none` is the ValueError of `int(nan)`. -/
def indexDiff (ts : List ℚ) (timeDiff : ℚ) : Option ℤ :=
  (timeStep ts).map (fun m => if trunc (timeDiff / m) + 1 > (ts.length : ℤ) - 2 then (ts.length : ℤ) - 2 else trunc (timeDiff / m) + 1)

/-- `uvd.select(times=..., inplace=False)`, utils.py L1411-1412. -/
def select {E : Type} (ts : List ℚ) (rows : List (Row E)) : List (Row E) := rows.filter (fun r => decide (r.time ∈ ts))

/-- `(data0 - data1) / np.sqrt(2)` in the rows of the first object, utils.py L1413-1416. Different shapes raise (numpy would broadcast
a single row of `data1`: not modelled). -/
def subtract {E : Type} [AddCommGroup E] [Module ℝ E] (a b : List (Row E)) : Option (List (Row E)) :=
  if a.length = b.length then some (List.zipWith (fun x y => { x with vis := (1 / Real.sqrt 2) • (x.vis - y.vis) }) a b) else none

/-- `uvd_time_difference`, utils.py L1389-1419. `none` when it raises: fewer than three times (a step of zero), or, not modelled further,
a negative step. -/
def timeDifference {E : Type} [AddCommGroup E] [Module ℝ E] (rows : List (Row E)) (timeDiff : ℚ) : Option (List (Row E)) :=
  let ts := unique (rows.map Row.time)
  (indexDiff ts timeDiff).bind (fun d =>
    if d ≤ 0 then none
    else subtract (select (pySlice 0 (ts.length - 1) d.toNat ts) rows) (select (pySlice 1 ts.length d.toNat ts) rows))

end
end HeraPspec.TimeDiff
