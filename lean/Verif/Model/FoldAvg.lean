import Verif.Model.Average

/-!
Model of `fold_spectra` (grouping.py L1421-1619) on whole objects with all their arrays, and of the reading of folded
objects by `average_spectra` (grouping.py L414-439 through uvpspec.py L596-720).

The arrays are those of `Verif.Model.Average` (functions of the delay index); the length of the stored delay axis and the
number of delays listed in `spw_dly_array` are kept beside them, because `average_spectra` shortens the former and leaves
the latter. A window function with `exact_windows` has other axes than delays after the first; its reading when folded
(C112) is not modelled here. An approximate window function has as many columns as delays.
-/
namespace HeraPspec.FoldAvg
open HeraPspec.UVP (Err)
open HeraPspec.Average

/-- The object with its delay axes: `ndly[s]` is `np.count_nonzero(spw_dly_array == s)`, `stored[s]` is
`data_array[s].shape[1]`. Used by `get_data`, uvpspec.py L708-717. -/
structure DObj (E : Type) where
  u : Obj E
  folded : Bool
  ndly : List Nat
  stored : List Nat

/-- `Ndlys - Ndlys // 2 - 1`, uvpspec.py L714. -/
def npos (N : Nat) : Nat := N - N / 2 - 1

/-- First index of the slice `-(Ndlys - Ndlys // 2 - 1) :` of an axis of length `n` (`-0:` is the whole axis), or of `:` if
the object is not folded, uvpspec.py L711-717. -/
def offset (folded : Bool) (N n : Nat) : Nat := if folded ∧ npos N ≠ 0 then n - npos N else 0

/-- The length of that slice, uvpspec.py L711-717. -/
def readLen (folded : Bool) (N n : Nat) : Nat := if folded ∧ npos N ≠ 0 then min n (npos N) else n

variable {E : Type}

/-- Slicing all delay axes of one row from index `k` on: `get_data` L711-717, `get_stats` L1089-1110, `get_cov` L602-632,
`get_window_function` L666-676 of uvpspec.py. `get_wgts`, `get_integrations` and `get_nsamples` do not slice. -/
def shiftCell (k : Nat) (c : Cell E) : Cell E :=
  { c with
    data := fun d => c.data (d + k)
    stat := fun s d => c.stat s (d + k)
    cov := fun d e => c.cov (d + k) (e + k)
    win := fun d e => c.win (d + k) (e + k) }

/-- What the `get_*` methods return for every row of an object: uvpspec.py L596-720 applied to the whole object. -/
def readObj (x : DObj E) : Obj E :=
  { x.u with
    cells := x.u.cells.mapIdx (fun s ps => ps.map (fun cs => cs.map
      (shiftCell (offset x.folded (x.ndly.getD s 0) (x.stored.getD s 0))))) }

/-- The number of delays returned for window `s`, uvpspec.py L711-717. -/
def axis (x : DObj E) (s : Nat) : Nat := readLen x.folded (x.ndly.getD s 0) (x.stored.getD s 0)

/-- `get_data`, uvpspec.py L708-717: one spectrum per integration of baseline-pair `b`. -/
def getData (x : DObj E) (s p b : Nat) : Except Err (List (List E)) :=
  (cellsOf (readObj x) s p b).map (fun cs => cs.map (fun c => (List.range (axis x s)).map c.data))

/-- `get_cov`, uvpspec.py L600-632. -/
def getCov (x : DObj E) (s p b : Nat) : Except Err (List (List (List ℝ))) :=
  (cellsOf (readObj x) s p b).map (fun cs => cs.map (fun c => (List.range (axis x s)).map (fun d => (List.range (axis x s)).map (c.cov d))))

/-- `get_window_function` for approximate windows, uvpspec.py L662-677. -/
def getWin (x : DObj E) (s p b : Nat) : Except Err (List (List (List ℝ))) :=
  (cellsOf (readObj x) s p b).map (fun cs => cs.map (fun c => (List.range (axis x s)).map (fun d => (List.range (axis x s)).map (c.win d))))

/-- `get_integrations`, uvpspec.py L752-803. -/
def getIntegrations (x : DObj E) (s p b : Nat) : Except Err (List ℝ) :=
  (cellsOf (readObj x) s p b).map (fun cs => cs.map (·.ints))

/-- `get_nsamples`, uvpspec.py L805-850. -/
def getNsamples (x : DObj E) (s p b : Nat) : Except Err (List ℝ) :=
  (cellsOf (readObj x) s p b).map (fun cs => cs.map (·.nsmp))

/-- `get_stats` of a statistic that is present, uvpspec.py L1096-1104. -/
def getStats (x : DObj E) (name : String) (s p b : Nat) : Except Err (List (List (Option ℝ))) :=
  (cellsOf (readObj x) s p b).map (fun cs => cs.map (fun c => (List.range (axis x s)).map (c.stat name)))

variable [AddCommGroup E] [Module ℝ E]

/-- `average_spectra` of an object that may be folded: it reads through the `get_*` methods (grouping.py L414-439), stores
what it read and averaged (L676-695), and leaves `spw_dly_array`, `dly_array` and `folded` alone. -/
noncomputable def average (circ : List ℝ → ℝ) (setOrder : List Nat → List Nat) (a : Args) (x : DObj E) : Except Err (DObj E) :=
  match averageSpectra circ setOrder a (readObj x) with
  | .error e => .error e
  | .ok v => .ok { u := v, folded := x.folded, ndly := x.ndly,
                   stored := x.stored.mapIdx (fun s n => readLen x.folded (x.ndly.getD s 0) n) }

/-- Several averages one after the other: repeated calls of grouping.py L156-707. -/
noncomputable def averages (circ : List ℝ → ℝ) (setOrder : List Nat → List Nat) : List Args → DObj E → Except Err (DObj E)
  | [], x => .ok x
  | a :: as, x => match average circ setOrder a x with
    | .error e => .error e
    | .ok y => averages circ setOrder as y

/-- Folding one value of a statistic: inverse quadrature with `1 / inf = 0` and `1 / 0 = inf`, grouping.py L1527-1531. -/
noncomputable def foldStat2 : Option ℝ → Option ℝ → Option ℝ
  | none, none => none
  | some a, none => some |a|
  | none, some b => some |b|
  | some a, some b => if a = 0 ∨ b = 0 then some 0 else some ((1 / a ^ 2 + 1 / b ^ 2) ^ (-(1 / 2 : ℝ)))

/-- Folding the rows of a matrix over delays and its columns too, as for covariances: the block of positive delays becomes a
quarter of the four mirrored blocks, rows and columns of negative delays zero, grouping.py L1469-1485, L1487-1504. -/
noncomputable def foldBlock (h : Nat) (C : Nat → Nat → ℝ) (d e : Nat) : ℝ :=
  if d < h ∨ e < h then 0
  else if h < d ∧ h < e then (C (2 * h - d) (2 * h - e) + C (2 * h - d) e + C d (2 * h - e) + C d e) / 4
  else C d e

/-- Folding only the rows, as for exact window functions, grouping.py L1460-1467, L1485. -/
noncomputable def foldRows (h : Nat) (C : Nat → Nat → ℝ) (d e : Nat) : ℝ :=
  if d < h then 0 else if d = h then C d e else (C (2 * h - d) e + C d e) / 2

/-- Folding all arrays of one row, grouping.py L1450-1532: positive delays become the mean with their mirror images, the
zero delay stays, negative delays are zero, or NaN if there are statistics. `left[::-1]` at position `d` is the element
`2 * (N // 2) - d`. -/
noncomputable def foldCell (nan : E) (hasStats exact : Bool) (N : Nat) (c : Cell E) : Cell E :=
  let h := N / 2
  { c with
    data := fun d => if d < h then (if hasStats then nan else 0)
      else if d = h then c.data d else (1 / 2 : ℝ) • (c.data (2 * h - d) + c.data d)
    nsmp := c.nsmp * 2
    stat := fun s d => if d ≤ h then c.stat s d else foldStat2 (c.stat s (2 * h - d)) (c.stat s d)
    cov := foldBlock h c.cov
    win := if exact then foldRows h c.win else foldBlock h c.win }

/-- `fold_spectra`, grouping.py L1440-1619. -/
noncomputable def foldSpectra (nan : E) (x : DObj E) : Except Err (DObj E) :=
  if x.folded then .error .assertion
  else .ok { x with
    folded := true
    u := { x.u with cells := x.u.cells.mapIdx (fun s ps => ps.map (fun cs => cs.map
      (foldCell nan (!x.u.statNames.isEmpty) x.u.exact (x.stored.getD s 0)))) } }

end HeraPspec.FoldAvg
