import Mathlib.Data.Real.Basic
import Mathlib.Algebra.BigOperators.Fin
import Mathlib.Data.Fintype.BigOperators

/-!
Model of `spherical_wf_from_uvp` (grouping.py L1258-1418) for one spectral window (they are treated independently). The averaging over groups of baseline-pairs (L1346-1353) is
C29, C79, C81; here its result, the windows per group and time, is a parameter, in the row order of `average_spectra` (`avgRow`). The conversion of lengths and
delays to `kmags` (L1363-1370) and of the grids to `ktot` (L1381-1383) is by the formulas of C96; here they are parameters. Floats are exact reals.
-/
namespace HeraPspec.SphWf
open Finset

/-- Exceptions. Used by `sphWf`, grouping.py L1258-1418. -/
inductive Err | assertion | value
  deriving DecidableEq

/-- A one-dimensional float array; `loc` identifies the object if the caller's array is used itself (`np.asarray` of a float array), `none` if it was converted from
something else. `_as_1d_float_array`, grouping.py L53-61. -/
structure Arr where
  vals : List ℝ
  loc : Option ℕ

/-- Whether two arrays are the same object. Used by `rescaled`, grouping.py L1278-1285. -/
def same (a b : Arr) : Bool := match a.loc, b.loc with
  | some i, some j => i == j
  | _, _ => false

/-- The factor of the bins, grouping.py L1280-1285: `little_h` differs from that of the object. -/
noncomputable def factor (littleH : Bool) (h : ℝ) : ℝ := if littleH then h else 1 / h

/-- The two arrays of edges after `*=` or `/=` in place, grouping.py L1262-1287. `kbin_edges_theory` is a copy of `kbin_edges` if it is not given; if it is
the same object it is scaled twice. -/
noncomputable def edges (littleH hUnits : Bool) (h : ℝ) (e : Arr) (theory : Option Arr) : List ℝ × List ℝ :=
  match theory with
  | none => if littleH ≠ hUnits then (e.vals.map (fun x => x * factor littleH h), e.vals.map (fun x => x * factor littleH h)) else (e.vals, e.vals)
  | some t =>
    if littleH ≠ hUnits then
      (if same e t then (e.vals.map (fun x => x * factor littleH h * factor littleH h), e.vals.map (fun x => x * factor littleH h * factor littleH h))
       else (e.vals.map (fun x => x * factor littleH h), t.vals.map (fun x => x * factor littleH h)))
    else (e.vals, t.vals)

/-- What the caller's own array `kbin_edges` holds after the call, grouping.py L1278-1285 (assignments in place). -/
noncomputable def callerEdges (littleH hUnits : Bool) (h : ℝ) (e : Arr) (theory : Option Arr) : List ℝ :=
  match e.loc with
  | none => e.vals
  | some _ => (edges littleH hUnits h e theory).1

/-- `np.all(np.diff(x) > 0)`, grouping.py L1290-1291. -/
def increasing : List ℝ → Prop
  | [] => True
  | [_] => True
  | a :: b :: l => a < b ∧ increasing (b :: l)

variable {nd na nc : ℕ}

/-- The rows of the averaged object: for each group its times, grouping.py L577-586 (`extend`). `W g t` is the window of group `g` at time `t`, for each delay and
cell of the (k_perp, k_par) grid. -/
def avgRow (T : ℕ) (W : ℕ → ℕ → Fin nd → Fin na → Fin nc → ℝ) (r : ℕ) : Fin nd → Fin na → Fin nc → ℝ := W (r / T) (r % T)

/-- `cyl_wf.reshape((Ntimes, Nblpairs, ...))[it][ib]`, grouping.py L1385-1387. -/
def reshaped (nb : ℕ) (rows : ℕ → Fin nd → Fin na → Fin nc → ℝ) (it : ℕ) (ib : Fin nb) : Fin nd → Fin na → Fin nc → ℝ := rows (it * nb + ib)

open Classical in
/-- The modes of a bin, grouping.py L1393. -/
noncomputable def mask1 {nb : ℕ} (lo hi : ℝ) (km : Fin nb → Fin nd → ℝ) : Finset (Fin nb × Fin nd) := univ.filter (fun p => lo ≤ km p.1 p.2 ∧ km p.1 p.2 < hi)

open Classical in
/-- The cells of a bin, grouping.py L1401-1403. -/
noncomputable def mask2 (lo hi : ℝ) (kt : Fin na → Fin nc → ℝ) : Finset (Fin na × Fin nc) := univ.filter (fun p => lo ≤ kt p.1 p.2 ∧ kt p.1 p.2 < hi)

/-- `wf_temp`, grouping.py L1395-1398. -/
noncomputable def wfTemp {nb : ℕ} (cyl : Fin nb → Fin nd → Fin na → Fin nc → ℝ) (m : Finset (Fin nb × Fin nd)) (a : Fin na) (c : Fin nc) : ℝ :=
  (∑ p ∈ m, cyl p.1 p.2 a c) / m.card

/-- `np.mean(wf_temp[mask2])` or the zero of the blank array, grouping.py L1404-1407. -/
noncomputable def binMean (w : Fin na → Fin nc → ℝ) (m : Finset (Fin na × Fin nc)) : ℝ := if m.card = 0 then 0 else (∑ p ∈ m, w p.1 p.2) / m.card

/-- The normalisation, grouping.py L1409-1413: `np.divide(..., where=False)` without `out` returns an uninitialised array, `junk`. -/
noncomputable def normalise (junk : ℕ → ℝ) {n : ℕ} (row : Fin n → ℝ) : Fin n → ℝ :=
  if ∑ m, row m ≠ 0 then fun m => row m / ∑ m, row m else fun m => junk m

/-- One row of the spherical window function, grouping.py L1391-1413, for the bin from `lo` to `hi`. -/
noncomputable def sphRow (junk : ℕ → ℝ) {nb nk : ℕ} (cyl : Fin nb → Fin nd → Fin na → Fin nc → ℝ) (km : Fin nb → Fin nd → ℝ) (kt : Fin na → Fin nc → ℝ)
    (lo hi : ℝ) (th : Fin (nk + 1) → ℝ) : Fin nk → ℝ :=
  if (mask1 lo hi km).card = 0 then fun _ => 0
  else if 0 < ∑ a, ∑ c, wfTemp cyl (mask1 lo hi km) a c then
    normalise junk (fun m2 : Fin nk => binMean (wfTemp cyl (mask1 lo hi km)) (mask2 (th m2.castSucc) (th m2.succ) kt))
  else fun _ => 0

/-- The windows for all times of one polarization, grouping.py L1389-1414: time, bin, theory bin. -/
noncomputable def sphTimes (junk : ℕ → ℝ) {nb nk nk1 : ℕ} (T : ℕ) (rows : ℕ → Fin nd → Fin na → Fin nc → ℝ) (km : Fin nb → Fin nd → ℝ) (kt : Fin na → Fin nc → ℝ)
    (e : Fin (nk1 + 1) → ℝ) (th : Fin (nk + 1) → ℝ) : List (Fin nk1 → Fin nk → ℝ) :=
  (List.range T).map (fun it m1 => sphRow junk (reshaped nb rows it) km kt (e m1.castSucc) (e m1.succ) th)

/-- The loop over polarizations, grouping.py L1377-1416: the list is never emptied, so from the second polarization on it is longer than the array it is assigned to
(`ValueError`). The result has one list of times per polarization. -/
noncomputable def polLoop {X : Type} (T : ℕ) : List X → List (List X) → Except Err (List (List X))
  | _, [] => .ok []
  | acc, p :: ps =>
    if (acc ++ p).length ≠ T then .error .value
    else match polLoop T (acc ++ p) ps with
      | .error e => .error e
      | .ok r => .ok ((acc ++ p) :: r)

/-- `len(blpair_groups) != len(blpair_lens)` for lengths that were given, grouping.py L1317-1320. -/
def lensBad (ngroups : ℕ) : Option ℕ → Prop
  | none => False
  | some n => ngroups ≠ n

open Classical in
/-- The checks, grouping.py L1289-1338: increasing edges (after the conversion), as many lengths as groups (if given), known windows, exact window functions. -/
noncomputable def checks (ed : List ℝ × List ℝ) (ngroups : ℕ) (nlens : Option ℕ) (spws known : List ℕ) (exact : Bool) : Except Err Unit :=
  if ¬ increasing ed.1 ∨ ¬ increasing ed.2 then .error .assertion
  else if lensBad ngroups nlens then .error .assertion
  else if ¬ ∀ s ∈ spws, s ∈ known then .error .assertion
  else if exact = false then .error .assertion
  else .ok ()

end HeraPspec.SphWf
