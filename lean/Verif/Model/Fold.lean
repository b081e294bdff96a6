import Verif.Model.UVP
import Mathlib.Algebra.Field.Defs
import Mathlib.Analysis.SpecialFunctions.Pow.Real

/-!
Model of `fold_spectra` (grouping.py L1421-1619).

Arrays are lists along the delay axis, one list per (row, polpair): every expression of the code acts on the delay axis
only, so the row and polpair axes are merged into one list index. `nan` is the floating-point NaN, as a parameter.
The exact-window and approximate-window arrays are folded by the same slice expressions as data and covariance.
-/
namespace HeraPspec.Fold
open HeraPspec.UVP (Err)

/-- Lower end of the negative-delay slice: `1 : N // 2` if `N` is even, `: N // 2` if odd (L1447, L1533). -/
def lo (N : Nat) : Nat := if N % 2 = 0 then 1 else 0

/-- The negative delays, reversed: `x[lo : N//2][::-1]`. Used by `foldData`, grouping.py L1447-1450. -/
def left {α : Type} (x : List α) : List α := ((x.take (x.length / 2)).drop (lo x.length)).reverse

/-- The positive delays: `x[N//2 + 1 :]`. Used by `foldData`, grouping.py L1447-1450. -/
def right {α : Type} (x : List α) : List α := x.drop (x.length / 2 + 1)

/-- Overwriting `x[N//2 + 1 :]` by `pos` and `x[: N//2]` by `neg`. Used by `foldData`, grouping.py L1447-1450. -/
def assign {α : Type} (x : List α) (neg : α) (pos : List α) : List α :=
  List.replicate (x.length / 2) neg ++ (x.drop (x.length / 2)).take 1 ++ pos

/-- One spectrum of `data_array`: L1447-1450 and L1533-1536. -/
def foldData {F : Type} [Field F] (x : List F) : List F :=
  assign x 0 (List.zipWith (fun a b => (a + b) / 2) (left x) (right x))

/-- One spectrum of a `stats_array` entry, L1521-1526 and L1608-1613: inverse quadrature; the negative delays are left. -/
noncomputable def foldStat (x : List ℝ) : List ℝ :=
  x.take (x.length / 2 + 1) ++ List.zipWith (fun a b => (1 / a ^ 2 + 1 / b ^ 2) ^ (-(1 / 2 : ℝ))) (left x) (right x)

/-- One covariance matrix (`cov_array_real` or `cov_array_imag`), L1484-1500, L1570-1587. `C i j` for `i, j < N`; position
`N//2 + 1 + a` of the reversed negative slice is `N//2 - 1 - a`. Rows and columns `< N//2` are zeroed afterwards; row and
column `N//2` (zero delay) are not touched. -/
def foldCov {F : Type} [Field F] (N : Nat) (C : Nat → Nat → F) : Nat → Nat → F := fun i j =>
  let h := N / 2
  if i < h ∨ j < h then 0
  else if h < i ∧ h < j then
    let a := i - (h + 1)
    let b := j - (h + 1)
    (C (h - 1 - a) (h - 1 - b) + C (h - 1 - a) j + C i (h - 1 - b) + C i j) / 4
  else C i j

/-- One spectral window. Used by `foldWin`, grouping.py L1527. -/
structure Win (F : Type) where
  /-- one spectrum per (row, polpair) -/
  data : List (List F)
  nsample : List F
  /-- one spectrum per (statistic, row, polpair); `none` if there is no `stats_array` -/
  hasStats : Bool

/-- The object. Used by `foldSpectra`, grouping.py L1439-1619. -/
structure Obj (F : Type) where
  folded : Bool
  wins : List (Win F)

/-- Folding one window. If a `stats_array` exists the negative delays of the *data* are then set to NaN (L1527, L1614). -/
def foldWin {F : Type} [Field F] (nan : F) (w : Win F) : Win F :=
  { w with
    data := w.data.map (fun x => if w.hasStats then
      List.replicate (x.length / 2) nan ++ (foldData x).drop (x.length / 2) else foldData x)
    nsample := w.nsample.map (· * 2) }

/-- `fold_spectra`, L1439-1619. -/
def foldSpectra {F : Type} [Field F] (nan : F) (u : Obj F) : Except Err (Obj F) :=
  if u.folded then .error .assertion
  else .ok { folded := true, wins := u.wins.map (foldWin nan) }

end HeraPspec.Fold
