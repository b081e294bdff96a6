import Verif.Model.FoldAvg

/-!
Model of `select` on objects with data (uvpspec_utils.py L533-947), for the study of its interplay with `average_spectra` (`Verif.Model.Average`) and `fold_spectra`
(`Verif.Model.FoldAvg`).

Simplification: which windows, polarizations and rows are kept is an input (C12, C13); in a folded object the delays listed for a window of `N` delays are taken to be
those around zero, so that `N - N // 2 - 1` of them are positive.
-/
namespace HeraPspec.SelAvg
open HeraPspec.Average HeraPspec.FoldAvg

/-- The elements at the given places, `array[places]`. Used by `selCells`, uvpspec_utils.py L801-947. -/
def pick {α : Type} (l : List α) (ks : List Nat) : List α := ks.filterMap (fun i => l[i]?)

variable {E : Type}

/-- The places to keep, or all of them, uvpspec_utils.py L745-746, L799-800. -/
def pickO {α : Type} (l : List α) : Option (List Nat) → List α
  | none => l
  | some ks => pick l ks

/-- Selecting windows and polarizations of the data arrays, uvpspec_utils.py L801-947. -/
def selCells {α : Type} (spws pols : Option (List Nat)) (cells : List (List α)) : List (List α) := (pickO cells spws).map (fun ps => pickO ps pols)

/-- Selecting windows and polarizations, uvpspec_utils.py L588-620, L705-746, L801-947. The delays listed for a window of a folded object lose the non-positive ones (uvpspec.py
L1410-1411), the data arrays do not. -/
def sel (spws pols : Option (List Nat)) (x : DObj E) : DObj E where
  u := { x.u with cells := selCells spws pols x.u.cells }
  folded := x.folded
  ndly := match spws with
    | none => x.ndly
    | some ks => (pick x.ndly ks).map (fun n => if x.folded then npos n else n)
  stored := pickO x.stored spws

/-- Selecting baseline-pairs, uvpspec_utils.py L630-645, L664-688, L801-947. -/
def selBlps (blps : List Nat) (u : Obj E) : Obj E :=
  let is := (List.range u.rows.length).filter (fun i => ((u.rows[i]?).map (fun m => decide (m.blp ∈ blps))).getD false)
  { u with rows := pick u.rows is, cells := u.cells.map (fun ps => ps.map (fun cs => pick cs is)) }

end HeraPspec.SelAvg
