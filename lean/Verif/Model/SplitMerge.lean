import Verif.Model.Combine

/-!
Model of the effect of `UVPSpec.select` (uvpspec.py L1637-1724 and `_select`, uvpspec_utils.py L533-947) on the object of `Verif.Model.Combine`, given the increasing
lists of kept window, row and polarization-pair positions. How these positions follow from the user's arguments is modelled in `Verif.Model.UVP` and
`Verif.Model.BlGroups`. `bl_array` and `bl_vecs` are in `Verif.Model.CombineOpt` and `Verif.Model.Sizes`.
-/
namespace HeraPspec.Combine
variable {M T Z S X C K V : Type}

/-- `a[is]` along the first axis, for positions within bounds, e.g. uvpspec_utils.py L682-688. -/
def pick {α : Type} (is : List Nat) (l : List α) : List α := is.filterMap (l[·]?)

/-- The data of one cell beside the labels that stand at the same place. The label arrays are not sliced (there is no mention of them in uvpspec_utils.py L587-940), so
after a selection the cell is read together with the label at its new place. -/
def relabel (c d : Cell X) : Cell X := ⟨c.val, d.lab1, d.lab2⟩

/-- The `r_params` kept: those of the (antenna pair, polarization) keys of the remaining baseline-pairs and polarization pairs; `keysOf` gives the two keys of a
baseline-pair and polarization pair, uvpspec_utils.py L929-947. -/
def keepR [DecidableEq K] (keysOf : Int → Int → List K) (d : Dict K V) (blpairs pols : List Int) : Dict K V :=
  d.filter (fun e => blpairs.any (fun b => pols.any (fun p => decide (e.1 ∈ keysOf b p))))

/-- `select`, uvpspec_utils.py L587-620 (windows; `scalar_array` L608), L681-692 (rows), L740-744 (polarization pairs; `scalar_array` L744), L798-905 (data), L929-947 (`r_params`). -/
def select [DecidableEq K] (keysOf : Int → Int → List K) (u : Obj M T Z S X C K V) (ws bs ps : List Nat) : Obj M T Z S X C K V where
  spwMeta := pick ws u.spwMeta
  blpair := pick bs u.blpair
  time1 := pick bs u.time1
  time2 := pick bs u.time2
  rowMeta := pick bs u.rowMeta
  pols := pick ps u.pols
  scalar := (pick ws u.scalar).map (pick ps)
  data := List.zipWith (List.zipWith (List.zipWith relabel)) ((pick ws u.data).map (fun a => (pick bs a).map (pick ps))) u.data
  labels := u.labels
  rparams := keepR keysOf u.rparams (pick bs u.blpair) (pick ps u.pols)
  static := u.static

/-- A selection along one axis only: the arguments of the two other axes are `None`, so everything is kept, uvpspec_utils.py L664-665, L745-746, L799-800. -/
def selectAx [DecidableEq K] (keysOf : Int → Int → List K) (ax : Axis) (u : Obj M T Z S X C K V) (is : List Nat) : Obj M T Z S X C K V :=
  match ax with
  | .spw => select keysOf u is (List.range u.blpair.length) (List.range u.pols.length)
  | .blpairts => select keysOf u (List.range u.spwMeta.length) is (List.range u.pols.length)
  | .polpairs => select keysOf u (List.range u.spwMeta.length) (List.range u.blpair.length) is

end HeraPspec.Combine
