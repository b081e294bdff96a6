import Verif.Model.Combine

/-!
Operations on the object of `Verif.Model.Combine` that change every spectrum by itself: one function for all spectra, and
`set_cosmology` (uvpspec.py L2091-2181), whose factor depends on the window and the polarization pair.
-/
namespace HeraPspec.Combine
variable {R M T Z S X X' C C' K V F Y : Type}

/-- Changing the payload of a cell; the labels stay. Used by `setCosmo`, uvpspec.py L2174. -/
def Cell.onVal (f : X → X') (c : Cell X) : Cell X' := ⟨f c.val, c.lab1, c.lab2⟩

/-- One function applied to every spectrum, e.g. `data_array[i] = -data_array[i]` for all windows (`Verif.Model.Rescale`, uvpspec.py L1371-1437, has an operation
with one factor for each spectrum); `g` is what happens to the fixed metadata. -/
def mapAll (f : X → X') (g : C → C') (u : Obj M T Z S X C K V) : Obj M T Z S X' C' K V where
  spwMeta := u.spwMeta
  blpair := u.blpair
  time1 := u.time1
  time2 := u.time2
  rowMeta := u.rowMeta
  pols := u.pols
  scalar := u.scalar
  data := u.data.map (List.map (List.map (Cell.onVal f)))
  labels := u.labels
  rparams := u.rparams
  static := g u.static

/-- The new scalar of window position `i` and polarization position `k`; `compute` is `compute_scalar` with the new cosmology, which depends on the frequencies of the
window and on the polarization pair, uvpspec.py L2168-2171. -/
def newScalar (rangeOf : M → R) (compute : R → Int → F) (u : Obj M T Z F X C K V) (i k : Nat) : Option F :=
  match (u.spwMeta[i]?).map rangeOf, u.pols[k]? with
  | some r, some p => some (compute r p)
  | _, _ => none

variable [Field F]

/-- `scalar / self.scalar_array[spw, j]`, uvpspec.py L2174. -/
def ratio (rangeOf : M → R) (compute : R → Int → F) (u : Obj M T Z F X C K V) (i k : Nat) : F :=
  ((newScalar rangeOf compute u i k).getD 0) / ((u.scalar.getD i []).getD k 0)

/-- `set_cosmology`, uvpspec.py L2160-2181: the data of every window and polarization pair are multiplied by the ratio of the scalars, the scalars are replaced.
The payload is the spectrum and everything else (which stays); `g` sets the cosmology and the units, L2162, L2180-2181. -/
def setCosmo (rangeOf : M → R) (compute : R → Int → F) (g : C → C) (u : Obj M T Z F (List F × Y) C K V) : Obj M T Z F (List F × Y) C K V :=
  { u with
    scalar := u.scalar.mapIdx (fun i l => l.mapIdx (fun k s => (newScalar rangeOf compute u i k).getD s))
    data := u.data.mapIdx (fun i a => a.map (fun row => row.mapIdx (fun k c =>
      c.onVal (fun x => (x.1.map (· * ratio rangeOf compute u i k), x.2)))))
    static := g u.static }

end HeraPspec.Combine
