import Verif.Spec.Combine

/-!
Specification vocabulary: what it means to change every spectrum of an object by itself.
-/
namespace HeraPspec.Combine
variable {R M T Z S X X' C C' K V : Type}

/-- `v` is `u` with every spectrum changed by `φ`, which may depend on the window, the baseline-pair-time and the polarization pair of the spectrum: the axes are the
same, and `v` holds `φ r b p x` exactly where `u` holds `x`, from the same datasets. -/
structure Acts (rangeOf : M → R) (φ : R → (Int × T × T) → Int → X → X') (u : Obj M T Z S X C K V) (v : Obj M T Z S X' C' K V) : Prop where
  spws : v.spwMeta.map rangeOf = u.spwMeta.map rangeOf
  rows : v.blpts = u.blpts
  pols : v.pols = u.pols
  cells : ∀ r b p x' n1 n2, Has rangeOf v r b p x' n1 n2 ↔ ∃ x, Has rangeOf u r b p x n1 n2 ∧ φ r b p x = x'

/-- The scalar of window `r` and polarization pair `p` in object `u`. -/
def ScalarAt (rangeOf : M → R) (u : Obj M T Z S X C K V) (r : R) (p : Int) (s : S) : Prop :=
  ∃ (i k : Nat) (l : List S), (u.spwMeta.map rangeOf)[i]? = some r ∧ u.pols[k]? = some p ∧ u.scalar[i]? = some l ∧ l[k]? = some s

end HeraPspec.Combine
