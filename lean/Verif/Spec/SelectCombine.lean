import Verif.Spec.SplitMerge
import Verif.Model.SplitMerge

/-! Specification vocabulary: keeping what satisfies a condition. -/
namespace HeraPspec.Combine
variable {R M T Z S X C K V : Type}

/-- `is` lists, in increasing order, exactly the positions of the elements of `l` that satisfy `p`. -/
def Chosen {α : Type} (p : α → Bool) (l : List α) (is : List Nat) : Prop :=
  Positions l.length is ∧ ∀ i x, l[i]? = some x → (i ∈ is ↔ p x = true)

/-- `v` is what `select` makes of `u` when the windows, baseline-pair-times and polarization pairs satisfying the conditions are kept. -/
def SelectedBy [DecidableEq K] (rangeOf : M → R) (keysOf : Int → Int → List K) (W : R → Bool) (B : (Int × T × T) → Bool) (P : Int → Bool)
    (u v : Obj M T Z S X C K V) : Prop :=
  ∃ ws bs ps, Chosen W (u.spwMeta.map rangeOf) ws ∧ Chosen B u.blpts bs ∧ Chosen P u.pols ps ∧ v = select keysOf u ws bs ps

end HeraPspec.Combine
