import Verif.Model.Flags
import Mathlib.Data.Finset.Card
import Mathlib.Data.Finset.Range

/-!
Specification for C58, in terms of the flags alone.
-/
namespace HeraPspec.Flags

/-- Rows `r` and `r'` belong to the same baseline. -/
def SameBl (S : Shape) (r r' : ℕ) : Prop := r' < S.base.length ∧ S.base[r']? = S.base[r]?

instance (S : Shape) (r r' : ℕ) : Decidable (SameBl S r r') := by unfold SameBl; infer_instance

/-- The whole integration is flagged. -/
def FullRow (S : Shape) (F : Arr) (p r : ℕ) : Prop := ∀ f < S.nf, F r f p = true

instance (S : Shape) (F : Arr) (p r : ℕ) : Decidable (FullRow S F p r) := by unfold FullRow; infer_instance

/-- The integrations of the baseline of row `r` that are not entirely flagged. -/
def live (S : Shape) (F : Arr) (p r : ℕ) : Finset ℕ := (Finset.range S.base.length).filter (fun r' => SameBl S r r' ∧ ¬ FullRow S F p r')

/-- Channel `f` is above the threshold: among the integrations of the baseline that are not entirely flagged (there are some),
the fraction flagged at `f` exceeds `thr`. -/
def Above (S : Shape) (F : Arr) (p r : ℕ) (thr : ℚ) (f : ℕ) : Prop :=
  (live S F p r).Nonempty ∧ thr < (((live S F p r).filter (fun r' => F r' f p = true)).card : ℚ) / (live S F p r).card

/-- Channel `f` is in window `w`. -/
def InWin (w : ℕ × ℕ) (f : ℕ) : Prop := w.1 ≤ f ∧ f < w.2

/-- Two windows share no channel. -/
def Disjoint' (w v : ℕ × ℕ) : Prop := ∀ f, ¬ (InWin w f ∧ InWin v f)

end HeraPspec.Flags
