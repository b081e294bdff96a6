import Verif.Model.Bootstrap
import Verif.Model.FoldAvg

/-!
`bootstrap_average_blpairs` of one object that may be folded, for one set of draws.
-/
namespace HeraPspec.FoldBoot
open HeraPspec.Average
open HeraPspec.Bootstrap
open HeraPspec.FoldAvg
variable {E : Type} [AddCommGroup E] [Module ℝ E]

/-- `bootstrap_average_blpairs([x], groups)` without its weights: `average_spectra` reads through the `get_*` methods, stores what it read and averaged, and leaves the delay lists and
`folded` alone, grouping.py L1676-1787 with L414-439, L676-695. -/
noncomputable def bootstrap (circ : List ℝ → ℝ) (setOrder : List Nat → List Nat) (groups : List (List Nat)) (timeAvg : Bool) (draws : List (List Nat)) (x : DObj E) :
    Except BErr (DObj E) :=
  match bootstrapAverage circ setOrder [readObj x] groups timeAvg draws with
  | .error e => .error e
  | .ok [(v, _)] => .ok { u := v, folded := x.folded, ndly := x.ndly, stored := x.stored.mapIdx (fun s n => readLen x.folded (x.ndly.getD s 0) n) }
  | .ok _ => .error (.other .index)

end HeraPspec.FoldBoot
