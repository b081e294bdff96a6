import Verif.Model.Combine
import Verif.Model.SelAvg

/-!
How `average_spectra` (`Verif.Model.Average`, `Verif.Model.FoldAvg`) reads the object that `combine_uvpspec` (`Verif.Model.Combine`) writes: both are the same UVPSpec object.
-/
namespace HeraPspec.AvgJoin
open HeraPspec.FoldAvg (DObj)
variable {R M S C K V E : Type}

/-- The object of the combination model with real times; a row carries its average time and three LSTs, and a cell what `average_spectra` reads of one spectrum: data, weights,
integration time, samples, statistics, covariance and window function, uvpspec.py L3206-3238. -/
abbrev CObj (M S C K V E : Type) := Combine.Obj M ℝ (ℝ × ℝ × ℝ × ℝ) S (Average.Cell E) C K V

/-- The metadata of one row: baseline-pair, the two times, `time_avg_array`, `lst_1_array`, `lst_2_array`, `lst_avg_array`, uvpspec.py L3250-3261. -/
def rowOf (b : Int) (t1 t2 : ℝ) (z : ℝ × ℝ × ℝ × ℝ) : Average.Meta := ⟨b.toNat, t1, t2, z.1, z.2.1, z.2.2.1, z.2.2.2⟩

/-- The payload at window, row and polarization pair, e.g. `data_array[i][j, :, k]`, uvpspec.py L3206-3210. -/
def payload (u : CObj M S C K V E) (i j k : Nat) : Option (Average.Cell E) := (((u.data[i]?).bind (·[j]?)).bind (·[k]?)).map (·.val)

/-- The same object as `average_spectra` reads it (grouping.py L414-439, through `get_data` etc., uvpspec.py L671-720): one list of spectra for every window and polarization pair.
`nd` is the number of delays of a window, which `get_spw_ranges` lists (uvpspec.py L1060-1062), `names` the statistics present, `exact` the attribute `exact_windows`;
not folded. -/
def view (rangeOf : M → R) (nd : R → Nat) (names : C → List String) (exact : C → Bool) (u : CObj M S C K V E) : DObj E where
  u := { rows := (List.range u.blpair.length).filterMap (fun j =>
           match u.blpair[j]?, u.time1[j]?, u.time2[j]?, u.rowMeta[j]? with
           | some b, some t1, some t2, some z => some (rowOf b t1 t2 z)
           | _, _, _, _ => none)
         cells := (List.range u.spwMeta.length).map (fun i => (List.range u.pols.length).map (fun k =>
           (List.range u.blpair.length).filterMap (fun j => payload u i j k)))
         statNames := names u.static
         exact := exact u.static }
  folded := false
  ndly := u.spwMeta.map (fun m => nd (rangeOf m))
  stored := u.spwMeta.map (fun m => nd (rangeOf m))

end HeraPspec.AvgJoin
