import Verif.Model.KBins

/-!
Model of `PSpecData.delays` (pspecdata.py L2982-3005): the delay axis that goes with the bandpowers of the current spectral window.
-/
namespace HeraPspec.DelayAxis
noncomputable section

/-- `IndexError`. Raised by `delaysNs`, pspecdata.py L2994-2997. -/
inductive DErr | index
  deriving DecidableEq

/-- `PSpecData.delays`, pspecdata.py L2982-3005, in nanoseconds: `freqs` are the channels of the data, `lo`, `hi` the ends of
`spw_range` (not negative), `nd` is `spw_Ndlys`. `none` for delays that are not numbers. -/
def delaysNs (nDsets : ℕ) (freqs : List ℝ) (lo hi nd : ℕ) : Except DErr (Option (List ℝ)) :=
  if nDsets = 0 then .error .index
  else .ok ((KBins.getDelays ((freqs.take hi).drop lo) (some nd)).map (fun l => l.map (fun x => x * 1e9)))

end
end HeraPspec.DelayAxis
