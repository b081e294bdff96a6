import Mathlib.Analysis.SpecialFunctions.Pow.Real
import Mathlib.Data.List.Basic
import Mathlib.Algebra.BigOperators.Ring.Finset

/-!
Model of the delay binning of grouping.py (L2183-2500): `_get_delay_slices`, `_bin_data_like_array`, `_bin_rms_like_array`,
`_bin_cov_like_array` and the formulas of `average_in_delay_bins`.

Arrays are functions of the delay index for one row and polarization (the code treats these axes independently). Floats are
reals. `kernel /= np.sum(kernel)` is `normalise`.
-/
namespace HeraPspec.DelayBins

/-- `nzero` even: ValueError; no zero delay: IndexError; an empty kernel makes the loops run forever. Used by `getSlices`, grouping.py L2262-2323. -/
inductive DErr | value | index | diverges
  deriving DecidableEq

/-- `while low >= 0: neg_slices.append(slice(low, low + nk)); low -= nk`, L2307-2310 (for `nk > 0`). -/
def negLoop (nk : Nat) (low : Int) : List (Int × Int) :=
  if _h : 0 ≤ low ∧ 0 < nk then (low, low + nk) :: negLoop nk (low - nk) else []
termination_by (low + 1).toNat
decreasing_by omega

/-- `while high <= n: pos_slices.append(slice(high - nk, high)); high += nk`, L2313-2316 (for `nk > 0`). -/
def posLoop (nk : Nat) (n : Nat) (high : Int) : List (Int × Int) :=
  if _h : high ≤ n ∧ 0 < nk then (high - nk, high) :: posLoop nk n (high + nk) else []
termination_by (n + 1 - high).toNat
decreasing_by omega

/-- `_get_delay_slices`, L2262-2323, given the position of the first zero delay (`np.where(dly == 0)[0][0]`). -/
def getSlices {K : Type} (n : Nat) (zeroIdx : Option Nat) (kernel zeroKernel : List K) :
    Except DErr (List (Int × Int) × List (List K)) :=
  match zeroIdx with
  | none => .error .index
  | some z =>
    let nk := kernel.length
    let h : Nat := zeroKernel.length / 2
    if zeroKernel.length % 2 = 0 then .error .value
    else if nk = 0 ∧ (0 ≤ (z : Int) - h ∨ (z : Int) + 1 + h ≤ n) then .error .diverges
    else
      let neg := negLoop nk ((z : Int) - nk - h)
      let pos := posLoop nk n ((z : Int) + 1 + nk + h)
      .ok (neg.reverse ++ [((z : Int) - h, (z : Int) + 1 + h)] ++ pos,
        List.replicate neg.length kernel ++ [zeroKernel] ++ List.replicate pos.length kernel)

/-- `np.where(dly == 0)[0][0]`. Used by `getSlices`, grouping.py L2262-2323. -/
noncomputable def zeroIdx (dly : List ℝ) : Option Nat := dly.findIdx? (fun x => decide (x = 0))

variable {E : Type} [AddCommGroup E] [Module ℝ E]

/-- `np.sum(d[slc] * kernel)` with `slc` starting at `a`, `_bin_data_like_array` L2209-2213. -/
noncomputable def binData (d : Int → E) (a : Int) (k : List ℝ) : E :=
  ∑ j ∈ Finset.range k.length, k.getD j 0 • d (a + j)

/-- `scale = np.max(vals)`. Used by `binRms`, grouping.py L2228-2241. -/
noncomputable def maxAbs (d : Int → ℝ) (a : Int) (n : Nat) : ℝ := ((List.range n).map (fun j : Nat => |d (a + j)|)).foldr max 0

/-- `scale * sqrt(sum((vals / scale)^2 * kernel))`, zero where `scale` is, `_bin_rms_like_array` L2228-2241. -/
noncomputable def binRms (d : Int → ℝ) (a : Int) (k : List ℝ) : ℝ :=
  let scale := maxAbs d a k.length
  scale * Real.sqrt (∑ j ∈ Finset.range k.length, (if scale = 0 then 0 else |d (a + j)| / scale) ^ 2 * k.getD j 0)

/-- `np.sum(cov[slc, slc2] * np.outer(k1, k2))`, `_bin_cov_like_array` L2254-2259. -/
noncomputable def binCov (c : Int → Int → ℝ) (a : Int) (k1 : List ℝ) (b : Int) (k2 : List ℝ) : ℝ :=
  ∑ i ∈ Finset.range k1.length, ∑ j ∈ Finset.range k2.length, c (a + i) (b + j) * (k1.getD i 0 * k2.getD j 0)

/-- A statistic listed in `cov_weighted_stats`: the square root of the diagonal of the binned covariance whose correlations are
those of `cov_array_real` and whose standard deviations are the statistic, L2470-2489. -/
noncomputable def binCovStat (c : Int → Int → ℝ) (s : Int → ℝ) (a : Int) (k : List ℝ) : ℝ :=
  Real.sqrt (binCov (fun i j => c i j / (Real.sqrt (c i i) * Real.sqrt (c j j)) * s i * s j) a k a k)

/-- `kernel /= np.sum(kernel)`. (grouping.py L2422-2423) -/
noncomputable def normalise (k : List ℝ) : List ℝ := k.map (· / k.sum)

end HeraPspec.DelayBins
