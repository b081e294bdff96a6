import Mathlib.Analysis.Real.Sqrt
import Mathlib.Algebra.BigOperators.Group.Finset.Basic
import Mathlib.Algebra.BigOperators.Intervals

/-!
Specification of spherical window functions, independent of the model: equal bins around the centres of an ascending array, (baseline, delay) pairs and
(kperp, kpara) cells sorted into them, weighted mean over the former and plain mean over the latter.
-/
namespace HeraPspec.GetSph.Spec
open Finset Classical
noncomputable section

/-- Common width of the bins with centres `x`: (last - first) / (number - 1). -/
def width (x : List ℝ) : ℝ := (x.getD (x.length - 1) 0 - x.getD 0 0) / ((x.length : ℝ) - 1)

/-- `k` lies in bin `m`: a half-open interval of that width; bin 0 is centred on the first centre. -/
def InBin (x : List ℝ) (m : ℕ) (k : ℝ) : Prop :=
  x.getD 0 0 + (m - 1 / 2) * width x ≤ k ∧ k < x.getD 0 0 + (m + 1 / 2) * width x

/-- |k| of a baseline of length `len` at delay `tau`. -/
def kmag (blToK tauToK len tau : ℝ) : ℝ := Real.sqrt ((blToK * len) ^ 2 + (tauToK * tau) ^ 2)

/-- Sum of `g baseline delay` over the (baseline, delay) pairs of bin `m`. -/
def pairSum (x : List ℝ) (m : ℕ) (bls : List (ℝ × ℝ)) (nd : ℕ) (k : ℝ → ℕ → ℝ) (g : ℝ × ℝ → ℕ → ℝ) : ℝ :=
  (bls.map (fun b => ∑ d ∈ range nd, if InBin x m (k b.1 d) then g b d else 0)).sum

/-- Weighted mean over the pairs of bin `m1` of the windows at cell (i, j). -/
def rowWindow (x : List ℝ) (m1 : ℕ) (bls : List (ℝ × ℝ)) (nd : ℕ) (k : ℝ → ℕ → ℝ) (W : ℝ → ℕ → ℕ → ℕ → ℝ) (i j : ℕ) : ℝ :=
  pairSum x m1 bls nd k (fun b d => W b.1 d i j * b.2) / pairSum x m1 bls nd k (fun b _ => b.2)

/-- Mean of `t` over the cells of |k| bin `m` (0 if there is none). -/
def cellMean (x : List ℝ) (m : ℕ) (np nl : ℕ) (K : ℕ → ℕ → ℝ) (t : ℕ → ℕ → ℝ) : ℝ :=
  (∑ i ∈ range np, ∑ j ∈ range nl, if InBin x m (K i j) then t i j else 0)
    / (∑ i ∈ range np, ∑ j ∈ range nl, if InBin x m (K i j) then 1 else 0)

/-- The bins named by values `v` in a unit of size `s`, in the unit of the object of size `s0`. -/
def inOwnUnit (s0 s : ℝ) (v : List ℝ) : List ℝ := v.map (fun k => k * s / s0)

end
end HeraPspec.GetSph.Spec
