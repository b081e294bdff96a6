import Verif.Model.Interp
import Verif.Model.Sort

/-!
Model of `get_delays` (utils.py L544-571) and of the default wavenumber bins `get_kperp_bins`, `get_kpara_bins` (uvwindow.py L745-832).
Floats are reals; `np.arange(a, b, step)` has exactly `ceil((b - a) / step)` entries. Units and warnings are not modelled.
-/
namespace HeraPspec.KBins
open HeraPspec.Interp (Env arange getKgrid)
noncomputable section

/-- `ValueError`; `zeroDivision` stands for the failure of `np.arange` with step 0; `nan` for a result that is not a number. Used by
`kperpBins`, uvwindow.py L763-781. -/
inductive KErr | value | zeroDivision | nan
  deriving DecidableEq

/-- `np.diff`. Used by `getDelays` and the bins, utils.py L562, uvwindow.py L767, L815. -/
def diffs (l : List ℝ) : List ℝ := List.zipWith (fun a b => b - a) l l.tail

/-- `np.median`; `none` (`nan`) for an empty list. Used by `getDelays`, utils.py L562. -/
def median (l : List ℝ) : Option ℝ :=
  let s := pySorted (fun a b => open Classical in decide (a ≤ b)) l
  if l.length = 0 then none
  else if l.length % 2 = 1 then s[l.length / 2]?
  else some ((s.getD (l.length / 2 - 1) 0 + s.getD (l.length / 2) 0) / 2)

/-- `np.fft.fftfreq(n, d=d)[i]`. Used by `getDelays`, utils.py L569. -/
def fftfreq (n : ℕ) (d : ℝ) (i : ℕ) : ℝ := (if i < (n + 1) / 2 then (i : ℝ) else (i : ℝ) - n) / (n * d)

/-- `np.fft.fftshift(x)[i]` for an array of length `n`: a roll by `n // 2`. Used by `getDelays`, utils.py L569. -/
def fftshift (n : ℕ) (x : ℕ → ℝ) (i : ℕ) : ℝ := x ((i + (n - n / 2)) % n)

/-- `get_delays(freqs, n_dlys)`, utils.py L544-571; `none` for delays that are `nan`. -/
def getDelays (freqs : List ℝ) (nd : Option ℕ) : Option (List ℝ) :=
  (median (diffs freqs)).map (fun d => (List.range (nd.getD freqs.length)).map
    (fftshift (nd.getD freqs.length) (fftfreq (nd.getD freqs.length) d)))

/-- `(edges[1:] + edges[:-1]) / 2`, uvwindow.py L773, L823. -/
def centres (edges : List ℝ) : List ℝ := List.zipWith (fun a b => (b + a) / 2) edges edges.tail

/-- The maximum of a non-empty array. Used by `kperpBins`, uvwindow.py L769, L819. -/
def maxOf (a : ℝ) (l : List ℝ) : ℝ := l.foldl max a

/-- The minimum of a non-empty array. Used by `kperpBins`, uvwindow.py L767. -/
def minOf (a : ℝ) (l : List ℝ) : ℝ := l.foldl min a

/-- `np.diff(norms).mean()`: the mean of the differences along the second axis, uvwindow.py L767. -/
def meanDiff (norms : List (List ℝ)) : ℝ := ((norms.flatMap diffs).sum) / (norms.flatMap diffs).length

/-- The bins between `start` and `stop`, uvwindow.py L772-773, L822-823. -/
def binsOf (start stop step : ℝ) : Except KErr (List ℝ) :=
  open Classical in if step = 0 then .error .zeroDivision else .ok (centres (arange start stop step))

/-- `get_kperp_bins(bl_lens)`, uvwindow.py L763-781. -/
def kperpBins (e : Env) : List ℝ → Except KErr (List ℝ)
  | [] => .error .value
  | b :: bls => match getKgrid e (minOf b bls) 0.020 with
    | .error _ => .error .value
    | .ok g => binsOf (meanDiff g.2 * 5) (Cosmo.blToKperp e.cosmo e.avgZ e.littleH * maxOf b bls + 10 * (meanDiff g.2 * 5)) (meanDiff g.2 * 5)

/-- `get_kpara_bins(freq_array)`, uvwindow.py L805-832. -/
def kparaBins (p : Cosmo.Params) (littleH : Bool) (freqs : List ℝ) : Except KErr (List ℝ) :=
  if freqs.length ≤ 1 then .error .value
  else match getDelays freqs (some freqs.length) with
    | none => .error .nan
    | some [] => .error .nan
    | some (d :: ds) =>
      let k := Cosmo.tauToKpara p (Cosmo.f2z (freqs.sum / freqs.length) false) littleH
      let dk := k * (diffs (d :: ds)).headD 0
      binsOf (dk / 2) (k * maxOf |d| (ds.map (fun x => |x|)) + 10 * dk) dk

end
end HeraPspec.KBins
