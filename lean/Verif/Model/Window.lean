import Mathlib.Analysis.SpecialFunctions.Complex.Log
import Mathlib.Data.Int.Notation
import Mathlib.Algebra.BigOperators.Group.List.Basic

/-!
Model of the window-function computation of uvwindow.py: `_take_freq_FT` (L631-671), `_get_wf_for_tau` (L673-744),
`get_cylindrical_wf` (L834-995) and `cylindrical_to_spherical` (L997-1109).

The beam Fourier transform already interpolated onto the k_perp grid (`_interpolate_ft_beam`) is an input: a list of grid
points, each with its |k_perp| and one real value per frequency channel for both polarizations. Floats are reals; `np.arange`
bin edges are the exact multiples of the (mean) bin width. Warnings, units and the weighted bin centres are not modelled.
-/
namespace HeraPspec.Window

/-- `np.mean`. Used by `binMean`, uvwindow.py L733-738. -/
noncomputable def mean (l : List ℝ) : ℝ := l.sum / l.length

/-- Entry `m` of `np.arange(bins.min() - dk / 2, bins.max() + dk, step=dk)`, L703-712, L901-903, L925-927, L1071-1072. -/
noncomputable def edge (kmin dk : ℝ) (m : ℕ) : ℝ := kmin - dk / 2 + m * dk

open Classical in
/-- `mask = (edges[m] <= x) & (x < edges[m + 1])`; the mean of the values under the mask, 0 if the mask is empty. L733-738,
L957-962, L1094-1096. A sample is (coordinate, value). -/
noncomputable def binMean (kmin dk : ℝ) (m : ℕ) (l : List (ℝ × ℝ)) : ℝ :=
  if (l.filter (fun p => decide (edge kmin dk m ≤ p.1 ∧ p.1 < edge kmin dk (m + 1)))) = [] then 0
  else mean ((l.filter (fun p => decide (edge kmin dk m ≤ p.1 ∧ p.1 < edge kmin dk (m + 1)))).map (fun p => p.2))

/-- `np.fft.fftshift(np.fft.fftfreq(N)) / delta_nu`, entry `i`: L720; also `utils.get_delays(freqs, n_dlys=N)`, the delay array
of the object (L245-247). -/
noncomputable def eta (N : ℕ) (dnu : ℝ) (i : ℕ) : ℝ := ((i : ℝ) - ((N / 2 : ℕ) : ℝ)) / N / dnu

/-- What one call of `get_cylindrical_wf` knows. Used by `kpar`, uvwindow.py L722. -/
structure Env where
  /-- number of channels -/
  N : ℕ
  /-- channel width -/
  dnu : ℝ
  /-- `2 pi / alpha`, L722 -/
  a : ℝ
  /-- lowest k_perp bin, its width and the number of bins -/
  perpMin : ℝ
  perpW : ℝ
  nPerp : ℕ
  /-- lowest k_para bin, its width and the number of bins -/
  paraMin : ℝ
  paraW : ℝ
  nPara : ℕ

/-- `kpar_norm = np.abs(2 pi / alpha * (eta + tau))`, L722. -/
noncomputable def kpar (e : Env) (tau : ℝ) (i : ℕ) : ℝ := |e.a * (eta e.N e.dnu i + tau)|

/-- `_get_wf_for_tau`, L673-744: entry (kperp bin `j`, kpara bin `m`). -/
noncomputable def wfEntry (e : Env) (w1 : ℕ → ℕ → ℝ) (tau : ℝ) (j m : ℕ) : ℝ :=
  binMean e.paraMin e.paraW m ((List.range e.N).map (fun i : ℕ => (kpar e tau i, w1 j i)))

/-- The array returned by `_get_wf_for_tau`. Used by `cylFrom`, uvwindow.py L965-995. -/
noncomputable def wfForTau (e : Env) (w1 : ℕ → ℕ → ℝ) (tau : ℝ) : List (List ℝ) :=
  (List.range e.nPerp).map (fun j => (List.range e.nPara).map (fun m => wfEntry e w1 tau j m))

/-- `np.fft.fft(x, norm="ortho") * delta_nu ** 0.5` at frequency `k`, L664-668. -/
noncomputable def dft (N : ℕ) (dnu : ℝ) (x : ℕ → ℝ) (k : ℕ) : ℂ :=
  ((List.range N).map (fun n : ℕ => (x n : ℂ) * Complex.exp (-(2 * Real.pi * Complex.I * (n : ℂ) * (k : ℂ) / (N : ℂ))))).sum
    / (Real.sqrt N : ℂ) * (Real.sqrt dnu : ℂ)

/-- Source index of entry `i` of `np.fft.fftshift`. Used by `freqFT`, uvwindow.py L631-671. -/
def shiftIdx (N i : ℕ) : ℕ := (i + (N - N / 2)) % N

/-- `_take_freq_FT`, L631-671: taper, `fftshift`, transform, `fftshift`. -/
noncomputable def freqFT (N : ℕ) (dnu : ℝ) (taper : ℕ → ℝ) (beam : ℕ → ℝ) (i : ℕ) : ℂ :=
  dft N dnu (fun n => beam (shiftIdx N n) * taper (shiftIdx N n)) (shiftIdx N i)

/-- A point of the k_perp grid: its |k_perp| and the interpolated beam transform for both polarizations. Used by `wfArray1`, uvwindow.py L952-963. -/
structure Point where
  kperp : ℝ
  beam0 : ℕ → ℝ
  beam1 : ℕ → ℝ

/-- `wf_array1[m, i]`, L952-963: mean over the grid points in k_perp bin `m` of `conj(fnu[1]) * fnu[0]`, real part. -/
noncomputable def wfArray1 (e : Env) (taper : ℕ → ℝ) (pts : List Point) (m i : ℕ) : ℝ :=
  binMean e.perpMin e.perpW m
    (pts.map (fun p => (p.kperp, ((starRingEnd ℂ) (freqFT e.N e.dnu taper p.beam1 i) * freqFT e.N e.dnu taper p.beam0 i).re)))

variable {α : Type}

/-- `cyl_wf` after the loop over `dly_array[: N // 2 + 1]`, L966-970. `W` is the window of a delay index, `z` the zero window. -/
def cylStart (N : ℕ) (z : α) (W : ℕ → α) : List α := ((List.range N).take (N / 2 + 1)).map W ++ List.replicate (N - (N / 2 + 1)) z

/-- "fill by symmetry for tau = -tau", L971-979. -/
def cylMirror (N : ℕ) (c : List α) : List α :=
  if N % 2 = 0 then c.take (N / 2 + 1) ++ (c.reverse.take (c.length - 1)).drop (N / 2)
  else c.take (N / 2 + 1) ++ c.reverse.drop (N / 2 + 1)

/-- "except for tau at 1/4 and 3/4 of the spectral window", L980-983: `cyl_wf[N - N // 4] = window of -dly_array[N // 4]`;
`none` is the IndexError. -/
def cylFix (N : ℕ) (Wneg : ℕ → α) (c : List α) : Option (List α) :=
  if N - N / 4 < c.length then some (c.set (N - N / 4) (Wneg (N / 4))) else none

/-- Sum over both axes of a window. Used by `normalise`, uvwindow.py L986-987. -/
def total (w : List (List ℝ)) : ℝ := (w.map List.sum).sum

open Classical in
/-- `np.divide(cyl_wf, sum, where=sum != 0)`, L986-987. -/
noncomputable def normalise (w : List (List ℝ)) : List (List ℝ) :=
  if total w ≠ 0 then w.map (fun r => r.map (fun x => x / total w)) else w

/-- `get_cylindrical_wf` from the sky-plane average on, L965-995. -/
noncomputable def cylFrom (e : Env) (w1 : ℕ → ℕ → ℝ) : Option (List (List (List ℝ))) :=
  (cylFix e.N (fun i => wfForTau e w1 (-eta e.N e.dnu i))
    (cylMirror e.N (cylStart e.N ((List.range e.nPerp).map (fun _ => (List.range e.nPara).map (fun _ => (0 : ℝ))))
      (fun i => wfForTau e w1 (eta e.N e.dnu i))))).map (fun c => c.map normalise)

/-- `get_cylindrical_wf`, L834-995. -/
noncomputable def getCylindricalWf (e : Env) (taper : ℕ → ℝ) (pts : List Point) : Option (List (List (List ℝ))) :=
  cylFrom e (wfArray1 e taper pts)

/-! `cylindrical_to_spherical`, L997-1109. -/

/-- One (baseline length, delay) pair: |k| probed, weight of the baseline, and the cylindrical window as values on the
(kperp, kpara) cells. Used by `inRow`, uvwindow.py L1083. -/
structure Mode where
  kmag : ℝ
  wgt : ℝ
  wf : ℕ → ℝ

open Classical in
/-- Modes under `mask2`, L1083. -/
noncomputable def inRow (kmin dk : ℝ) (m1 : ℕ) (l : List Mode) : List Mode :=
  l.filter (fun p => decide (edge kmin dk m1 ≤ p.kmag ∧ p.kmag < edge kmin dk (m1 + 1)))

/-- `wf_temp`, L1090-1092, on cell `c`. -/
noncomputable def wfTemp (l : List Mode) (c : ℕ) : ℝ := (l.map (fun p => p.wf c * p.wgt)).sum / (l.map (fun p => p.wgt)).sum

/-- Row before normalisation, L1094-1097: the mean of `wf_temp` over the cells of each |k| bin. `ktot` is the |k| of the cells. -/
noncomputable def rawRow (kmin dk : ℝ) (nb : ℕ) (ktot : List ℝ) (t : ℕ → ℝ) : List ℝ :=
  (List.range nb).map (fun m : ℕ => binMean kmin dk m ((List.range ktot.length).map (fun c : ℕ => (ktot.getD c 0, t c))))

open Classical in
/-- "normalisation", L1099-1101. -/
noncomputable def normRow (r : List ℝ) : List ℝ := if r.sum ≠ 0 then r.map (fun x => x / r.sum) else r

open Classical in
/-- Row `m1` of `wf_spherical`, L1082-1101. -/
noncomputable def sphRow (kmin dk : ℝ) (nb : ℕ) (ktot : List ℝ) (l : List Mode) (m1 : ℕ) : List ℝ :=
  if inRow kmin dk m1 l ≠ [] ∧ 0 < ((List.range ktot.length).map (wfTemp (inRow kmin dk m1 l))).sum then
    normRow (rawRow kmin dk nb ktot (wfTemp (inRow kmin dk m1 l)))
  else List.replicate nb 0

/-- `wf_spherical`. (uvwindow.py L1080-1101) -/
noncomputable def sphWf (kmin dk : ℝ) (nb : ℕ) (ktot : List ℝ) (l : List Mode) : List (List ℝ) :=
  (List.range nb).map (sphRow kmin dk nb ktot l)

end HeraPspec.Window
