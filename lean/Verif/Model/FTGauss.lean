import Verif.Model.FTBeam
import Mathlib.Analysis.SpecialFunctions.Trigonometric.Basic

/-!
Model of `FTBeam.gaussian` (uvwindow.py L167-237) over the reals. The number of pixels is positive (numpy divides by it). The warning about
small widths (L217-218) and the unused `cosmo` are left out.
-/
namespace HeraPspec.FTGauss
open HeraPspec.FTBeam
noncomputable section

/-- The `widths` argument: a Python number or an array. Used by `widthList`, uvwindow.py L211-215. -/
inductive Widths
  | number (w : ℝ)
  | array (l : List ℝ)

/-- Beam widths per frequency, in degrees, uvwindow.py L211-215. -/
def widthList (nf : ℕ) : Widths → Except Err (List ℝ)
  | .number w => .ok (List.replicate nf w)
  | .array l => if l.length ≠ nf then .error .value else .ok l

/-- `np.fft.fftfreq(n)[k] * n`, an integer. Used by `ftX`, uvwindow.py L224. -/
def fftfreq (n k : ℕ) : ℤ := if k < (n + 1) / 2 then (k : ℤ) else (k : ℤ) - n

/-- `np.fft.fftshift(x)[i]`, a roll by `n // 2`. Used by `ftX`, uvwindow.py L225. -/
def fftshift {α : Type} (n : ℕ) (x : ℕ → α) (i : ℕ) : α := x ((i + (n - n / 2)) % n)

/-- The grid in Fourier space, uvwindow.py L224-225. -/
def ftX (npix : ℕ) (mapsize : ℝ) (i : ℕ) : ℝ :=
  fftshift npix (fun k => (fftfreq npix k : ℝ) / npix * npix / 2 / mapsize) i

/-- One channel of `ft_beam` for a width in degrees, uvwindow.py L219-221 and L230-233. -/
def plane (npix : ℕ) (mapsize deg : ℝ) (i j : Fin npix) : ℝ :=
  let width := deg * Real.pi / 180
  let ftWidth := 1 / Real.pi / width
  Real.exp (-1 * (ftX npix mapsize j ^ 2 + ftX npix mapsize i ^ 2) / ftWidth ^ 2) * (Real.pi / 2 / mapsize) * width ^ 2

/-- `FTBeam.gaussian`, uvwindow.py L205-237. -/
def gaussian (num2str : ℤ → String) (freqs : List ℚ) (widths : Widths) (pol : PolArg) (mapsize : ℚ) (npix : ℕ) :
    Except Err (Beam (Fin npix → Fin npix → ℝ)) :=
  if freqs.length ≤ 2 then .error .value
  else match widthList freqs.length widths with
    | .error e => .error e
    | .ok ws => mkBeam num2str { ndim := 3, rows := npix, cols := npix, planes := ws.map (fun w => plane npix mapsize w) } pol freqs mapsize

end
end HeraPspec.FTGauss
