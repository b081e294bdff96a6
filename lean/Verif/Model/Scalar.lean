import Mathlib.Data.Real.Basic
import Mathlib.Data.List.Sort
import Mathlib.Algebra.BigOperators.Group.List.Basic

/-!
Models of `_compute_pspec_scalar`, pspecbeam.py L14-126, `PSpecBeamBase.compute_pspec_scalar`, L147-234, and
`PSpecData.scalar`, pspecdata.py L3007-3109; and of the integration times of `PSpecData.pspec`, L4027-4066.
Floats are exact reals. Library parts are arguments: `x2y` (the cosmology's X²Y at a frequency, in the chosen units, see
Model/Cosmo), `omega` (the quadratic interpolation of Ω_PP/Ω_P²), `win` (`dspec.gen_window`), `near` (nearest-neighbour
interpolation of the window to the integration grid).
-/
namespace HeraPspec.Scalar

/-- `np.linspace(a, b, n, endpoint=True)`. Used by `computeScalar`, pspecbeam.py L72-126. -/
noncomputable def linspace (a b : ℝ) (n : ℕ) : List ℝ := (List.range n).map (fun i : ℕ => a + (i : ℝ) * ((b - a) / ((n : ℝ) - 1)))

/-- `np.linspace(a, b, n, endpoint=False)`, pspecbeam.py L216. -/
noncomputable def linspaceOpen (a b : ℝ) (n : ℕ) : List ℝ := (List.range n).map (fun i : ℕ => a + (i : ℝ) * ((b - a) / (n : ℝ)))

/-- `scipy.integrate.trapezoid(y, x=x)`. Used by `computeScalar`, pspecbeam.py L72-126. -/
noncomputable def trapz (f : ℝ → ℝ) (x : List ℝ) : ℝ := (x.zipWith (fun a b => (b - a) * ((f a + f b) / 2)) x.tail).sum

/-- Ω-ratio, cosmology and taper functions used by the integral. Used by `taperTerm`, pspecbeam.py L110-116. -/
structure Env where
  x2y : ℝ → ℝ
  omega : ℝ → ℝ
  win : String → ℕ → List ℝ
  near : List ℝ → List ℝ → ℝ → ℝ

/-- Taper term before the division by the squared bandwidth, pspecbeam.py L110-116. -/
def taperTerm (e : Env) (taper : String) (freqs : List ℝ) (x : ℝ) : ℝ :=
  if taper = "none" then 1 else e.near freqs ((e.win taper freqs.length).map (fun w => w ^ 2)) x

/-- `dBpp_over_BpSq`, L110-121; `bw` is `integration_freqs[-1] - integration_freqs[0]`. -/
noncomputable def dB (e : Env) (taper : String) (noise : Bool) (freqs : List ℝ) (bw x : ℝ) : ℝ :=
  if noise then 1 / bw else taperTerm e taper freqs x / bw ^ 2

/-- `_compute_pspec_scalar`, L72-126, on the integration grid from `lo` to `hi = lo + df * len(freqs)` (L73-80). -/
noncomputable def computeScalar (e : Env) (freqs : List ℝ) (lo hi : ℝ) (steps : ℕ) (taper : String) (noise exact : Bool) : ℝ :=
  let g := linspace lo hi steps
  let bw := g.getLastD 0 - g.headD 0
  if exact then trapz e.x2y g / |bw|
  else 1 / trapz (fun x => dB e taper noise freqs bw x * e.omega x / e.x2y x) g

/-- `compute_pspec_scalar`, L215-234: the frequencies are equally spaced, so their median step times their number gives the
upper edge back. -/
noncomputable def beamScalar (e : Env) (lower upper : ℝ) (n steps : ℕ) (taper : String) (noise exact : Bool) : ℝ :=
  computeScalar e (linspaceOpen lower upper n) lower upper steps taper noise exact

/-- A polarization pair argument: an integer-coded or explicit pair, or one polarization string. Used by `scalarPol`, pspecbeam.py L3064-3073. -/
inductive PolArg
  | pair (p q : Int)
  | single (p : Int)

/-- L3064-3073: the polarization, or `none` (NotImplementedError) when the two differ. -/
def scalarPol : PolArg → Option Int
  | .pair p q => if p ≠ q then none else some p
  | .single p => some p

/-- `PSpecData.scalar`, pspecdata.py L3063-3109. `beams p` is the environment of the beam for polarization `p`. `taper` is
computed from the override (L3081-3085) but `self.taper` is what is passed on (L3093, L3104). -/
noncomputable def pspecScalar (beams : Int → Env) (selfTaper : String) (start stop : ℝ) (n steps : ℕ) (pol : PolArg) (override : String)
    (exact : Bool) : Option ℝ :=
  let _taper := if override = "no_override" then selfTaper else override
  (scalarPol pol).map (fun p => beamScalar (beams p) start stop n steps selfTaper false exact)

/-! Integration times. -/

/-- Weighted mean number of samples of a row, L4028-4037; one entry per channel. -/
noncomputable def nsamp (n w : List ℝ) : ℝ := (n.zipWith (fun a b => a * b) w).sum / max w.sum 1

/-- `integ1`, `integ2`, L4040-4045. -/
noncomputable def integ (tau : ℝ) (n w : List ℝ) : ℝ := tau * nsamp n w

/-- `pol_integ` of one row, L4050-4065. -/
noncomputable def combineInteg (a b : ℝ) : ℝ := if 0 < a ∧ 0 < b then 2 / (1 / a + 1 / b) else 0

/-- One side of a row: integration time, number of samples and weight of each channel of the window. Used by `rowInteg`, pspecbeam.py L4027-4066. -/
structure Side where
  tau : ℝ
  n : List ℝ
  w : List ℝ

/-- The stored integration time of a row, L4027-4066. -/
noncomputable def rowInteg (s t : Side) : ℝ := combineInteg (integ s.tau s.n s.w) (integ t.tau t.n t.w)

end HeraPspec.Scalar
