import Mathlib.Analysis.SpecialFunctions.Log.Basic
import Mathlib.Analysis.Real.Pi.Bounds

/-!
Model of `PSpecBeamGauss` (pspecbeam.py L351-435), `PSpecBeamBase.Jy_to_mK` (L235-291) and `PSpecBeamUV.__init__`, `beam_normalized_response`
(L439-545). Floats are exact reals. Library parts are arguments: `interp1d(..., kind="quadratic", fill_value="extrapolate")` as a function of
the nodes, the values and the point; pyuvdata's interpolation of a beam in frequency; pyuvdata's `efield_to_power` and `peak_normalize`.
-/
namespace HeraPspec.GaussBeam
open Real

/-- Exceptions, pspecbeam.py L265-268, L514-540. `np.min` of an empty array is a `ValueError`. -/
inductive Err | type | value
  deriving DecidableEq

/-- A Gaussian beam, pspecbeam.py L370-375. -/
structure Gauss where
  fwhm : ℝ
  freqs : List ℝ

/-- `power_beam_int`, pspecbeam.py L401-407. -/
noncomputable def powerBeamInt (b : Gauss) : List ℝ := b.freqs.map (fun _ => 1 * 2 * π * b.fwhm ^ 2 / (8 * log 2))

/-- `power_beam_sq_int`, pspecbeam.py L433-435. -/
noncomputable def powerBeamSqInt (b : Gauss) : List ℝ := b.freqs.map (fun _ => 1 * π * b.fwhm ^ 2 / (8 * log 2))

/-- The argument `freqs`: a float, an array of floats, or anything else. Used by `jyToMk`, pspecbeam.py L263-268. -/
inductive FreqArg
  | scalar (f : ℝ)
  | array (l : List ℝ)
  | other

/-- The frequencies, pspecbeam.py L263-268. -/
def freqList : FreqArg → Except Err (List ℝ)
  | .scalar f => .ok [f]
  | .array l => .ok l
  | .other => .error .type

/-- `cgs_units.c` in cm/s. pspecbeam.py L289, conversions.py L51. -/
noncomputable def cLight : ℝ := 2.99792458e10

/-- `cgs_units.kb` in erg/K. pspecbeam.py L290, conversions.py L52. -/
noncomputable def kB : ℝ := 1.38064852e-16

/-- One factor, pspecbeam.py L287-291. -/
noncomputable def factor (f op : ℝ) : ℝ := 1e-20 * cLight ^ 2 / (2 * kB * f ^ 2 * op)

/-- `Jy_to_mK`, pspecbeam.py L262-291, for a beam with the frequencies `bf` and the solid angles `om`. The printed warnings (L271-278) are not
modelled. -/
noncomputable def jyToMk (interp : List ℝ → List ℝ → ℝ → ℝ) (bf om : List ℝ) (a : FreqArg) : Except Err (List ℝ) :=
  match freqList a with
  | .error e => .error e
  | .ok l => if l.length = 0 then .error .value
    else .ok (l.map (fun f => factor f (interp (bf.map (fun x => x / 1e6)) om (f / 1e6))))

/-- The attributes of a `UVBeam` that are used, pspecbeam.py L463-480, L514-534. `resp` gives the response for each polarization, frequency and pixel
(`_interp_freq(freq)[0][0]`, L524-538). -/
structure UVB (F : Type) where
  beamType : String
  naxesVec : ℕ
  norm : String
  coord : String
  nside : ℕ
  pols : List ℤ
  resp : F → List (List (List ℝ))

/-- `PSpecBeamUV.__init__`, pspecbeam.py L476-480: the beam object afterwards (it is the caller's own object). -/
def initUV {F : Type} (toPower peak : UVB F → UVB F) (b : UVB F) : UVB F :=
  if b.beamType = "efield" then peak (toPower b) else b

/-- `np.where(np.isin(pol_array, pol))[0][0]`, pspecbeam.py L534-540. -/
def polIndex (p : ℤ) : List ℤ → Option ℕ
  | [] => none
  | q :: qs => if q = p then some 0 else (polIndex p qs).map (· + 1)

/-- `np.sum(beam_res, axis=-1) * np.pi / (3.0 * nside**2)`, pspecbeam.py L542-544. -/
noncomputable def omegaOf (nside : ℕ) (r : List ℝ) : ℝ := r.sum * π / (3 * (nside : ℝ) ^ 2)

/-- `beam_normalized_response`, pspecbeam.py L514-545, with the polarization as a number. -/
noncomputable def normalizedResponse {F : Type} (b : UVB F) (p : ℤ) (freq : F) : Except Err (List (List ℝ) × List ℝ × ℕ) :=
  if b.beamType ≠ "power" then .error .value
  else if b.naxesVec > 1 then .error .value
  else if b.norm ≠ "peak" then .error .value
  else if b.coord ≠ "healpix" then .error .value
  else match polIndex p b.pols with
    | none => .error .value
    | some i => .ok ((b.resp freq).getD i [], ((b.resp freq).getD i []).map (omegaOf b.nside), b.nside)

end HeraPspec.GaussBeam
