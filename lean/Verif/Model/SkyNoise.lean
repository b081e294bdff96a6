import Mathlib.Data.Complex.Basic
import Mathlib.Analysis.SpecialFunctions.Exp
import Mathlib.Analysis.SpecialFunctions.Pow.Real

/-!
Model of `testing.sky_noise_sim` and what it calls (testing.py L480-720), for UVData objects in memory whose baselines all have the same times. A data object holds
antenna pairs, polarization numbers (XX = EE = -5, YY = NN = -6, XY = -7, YX = -8, pI ... pV = 1 ... 4), frequencies and arrays over time and channel.
The generator of numpy and scipy is a state with three operations; the solid angle of the beam at the data's frequencies (L643-657) and the median
integration time are parameters; real numbers replace floats and a value that is not a number is `none`.
-/
namespace HeraPspec.SkyNoise
noncomputable section

/-- Exceptions. Used by `skyNoiseSim`, testing.py L628-688. -/
inductive Err | assertion | key | beam
  deriving DecidableEq

/-- An antenna pair and a polarization. Used by `crossBls`, testing.py L660-661. -/
abbrev Key := (ℕ × ℕ) × ℤ

/-- Real numbers drawn, by row and channel. Used by `Rng`, testing.py L513-521, L577-578. -/
abbrev Draws := ℕ → ℕ → ℝ

/-- The global random generator: `np.random.normal` with scale one over the root of two and the given shape, `stats.multivariate_normal.rvs` with zero mean, the given covariance
and number of draws, and `np.random.seed`. Used in testing.py L513-521, L577-578 and L685. -/
structure Rng (σ : Type) where
  normal : ℕ → ℕ → σ → Draws × σ
  mvn : (ℕ → ℕ → ℝ) → ℕ → ℕ → σ → Draws × σ
  seed : Option ℤ → σ → σ

/-- The data object. Used by `skyNoiseSim`, testing.py L623-640. -/
structure Vis where
  pairs : List (ℕ × ℕ)
  pols : List ℤ
  freqs : List ℝ
  nt : ℕ
  dat : (ℕ × ℕ) → ℤ → ℕ → ℕ → Option ℂ
  ns : (ℕ × ℕ) → ℤ → ℕ → ℕ → ℝ

/-- The covariance model, testing.py L508-510. -/
def cov (amp len : ℝ) (freqs : List ℝ) (i j : ℕ) : ℝ :=
  amp * Real.exp (-(((freqs.getD i 0 - freqs.getD j 0) / len) ^ 2))

/-- `gauss_cov_fg`, testing.py L480-523. -/
def gaussCovFg {σ : Type} (R : Rng σ) (amp len : ℝ) (freqs : List ℝ) (nt : ℕ) (constantInTime : Bool) (s : σ) : (ℕ → ℕ → ℂ) × σ :=
  if constantInTime then
    let r := R.mvn (cov amp len freqs) 2 freqs.length s
    (fun _ f => (r.1 0 f : ℂ) + Complex.I * (r.1 1 f : ℂ), r.2)
  else
    let r := R.mvn (cov amp len freqs) (2 * nt) freqs.length s
    (fun t f => (r.1 t f : ℂ) + Complex.I * (r.1 (nt + t) f : ℂ), r.2)

/-- `np.mean(np.diff(freqs))`. Used by `skyNoiseJyAutos`, testing.py L562; not a number for fewer than two channels. -/
def meanWidth (freqs : List ℝ) : Option ℝ :=
  if 2 ≤ freqs.length then some ((List.zipWith (fun a b => b - a) freqs freqs.tail).sum / ((freqs.length : ℝ) - 1)) else none

/-- Speed of light and Boltzmann constant, in units of the code (conversions.units). Used by `jy2K`, testing.py L566-567. -/
structure Units where
  c : ℝ
  kb : ℝ

/-- `Jy2K`, testing.py L566-567. -/
def jy2K (U : Units) (freqs : List ℝ) (omega : ℕ → ℝ) (f : ℕ) : ℝ :=
  1e-26 * (U.c / freqs.getD f 0) ^ 2 / (2 * U.kb * omega f)

/-- `vis`, testing.py L570-574 (`Trx` in K). -/
def visStd (U : Units) (freqs : List ℝ) (autovis : ℕ → ℕ → Option ℝ) (omega : ℕ → ℝ) (tint trx : ℝ) (t f : ℕ) : Option ℝ :=
  match autovis t f, meanWidth freqs with
  | some a, some w => if 0 < tint * w then some ((a * jy2K U freqs omega f + trx) / Real.sqrt (tint * w) / jy2K U freqs omega f) else none
  | _, _ => none

/-- `sky_noise_jy_autos` with an array `omega_p` of the right size and `channel_width=None`, testing.py L526-579. -/
def skyNoiseJyAutos {σ : Type} (R : Rng σ) (U : Units) (freqs : List ℝ) (nt : ℕ) (autovis : ℕ → ℕ → Option ℝ) (omega : ℕ → ℝ) (tint trx : ℝ) (s : σ) :
    (ℕ → ℕ → Option ℂ) × σ :=
  let x1 := R.normal nt freqs.length s
  let x2 := R.normal nt freqs.length x1.2
  (fun t f => (visStd U freqs autovis omega tint trx t f).map (fun v : ℝ => ((x1.1 t f : ℂ) + Complex.I * (x2.1 t f : ℂ)) * (v : ℂ)), x2.2)

/-- `[bl for bl in uvd.get_antpairpols() if bl[0] != bl[1]]`, testing.py L660-661. -/
def crossBls (d : Vis) : List Key :=
  (d.pairs.flatMap (fun b : ℕ × ℕ => d.pols.map (fun p : ℤ => (b, p)))).filter (fun k : Key => k.1.1 != k.1.2)

/-- `uvd.get_data(key)`: the antenna pair and polarization must be there. Used by `autoOf`, testing.py L669-671. -/
def getData (d : Vis) (b : ℕ × ℕ) (p : ℤ) : Except Err (ℕ → ℕ → Option ℂ) :=
  if b ∈ d.pairs ∧ p ∈ d.pols then .ok (d.dat b p) else .error .key

/-- The polarization whose autocorrelation is taken, testing.py L646 and L668-671. -/
def autoPol (p : ℤ) : ℤ := if p = 2 ∨ p = 3 ∨ p = 4 then 1 else p

/-- `AUTOVISPOLS`, testing.py L620-621. -/
def autoVisPols : List ℤ := [-5, -6, 1, 3, 2, 4]

/-- Building the dictionary `autos` fails when pI is missing, testing.py L664-671. -/
def autosBuilt (d : Vis) : Except Err Unit :=
  if (d.pairs.any (fun b : ℕ × ℕ => b.1 == b.2)) ∧ (d.pols.any (fun p : ℤ => decide (p ∈ autoVisPols) && decide (autoPol p ∉ d.pols))) then .error .key else .ok ()

/-- `autos[(ant, ant, pol)]`, testing.py L664-671 and L688. -/
def autoOf (d : Vis) (a : ℕ) (p : ℤ) : Except Err (ℕ → ℕ → Option ℝ) :=
  if (a, a) ∈ d.pairs ∧ p ∈ d.pols ∧ p ∈ autoVisPols then
    match getData d (a, a) (autoPol p) with
    | .ok x => .ok (fun t f => (x t f).map Complex.re)
    | .error e => .error e
  else .error .key

/-- `np.sqrt(autos[...] * autos[...])`, testing.py L688. -/
def tsysJy (x y : ℕ → ℕ → Option ℝ) (t f : ℕ) : Option ℝ :=
  match x t f, y t f with
  | some a, some b => if 0 ≤ a * b then some (Real.sqrt (a * b)) else none
  | _, _ => none

/-- `n /= np.sqrt(nsamp)` with infinity for samples close to zero, testing.py L700-703. -/
def dividedBy (divide : Bool) (ns : ℕ → ℕ → ℝ) (n : ℕ → ℕ → Option ℂ) (t f : ℕ) : Option ℂ :=
  if divide then
    if |ns t f| ≤ 1e-8 then (n t f).map (fun _ => 0)
    else if ns t f < 0 then none
    else (n t f).map (fun z : ℂ => z / (Real.sqrt (ns t f) : ℂ))
  else n t f

/-- `n + sig`, testing.py L718. -/
def addSig (n : ℕ → ℕ → Option ℂ) (sig : ℕ → ℕ → ℂ) (t f : ℕ) : Option ℂ := (n t f).map (fun z => z + sig t f)

/-- `uvd.data_array[blt_inds, :, pol_ind] = x`, testing.py L716-718. -/
def setDat (d : Vis) (k : Key) (x : ℕ → ℕ → Option ℂ) : Vis :=
  { d with dat := fun b p => if b = k.1 ∧ p = k.2 then x else d.dat b p }

/-- Options of `sky_noise_sim`, testing.py L585-590. -/
structure Opts where
  amp : ℝ := 1000
  len : ℝ := 10
  constantPerBl : Bool := true
  constantInTime : Bool := true
  seed : Option ℤ := none
  divide : Bool := false

/-- The body of the loop for one cross-correlation, testing.py L686-718; `d0` is the data before the loop, from which the autocorrelations were taken. -/
def step {σ : Type} (R : Rng σ) (U : Units) (o : Opts) (omega : ℤ → ℕ → ℝ) (tint : ℝ) (sig0 : ℕ → ℕ → ℂ) (d0 : Vis) (k : Key) (ds : Vis × σ) : Except Err (Vis × σ) :=
  match autoOf d0 k.1.1 k.2, autoOf d0 k.1.2 k.2 with
  | .ok x, .ok y =>
    let n := skyNoiseJyAutos R U d0.freqs d0.nt (tsysJy x y) (omega k.2) tint 0 ds.2
    let g := if o.constantPerBl then (sig0, n.2) else gaussCovFg R o.amp (o.len * 1e6) d0.freqs d0.nt o.constantInTime n.2
    .ok (setDat ds.1 k (addSig (dividedBy o.divide (d0.ns k.1 k.2) n.1) g.1), g.2)
  | .error e, _ => .error e
  | _, .error e => .error e

/-- The loop over cross-correlations, testing.py L686-718. -/
def loop {σ : Type} (R : Rng σ) (U : Units) (o : Opts) (omega : ℤ → ℕ → ℝ) (tint : ℝ) (sig0 : ℕ → ℕ → ℂ) (d0 : Vis) : List Key → Vis × σ → Except Err (Vis × σ)
  | [], ds => .ok ds
  | k :: ks, ds => match step R U o omega tint sig0 d0 k ds with
    | .error e => .error e
    | .ok ds' => loop R U o omega tint sig0 d0 ks ds'

/-- `sky_noise_sim`, testing.py L620-720: the object returned and the state of the generator; the input is copied (L627). `beam p` is the solid angle of the
beam interpolated to the channels, or a failure. -/
def skyNoiseSim {σ : Type} (R : Rng σ) (U : Units) (o : Opts) (beam : ℤ → Except Err (ℕ → ℝ)) (tint : ℝ) (d : Vis) (s : σ) : Except Err (Vis × σ) :=
  if -7 ∈ d.pols ∨ -8 ∈ d.pols then .error .assertion
  else if ∃ p ∈ d.pols, (beam (autoPol p)).isOk = false then .error .beam
  else match autosBuilt d with
    | .error e => .error e
    | .ok _ =>
      let omega := fun p : ℤ => match beam (autoPol p) with | .ok w => w | .error _ => fun _ => 0
      let g := if o.constantPerBl then gaussCovFg R o.amp (o.len * 1e6) d.freqs d.nt o.constantInTime s else (fun _ _ => 0, s)
      loop R U o omega tint g.1 d (crossBls d) (d, R.seed o.seed g.2)

end
end HeraPspec.SkyNoise
