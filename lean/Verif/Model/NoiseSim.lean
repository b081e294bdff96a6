import Mathlib.Data.Complex.Basic
import Mathlib.Analysis.SpecialFunctions.Pow.Real
import Mathlib.Data.List.Sort

/-!
Model of `testing.noise_sim` (testing.py L341-477) for UVData objects in memory. A visibility object is a list of rows (baseline-times) with arrays over
channels and polarizations; the random numbers drawn by scipy, the beam's `Jy_to_mK`, and the medians `dt`, `dl` are parameters. The order in
which pyuvdata's `+=` leaves the rows, reading files, `check()` and the type assertions are left out. A visibility that is not a number is `none`.
-/
namespace HeraPspec.NoiseSim
noncomputable section

/-- One baseline-time of a UVData object. Used by `noiseSim`, testing.py L404-471. -/
structure Row where
  time : ℝ
  lst : ℝ
  itime : ℝ
  ns : ℕ → ℕ → ℝ
  flag : ℕ → ℕ → Bool
  dat : ℕ → ℕ → Option ℂ

/-- The object. Used by `noiseSim`, testing.py L404-471. -/
structure Vis where
  rows : List Row
  freqs : List ℚ
  width : ℕ → ℝ
  pols : List ℤ
  unprojected : Bool

/-- Exceptions. Used by `noiseSim`, testing.py L404-471. -/
inductive Err | assertion | shape
  deriving DecidableEq

/-- `whiten`, testing.py L407-409. -/
def whitened (w : Bool) (d : Vis) : Vis :=
  if w then { d with rows := d.rows.map (fun r => { r with flag := fun _ _ => false, ns := fun _ _ => 1 }) } else d

/-- One pass of the loop body on `_data`, testing.py L428-430. -/
def shiftRows (dt dl : ℝ) (nt i : ℕ) (rows : List Row) : List Row :=
  rows.map (fun r => { r with
    time := r.time + dt * nt * (i + 1)
    lst := (r.lst + dl * nt * (i + 1)) - 2 * Real.pi * ⌊(r.lst + dl * nt * (i + 1)) / (2 * Real.pi)⌋ })

/-- `for i in range(Nextend): ...; data += _data`, testing.py L427-431: `_data` keeps the shift of earlier passes. -/
def extendLoop (dt dl : ℝ) (nt : ℕ) : ℕ → ℕ → List Row → List Row → List Row
  | 0, _, data, _ => data
  | n + 1, i, data, cur => extendLoop dt dl nt n (i + 1) (data ++ shiftRows dt dl nt i cur) (shiftRows dt dl nt i cur)

/-- "Extend times", testing.py L418-431. -/
def extended (dt dl : ℝ) (nt : ℕ) (nextend : ℤ) (d : Vis) : Except Err Vis :=
  if nextend ≤ 0 then .ok d
  else if !d.unprojected then .error .assertion
  else .ok { d with rows := extendLoop dt dl nt nextend.toNat 0 d.rows d.rows }

/-- `polcorr`, testing.py L442-444. -/
def polcorr (p : ℤ) : ℝ := if p = 1 ∨ p = 2 ∨ p = 3 ∨ p = 4 then Real.sqrt 2 else 1

/-- `Trms`, testing.py L434-445; infinite or not a number where the product under the root is not positive. -/
def trms (tsys : ℝ) (d : Vis) (r : Row) (f p : ℕ) : Option ℝ :=
  if 0 < r.itime * r.ns f p * d.width f then some (tsys / Real.sqrt (r.itime * r.ns f p * d.width f) / polcorr (d.pols.getD p 0)) else none

/-- `np.unique(data.freq_array)`. Used by `kToJy`, testing.py L449. -/
def uniqueFreqs (l : List ℚ) : List ℚ := l.dedup.insertionSort (· ≤ ·)

/-- `K_to_Jy`, testing.py L448-457. -/
def kToJy (jyToMk : ℚ → ℤ → ℝ) (d : Vis) (f p : ℕ) : ℝ :=
  1e3 / jyToMk ((uniqueFreqs d.freqs).getD f 0) (d.pols.getD p 0) / polcorr (d.pols.getD p 0)

/-- `rms`, testing.py L448-460. -/
def rms (beam : Option (ℚ → ℤ → ℝ)) (tsys : ℝ) (d : Vis) (r : Row) (f p : ℕ) : Option ℝ :=
  match beam with
  | none => trms tsys d r f p
  | some j => (trms tsys d r f p).map (fun t => kToJy j d f p * t)

/-- The draws times `rms`, flags and missing values, testing.py L465-471. `g k f p` is the complex number drawn for row `k`. -/
def fill (beam : Option (ℚ → ℤ → ℝ)) (tsys : ℝ) (g : ℕ → ℕ → ℕ → ℂ) (d : Vis) : Vis :=
  { d with rows := d.rows.mapIdx (fun k r =>
      { r with
        dat := fun f p => (rms beam tsys d r f p).map (fun s : ℝ => g k f p * (s : ℂ))
        flag := fun f p => if (rms beam tsys d r f p).isNone then true else r.flag f p }) }

/-- `noise_sim`, testing.py L404-477: the caller's object afterwards, and what is returned. -/
def noiseSim (beam : Option (ℚ → ℤ → ℝ)) (tsys : ℝ) (dt dl : ℝ) (nt : ℕ) (nextend : ℤ) (inplace whiten : Bool) (g : ℕ → ℕ → ℕ → ℂ) (d : Vis) :
    Vis × Except Err (Option Vis) :=
  let start := if inplace then whitened whiten d else d
  match extended dt dl nt nextend (whitened whiten d) with
  | .error e => (start, .error e)
  | .ok x =>
    if beam.isSome ∧ (uniqueFreqs x.freqs).length ≠ x.freqs.length then (start, .error .shape)
    else if inplace then (if nextend ≤ 0 then fill beam tsys g x else start, .ok none)
    else (start, .ok (some (fill beam tsys g x)))

end
end HeraPspec.NoiseSim
