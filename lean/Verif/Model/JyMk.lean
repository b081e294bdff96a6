import Mathlib.Data.Complex.Basic

/-!
Model of `PSpecData.Jy_to_mK`, pspecdata.py L4406-4455.
The conversion factors of the beam (`PSpecBeamBase.Jy_to_mK`, modelled in `Model/Cosmo.lean`) are an argument here: one list of
numbers, one per frequency, for each polarization integer; `none` where the beam raises. Complex floats are exact.
-/
namespace HeraPspec.JyMk

/-- The parts of a `UVData` object the method uses: `vis_units`, `polarization_array`, the number of channels and
`data_array[row, channel, pol index]`. Used by `isJy`, pspecdata.py L4443. -/
structure UV where
  units : List Char
  pols : List ℤ
  nf : ℕ
  data : ℕ → ℕ → ℕ → ℂ

/-- Conversion factors by polarization integer and channel. Used by `facAt`, pspecdata.py L4450. -/
abbrev Beam := ℤ → Option (List ℝ)

/-- `str.upper` on the characters that occur (ASCII), L4443. -/
def upper (s : List Char) : List Char := s.map Char.toUpper

/-- L4443: `dset.vis_units.upper() != "JY"` negated. -/
def isJy (u : UV) : Bool := upper u.units == ['J', 'Y']

/-- `factors[p]` for a polarization, as a function of the channel; a one-channel factor broadcasts (L4450). -/
def facAt (b : Beam) (p : ℤ) (f : ℕ) : ℝ :=
  match b p with
  | none => 0
  | some l => if l.length = 1 then l.getD 0 0 else l.getD f 0

/-- `data_array[:, :, j] *= factors[p][None, :]`, L4450. -/
def scalePol (b : Beam) (d : ℕ → ℕ → ℕ → ℂ) (jp : ℕ × ℤ) : ℕ → ℕ → ℕ → ℂ := fun r f q =>
  if q = jp.1 then d r f q * (facAt b jp.2 f : ℂ) else d r f q

/-- `enumerate(polarization_array)`, L4449. -/
def enumPols (u : UV) : List (ℕ × ℤ) := (List.range u.pols.length).zip u.pols

/-- L4449-4451: the converted data set. -/
def convert (b : Beam) (u : UV) : UV := { u with data := (enumPols u).foldl (scalePol b) u.data, units := ['m', 'K'] }

/-- The in-place product of L4450 needs the factor's length to fit the channel axis (a factor of length one broadcasts). -/
def fits (b : Beam) (u : UV) : Bool := u.pols.all (fun p => match b p with
  | none => false
  | some l => l.length == u.nf || l.length == 1)

/-- The loop over the data sets, L4441-4451. On an exception the sets before the failing one stay converted and the rest is
untouched; the flag says whether the loop ended normally. -/
def loop (b : Beam) : List UV → List UV × Bool
  | [] => ([], true)
  | u :: us =>
    if !isJy u then (u :: (loop b us).1, (loop b us).2)
    else if fits b u then (convert b u :: (loop b us).1, (loop b us).2)
    else (u :: us, false)

/-- All polarizations, L4419: `np.ravel` of the list of polarization arrays, which must have equal lengths. -/
def ragged (ds : List UV) : Bool := ds.any (fun u => ds.any (fun v => u.pols.length != v.pols.length))

/-- `Jy_to_mK(beam)`, L4406-4451: the data sets afterwards and whether the call returned normally. The factors of every
polarization of every data set are computed first (L4436-4438), so an unsupported polarization raises before any change. -/
def jyToMk (b : Beam) (ds : List UV) : List UV × Bool :=
  if ragged ds then (ds, false)
  else if ds.any (fun u => u.pols.any (fun p => (b p).isNone)) then (ds, false)
  else loop b ds

/-- A history of calls with any beams; failed calls are caught by the caller. (pspecdata.py L4406-4455) -/
def calls (bs : List Beam) (ds : List UV) : List UV := bs.foldl (fun s b => (jyToMk b s).1) ds

end HeraPspec.JyMk
