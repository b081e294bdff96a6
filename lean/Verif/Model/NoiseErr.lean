import Verif.Model.Noise
import Verif.Model.Rescale
import Verif.Model.Rephase
import Verif.Model.Sort

/-!
Model of `uvp_noise_error` (utils.py L1502-1728) and `UVPSpec.generate_noise_spectra` (uvpspec.py L2506-2671).

Arithmetic is exact. `n` is the number of channels of the spectral window (`spw_range[2]`); the autocorrelations are given on these
channels (L1580-1581 cuts them out). Windows, baseline-pairs and polarizations are treated independently by the code (the loops only
write their own key): an error array is a function of a cell, that is of a key, a row and a delay.
-/
namespace HeraPspec.NoiseErr
open HeraPspec.Rescale (Fl applyPSN)
open HeraPspec.Rephase (mapO)
noncomputable section

/-! ### System temperature of the rows of one baseline-pair -/

/-- The autocorrelation of one antenna in Kelvin: its times, and temperature and flag of every time and channel. Used by `tsysOf`, utils.py L1588-1660. -/
structure Auto (n : ℕ) where
  times : List ℝ
  temp : ℕ → Fin n → ℝ
  flag : ℕ → Fin n → Bool

open Classical in
/-- `np.where(np.isclose(times, t, atol=1e-5, rtol=0))[0][0]`, utils.py L1602-1609; `none` is the IndexError. -/
def tind (times : List ℝ) (t : ℝ) : Option ℕ := times.findIdx? (fun x => decide (|x - t| ≤ 1e-5))

/-- `(a * b) ** 0.5` for two autocorrelations, utils.py L1626-1641. -/
def geo (a b : ℝ) : ℝ := Real.sqrt (a * b)

/-- The average over channels, utils.py L1668-1673. -/
def bandMean {n : ℕ} (taper T : Fin n → ℝ) (flag : Fin n → Bool) : ℝ :=
  (∑ c, T c * (if flag c then 0 else 1) * taper c) / max (∑ c, (if flag c then 0 else 1) * taper c) 1e-20

/-- One time of one baseline: geometric mean of its two antennas averaged over channels, and whether all channels are flagged, L1626-1675. -/
def rowMean {n : ℕ} (taper : Fin n → ℝ) (a b : Auto n) (i : ℕ) : ℝ :=
  bandMean taper (fun c => geo (a.temp i c) (b.temp i c)) (fun c => a.flag i c || b.flag i c)

/-- `Tflag1` after L1674: all channels flagged in one of the two antennas; utils.py L1642-1657 and L1674-1675. -/
def rowFlag {n : ℕ} (a b : Auto n) (i : ℕ) : Bool := decide (∀ c, (a.flag i c || b.flag i c) = true)

/-- The better of two points for the nearest-neighbour interpolation: the later one only if strictly closer. Used by `nearest`, utils.py L1680-1693. -/
def closer (x : ℝ) (best p : ℝ × ℝ) : ℝ × ℝ := open Classical in if |p.1 - x| < |best.1 - x| then p else best

/-- `interp1d(xs, ys, kind='nearest', fill_value='extrapolate')(x)`, utils.py L1680-1693: the points are sorted and a tie goes to the
smaller abscissa. `none` without points. -/
def nearest (pts : List (ℝ × ℝ)) (x : ℝ) : Option ℝ :=
  match pySorted (fun p q => open Classical in decide (p.1 ≤ q.1)) pts with
  | [] => none
  | p :: ps => some (ps.foldl (closer x) p).2

/-- `Tsys` as passed on: infinite, one number, or one number per row. Used by `tsysOf`, utils.py L1660-1697. -/
inductive Tsys | inf | const (x : ℝ) | rows (l : List ℝ)

/-- The points of the interpolation: LST and temperature of the unflagged times, utils.py L1681-1682. -/
def points {n : ℕ} (taper : Fin n → ℝ) (lsts : List ℝ) (a b : Auto n) (is : List ℕ) : List (ℝ × ℝ) :=
  (is.filter (fun i => !rowFlag a b i)).map (fun i => (lsts.getD i 0, rowMean taper a b i))

/-- `Tsys` from time indices, utils.py L1660-1697. `lst1`, `lst2` are the LSTs of the rows of the baseline-pair. -/
def combine {n : ℕ} (taper : Fin n → ℝ) (lsts : List ℝ) (a b c d : Auto n) (i1 i2 : List ℕ) (lst1 lst2 : List ℝ) : Tsys :=
  if (i1.zip i2).all (fun p => decide (∀ ch, (a.flag p.1 ch || b.flag p.1 ch || (c.flag p.2 ch || d.flag p.2 ch)) = true)) then .inf
  else if 1 < (i1.filter (fun i => !rowFlag a b i)).length ∧ 1 < (i2.filter (fun i => !rowFlag c d i)).length then
    .rows (List.zipWith (fun x y => geo ((nearest (points taper lsts a b i1) x).getD 0) ((nearest (points taper lsts c d i2) y).getD 0)) lst1 lst2)
  else .const (geo ((i1.map (rowMean taper a b)).getD 0 0) ((i2.map (rowMean taper c d)).getD 0 0))

/-- `Tsys` of a baseline-pair, utils.py L1588-1697: antennas `a, b` of the first and `c, d` of the second baseline, `t1`, `t2` the times of
the rows. Time indices come from the first antenna of each baseline. -/
def tsysOf {n : ℕ} (taper : Fin n → ℝ) (lsts : List ℝ) (a b c d : Auto n) (t1 t2 lst1 lst2 : List ℝ) : Option Tsys :=
  (mapO (tind a.times) t1).bind (fun i1 => (mapO (tind c.times) t2).map (fun i2 => combine taper lsts a b c d i1 i2 lst1 lst2))

/-! ### Noise spectra -/

/-- Exceptions: AssertionError, TypeError, AttributeError, KeyError. Used by `noiseRows` and `noiseError`, uvpspec.py L2640 and utils.py L1580. -/
inductive Err | assertion | typeError | attribute | key
  deriving DecidableEq

/-- The argument `Tsys` for one baseline-pair: a number, an array, or a number inside a dictionary, uvpspec.py L2626-2630. -/
inductive TArg | num (x : ℝ) | arr (l : List ℝ) | dictNum (x : ℝ)

/-- One row of the noise spectra, uvpspec.py L2645-2668 (`form='Pk'`, `component='real'`): the value at every delay. -/
def noiseRow (scalar T tint nsamp : ℝ) : Except Noise.Err ℝ := Noise.calcPN scalar T tint 1 (some nsamp) .pk none .real

/-- The rows of one baseline-pair with an array of temperatures, uvpspec.py L2636-2671: row `j` is at position `j` of the array. -/
def noiseArr (ntpairs : ℕ) (scalar : ℝ) (T : List ℝ) (meta_ : List (ℝ × ℝ)) : Except Err (List ℝ) :=
  if T.length ≠ ntpairs then .error .assertion
  else .ok (List.zipWith (fun t m => match noiseRow scalar t m.1 m.2 with | .ok x => x | .error _ => 0) T meta_)

/-- `generate_noise_spectra` for one baseline-pair, uvpspec.py L2626-2671. `meta_` holds integration time and number of samples of the
rows. A number in a dictionary passes the assertion and is then subscripted. -/
def noiseRows (ntpairs : ℕ) (scalar : ℝ) (T : TArg) (meta_ : List (ℝ × ℝ)) : Except Err (List ℝ) :=
  match T with
  | .num x => noiseArr ntpairs scalar (List.replicate ntpairs x) meta_
  | .arr l => noiseArr ntpairs scalar l meta_
  | .dictNum _ => if meta_ = [] then .ok [] else .error .typeError

/-! ### Error bars -/

/-- `P_SN` of finite values, utils.py L1714-1718. -/
def psn (ps pn : ℝ) : ℝ := Real.sqrt (Real.sqrt 2 * max ps 0 * pn + pn ^ 2)

/-- `P_SN` with the replacement of nan by inf, utils.py L1714-1720. -/
def psnFl (ps : ℝ) : Fl → Fl
  | .fin pn => .fin (psn ps pn)
  | .inf => .inf
  | .nan => .inf

/-- `apply_P_SN_correction` at one cell, utils.py L1783-1812: an infinite `P_N` comes with an infinite `P_SN` and stays. -/
def correct : Fl → Fl → Fl
  | .fin pn, .fin ps => applyPSN pn ps
  | _, _ => .inf

/-- The statistics of an object, as a map (see C95 for `set_stats`). Used by `noiseError`, utils.py L1502-1728. -/
abbrev Stats (Cell : Type) := String → Option (Cell → Fl)

/-- `stats_array[name] = x`. Used by `noiseError`, utils.py L1709 and L1722. -/
def setStat {Cell : Type} (st : Stats Cell) (name : String) (x : Cell → Fl) : Stats Cell := fun s => if s = name then some x else st s

/-- The argument `err_type` and the switches. Used by `noiseError`, utils.py L1502-1510. -/
structure Req where
  wantPN : Bool
  wantPSN : Bool
  correction : Bool
  precomp : Option String
  haveAutos : Bool

/-- The error bars written by the loops, utils.py L1577-1722. -/
def writeStats {Cell : Type} (r : Req) (data : Cell → ℝ) (pn : Cell → Fl) (st : Stats Cell) : Stats Cell :=
  let st := if r.wantPN then setStat st "P_N" pn else st
  if r.wantPSN then setStat st "P_SN" (fun c => psnFl (data c) (pn c)) else st

/-- The final correction, utils.py L1724-1728 with L1796-1812. -/
def finish {Cell : Type} (r : Req) (st : Stats Cell) : Stats Cell × Option Err :=
  if r.correction && r.wantPSN then
    match st "P_SN", st (r.precomp.getD "P_N") with
    | some s, some n => (setStat st "P_SN" (fun c => correct (n c) (s c)), none)
    | _, _ => (st, some .assertion)
  else (st, none)

/-- `P_N` as computed or as looked up, utils.py L1620-1706. -/
def sourcePN {Cell : Type} (r : Req) (st : Stats Cell) (computed : Cell → Fl) : Option (Cell → Fl) :=
  match r.precomp with
  | none => some computed
  | some s => st s

/-- `uvp_noise_error`, utils.py L1502-1728: the statistics afterwards and the exception, if any. Without `auto_Tsys` it fails at L1580
(or L1562). `data` is the real part of the power spectrum, `computed` the noise spectrum (above). -/
def noiseError {Cell : Type} (r : Req) (data : Cell → ℝ) (computed : Cell → Fl) (st : Stats Cell) : Stats Cell × Option Err :=
  if !r.haveAutos then (st, some .attribute)
  else match sourcePN r st computed with
    | none => (st, some .key)
    | some pn => finish r (writeStats r data pn st)

end
end HeraPspec.NoiseErr
