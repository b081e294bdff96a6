import Mathlib.Data.Rat.Defs
import Mathlib.Algebra.Order.Field.Rat
import Mathlib.Data.Int.Notation

/-!
Model of the beam objects of uvwindow.py: `FTBeam.__init__` (L21-88), `FTBeam.from_file` (L117-165), `FTBeam.get_bandwidth`
(L240-268), `FTBeam.update_spw` (L270-290), `UVWindow.__init__` (L296-388, the beam checks), `UVWindow.from_uvpspec` (L390-488) and
`check_spw_range` (L1424-1459).

One channel of the beam transform (an N x N plane) is an element of an abstract type `P`; frequencies are rationals. The file system is a
function from paths (lists of characters) to the content of the HDF5 file there. `pyuvdata.utils.polnum2str` is a parameter. Not
modelled: warnings, the taper check, cosmology and units, paths given in a form that `pathlib` normalises.
-/
namespace HeraPspec.FTBeam

/-- Exceptions. Used by `mkBeam`, uvwindow.py L63-88. -/
inductive Err | value | type | index | notImplemented
  deriving DecidableEq, Repr

/-- An FTBeam object. `spwRange` is the attribute set by `update_spw` (absent before). Used by `updateSpw`, uvwindow.py L270-290. -/
structure Beam (P : Type) where
  pol : String
  freqs : List ℚ
  planes : List P
  mapsize : ℚ
  spwRange : Option (ℤ × ℤ)

/-- `np.array(data)`: number of dimensions, size of axes 1 and 2, and the list of planes along axis 0. Used by `mkBeam`, uvwindow.py L63-69. -/
structure Data (P : Type) where
  ndim : ℕ
  rows : ℕ
  cols : ℕ
  planes : List P

/-- The `pol` argument. Used by `mkBeam`, uvwindow.py L71-82. -/
inductive PolArg
  | str (s : String)
  | int (n : ℤ)
  | other

variable {P : Type}

/-- The accepted polarization strings, L73. -/
def polStrings : List String := ["pI", "pQ", "pV", "pU", "xx", "yy", "xy", "yx"]

/-- The accepted polarization numbers, L76. -/
def polNums : List ℤ := [1, 2, 4, 3, -5, -6, -7, -8]

/-- "polarisation", L71-82. `num2str` is `polnum2str(_, x_orientation)`. -/
def polCheck (num2str : ℤ → String) : PolArg → Except Err String
  | .str s => if s ∈ polStrings then .ok s else .error .value
  | .int n => if n ∈ polNums then .ok (num2str n) else .error .value
  | .other => .error .type

/-- `FTBeam.__init__`, L59-88. -/
def mkBeam (num2str : ℤ → String) (d : Data P) (pol : PolArg) (freqs : List ℚ) (mapsize : ℚ) : Except Err (Beam P) :=
  if d.ndim ≠ 3 then .error .value
  else if d.rows ≠ d.cols then .error .value
  else match polCheck num2str pol with
    | .error e => .error e
    | .ok p =>
      if freqs.length ≠ d.planes.length then .error .value
      else .ok { pol := p, freqs := freqs, planes := d.planes, mapsize := mapsize, spwRange := none }

/-- `check_spw_range(spw_range, bandwidth)`, L1424-1459; `n` is `bandwidth.size`. -/
def checkSpwRange (r : List ℤ) (n : ℕ) : Bool :=
  match r with
  | [a, b] =>
    if b - a ≤ 0 then false
    else if min a b < 0 then false
    else if max a b > (n : ℤ) then false
    else true
  | _ => false

/-- A bound of a Python slice of a sequence of length `n`. Used by `slice`, uvwindow.py L156-157, L289-290. -/
def bound (n : ℕ) (a : ℤ) : ℕ := if a < 0 then (a + n).toNat else min a.toNat n

/-- `l[a:b]`, L156-157, L289-290. -/
def slice {α : Type} (a b : ℤ) (l : List α) : List α := (l.take (bound l.length b)).drop (bound l.length a)

/-- The content of a beam file, L146-149. Used by `fromFile`, uvwindow.py L117-165. -/
structure File (P : Type) where
  mapsize : ℚ
  freq : List ℚ
  beam : Data P

/-- `s.split(c)[-1]`. Used by `polOfPath`, uvwindow.py L143. -/
def lastField (c : Char) (s : List Char) : List Char := (s.reverse.takeWhile (fun x => decide (x ≠ c))).reverse

/-- `s.split(c)[0]`. Used by `polOfPath`, uvwindow.py L143. -/
def firstField (c : Char) (s : List Char) : List Char := s.takeWhile (fun x => decide (x ≠ c))

/-- `pol = str(ftfile).split("_")[-1].split(".")[0]`, L143. -/
def polOfPath (s : List Char) : String := String.ofList (firstField '.' (lastField '_' s))

/-- `FTBeam.from_file`, L117-165. `range` is `spw_range`. -/
def fromFile (num2str : ℤ → String) (fs : List Char → Option (File P)) (path : List Char) (range : Option (List ℤ)) : Except Err (Beam P) :=
  match fs path with
  | none => .error .value
  | some f => match range with
    | some r =>
      if checkSpwRange r f.freq.length then
        mkBeam num2str { f.beam with planes := slice (r.getD 0 0) (r.getD 1 0) f.beam.planes } (.str (polOfPath path))
          (slice (r.getD 0 0) (r.getLastD 0) f.freq) f.mapsize
      else .error .value
    | none => mkBeam num2str f.beam (.str (polOfPath path)) f.freq f.mapsize

/-- `FTBeam.get_bandwidth`, L240-268. -/
def getBandwidth (fs : List Char → Option (File P)) (path : List Char) : Except Err (List ℚ) :=
  match fs path with
  | none => .error .value
  | some f => if f.freq.length ≤ 1 then .error .value else .ok f.freq

/-- `FTBeam.update_spw`, L270-290: the exception, if any, and the object afterwards. -/
def updateSpw (b : Beam P) (r : List ℤ) : Option Err × Beam P :=
  if checkSpwRange r b.freqs.length then
    (none, { b with
      spwRange := some (r.getD 0 0, r.getD 1 0)
      freqs := slice (r.getD 0 0) (r.getD 1 0) b.freqs
      planes := slice (r.getD 0 0) (r.getD 1 0) b.planes })
  else (some .value, b)

/-- The part of a UVWindow object that depends on the beams. Used by `mkWindow`, uvwindow.py L356-388. -/
structure UVWindow (P : Type) where
  beam0 : Beam P
  beam1 : Beam P
  pols : String × String
  freqs : List ℚ

/-- `UVWindow.__init__`, L356-388, for a list of two FTBeam objects. -/
def mkWindow (b0 b1 : Beam P) : Except Err (UVWindow P) :=
  if b0.freqs.length ≠ b1.freqs.length then .error .value
  else if b0.freqs ≠ b1.freqs then .error .value
  else if b0.mapsize ≠ b1.mapsize then .error .value
  else .ok { beam0 := b0, beam1 := b1, pols := (b0.pol, b1.pol), freqs := b0.freqs }

/-- The `ftbeam` argument of `from_uvpspec`: `None`, the root of a path, an FTBeam object, or anything else. Used by `load`, uvwindow.py L449-468. -/
inductive FtArg (P : Type)
  | none
  | root (s : List Char)
  | obj (b : Beam P)
  | other

/-- The beam of one polarization, L449-468. -/
def load (num2str : ℤ → String) (fs : List Char → Option (File P)) (arg : FtArg P) (pol : String) : Except Err (Beam P) :=
  match arg with
  | .none => .error .notImplemented
  | .root s => fromFile num2str fs (s ++ '_' :: (pol.toList ++ ".hdf5".toList)) Option.none
  | .obj b => .ok b
  | .other => .error .type

/-- `(ip > 0) and (pol[ip] == pol[0])` for `ip = 1`, L446 and L478, where `pol` is the name of the second polarization. -/
def reuse (pol : String) : Except Err Bool :=
  match pol.toList with
  | c0 :: c1 :: _ => .ok (c1 == c0)
  | _ => .error .index

/-- `update_spw` as a step that raises. Used by `fromUvpspec`, uvwindow.py L477-480. -/
def updateE (b : Beam P) (r : List ℤ) : Except Err (Beam P) :=
  match (updateSpw b r).1 with
  | some e => .error e
  | none => .ok (updateSpw b r).2

/-- The beam of the second polarization, L445-468. -/
def second (num2str : ℤ → String) (fs : List Char → Option (File P)) (arg : FtArg P) (pol : String) (b0 : Beam P) (r : Bool) : Except Err (Beam P) :=
  if r then .ok b0 else load num2str fs arg pol

/-- `np.array([0, freq_array.size]) + np.where(bandwidth >= freq_array[0] - 1e-9)[0][0]`, L472-476. -/
def spwRange (bandwidth freqs : List ℚ) : Except Err (List ℤ) :=
  match freqs with
  | [] => .error .index
  | f0 :: _ => match bandwidth.findIdx? (fun x => decide (f0 - 1 / 1000000000 ≤ x)) with
    | none => .error .index
    | some i => .ok [(i : ℤ), (freqs.length : ℤ) + i]

/-- `UVWindow.from_uvpspec`, L390-488. `spws` lists the frequencies of each spectral window of the UVPSpec object, `polpair` the names
of the polarizations of the requested pair. -/
def fromUvpspec (num2str : ℤ → String) (fs : List Char → Option (File P)) (spws : List (List ℚ)) (spw : ℕ) (polpair : String × String)
    (arg : FtArg P) : Except Err (UVWindow P) := do
  let freqs ← match spws[spw]? with
    | none => .error .value
    | some f => .ok f
  let b0 ← load num2str fs arg polpair.1
  let r ← reuse polpair.2
  let b1 ← second num2str fs arg polpair.2 b0 r
  let range ← spwRange b0.freqs freqs
  let c0 ← updateE b0 range
  let c1 ← if r then .ok c0 else updateE b1 range
  mkWindow c0 c1

end HeraPspec.FTBeam
