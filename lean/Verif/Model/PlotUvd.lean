import Verif.Model.UVP
import Mathlib.Analysis.SpecialFunctions.Log.Base
import Mathlib.Algebra.Order.Round

/-!
Model of `plot.plot_uvdata_waterfalls` (plot.py L1333-1425): the files it writes, and of `_get_sigfig`, `_round_sigfig` (L1428-1437) and their use for ticks (L1204-1218).
A file name template is its literal pieces and placeholders; a figure is the array drawn. The data object is the list of its (ant1, ant2, pol) keys, as
`antpairpol_iter` gives them, and three arrays per key. Colours and the drawing itself are not modelled.
-/
namespace HeraPspec.PlotUvd

/-- Exceptions. Used by `waterfalls`, L1385-1394, L1421. -/
inductive Err | assertion | index | overflow
  deriving DecidableEq

/-- A piece of `basename`, L1418. -/
inductive Piece
  | lit (s : List Char)
  | bl
  | pol
  deriving DecidableEq

/-- `(ant1, ant2, pol)`, L1400. -/
abbrev Key := ℕ × ℕ × List Char

/-- `"%d.%d" % (ant1, ant2)`, L1418. -/
def blName (k : Key) : List Char := Nat.toDigits 10 k.1 ++ '.' :: Nat.toDigits 10 k.2.1

/-- One piece formatted, L1418. -/
def piece (k : Key) : Piece → List Char
  | .lit s => s
  | .bl => blName k
  | .pol => k.2.2

/-- `basename.format(bl=..., pol=...)`, L1418. -/
def baseOf (t : List Piece) (k : Key) : List Char := t.flatMap (piece k)

/-- `outfile[-len(format)]`: one character; `outfile[-0]` is the first. L1421. -/
def charAt (out fmt : List Char) : Except Err Char :=
  if fmt.length = 0 then (match out with | [] => .error .index | c :: _ => .ok c)
  else if out.length < fmt.length then .error .index
  else match out[out.length - fmt.length]? with
    | none => .error .index
    | some c => .ok c

/-- The file name with the extension, L1418-1422. -/
def fileName (fmt : Option (List Char)) (out : List Char) : Except Err (List Char) :=
  match fmt with
  | none => .ok out
  | some f => match charAt out f with
    | .error e => .error e
    | .ok c => if [c.toLower] ≠ f.map Char.toLower then .ok (out ++ '.' :: f) else .ok out

/-- The `data` argument. Used by `waterfalls`, L1386-1388. -/
inductive Which | data | flags | nsamples | other
  deriving DecidableEq

/-- The array drawn, L1402-1409. -/
def chosen {A : Type} (w : Which) (data flags nsamples : Key → A) : Option (Key → A) :=
  match w with
  | .data => some data
  | .flags => some flags
  | .nsamples => some nsamples
  | .other => none

/-- The writes of the loop, in order; writes before an error have happened. L1399-1425. -/
def loop {A : Type} (t : List Piece) (fmt : Option (List Char)) (arr : Key → A) : List Key → List (List Char × A) × Option Err
  | [] => ([], none)
  | k :: ks => match fileName fmt (baseOf t k) with
    | .error e => ([], some e)
    | .ok f => ((f, arr k) :: (loop t fmt arr ks).1, (loop t fmt arr ks).2)

/-- `plot_uvdata_waterfalls`: the writes and the error, if any. `vmin`, `vmax`: whether they are given. L1385-1425. -/
def waterfalls {A : Type} (w : Which) (vmin vmax : Bool) (t : List Piece) (fmt : Option (List Char)) (data flags nsamples : Key → A) (keys : List Key) :
    List (List Char × A) × Option Err :=
  match chosen w data flags nsamples with
  | none => ([], some .assertion)
  | some arr => if vmin && !vmax then ([], some .assertion) else loop t fmt arr keys

/-- A file after a sequence of writes: the last one counts. Used in statements about `savefig`, L1424. -/
def contents {A : Type} (ws : List (List Char × A)) (f : List Char) : Option A := (ws.reverse.find? (fun w => w.1 == f)).map (·.2)

/-! ### Significant figures -/

noncomputable section

/-- `_get_sigfig`, L1428-1429; `int(-inf)` is an OverflowError. -/
def getSigfig (x : ℝ) : Except Err ℤ := open Classical in if x = 0 then .error .overflow else .ok (-⌊Real.logb 10 |x|⌋)

/-- `np.around(x, n)`; ties are not modelled. L1207. -/
def around (x : ℝ) (n : ℤ) : ℝ := round (x * 10 ^ n) / 10 ^ n

/-- A tick of the baseline axis, L1207-1217. -/
def tick (x : ℝ) : Except Err ℝ :=
  match getSigfig x with
  | .error e => .error e
  | .ok s => .ok (around x (s + 2))

/-- `_round_sigfig(x, up)`, L1432-1437. -/
def roundSigfig (x : ℝ) (up : Bool) : Except Err ℝ :=
  match getSigfig x with
  | .error e => .error e
  | .ok s => .ok (if up then ⌈(10 : ℝ) ^ s * x⌉ / 10 ^ s else ⌊(10 : ℝ) ^ s * x⌋ / 10 ^ s)

end
end HeraPspec.PlotUvd
