import Verif.Model.PyDict
import Verif.Model.Sort
import Verif.Model.JyMk
import Mathlib.Data.List.Dedup

/-!
Model of `uvd_to_Tsys` (utils.py L1426-1499). Strings are lists of characters; `Jy_to_mK` of the beam is a parameter. Writing the output
file (L1496-1497), the type of the argument `beam` (L1481-1484) and reading a beam file (L1462-1463) are not modelled.
-/
namespace HeraPspec.Tsys
open HeraPspec.JyMk (upper)

/-- Strings, utils.py L1453-1455. -/
abbrev Str := List Char

/-- `AUTOVISPOLS`, utils.py L1421. -/
def autoVisPols : List Str := ["XX".toList, "YY".toList, "EE".toList, "NN".toList]

/-- `STOKPOLS`, utils.py L1422. -/
def stokPols : List Str := ["PI".toList, "PQ".toList, "PU".toList, "PV".toList]

/-- Lexicographic order of strings. Used by `polNames`, utils.py L1455. -/
def strLe : Str → Str → Bool
  | [], _ => true
  | _ :: _, [] => false
  | a :: s, b :: t => if a.toNat < b.toNat then true else if b.toNat < a.toNat then false else strLe s t

/-- The parts of a `UVData` object used: the polarizations (`get_pols()`, in the order of the polarization axis), the antennas of each row
and `data_array[row, channel, polarization]`; utils.py L1453-1457, L1488-1494. -/
structure UV where
  pols : List Str
  rows : List (ℤ × ℤ)
  data : ℕ → ℕ → ℕ → ℂ

/-- `ValueError`. Used by `select`, utils.py L1457. -/
inductive TErr | value
  deriving DecidableEq

/-- The name used for a polarization: pseudo-Stokes ones become `pI`, utils.py L1455. -/
def nameOf (p : Str) : Str := if upper p ∈ autoVisPols then p else "pI".toList

/-- `pols`, utils.py L1453-1455: sorted and without repetition. -/
def polNames (u : UV) : List Str :=
  pySorted strLe ((u.pols.filter (fun p => decide (upper p ∈ autoVisPols ++ stokPols))).map nameOf).dedup

/-- Positions of the elements that satisfy a condition. Used by `select`, utils.py L1457. -/
def positions {α : Type} (f : α → Bool) (l : List α) : List ℕ := (List.range l.length).filter (fun i => (l[i]?).any f)

/-- `uvd.select(bls=autobls, polarizations=pols)`, utils.py L1456-1457: keeps the order of rows and of the polarization axis; raises
`ValueError` if there is no autocorrelation or a polarization is missing. (No polarization at all is also treated as an error.) -/
def select (u : UV) (pols : List Str) : Except TErr UV :=
  let rs := positions (fun b : ℤ × ℤ => decide (b.1 = b.2)) u.rows
  let ps := positions (fun p => decide (p ∈ pols)) u.pols
  if rs.length = 0 ∨ pols.length = 0 ∨ ¬ pols.all (fun p => decide (p ∈ u.pols)) then .error .value
  else .ok { pols := u.pols.filter (fun p => decide (p ∈ pols)), rows := u.rows.filter (fun b => decide (b.1 = b.2)),
             data := fun r c i => u.data (rs.getD r 0) c (ps.getD i 0) }

/-- `uvd.get_antpairpols()`, utils.py L1488. -/
def antpairpols (u : UV) : List ((ℤ × ℤ) × Str) := u.rows.dedup.flatMap (fun b => u.pols.map (fun p => (b, p)))

/-- The name by which the factor is looked up, utils.py L1491-1492. -/
def lookupName (p : Str) : Str := if upper p ∈ stokPols then "pI".toList else p

/-- One pass of the loop, utils.py L1488-1494: all rows of the antenna pair, all channels, the polarization index `pols.index(pol)`. -/
def scaleStep (rows : List (ℤ × ℤ)) (pols : List Str) (j2k : Str → ℕ → ℝ) (d : ℕ → ℕ → ℕ → ℂ) (e : (ℤ × ℤ) × Str) : ℕ → ℕ → ℕ → ℂ :=
  fun r c i => if rows[r]? = some e.1 ∧ i = pols.idxOf (lookupName e.2) then d r c i * (j2k (lookupName e.2) c : ℂ) else d r c i

/-- `uvd_to_Tsys(uvd, beam)` on a copy of the data, utils.py L1451-1499; `jyToMk pol channel` is the conversion of the beam in mK per Jy. -/
noncomputable def uvdToTsys (jyToMk : Str → ℕ → ℝ) (u : UV) : Except TErr UV :=
  match select u (polNames u) with
  | .error e => .error e
  | .ok v => .ok { v with data := (antpairpols v).foldl (scaleStep v.rows (polNames u) (fun p c => jyToMk p c / 1000)) v.data }

/-- The beam solid angles taken from a `UVPSpec` object, utils.py L1470-1475: a dictionary by the first polarization of each pair;
`omega` is the column of `OmegaP` (or `OmegaPP`) by the position of the pair. -/
def beamDict {V : Type} (firstPols : List Str) (omega : ℕ → V) : Dict Str V :=
  ((List.range firstPols.length).zip firstPols).foldl (fun d e => Dict.set d (lookupName e.2) (omega e.1)) []

end HeraPspec.Tsys
