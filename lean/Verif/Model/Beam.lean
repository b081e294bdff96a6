import Verif.Model.PyDict
import Mathlib.Data.Int.Notation
import Mathlib.Data.List.Basic

/-!
Model of `PSpecBeamFromArray`, pspecbeam.py L599-835, and `PSpecBeamBase.get_Omegas`, L294-348.
Strings for polarizations are converted by pyuvdata's `polstr2num`/`polnum2str`, which are arguments (`none` for a KeyError).
Arrays are lists (`beam_freqs` is one-dimensional); an argument that cannot be converted to an array is `none`.
-/
namespace HeraPspec.Beam
variable {V : Type}

/-- Used by `addPol`, pspecbeam.py L722-751. -/
inductive Err
  | key
  | type
  | value
  | notImplemented
  | attribute
deriving DecidableEq

/-- A polarization given as a string or as an integer. Used by `resolve`, pspecbeam.py L724-725. -/
inductive PolKey
  | str (s : String)
  | num (n : ℤ)
deriving DecidableEq

/-- `allowed_pols`, L645. -/
def allowed : List ℤ := [1, 2, 3, 4, -5, -6, -7, -8]

/-- The object: number of beam frequencies and the two dictionaries. `avail` says whether `available_pols` has been set. Used by `addPol`, pspecbeam.py L722-751. -/
structure Beam (V : Type) where
  n : ℕ
  omP : Dict ℤ (List V)
  omPP : Dict ℤ (List V)
  avail : Bool

/-- Conversion of a polarization argument, L724-725, L781-782, L809-810. -/
def resolve (s2n : String → Option ℤ) : PolKey → Option ℤ
  | .num n => some n
  | .str s => s2n s

/-- `add_pol`, L722-751: the object afterwards and the exception, if any. -/
def addPol (s2n : String → Option ℤ) (b : Beam V) (pol : PolKey) (p pp : Option (List V)) : Beam V × Option Err :=
  match resolve s2n pol with
  | none => (b, some .key)
  | some k =>
    if k ∉ allowed then (b, some .key)
    else match p, pp with
      | some p, some pp =>
        if p.length ≠ b.n ∨ pp.length ≠ b.n then (b, some .value)
        else ({ b with omP := Dict.set b.omP k p, omPP := Dict.set b.omPP k pp, avail := true }, none)
      | _, _ => (b, some .type)

/-- The renaming loop over one dictionary argument, L670-678 and L679-687, over the keys `ks` listed at the start. -/
def rename (s2n : String → Option ℤ) : List PolKey → Dict PolKey (Option (List V)) → Except Err (Dict PolKey (Option (List V)))
  | [], d => .ok d
  | .num n :: ks, d => if n ∉ allowed then .error .key else rename s2n ks d
  | .str s :: ks, d =>
    match s2n s with
    | none => .error .key
    | some n =>
      match Dict.get d (.str s) with
      | none => .error .key
      | some v => if n ∉ allowed then .error .key else rename s2n ks (Dict.set (Dict.del d (.str s)) (.num n) v)

/-- One round of the loop L690-699. -/
def initStep (s2n : String → Option ℤ) (P PP : Dict PolKey (Option (List V))) (b : Beam V) (k : ℤ) : Except Err (Beam V) :=
  match Dict.get P (.num k), Dict.get PP (.num k) with
  | none, none => .ok b
  | some p, some pp =>
    match addPol s2n b (.num k) p pp with
    | (b', none) => .ok b'
    | (_, some e) => .error e
  | _, _ => .error .key

/-- Left fold in the error monad. Used by `init`, pspecbeam.py L641-705. -/
def foldE {α β : Type} (f : β → α → Except Err β) : β → List α → Except Err β
  | b, [] => .ok b
  | b, a :: l => match f b a with
    | .error e => .error e
    | .ok b' => foldE f b' l

/-- An argument of the constructor: one array or a dictionary. Used by `args`, pspecbeam.py L650-667. -/
inductive Arg (V : Type)
  | arr (l : List V)
  | dict (d : Dict PolKey (Option (List V)))

/-- L650-667: the two dictionaries, or a TypeError for mixed arguments. -/
def args : Arg V → Arg V → Except Err (Dict PolKey (Option (List V)) × Dict PolKey (Option (List V)))
  | .arr p, .arr pp => .ok ([(.num 1, some p)], [(.num 1, some pp)])
  | .dict p, .dict pp => .ok (p, pp)
  | _, _ => .error .type

/-- `__init__`, L641-705. The renamed dictionaries are the caller's own objects, so they are returned as well. -/
def init (s2n : String → Option ℤ) (n : ℕ) (P PP : Arg V) :
    Except Err (Beam V × Dict PolKey (Option (List V)) × Dict PolKey (Option (List V))) :=
  match args P PP with
  | .error e => .error e
  | .ok (d, dd) =>
    match rename s2n d.keys d with
    | .error e => .error e
    | .ok d' =>
      match rename s2n dd.keys dd with
      | .error e => .error e
      | .ok dd' =>
        match foldE (initStep s2n d' dd') ⟨n, [], [], false⟩ allowed with
        | .error e => .error e
        | .ok b => .ok (b, d', dd')

/-- `power_beam_int`, L780-790. Without any polarization the error message itself fails (`available_pols` is unset). -/
def powerInt (s2n : String → Option ℤ) (b : Beam V) (pol : PolKey) : Except Err (List V) :=
  match resolve s2n pol with
  | none => .error .key
  | some k => match Dict.get b.omP k with
    | some l => .ok l
    | none => if b.avail then .error .key else .error .attribute

/-- `power_beam_sq_int`, L808-818. -/
def powerSqInt (s2n : String → Option ℤ) (b : Beam V) (pol : PolKey) : Except Err (List V) :=
  match resolve s2n pol with
  | none => .error .key
  | some k => match Dict.get b.omPP k with
    | some l => .ok l
    | none => if b.avail then .error .key else .error .attribute

/-- A call of `add_pol`. (pspecbeam.py L722-835) -/
structure Call (V : Type) where
  pol : PolKey
  p : Option (List V)
  pp : Option (List V)

/-- A history of `add_pol` calls whose exceptions are caught. (pspecbeam.py L722-835) -/
def calls (s2n : String → Option ℤ) (b : Beam V) (cs : List (Call V)) : Beam V :=
  cs.foldl (fun b c => (addPol s2n b c.pol c.p c.pp).1) b

/-- The columns collected by `get_Omegas`, L327-344, for pairs of polarization strings. -/
def omegaCols (s2n : String → Option ℤ) (b : Beam V) : List (String × String) → Except Err (List (List V) × List (List V))
  | [] => .ok ([], [])
  | (p, q) :: rest =>
    if p ≠ q then .error .notImplemented
    else match powerInt s2n b (.str p), powerSqInt s2n b (.str p) with
      | .ok x, .ok y => match omegaCols s2n b rest with
        | .ok (xs, ys) => .ok (x :: xs, y :: ys)
        | .error e => .error e
      | .error e, _ => .error e
      | _, .error e => .error e

/-- `np.array(columns).T`, L346-347: row per frequency, column per pair. -/
def transpose (n : ℕ) (cols : List (List V)) : List (List V) := (List.range n).map (fun i => cols.filterMap (fun c => c[i]?))

/-- `get_Omegas`, L320-348. -/
def getOmegas (s2n : String → Option ℤ) (b : Beam V) (ps : List (String × String)) : Except Err (List (List V) × List (List V)) :=
  match omegaCols s2n b ps with
  | .error e => .error e
  | .ok (x, y) => .ok (transpose b.n x, transpose b.n y)

end HeraPspec.Beam
