import Verif.Model.Sort
import Mathlib.Data.List.Dedup
import Mathlib.Data.List.Basic
import Mathlib.Data.Int.Notation

/-!
Model of the size attributes (`Ntimes`, `Nblpairs`, ...) and of the table of baselines (`bl_array`, `bl_vecs`) of UVPSpec objects through their life: `pspec` (pspecdata.py
L4133-4183), `_select` (uvpspec_utils.py L587-742), `average_spectra` (grouping.py L620-668), `fold_spectra` (grouping.py L1421-1620, touches none of them but sets `folded`) and `combine_uvpspec`
(uvpspec.py L3012-3019, L3105-3123, L3235-3242, L3370-3384).

Simplifications: the entries of one window stand together in `freq_array` and `dly_array` (C13), the integer of a baseline-pair is split exactly (C02), the rows of a combination
are those `get_uvp_overlap` lists (C22, C24), which rows, windows and polarizations a selection keeps is an input (C12, C13). Times, frequencies and vectors are abstract.
-/
namespace HeraPspec.Sizes

/-- A row: baseline-pair integer, the two times and their average, uvpspec.py L228-275. -/
structure Row (T : Type) where
  blp : ℕ
  t1 : T
  t2 : T
  ta : T
  deriving DecidableEq

/-- A spectral window: its frequencies and delays, uvpspec.py L196-215. -/
structure Win (F : Type) where
  freqs : List F
  dlys : List F

/-- The object, uvpspec.py L72-110, L196-300. -/
structure Obj (T F V : Type) where
  rows : List (Row T)
  wins : List (Win F)
  pols : List ℤ
  bls : List (ℕ × V)
  folded : Bool
  nTimes : ℕ
  nTpairs : ℕ
  nBltpairs : ℕ
  nBlpairs : ℕ
  nSpws : ℕ
  nSpwdlys : ℕ
  nSpwfreqs : ℕ
  nDlys : ℕ
  nFreqs : ℕ
  nPols : ℕ
  nBls : ℕ

/-- Exceptions. Used by `average`, grouping.py L651. -/
inductive Err | assertion | index | value
  deriving DecidableEq, Repr

variable {T F V : Type} [DecidableEq T] [DecidableEq F]

/-- `len(np.unique(l))`, `len(set(l))`. Used by `fresh`, pspecdata.py L4146-4181. -/
def card {α : Type} [DecidableEq α] (l : List α) : ℕ := l.dedup.length

/-- The first and the second baseline of a pair, uvpspec_utils.py L695-697. -/
def blsOf (blp : ℕ) : List ℕ := [blp / 1000000, blp % 1000000]

/-- The object `pspec` makes from pairs of baselines and their pairs of times, pspecdata.py L4133-4183; `mid` is the mean of two times. -/
def fresh (mid : T → T → T) (vec : ℕ → V) (pairs : List ((ℕ × ℕ) × List (T × T))) (wins : List (Win F)) (pols : List ℤ) : Obj T F V :=
  let rows := pairs.flatMap (fun p => p.2.map (fun t => ⟨p.1.1 * 1000000 + p.1.2, t.1, t.2, mid t.1 t.2⟩))
  let bls := pySorted (fun a b => decide (a ≤ b)) (pairs.flatMap (fun p => [p.1.1, p.1.2])).dedup
  { rows := rows
    wins := wins
    pols := pols
    bls := bls.map (fun b => (b, vec b))
    folded := false
    nTimes := card (rows.map (·.t1) ++ rows.map (·.t2))
    nTpairs := card (rows.map (fun r => (r.t1, r.t2)))
    nBltpairs := card (rows.map (fun r => (r.blp, r.t1, r.t2)))
    nBlpairs := card (rows.map (·.blp))
    nSpws := (wins.filter (fun w => decide (w.dlys ≠ []))).length
    nSpwdlys := (wins.flatMap (·.dlys)).length
    nSpwfreqs := (wins.flatMap (·.freqs)).length
    nDlys := card (wins.flatMap (·.dlys))
    nFreqs := card (wins.flatMap (·.freqs))
    nPols := pols.length
    nBls := bls.length }

/-- Selecting windows, uvpspec_utils.py L588-620; from a folded object only the positive delays are kept, uvpspec.py L1410-1411. -/
def selSpws (pos : F → Bool) (keep : List ℕ) (o : Obj T F V) : Obj T F V :=
  let wins := (keep.filterMap (fun i => o.wins[i]?)).map (fun w => if o.folded then { w with dlys := w.dlys.filter pos } else w)
  { o with wins := wins, nDlys := card (wins.flatMap (·.dlys)), nSpws := wins.length, nSpwdlys := (wins.flatMap (·.dlys)).length,
           nSpwfreqs := (wins.flatMap (·.freqs)).length }

/-- Selecting rows, uvpspec_utils.py L664-703. -/
def selRows (keep : List ℕ) (o : Obj T F V) : Except Err (Obj T F V) :=
  if keep = [] then .error .assertion else
  let rows : List (Row T) := keep.filterMap (fun i => o.rows[i]?)
  let newBls : List ℕ := ((rows.map (·.blp)).flatMap blsOf).dedup
  let bls := o.bls.filter (fun b : ℕ × V => decide (b.1 ∈ newBls))
  .ok { o with rows := rows, nTpairs := card (rows.map (·.ta)), nBlpairs := card (rows.map (·.blp)), nBltpairs := rows.length,
               nTimes := card (rows.map (·.ta)), bls := bls, nBls := bls.length }

/-- Selecting polarizations, uvpspec_utils.py L724-742. -/
def selPols (keep : List ℕ) (o : Obj T F V) : Except Err (Obj T F V) :=
  if keep = [] then .error .index else
  let pols := keep.filterMap (fun i => o.pols[i]?)
  .ok { o with pols := pols, nPols := pols.length }

/-- `fold_spectra`, grouping.py L1421-1620. -/
def fold (o : Obj T F V) : Obj T F V := { o with folded := true }

/-- The rows one group of baseline-pairs becomes, grouping.py L625-647: those of its first pair, or their mean times. -/
def groupRows (mean : List T → T) (timeAvg : Bool) (o : Obj T F V) (b : ℕ) : List (Row T) :=
  let rs := o.rows.filter (fun r => decide (r.blp = b))
  if timeAvg then [⟨b, mean (rs.map (·.t1)), mean (rs.map (·.t2)), mean (rs.map (·.ta))⟩] else rs

/-- The vectors of baselines: each one is looked up in the old table; an absent one raises a ValueError, grouping.py L651. -/
def lookup (bls : List (ℕ × V)) : List ℕ → Except Err (List (ℕ × V))
  | [] => .ok []
  | b :: l => match bls.find? (fun e => decide (e.1 = b)) with
    | none => .error .value
    | some e => match lookup bls l with
      | .error x => .error x
      | .ok r => .ok ((b, e.2) :: r)

/-- `average_spectra`, grouping.py L620-668; the groups are represented by their first baseline-pair, a pair that is not in the object raises an AssertionError
(grouping.py L627); `rnd` rounds a time to the tolerance. -/
def average {Z : Type} [DecidableEq Z] (mean : List T → T) (rnd : T → Z) (timeAvg : Bool) (groups : List ℕ) (o : Obj T F V) : Except Err (Obj T F V) :=
  if groups.all (fun b => decide (b ∈ o.rows.map (·.blp))) then
    let rows := groups.flatMap (groupRows mean timeAvg o)
    match lookup o.bls (pySorted (fun a b => decide (a ≤ b)) (groups.flatMap blsOf).dedup) with
    | .error x => .error x
    | .ok bls =>
      let n := card (rows.map (fun r => (rnd r.t1, rnd r.t2)))
      .ok { o with rows := rows, bls := bls, nBltpairs := rows.length, nBlpairs := card (rows.map (·.blp)), nBls := bls.length, nTpairs := n, nTimes := n }
  else .error .assertion

/-- What identifies a row, uvpspec.py L3557-3567. -/
def key (r : Row T) : ℕ × T × T := (r.blp, r.t1, r.t2)

/-- The first row with each key. Used by `combine`, uvpspec.py L3563-3567. -/
def uniqRows : List (Row T) → List (Row T)
  | [] => []
  | r :: l => r :: (uniqRows l).filter (fun x => decide (key x ≠ key r))

/-- `combine_uvpspec`, uvpspec.py L3012-3019, L3105-3123, L3235-3242, L3370-3384: rows and polarizations of the result are those of all objects, each once; `wins` are its windows (those
of the first object, or those of all objects when windows are concatenated); `ord` sorts the rows. -/
def combine (ord : List (Row T) → List (Row T)) (us : List (Obj T F V)) (wins : List (Win F)) : Except Err (Obj T F V) :=
  let rows := ord (uniqRows (us.flatMap (·.rows)))
  let pols := (us.flatMap (·.pols)).dedup
  match lookup (us.flatMap (·.bls)) (pySorted (fun a b => decide (a ≤ b)) ((us.flatMap (·.bls)).map (·.1)).dedup) with
  | .error x => .error x
  | .ok bls =>
    let n := card (rows.map (fun r => (r.t1, r.t2)))
    .ok { rows := rows
          wins := wins
          pols := pols
          bls := bls
          folded := us.any (·.folded)
          nTimes := n
          nTpairs := n
          nBltpairs := rows.length
          nBlpairs := card (rows.map (·.blp))
          nSpws := wins.length
          nSpwdlys := (wins.flatMap (·.dlys)).length
          nSpwfreqs := (wins.flatMap (·.freqs)).length
          nDlys := card (wins.flatMap (·.dlys))
          nFreqs := card (wins.flatMap (·.freqs))
          nPols := pols.length
          nBls := bls.length }

end HeraPspec.Sizes
