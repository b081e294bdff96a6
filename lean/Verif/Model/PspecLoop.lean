import Verif.Model.Settings
import Mathlib.Data.List.Dedup

/-!
Model of the loops of `PSpecData.pspec`, pspecdata.py L3692-4190: which G and H matrices are used (L3832-3865), which rows are
produced and which metadata are stored with them (L3740-4110), and the counts derived from them (L4112-4175).
-/
namespace HeraPspec.PspecLoop
open HeraPspec.Settings

section GH
variable {κ Pol M GH : Type} [DecidableEq κ] [DecidableEq M]

/-- One request for G and H: the two keys and the polarization number `pol = p[0]`. Used by `ghStep`, pspecdata.py L3832-3865. -/
structure Req (κ Pol : Type) where
  k1 : κ
  k2 : κ
  pol : Pol

/-- `_identity_Y`, `_identity_G` and `_identity_H`, three dictionaries with the same keys: here one, of (Y pair, G and H). Used by `ghStep`, pspecdata.py L3832-3865. -/
abbrev GHCache (κ M GH : Type) := Dict (κ × κ) ((M × M) × GH)

/-- The polarization that `get_G` and `get_H` see: used only with `exact_norm` (L1643-1650). -/
def beamPol (exact : Bool) (p : Pol) : Option Pol := if exact then some p else none

/-- One step of the identity-weighting branch, pspecdata.py L3832-3865: reuse the first entry with the same flag weights, or
compute. `rOf` is `R`, `yOf` is `Y`, `fish` computes G and H from the two R matrices and the beam. Simplification: `np.isclose`
of binary matrices is equality. -/
def ghStep (rOf yOf : κ → M) (fish : M → M → Option Pol → GH) (exact : Bool) (c : GHCache κ M GH) (r : Req κ Pol) :
    GHCache κ M GH × GH :=
  match c.find? (fun e => decide (e.2.1 = (yOf r.k1, yOf r.k2))) with
  | some e => (c, e.2.2)
  | none =>
    let v := fish (rOf r.k1) (rOf r.k2) (beamPol exact r.pol)
    (c.set (r.k1, r.k2) ((yOf r.k1, yOf r.k2), v), v)

/-- The loop over polarizations and baseline-pairs of one window (the caches are cleared at its start, L3703). -/
def ghLoop (rOf yOf : κ → M) (fish : M → M → Option Pol → GH) (exact : Bool) : GHCache κ M GH → List (Req κ Pol) → List GH
  | _, [] => []
  | c, r :: rs => (ghStep rOf yOf fish exact c r).2 :: ghLoop rOf yOf fish exact (ghStep rOf yOf fish exact c r).1 rs

end GH

section Rows
variable {Blp Tm Pol Row : Type}

/-- The loop over baseline-pairs, for one window and polarization (L3796-4087): `mk` builds one row from a baseline-pair and an
integration; `times` lists the integrations (time in the first, time in the second data set) of a baseline-pair. -/
def rowsOf (times : Blp → List (Tm × Tm)) (blps : List Blp) {R : Type} (mk : Blp → Tm × Tm → R) : List R :=
  blps.flatMap (fun b => (times b).map (mk b))

/-- The lists that `pspec` accumulates: for every window, for every polarization that is not skipped, its rows; and the metadata
rows (baseline-pair, time_1, time_2). Used by `polLoop`, pspecdata.py L3722-4098. -/
structure Out (Blp Tm Pol Row : Type) where
  polpairs : List Pol
  data : List (List Row)
  metaRows : List (Blp × Tm × Tm)

/-- The loop over polarizations of window `i`, pspecdata.py L3722-4098: `j` counts all requested polarizations, `valid` is
`validate_pol`, and metadata are stored only if `i < 1 and j < 1` (L4072). -/
def polLoop (valid : Pol → Bool) (times : Blp → List (Tm × Tm)) (blps : List Blp) (mk : ℕ → Pol → Blp → Tm × Tm → Row) (i : ℕ) :
    ℕ → List Pol → Out Blp Tm Pol Row
  | _, [] => ⟨[], [], []⟩
  | j, p :: ps =>
    let o := polLoop valid times blps mk i (j + 1) ps
    if valid p then
      ⟨p :: o.polpairs, rowsOf times blps (mk i p) :: o.data,
        (if i < 1 ∧ j < 1 then rowsOf times blps (fun b t => (b, t.1, t.2)) else []) ++ o.metaRows⟩
    else o

/-- The result: the polarization pairs of the last window, the rows of every window, and the metadata rows. Used by `spwLoop`, pspecdata.py L3694-4110. -/
structure Result (Blp Tm Pol Row : Type) where
  polpairs : List Pol
  data : List (List (List Row))
  metaRows : List (Blp × Tm × Tm)

/-- The loop over windows, pspecdata.py L3694-4110: a window without any valid polarization raises. -/
def spwLoop (valid : Pol → Bool) (times : Blp → List (Tm × Tm)) (blps : List Blp) (mk : ℕ → Pol → Blp → Tm × Tm → Row)
    (pols : List Pol) : ℕ → ℕ → Except Err (Result Blp Tm Pol Row)
  | _, 0 => .ok ⟨[], [], []⟩
  | i, n + 1 =>
    let o := polLoop valid times blps mk i 0 pols
    if o.polpairs = [] then .error .value
    else match spwLoop valid times blps mk pols (i + 1) n with
      | .error e => .error e
      | .ok r => .ok ⟨if n = 0 then o.polpairs else r.polpairs, o.data :: r.data, o.metaRows ++ r.metaRows⟩

/-- `pspec` with `nspws` windows. (pspecdata.py L3692-4190) -/
def pspecRows (valid : Pol → Bool) (times : Blp → List (Tm × Tm)) (blps : List Blp) (mk : ℕ → Pol → Blp → Tm × Tm → Row)
    (pols : List Pol) (nspws : ℕ) : Except Err (Result Blp Tm Pol Row) :=
  spwLoop valid times blps mk pols 0 nspws

/-- `uvp.Nbltpairs`, pspecdata.py L4128-4135: the number of distinct metadata rows. -/
def nbltpairs [DecidableEq Blp] [DecidableEq Tm] (m : List (Blp × Tm × Tm)) : ℕ := m.dedup.length

end Rows
end HeraPspec.PspecLoop
