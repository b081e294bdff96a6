import Verif.Model.Labels
import Mathlib.Logic.Function.Basic

/-!
Model of the calibration step of `PSpecData.add` (pspecdata.py L258-273) and of the way `pspec_run` fills it
(L4901-4981, L5005-5013 and `_load_dsets`, `_load_cals`, L5559-5651). `uvcalibrate(..., inplace=True)` changes the `UVData`
object it is given, so objects are references into a memory here; `Verif/Model/Labels.lean` treats them as values.
-/
namespace HeraPspec.Labels
open HeraPspec.UVP (mapE)

/-- The memory: the content of every `UVData` object. Used by `calRefs`, pspecdata.py L258-273. -/
abbrev Mem (D : Type) := ℕ → D

/-- The `(data set, error set, calibration)` triples in the order of the loop of pspecdata.py L259-273, as the list of calls
of `uvcalibrate`: for each triple with a calibration, first the data set, then the error set if there is one. -/
def calCalls {C : Type} : List ((ℕ × Option ℕ) × Option C) → List (ℕ × C)
  | [] => []
  | ((_, _), none) :: rest => calCalls rest
  | ((d, none), some c) :: rest => (d, c) :: calCalls rest
  | ((d, some s), some c) :: rest => (d, c) :: (s, c) :: calCalls rest

/-- Run the calls of `uvcalibrate` one after the other, pspecdata.py L259-273. `cal c d` is the content of a data set `d`
after `uvcalibrate(d, c, inplace=True)`, or `none` if it raises, in which case it is taken to leave that data set alone. The
second component tells whether a call raised. (The keyword written in L263-265 and L270-272 is part of the content.) -/
def calRefs {D C : Type} (cal : C → D → Option D) : Mem D → List (ℕ × C) → Mem D × Bool
  | m, [] => (m, false)
  | m, (a, c) :: rest =>
    match cal c (m a) with
    | none => (m, true)
    | some d => calRefs cal (Function.update m a d) rest

/-- `PSpecData.add` on references, pspecdata.py L118-300: the memory and the collection afterwards, and the exception if
there was one. The checks of L150-247 come before the calibration, the appending of L276-279 after it. -/
def addRef {D C : Type} (nf : D → ℕ) (cal : C → D → Option D) (m : Mem D) (s : St ℕ) (dsets wgts stds : Arg ℕ)
    (cals : Arg C) (labels : LArg) : Mem D × Except Err (St ℕ) :=
  match toLists dsets wgts stds cals labels with
  | .error e => (m, .error e)
  | .ok a =>
    if lengthsOk a then
      match mapE mustObj a.dsets with
      | .error e => (m, .error e)
      | .ok ds => match mapE optObj a.wgts with
        | .error e => (m, .error e)
        | .ok ws => match mapE optObj a.stds with
          | .error e => (m, .error e)
          | .ok ss => match mapE optObj a.cals with
            | .error e => (m, .error e)
            | .ok cs =>
              let r := calRefs cal m (calCalls ((ds.zip ss).zip cs))
              if r.2 then (r.1, .error .calib)
              else match (s.dsets ++ ds).head? with
                | none => (r.1, .error .index)
                | some d0 => (r.1, .ok ⟨s.dsets ++ ds, s.wgts ++ ws, s.stds ++ ss,
                    relabel [] (s.labels ++ a.labels.getD (defaultLabels s.dsets.length ds.length)),
                    some (nf (r.1 d0)), some (0, nf (r.1 d0))⟩)
    else (m, .error .assertion)

/-- The `dsets` or `dsets_std` argument of `pspec_run`: file names, or objects of the caller (pspecdata.py L4902, L4930). Lists that
mix both are not modelled (they fail the assertion of L4918 or L4950 or the reading). -/
inductive RunData (F : Type) | files (l : List F) | objs (l : List ℕ)

/-- The `cals` argument of `pspec_run` when it is not `None`: something that is not a list, or a list (pspecdata.py L4970-4971). -/
inductive RunCals (G : Type) | one (g : G) | many (l : List G)

/-- `_load_dsets`, pspecdata.py L5595-5613: every element of the list is read into a new `UVData` object (`next` is the first
unused reference). `read f` is `none` if reading raises; no list is returned then. The `cals` argument of the helper is
not used by it. -/
def loadDsets {D F : Type} (read : F → Option D) : Mem D → ℕ → List F → Option (Mem D × ℕ × List ℕ)
  | m, next, [] => some (m, next, [])
  | m, next, f :: fs =>
    match read f with
    | none => none
    | some d => match loadDsets read (Function.update m next d) (next + 1) fs with
      | none => none
      | some (m', next', l) => some (m', next', next :: l)

/-- The objects of an argument of `pspec_run`, pspecdata.py L4901-4916 and L4929-4948. -/
def runObjs {D F : Type} (read : F → Option D) (m : Mem D) (next : ℕ) : RunData F → Option (Mem D × ℕ × List ℕ)
  | .files l => loadDsets read m next l
  | .objs l => some (m, next, l)

/-- The calibrations of `pspec_run` for `n` data sets, pspecdata.py L4969-4981 with `_load_cals` (L5633-5651): a single one is
used for all data sets. `readCal g` is the calibration object, read from a file or given. -/
def runCals {C G : Type} (readCal : G → C) (n : ℕ) : Option (RunCals G) → Arg C
  | none => .none
  | some (.one g) => .list (List.replicate n (.obj (readCal g)))
  | some (.many l) => .list (l.map (fun g => .obj (readCal g)))

/-- The data sets of `pspec_run` up to the construction of `PSpecData`, pspecdata.py L4901-4951, L4969-4981, L5005-5013: the memory afterwards and
the collection, or an exception; `none` in the second component is the early return without output when reading raises
`ValueError` (L4911-4914 and L4943-4947; other exceptions of the reader are not distinguished). The number of error sets is checked
(L4925). The checks of the spectral windows and the beam in between do not touch the data. -/
def runAdd {D C F G : Type} (nf : D → ℕ) (cal : C → D → Option D) (read : F → Option D) (readCal : G → C)
    (m : Mem D) (next : ℕ) (dsets : RunData F) (stds : Option (RunData F)) (cals : Option (RunCals G)) (labels : LArg) :
    Mem D × Option (Except Err (St ℕ)) :=
  match runObjs read m next dsets with
  | none => (m, none)
  | some (m1, next1, ds) =>
    match stds with
    | none =>
      let r := addRef nf cal m1 St.empty (.list (ds.map .obj)) (.list (ds.map (fun _ => .none))) .none
        (runCals readCal ds.length cals) labels
      (r.1, some r.2)
    | some sd =>
      match runObjs read m1 next1 sd with
      | none => (m1, none)
      | some (m2, _, ss) =>
        if ss.length = ds.length then
          let r := addRef nf cal m2 St.empty (.list (ds.map .obj)) (.list (ds.map (fun _ => .none))) (.list (ss.map .obj))
            (runCals readCal ds.length cals) labels
          (r.1, some r.2)
        else (m2, some (.error .assertion))

end HeraPspec.Labels
