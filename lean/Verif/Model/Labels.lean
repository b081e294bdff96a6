import Verif.Model.ArgParse

/-!
Model of `PSpecData.add`, `dset_idx` and `parse_blkey` (pspecdata.py L118-300 and L493-562). Strings are lists of characters.
Data sets (`UVData`) and calibrations (`UVCal`) are opaque values.
-/
namespace HeraPspec.Labels
open HeraPspec.ArgParse (Str)
open HeraPspec.UVP (mapE)

/-- The exceptions raised by the modelled functions. Used by `dictGet`, pspecdata.py L177-180. -/
inductive Err | value | type | key | assertion | index | calib
  deriving DecidableEq, Repr

/-- A Python value found in a slot for a `UVData` (or `UVCal`): such an object, `None`, or something else. Used by `dictGet`, pspecdata.py L177-180. -/
inductive Obj (D : Type) | obj (d : D) | none | other
  deriving DecidableEq, Repr

/-- An argument of `add`: `None`, a single object, a list or tuple, a dictionary, or something else. Used by `companionDict`, pspecdata.py L158-174. -/
inductive Arg (D : Type)
  | none | single (d : D) | list (l : List (Obj D)) | dict (l : List (Str × Obj D)) | other
  deriving Repr

/-- The `labels` argument: `None`, a string, or a list of strings. Used by `LArg.toList`, pspecdata.py L187-188. -/
inductive LArg | none | single (s : Str) | list (l : List Str)
  deriving DecidableEq, Repr

/-- `f".{ext:d}"`, L286. -/
def dotExt (ext : ℕ) : Str := '.' :: Nat.toDigits 10 ext

/-- The inner loop of the relabelling, pspecdata.py L283-290, with `fuel` iterations left (`ext < 1e5` with `ext` starting at 1
gives 99999 of them). `prev` is `self.labels[:i]`, `base` is `self.labels[i]`; if the loop runs out the label is left alone. -/
def relabelOne (prev : List Str) (base : Str) : ℕ → ℕ → Str → Str
  | 0, _, _ => base
  | fuel + 1, ext, l =>
    if l ∈ prev then relabelOne prev base fuel (ext + 1) (base ++ dotExt ext) else l

/-- The loop over all labels, pspecdata.py L282-290: the first argument is the part already visited. -/
def relabel : List Str → List Str → List Str
  | seen, [] => seen
  | seen, l :: rest => relabel (seen ++ [relabelOne seen l 99999 1 l]) rest

/-- `f"dset{i:d}"`, L254. -/
def dsetName (i : ℕ) : Str := 'd' :: 's' :: 'e' :: 't' :: Nat.toDigits 10 i

/-- Default labels, pspecdata.py L252-256. -/
def defaultLabels (nOld nNew : ℕ) : List Str := (List.range' nOld nNew).map dsetName

/-- The part of the state of `PSpecData` that `add` writes. `spw` is `spw_range`. Used by `St.empty`, pspecdata.py L73-80. -/
structure St (D : Type) where
  dsets : List D
  wgts : List (Option D)
  stds : List (Option D)
  labels : List Str
  nfreqs : Option ℕ
  spw : Option (ℕ × ℕ)
  deriving DecidableEq, Repr

/-- `__init__` without data sets, pspecdata.py L73-80. -/
def St.empty {D : Type} : St D := ⟨[], [], [], [], none, none⟩

/-- Look a label up in a dictionary argument, L177-180. -/
def dictGet {D : Type} (d : List (Str × Obj D)) (k : Str) : Except Err (Obj D) :=
  match d.find? (fun e => e.1 = k) with
  | some e => .ok e.2
  | none => .error .key

/-- A companion of a dictionary argument (`wgts`, `dsets_std`, `cals`), L158-174: `None` means `None` for every label. -/
def companionDict {D : Type} (keys : List Str) : Arg D → Except Err (List (Str × Obj D))
  | .none => .ok (keys.map (fun k => (k, Obj.none)))
  | .dict d => .ok d
  | _ => .error .type

/-- Convert `dsets` to a list, L183-184 and L197-198. -/
def dsetsList {D : Type} : Arg D → Except Err (List (Obj D))
  | .single d => .ok [.obj d]
  | .list l => .ok l
  | _ => .error .type

/-- Convert `wgts` to a list, L185-186, L193-194 and L199-200: `None` becomes `[None]`. -/
def wgtsList {D : Type} : Arg D → Except Err (List (Obj D))
  | .none => .ok [.none]
  | .single d => .ok [.obj d]
  | .list l => .ok l
  | _ => .error .type

/-- Convert `dsets_std` or `cals` to a list, L189-192, L195-198 and L201-204: `None` becomes one `None` per data set. -/
def restList {D : Type} (n : ℕ) : Arg D → Except Err (List (Obj D))
  | .none => .ok (List.replicate n .none)
  | .single d => .ok [.obj d]
  | .list l => .ok l
  | _ => .error .type

/-- The arguments after conversion to lists. Used by `unpackDict`, pspecdata.py L151-180. -/
structure Lists (D C : Type) where
  dsets : List (Obj D)
  wgts : List (Obj D)
  stds : List (Obj D)
  cals : List (Obj C)
  labels : Option (List Str)

/-- Unpack dictionaries, pspecdata.py L151-180. -/
def unpackDict {D C : Type} (ds : List (Str × Obj D)) (wgts stds : Arg D) (cals : Arg C) : Except Err (Lists D C) := do
  let keys := ds.map (·.1)
  let w ← companionDict keys wgts
  let s ← companionDict keys stds
  let c ← companionDict keys cals
  let dl ← mapE (dictGet ds) keys
  let sl ← mapE (dictGet s) keys
  let wl ← mapE (dictGet w) keys
  let cl ← mapE (dictGet c) keys
  return ⟨dl, wl, sl, cl, some keys⟩

/-- `labels` as an optional list, L187-188. -/
def LArg.toList : LArg → Option (List Str)
  | .none => Option.none
  | .single s => some [s]
  | .list l => some l

/-- Convert every argument to a list, pspecdata.py L150-216. -/
def toLists {D C : Type} (dsets wgts stds : Arg D) (cals : Arg C) (labels : LArg) : Except Err (Lists D C) :=
  match dsets with
  | .dict d => (match labels with
    | .none => unpackDict d wgts stds cals
    | _ => .error .value)
  | _ => do
    let dl ← dsetsList dsets
    let wl ← wgtsList wgts
    let sl ← restList dl.length stds
    let cl ← restList dl.length cals
    return ⟨dl, wl, sl, cl, labels.toList⟩

/-- The length checks, pspecdata.py L219-232. -/
def lengthsOk {D C : Type} (a : Lists D C) : Bool :=
  a.dsets.length == a.wgts.length && a.stds.length == a.dsets.length && a.cals.length == a.dsets.length &&
    (match a.labels with | none => true | some l => a.dsets.length == l.length)

/-- A data set slot must hold an object, L236-237. -/
def mustObj {D : Type} : Obj D → Except Err D
  | .obj d => .ok d
  | _ => .error .type

/-- A weight, error or calibration slot must hold an object or `None`, L238-247. -/
def optObj {D : Type} : Obj D → Except Err (Option D)
  | .obj d => .ok (some d)
  | .none => .ok none
  | .other => .error .type

/-- Calibrate one (data set, errors) pair, pspecdata.py L259-273. `cal c d` is `uvcalibrate`, which may fail. -/
def calOne {D C : Type} (cal : C → D → Option D) (x : (D × Option D) × Option C) : Except Err (D × Option D) :=
  match x.2 with
  | none => .ok x.1
  | some c =>
    match cal c x.1.1 with
    | none => .error .calib
    | some d => (match x.1.2 with
      | none => .ok (d, none)
      | some s => (match cal c s with
        | none => .error .calib
        | some s' => .ok (d, some s')))

/-- `PSpecData.add`, pspecdata.py L118-300. `nf d` is `d.Nfreqs`. On failure the state is unchanged (every exception precedes the
appending of L276-279, except the `IndexError` of L294 when the collection is still empty, and then nothing was appended).
Simplification: `uvcalibrate` acts on values, not in place on the caller's objects. -/
def add {D C : Type} (nf : D → ℕ) (cal : C → D → Option D) (s : St D) (dsets wgts stds : Arg D) (cals : Arg C)
    (labels : LArg) : Except Err (St D) := do
  let a ← toLists dsets wgts stds cals labels
  if lengthsOk a then
    let ds ← mapE mustObj a.dsets
    let ws ← mapE optObj a.wgts
    let ss ← mapE optObj a.stds
    let cs ← mapE optObj a.cals
    let newLabels := a.labels.getD (defaultLabels s.dsets.length ds.length)
    let prs ← mapE (calOne cal) ((ds.zip ss).zip cs)
    let all := s.dsets ++ prs.map (·.1)
    match all.head? with
    | none => .error .index
    | some d0 =>
      return ⟨all, s.wgts ++ ws, s.stds ++ prs.map (·.2), relabel [] (s.labels ++ newLabels), some (nf d0), some (0, nf d0)⟩
  else .error .assertion

/-- One call of `add`. (pspecdata.py L118-300) -/
structure Call (D C : Type) where
  dsets : Arg D
  wgts : Arg D
  stds : Arg D
  cals : Arg C
  labels : LArg

/-- A call whose exception the caller catches. (pspecdata.py L118-300) -/
def step {D C : Type} (nf : D → ℕ) (cal : C → D → Option D) (s : St D) (c : Call D C) : St D :=
  match add nf cal s c.dsets c.wgts c.stds c.cals c.labels with
  | .ok s' => s'
  | .error _ => s

/-- A history of calls. (pspecdata.py L118-300) -/
def run {D C : Type} (nf : D → ℕ) (cal : C → D → Option D) (s : St D) (cs : List (Call D C)) : St D :=
  cs.foldl (step nf cal) s

/-- A component of a key: an integer, a string, a tuple of such, or something else. Used by `addPol`, pspecdata.py L555-560. -/
inductive Atom | int (n : ℤ) | str (s : Str) | other
  deriving DecidableEq, Repr

/-- A component of a `parse_blkey` key. Used by `dsetIdx`, pspecdata.py L493-517. -/
inductive Comp | atom (a : Atom) | tup (l : List Atom)
  deriving DecidableEq, Repr

/-- `dset_idx`, pspecdata.py L493-517: labels are looked up, integers are returned as they are. -/
def dsetIdx (labels : List Str) : Comp → Except Err ℤ
  | .atom (.str s) => if s ∈ labels then .ok (labels.idxOf s) else .error .key
  | .atom (.int n) => .ok n
  | _ => .error .type

/-- The polarization element, pspecdata.py L555-560: absent, or a string or integer that is appended to the baseline. -/
def addPol (bl : List Atom) : List Comp → Except Err (List Atom)
  | [] => .ok bl
  | .atom (.str s) :: _ => .ok (bl ++ [.str s])
  | .atom (.int n) :: _ => .ok (bl ++ [.int n])
  | _ :: _ => .error .assertion

/-- The baseline part of a key, pspecdata.py L542-560. In the form `(dset, a, b, pol)` the second antenna `b` is taken as it is; a
tuple in that place is not modelled (it is an error here). -/
def parseBl : List Comp → Except Err (List Atom)
  | .atom (.int a) :: .atom b :: rest => addPol [.int a, b] rest
  | .tup t :: rest => addPol t rest
  | _ => .error .assertion

/-- `parse_blkey`, pspecdata.py L519-562, for a tuple key. -/
def parseBlkey (labels : List Str) : List Comp → Except Err (ℤ × List Atom)
  | d :: x :: rest => do
    let i ← dsetIdx labels d
    let bl ← parseBl (x :: rest)
    return (i, bl)
  | _ => .error .assertion

end HeraPspec.Labels
