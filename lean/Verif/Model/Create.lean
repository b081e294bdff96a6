import Verif.Model.Labels

/-!
Model of the constructor `PSpecData.__init__` (pspecdata.py L72-117) and of `pspecdata_time_difference` (utils.py L1378-1386), on top of the model of
`add`. Arguments are `None`, lists or dictionaries, the documented forms; other values give a `TypeError` (a bare `UVData` has no length).
-/
namespace HeraPspec.Create
open HeraPspec.ArgParse (Str)
open HeraPspec.Labels

/-- A `PSpecData` object: its collection and its beam. Used by `init`, pspecdata.py L72-112. -/
structure Obj (D B : Type) where
  st : St D
  beam : Option B
  deriving DecidableEq, Repr

/-- `[None for dset in dsets]` if `wgts` is `None`, pspecdata.py L93-94: over the keys of a dictionary too. -/
def initWgts {D : Type} (dsets : Arg D) : Arg D → Arg D
  | .none => match dsets with
    | .list l => .list (l.map (fun _ => Labels.Obj.none))
    | .dict l => .list (l.map (fun _ => Labels.Obj.none))
    | _ => .list []
  | w => w

/-- Is this slot `None`? Used by `initStds`, pspecdata.py L97. -/
def isNone {D : Type} : Labels.Obj D → Bool
  | .none => true
  | _ => false

/-- `if dsets_std is not None and None in dsets_std: dsets_std = None`, pspecdata.py L97-98; in a dictionary `in` looks at the keys. -/
def initStds {D : Type} : Arg D → Arg D
  | .list l => if l.any isNone then .none else .list l
  | s => s

/-- `len(dsets)`, pspecdata.py L72 and L101. -/
def argLen {D : Type} : Arg D → Except Err ℕ
  | .none => .ok 0
  | .list l => .ok l.length
  | .dict l => .ok l.length
  | _ => .error .type

/-- `PSpecData.__init__`, pspecdata.py L72-117. -/
def init {D C B : Type} (nf : D → ℕ) (cal : C → D → Option D) (dsets wgts stds : Arg D) (cals : Arg C) (labels : LArg) (beam : Option B) : Except Err (Obj D B) :=
  match argLen dsets with
  | .error e => .error e
  | .ok 0 => .ok ⟨St.empty, beam⟩
  | .ok _ => match add nf cal St.empty dsets (initWgts dsets wgts) (initStds stds) cals labels with
    | .error e => .error e
    | .ok s => .ok ⟨s, beam⟩

/-- A weight as an argument: the list `ds.wgts` holds `None` or `UVData`. Used by `timeDifference`, utils.py L1385. -/
def slot {D : Type} : Option D → Labels.Obj D
  | none => .none
  | some d => .obj d

/-- `pspecdata_time_difference`, utils.py L1378-1386. `td` is `uvd_time_difference`, which may raise. -/
def timeDifference {D C B : Type} (nf : D → ℕ) (cal : C → D → Option D) (td : D → Option D) (o : Obj D B) : Except Err (Obj D B) :=
  match o.st.dsets[0]?, o.st.dsets[1]? with
  | some d0, some d1 => match td d0, td d1 with
    | some t0, some t1 => init (C := C) nf cal (.list [.obj t0, .obj t1]) (.list (o.st.wgts.map slot)) .none .none .none o.beam
    | _, _ => .error .value
  | _, _ => .error .index

end HeraPspec.Create
