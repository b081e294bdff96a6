import Verif.Model.PyDict

/-!
Model of `PSpecContainer` (container.py L54-475) as a map in a file.

* The HDF5 file is a dictionary of groups, each a dictionary of spectrum entries. Iteration order is not modelled (h5py lists names
  alphabetically); names do not contain `/`.
* A stored object is a value of `V`; `uvp.write_to_group` succeeds or raises, `write : V → Bool`. When it raises, an entry without
  the `pspec_type` tag stays behind. Reading back a completely written object returns it.
* Opening and closing is modelled in `Transact.lean`.
-/
namespace HeraPspec.Container

/-- Exceptions: OSError, ValueError, TypeError, AttributeError, KeyError, and whatever `write_to_group` raises. Used by `spectra`, container.py L381-412. -/
inductive CErr | os | value | type | attribute | key | write
  deriving DecidableEq

/-- `mode` of the container. Used by `setOne`, container.py L275-340. -/
inductive Mode | r | rw
  deriving DecidableEq

/-- One spectrum group: whether it carries the `pspec_type` attribute, and the object written to it (`none`: incomplete). Used by `groupOf`, container.py L313-318. -/
structure Entry (V : Type) where
  tagged : Bool
  obj : Option V

/-- The file: groups of entries. Used by `groups`, container.py L414-424. -/
abbrev File (V : Type) := Dict String (Dict String (Entry V))

/-- An argument `pspec`: a UVPSpec object or something else. Used by `setOne`, container.py L275-340. -/
inductive Arg (V : Type) | uvp (v : V) | other

variable {V : Type}

/-- `groups()`, L414-424: all groups except the first "header". -/
def groups (f : File V) : List String := f.keys.erase "header"

/-- `spectra(group)`, L381-412: the entries that carry the tag. -/
def spectra (f : File V) (g : String) : Except CErr (List String) :=
  match f.get g with
  | none => .error .key
  | some d => .ok ((d.filter (fun e => e.2.tagged)).map (·.1))

/-- `group not in tree or psname not in tree[group]`, L303-306. -/
def inTree (f : File V) (g n : String) : Bool :=
  (groups f).contains g && (match spectra f g with
    | .error _ => false
    | .ok l => l.contains n)

/-- The group, created if needed, L313-318. -/
def groupOf (f : File V) (g : String) : Dict String (Entry V) := (f.get g).getD []

/-- `_store_pspec` and the tag, L336-340, into a fresh entry. -/
def store (write : V → Bool) (f : File V) (g n : String) (v : V) : File V × Except CErr Unit :=
  if write v then (f.set g ((groupOf f g).set n ⟨true, some v⟩), .ok ())
  else (f.set g ((groupOf f g).set n ⟨false, none⟩), .error .write)

/-- `set_pspec` for one object, L275-340. -/
def setOne (write : V → Bool) (mode : Mode) (swmr : Bool) (f : File V) (g n : String) (a : Arg V) (overwrite : Bool) :
    File V × Except CErr Unit :=
  if mode = .r then (f, .error .os)
  else if swmr && !inTree f g n then (f, .error .value)
  else match a with
    | .other => (f, .error .type)
    | .uvp v =>
      if (groupOf f g).has n then
        (if overwrite then store write (f.set g ((groupOf f g).del n)) g n v else (f, .error .attribute))
      else store write f g n v

/-- `set_pspec` for lists, L282-297: one after the other until one raises; every element must be a UVPSpec object. -/
def setMany (write : V → Bool) (mode : Mode) (swmr : Bool) (g : String) (overwrite : Bool) :
    File V → List (String × Arg V) → File V × Except CErr Unit
  | f, [] => if mode = .r then (f, .error .os) else (f, .ok ())
  | f, (n, a) :: rest =>
    if mode = .r then (f, .error .os)
    else match a with
      | .other => (f, .error .type)
      | .uvp v =>
        match setOne write mode swmr f g n (.uvp v) overwrite with
        | (f', .error e) => (f', .error e)
        | (f', .ok ()) => setMany write mode swmr g overwrite f' rest

/-- `get_pspec(group, psname)`, L365-371 and `_load_pspec`, L228-241. -/
def getOne (f : File V) (g n : String) : Except CErr V :=
  match f.get g with
  | none => .error .key
  | some d =>
    match d.get n with
    | none => .error .key
    | some e => if e.tagged then (match e.obj with
      | none => .error .type
      | some v => .ok v) else .error .type

/-- `get_pspec(group)`, L373-383: all tagged entries. -/
def getAll (f : File V) (g : String) : Except CErr (List V) :=
  match f.get g with
  | none => .error .key
  | some d => .ok ((d.filter (fun e => e.2.tagged)).filterMap (·.2.obj))

/-- A new file after `_open` in mode 'rw': only the header (`_update_header`, L243-268). -/
def newFile : File V := [("header", [])]

/-- A call that may change the file. (container.py L275-379) -/
inductive Op (V : Type)
  | set (g n : String) (a : Arg V) (overwrite : Bool)
  | setList (g : String) (items : List (String × Arg V)) (overwrite : Bool)

/-- The effect of one call. (container.py L275-379) -/
def step (write : V → Bool) (mode : Mode) (swmr : Bool) (f : File V) : Op V → File V
  | .set g n a ow => (setOne write mode swmr f g n a ow).1
  | .setList g items ow => (setMany write mode swmr g ow f items).1

/-- A history of calls. (container.py L275-379) -/
def run (write : V → Bool) (mode : Mode) (swmr : Bool) (f : File V) (ops : List (Op V)) : File V :=
  ops.foldl (step write mode swmr) f

end HeraPspec.Container
