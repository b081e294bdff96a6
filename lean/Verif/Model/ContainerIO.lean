import Verif.Model.Container
import Verif.Model.Hdf5

/-!
`PSpecContainer.set_pspec` / `get_pspec` with the contents of the groups: what is stored is what `UVPSpec.write_to_group` writes, and what is returned is what
`read_from_group` of a new object reads (container.py L203-241, L275-340, L365-415).
-/
namespace HeraPspec.ContainerIO
open HeraPspec.Container HeraPspec.Hdf5 HeraPspec.Params

variable {V : Type}

/-- What a group of the file holds: the HDF5 group of an object, or `none` for a call of `write_to_group` that raises. (container.py L203-222) -/
abbrev Content (V : Type) := Option (Hdf5.File V)

/-- `_store_pspec`, container.py L203-222: `write_to_group` with `run_check=True`. -/
def content (c : Codec V) (u : Hdf5.Obj V) : Content V := (writeGroup c u true).toOption

/-- An argument `pspec` given as an object becomes the contents of its group, container.py L282-340. -/
def lowerArg (c : Codec V) : Arg (Hdf5.Obj V) → Arg (Content V)
  | .uvp u => .uvp (content c u)
  | .other => .other

/-- A call of `set_pspec`, container.py L271-340. -/
def lowerOp (c : Codec V) : Op (Hdf5.Obj V) → Op (Content V)
  | .set g n a ow => .set g n (lowerArg c a) ow
  | .setList g items ow => .setList g (items.map (fun e => (e.1, lowerArg c e.2))) ow

/-- The file of a new container after a history of calls of `set_pspec`, container.py L271-340. -/
def history (c : Codec V) (calls : List (Op (Hdf5.Obj V))) : Container.File (Content V) :=
  run Option.isSome .rw false newFile (calls.map (lowerOp c))

/-- `UVPSpec()`: no attribute but `folded = False`, uvpspec.py L563-565. -/
def fresh (c : Codec V) : Hdf5.Obj V := ⟨[(n_folded, c.ff)], [], none⟩

/-- Exceptions of `get_pspec`: of the container, or of `read_from_group`. (container.py L224-241) -/
inductive GErr | container (e : CErr) | read (e : Hdf5.Err)
  deriving DecidableEq

/-- `_load_pspec`, container.py L224-241, of the contents of a complete group. -/
def load (c : Codec V) (sel : Selection V) : Content V → Except GErr (Hdf5.Obj V)
  | none => .error (.container .type)
  | some f => (readGroup c (fresh c) f sel).mapError .read

/-- `get_pspec(group, psname)` with arguments for partial reading, container.py L365-396. -/
def getPspec (c : Codec V) (f : Container.File (Content V)) (g n : String) (sel : Selection V) : Except GErr (Hdf5.Obj V) :=
  match getOne f g n with
  | .error e => .error (.container e)
  | .ok x => load c sel x

/-- `get_pspec(group)`, container.py L398-415: all tagged entries in the order of the group. -/
def getPspecs (c : Codec V) (f : Container.File (Content V)) (g : String) (sel : Selection V) : Except GErr (List (Hdf5.Obj V)) :=
  match getAll f g with
  | .error e => .error (.container e)
  | .ok xs => HeraPspec.UVP.mapE (load c sel) xs

end HeraPspec.ContainerIO
