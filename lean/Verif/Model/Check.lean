import Verif.Model.PyDict
import Mathlib.Data.List.Basic
import Mathlib.Data.List.Dedup

/-!
Model of `UVPSpec.check` (uvpspec.py L2346-2429): existence and types of the parameters, conversion of those with another type, the numbering of the
windows, and the arrays of exact windows.

Values are abstract; what numpy and Python do with them (`dtype`, `issubclass`, `astype`, calling a type) is a parameter (`Py`). The table of parameters
is an argument too, so that the theorems hold for any table; `params` is the table of uvpspec.py L72-398, L433-526.
-/
namespace HeraPspec.Check

/-- Exceptions. Used by `checkParam`, uvpspec.py L2358-2411. -/
inductive Err | assertion | value | attribute
  deriving DecidableEq, Repr

/-- The group a parameter belongs to, uvpspec.py L453-526. -/
inductive Group | ndarray | dict | immutable | dictOfDicts
  deriving DecidableEq, Repr

/-- A parameter: name, group, expected type, whether it is required, uvpspec.py L72-398, L405-451. -/
structure Param (Ty : Type) where
  name : String
  group : Group
  type : Ty
  required : Bool

/-- The value of an attribute: an array, a dictionary of arrays or other things, a dictionary of dictionaries, something else, uvpspec.py L2371-2411. -/
inductive Val (A X : Type) where
  | arr (a : A)
  | dict (d : List (ℕ × (A ⊕ X)))
  | ddict (d : List (String × List (ℕ × (A ⊕ X))))
  | obj (x : X)

/-- Python: `dtype.type`, `issubclass`, `astype` (may raise), `expected_type(array)` (may raise), `isinstance`, `expected_type(value)` (may raise), the
windows an array lists, the number an object is, the truth of an object. Used by `checkParam`, uvpspec.py L2371-2429. -/
structure Py (Ty A X : Type) where
  dtype : A → Ty
  sub : Ty → Ty → Bool
  astype : A → Ty → Option A
  call : Ty → A → Option A
  isinst : Val A X → Ty → Bool
  conv : Ty → Val A X → Option (Val A X)
  elems : Val A X → List ℕ
  num : Val A X → ℕ
  truth : Val A X → Bool

variable {Ty A X : Type}

/-- An object: the attributes it has, uvpspec.py L2358-2367. -/
abbrev Obj (A X : Type) := Dict String (Val A X)

/-- Values of a dictionary of arrays: every value must be an array of the expected type, uvpspec.py L2386-2397. -/
def dictOk (py : Py Ty A X) (t : Ty) (d : List (ℕ × (A ⊕ X))) : Bool :=
  d.all (fun e => match e.2 with
    | .inl a => py.sub (py.dtype a) t
    | .inr _ => false)

/-- Values of a dictionary of dictionaries: every value must be an array, and is converted, uvpspec.py L2404-2411. -/
def convInner (py : Py Ty A X) (t : Ty) : List (ℕ × (A ⊕ X)) → Except Err (List (ℕ × (A ⊕ X)))
  | [] => .ok []
  | (k, .inr _) :: _ => .error .assertion
  | (k, .inl a) :: d => match py.call t a with
    | none => .error .assertion
    | some b => match convInner py t d with
      | .error e => .error e
      | .ok d' => .ok ((k, .inl b) :: d')

/-- The outer dictionary, uvpspec.py L2404-2411. -/
def convOuter (py : Py Ty A X) (t : Ty) : List (String × List (ℕ × (A ⊕ X))) → Except Err (List (String × List (ℕ × (A ⊕ X))))
  | [] => .ok []
  | (k, d) :: l => match convInner py t d with
    | .error e => .error e
    | .ok d' => match convOuter py t l with
      | .error e => .error e
      | .ok l' => .ok ((k, d') :: l')

/-- The value of one existing parameter after the check, uvpspec.py L2368-2411. The message of the assertion that an attribute is an array calls
`tostring` of the attribute, which only arrays have, so an AttributeError is raised instead. -/
def checkVal (py : Py Ty A X) (p : Param Ty) (v : Val A X) : Except Err (Val A X) :=
  match p.group with
  | .ndarray => match v with
    | .arr a => if py.sub (py.dtype a) p.type then .ok v else match py.astype a p.type with
      | some b => .ok (.arr b)
      | none => .error .value
    | _ => .error .attribute
  | .dict => match v with
    | .dict d => if dictOk py p.type d then .ok v else .error .assertion
    | .ddict d => if d = [] then .ok v else .error .assertion
    | _ => .error .assertion
  | .immutable => if py.isinst v p.type then .ok v else match py.conv p.type v with
    | some w => .ok w
    | none => .error .assertion
  | .dictOfDicts => match v with
    | .ddict d => match convOuter py p.type d with
      | .ok d' => .ok (.ddict d')
      | .error e => .error e
    | .dict d => if d = [] then .ok v else .error .assertion
    | _ => .error .assertion

/-- One turn of the loop over the parameters, uvpspec.py L2358-2411. -/
def checkParam (py : Py Ty A X) (justMeta : Bool) (o : Obj A X) (p : Param Ty) : Except Err (Obj A X) :=
  match Dict.get o p.name with
  | none => if p.required && !justMeta then .error .assertion else .ok o
  | some v => match checkVal py p v with
    | .error e => .error e
    | .ok w => .ok (Dict.set o p.name w)

/-- The loop, uvpspec.py L2358-2411. -/
def checkAll (py : Py Ty A X) (justMeta : Bool) : Obj A X → List (Param Ty) → Except Err (Obj A X)
  | o, [] => .ok o
  | o, p :: ps => match checkParam py justMeta o p with
    | .error e => .error e
    | .ok o' => checkAll py justMeta o' ps

/-- The last checks: the windows are `0, ..., Nspws - 1` as a set, and an object with exact windows has their arrays, uvpspec.py L2412-2429. An attribute
that does not exist raises an AttributeError. -/
def checkEnd (py : Py Ty A X) (justMeta : Bool) (o : Obj A X) : Except Err Unit :=
  match Dict.get o "spw_array", Dict.get o "Nspws" with
  | some s, some n =>
    if (py.elems s).all (fun x => decide (x < py.num n)) && (List.range (py.num n)).all (fun x => decide (x ∈ py.elems s)) then
      match Dict.get o "exact_windows" with
      | none => .error .attribute
      | some e => if py.truth e && !justMeta then
          (if (Dict.get o "window_function_array").isSome && (Dict.get o "window_function_kperp").isSome then .ok () else .error .assertion)
        else .ok ()
    else .error .assertion
  | _, _ => .error .attribute

/-- `check`, uvpspec.py L2346-2429. -/
def check (py : Py Ty A X) (ps : List (Param Ty)) (justMeta : Bool) (o : Obj A X) : Except Err (Obj A X) :=
  match checkAll py justMeta o ps with
  | .error e => .error e
  | .ok o' => match checkEnd py justMeta o' with
    | .error e => .error e
    | .ok () => .ok o'

/-- The expected types that occur, uvpspec.py L72-398. -/
inductive NpTy | int | str | bool | c128 | f64 | u16 | i32 | i64 | cosmo
  deriving DecidableEq, Repr

/-- The parameters, in the alphabetical order of `_all_params`, uvpspec.py L72-398, L401-526. The attribute for
`symmetric_taper` is called `set_symmetric_taper` (L323) and the one for `time_2_array` is a second `_time_1_array` (L264), so these two are not parameters. -/
def params : List (Param NpTy) :=
  [⟨"Nblpairs", .immutable, .int, true⟩, ⟨"Nbls", .immutable, .int, true⟩, ⟨"Nbltpairs", .immutable, .int, true⟩,
   ⟨"Ndlys", .immutable, .int, true⟩, ⟨"Nfreqs", .immutable, .int, true⟩, ⟨"Npols", .immutable, .int, true⟩,
   ⟨"Nspwdlys", .immutable, .int, true⟩, ⟨"Nspwfreqs", .immutable, .int, true⟩, ⟨"Nspws", .immutable, .int, true⟩,
   ⟨"Ntimes", .immutable, .int, true⟩, ⟨"Ntpairs", .immutable, .int, true⟩, ⟨"OmegaP", .ndarray, .f64, false⟩,
   ⟨"OmegaPP", .ndarray, .f64, false⟩, ⟨"beam_freqs", .ndarray, .f64, false⟩, ⟨"beamfile", .immutable, .str, false⟩,
   ⟨"bl_array", .ndarray, .i32, true⟩, ⟨"bl_vecs", .ndarray, .f64, true⟩, ⟨"blpair_array", .ndarray, .i64, true⟩,
   ⟨"channel_width", .ndarray, .f64, true⟩, ⟨"cosmo", .immutable, .cosmo, false⟩, ⟨"cov_array_imag", .dict, .f64, false⟩,
   ⟨"cov_array_real", .dict, .f64, false⟩, ⟨"cov_model", .immutable, .str, false⟩, ⟨"data_array", .dict, .c128, true⟩,
   ⟨"dly_array", .ndarray, .f64, true⟩, ⟨"exact_windows", .immutable, .bool, false⟩, ⟨"folded", .immutable, .bool, true⟩,
   ⟨"freq_array", .ndarray, .f64, true⟩, ⟨"history", .immutable, .str, true⟩, ⟨"integration_array", .dict, .f64, true⟩,
   ⟨"label_1_array", .ndarray, .i32, true⟩, ⟨"label_2_array", .ndarray, .i32, true⟩, ⟨"labels", .ndarray, .str, true⟩,
   ⟨"lst_1_array", .ndarray, .f64, true⟩, ⟨"lst_2_array", .ndarray, .f64, true⟩, ⟨"lst_avg_array", .ndarray, .f64, true⟩,
   ⟨"norm", .immutable, .str, true⟩, ⟨"norm_units", .immutable, .str, true⟩, ⟨"nsample_array", .dict, .f64, true⟩,
   ⟨"polpair_array", .ndarray, .i32, true⟩, ⟨"r_params", .immutable, .str, true⟩, ⟨"scalar_array", .ndarray, .f64, true⟩,
   ⟨"spw_array", .ndarray, .u16, true⟩, ⟨"spw_dly_array", .ndarray, .u16, true⟩, ⟨"spw_freq_array", .ndarray, .u16, true⟩,
   ⟨"stats_array", .dictOfDicts, .c128, false⟩, ⟨"taper", .immutable, .str, true⟩, ⟨"telescope_location", .ndarray, .f64, true⟩,
   ⟨"time_1_array", .ndarray, .f64, true⟩, ⟨"time_avg_array", .ndarray, .f64, true⟩, ⟨"vis_units", .immutable, .str, true⟩,
   ⟨"weighting", .immutable, .str, true⟩, ⟨"wgt_array", .dict, .f64, true⟩, ⟨"window_function_array", .dict, .f64, false⟩,
   ⟨"window_function_kpara", .dict, .f64, false⟩, ⟨"window_function_kperp", .dict, .f64, false⟩]

/-- The names of the parameters that are required, uvpspec.py L405-451. -/
def required : List String :=
  ["Ntimes", "Ntpairs", "Nbltpairs", "Nblpairs", "Nspws", "Ndlys", "Npols", "Nfreqs", "history",
   "Nspwdlys", "Nspwfreqs", "r_params", "data_array", "wgt_array", "integration_array", "spw_array", "freq_array", "dly_array",
   "polpair_array", "lst_1_array", "lst_2_array", "time_1_array", "time_2_array", "blpair_array", "Nbls", "bl_vecs", "bl_array",
   "channel_width", "telescope_location", "weighting", "vis_units", "norm_units", "taper", "norm", "nsample_array", "lst_avg_array",
   "time_avg_array", "folded", "scalar_array", "labels", "label_1_array", "label_2_array", "spw_dly_array", "spw_freq_array", "symmetric_taper"]

end HeraPspec.Check
