import Verif.Model.Cli
import Verif.Model.Pstokes

/-!
Model of scripts/generate_pstokes_run.py L13-30, from the command line (Model/Cli.lean, parser of pstokes.py L520-563) on. `construct_pstokes` is that of
Model/Pstokes.lean. The file system is a dictionary of `UVData` contents; reading a whole file and writing one are atomic here. `num` is
`pyuvdata.utils.polstr2num` (`none`: KeyError). `UVData.__iadd__` joins along the polarization axis and refuses common polarizations; whatever else makes it
refuse is the parameter `addOk`.
-/
namespace HeraPspec.StokesRun
open HeraPspec.Pstokes (UVD)
open HeraPspec.ArgParse (Str)

/-- Exceptions: command line, file missing, file exists, name of a polarization, `construct_pstokes`, `+=`. Used by `script`, scripts/generate_pstokes_run.py L13-30. -/
inductive Err | usage | missing | exist | key | index | stokes (e : Pstokes.Err) | add
  deriving DecidableEq

/-- Files by path. Used by `script`, scripts/generate_pstokes_run.py L16, L30. -/
abbrev FS := Dict String UVD

/-- `construct_pstokes(uvd, uvd, p)`: a copy with the one polarization; the convention is set, pstokes.py L116-125, L142-147. -/
noncomputable def onePol (num : String → Option ℤ) (u : UVD) (p : String) : Except Err UVD :=
  match num p with
  | none => .error .key
  | some s => match Pstokes.construct u u s with
    | .error e => .error (.stokes e)
    | .ok o => .ok { u with conv := some (Pstokes.convOf u), pols := [s], data := fun _ => o.data.getD [], flags := fun _ => o.flags.getD [],
                            nsamp := fun _ => o.nsamp.getD [] }

/-- `u += v` along the polarization axis. pyuvdata, used at scripts/generate_pstokes_run.py L27. -/
def addPol (addOk : UVD → UVD → Bool) (u v : UVD) : Except Err UVD :=
  if u.pols.any (fun p => v.pols.contains p) || !addOk u v then .error .add
  else .ok { u with pols := u.pols ++ v.pols, data := fun p => if p ∈ u.pols then u.data p else v.data p,
                    flags := fun p => if p ∈ u.pols then u.flags p else v.flags p, nsamp := fun p => if p ∈ u.pols then u.nsamp p else v.nsamp p }

/-- The loop, scripts/generate_pstokes_run.py L25-27. -/
noncomputable def addAll (num : String → Option ℤ) (addOk : UVD → UVD → Bool) (u : UVD) : UVD → List String → Except Err UVD
  | out, [] => .ok out
  | out, p :: ps => match num p with
    | none => .error .key
    | some s =>
      if s ∈ out.pols then addAll num addOk u out ps
      else match onePol num u p with
        | .error e => .error e
        | .ok v => match addPol addOk out v with
          | .error e => .error e
          | .ok out' => addAll num addOk u out' ps

/-- scripts/generate_pstokes_run.py L19-27. -/
noncomputable def output (num : String → Option ℤ) (addOk : UVD → UVD → Bool) (keep : Bool) (u : UVD) (ps : List String) : Except Err UVD :=
  if keep then addAll num addOk u u ps
  else match ps with
    | [] => .error .index
    | p :: _ => match onePol num u p with
      | .error e => .error e
      | .ok v => addAll num addOk u v ps

/-- What a loop over `args.pstokes` sees: the elements of a list, or the characters of a string. Python language semantics, scripts/generate_pstokes_run.py L24-25. -/
def elems : Option Cli.Val → List String
  | some (.str s) => s.toList.map String.singleton
  | some (.list l) => l.filterMap (fun v => match v with | .str s => some s | _ => none)
  | _ => []

/-- A flag. scripts/generate_pstokes_run.py L19, L30. -/
def isSet : Option Cli.Val → Bool
  | some (.bool b) => b
  | _ => false

/-- scripts/generate_pstokes_run.py L17-18. -/
def outPath (input : String) : Option Cli.Val → String
  | some (.str s) => s
  | _ => input

/-- The whole script; the files afterwards, also if it ends with an exception. scripts/generate_pstokes_run.py L13-30. -/
noncomputable def script (fl : Str → Option Rat) (num : String → Option ℤ) (addOk : UVD → UVD → Bool) (occs : List (String × List Str)) (chunks : List (List Str))
    (fs : FS) : FS × Except Err Unit :=
  match Cli.parse fl Cli.stokesOpts occs, Cli.oneArg chunks with
  | .ok ns, .ok inp =>
    let input := String.ofList inp
    match fs.get input with
    | none => (fs, .error .missing)
    | some u => match output num addOk (isSet (ns.get "keep_vispols")) u (elems (ns.get "pstokes")) with
      | .error e => (fs, .error e)
      | .ok out =>
        let path := outPath input (ns.get "outputdata")
        if fs.has path && !isSet (ns.get "clobber") then (fs, .error .exist) else (fs.set path out, .ok ())
  | _, _ => (fs, .error .usage)

end HeraPspec.StokesRun
