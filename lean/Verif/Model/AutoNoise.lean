import Verif.Model.Container

/-!
Model of scripts/auto_noise_run.py (L13-33): error bars from autocorrelations for the spectra of a container. `noise` stands for `utils.uvp_noise_error` with
the system temperatures of L15-17 (modelled in Model/NoiseErr.lean), which changes the object it is given; the container is that of Model/Container.lean.
The result has the file at the time the script ends, also if it ends with an exception.
-/
namespace HeraPspec.AutoNoise
open HeraPspec.Container

/-- Exceptions: of the container, of the noise calculation, and `UnboundLocalError`. Used by `runGroups`, scripts/auto_noise_run.py L26-32. -/
inductive Err | container (e : CErr) | noise | unbound
  deriving DecidableEq

variable {V : Type}

/-- One spectrum: read, add error bars, write back. scripts/auto_noise_run.py L30-32. -/
def runOne (write : V → Bool) (noise : V → Option V) (f : File V) (g n : String) : File V × Except Err Unit :=
  match getOne f g n with
  | .error e => (f, .error (.container e))
  | .ok v => match noise v with
    | none => (f, .error .noise)
    | some v' => match setOne write .rw false f g n (.uvp v') true with
      | (f', .error e) => (f', .error (.container e))
      | (f', .ok ()) => (f', .ok ())

/-- The spectra of one group. scripts/auto_noise_run.py L29-32. -/
def runSpectra (write : V → Bool) (noise : V → Option V) (g : String) : File V → List String → File V × Except Err Unit
  | f, [] => (f, .ok ())
  | f, n :: rest => match runOne write noise f g n with
    | (f', .error e) => (f', .error e)
    | (f', .ok ()) => runSpectra write noise g f' rest

/-- The groups. `spectra` is only assigned when no list is given. scripts/auto_noise_run.py L26-32. -/
def runGroups (write : V → Bool) (noise : V → Option V) (spectraArg : Option (List String)) : File V → List String → File V × Except Err Unit
  | f, [] => (f, .ok ())
  | f, g :: rest => match spectraArg with
    | some _ => (f, .error .unbound)
    | none => match spectra f g with
      | .error e => (f, .error (.container e))
      | .ok l => match runSpectra write noise g f l with
        | (f', .error e) => (f', .error e)
        | (f', .ok ()) => runGroups write noise spectraArg f' rest

/-- `main`, scripts/auto_noise_run.py L19-33. -/
def autoNoise (write : V → Bool) (noise : V → Option V) (groupsArg spectraArg : Option (List String)) (f : File V) : File V × Except Err Unit :=
  runGroups write noise spectraArg f (groupsArg.getD (groups f))

end HeraPspec.AutoNoise
