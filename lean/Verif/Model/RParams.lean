import Verif.Model.PyDict

/-!
Model of the compression of weighting parameters, uvpspec_utils.py L144-225.
-/
namespace HeraPspec.RParams

/-- A value in the JSON object of one unique parameter set: a parameter value or the list of baseline keys. Used by `compress`, uvpspec_utils.py L166-187. -/
inductive Field (K V : Type) | par (v : V) | keys (ks : List K)
  deriving DecidableEq, Repr

/-- One entry of `r_params_unique` during the loop: the parameters and the baselines sharing them
(`r_params_unique[i]`, `r_params_unique_bls[i]`; the integer key `i` is the position in the list). Used by `compressStep`, uvpspec_utils.py L172-182. -/
abbrev Uniq (K V : Type) := List (Dict String V × List K)

variable {K V : Type} [DecidableEq K] [DecidableEq V]

/-- One iteration of the loop over `r_params_dict`, uvpspec_utils.py L172-182. -/
def compressStep (u : Uniq K V) (e : K × Dict String V) : Uniq K V :=
  let u' := u.map (fun x => if Dict.beq x.1 e.2 then (x.1, x.2 ++ [e.1]) else x)
  if u.any (fun x => Dict.beq x.1 e.2) then u' else u' ++ [(e.2, [e.1])]

/-- `compress_r_params`, uvpspec_utils.py L166-187. `none` is the empty string, `some l` the JSON object as a value
(the textual JSON encoding and decoding, and the conversion of tuple keys to lists and back, are not modelled). -/
def compress (d : Dict K (Dict String V)) : Option (List (Dict String (Field K V))) :=
  if d = [] then none
  else some ((d.foldl compressStep []).map
    (fun x => Dict.set (x.1.map (fun f => (f.1, Field.par f.2))) "baselines" (Field.keys x.2)))

/-- The inner loops of `decompress_r_params` for one unique parameter set, uvpspec_utils.py L216-222. -/
def decompressStep (acc : Dict K (Dict String (Field K V))) (o : Dict String (Field K V)) :
    Dict K (Dict String (Field K V)) :=
  let rp := o.foldl (fun r f => if f.1 ≠ "baselines" then Dict.set r f.1 f.2 else r) []
  match Dict.get o "baselines" with
  | some (Field.keys ks) => ks.foldl (fun a k => Dict.set a k rp) acc
  | _ => acc

/-- `decompress_r_params`, uvpspec_utils.py L213-225. -/
def decompress : Option (List (Dict String (Field K V))) → Dict K (Dict String (Field K V))
  | none => []
  | some l => l.foldl decompressStep []

end HeraPspec.RParams
