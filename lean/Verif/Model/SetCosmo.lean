import Verif.Model.ArgParse
import Mathlib.Algebra.Field.Basic

/-!
Model of `UVPSpec.set_cosmology` (uvpspec.py L2091-2181) and of the choice of the scalar in `PSpecData.pspec`
(pspecdata.py L3755-3789).
-/
namespace HeraPspec.SetCosmo
open HeraPspec.ArgParse (Str)

/-- The parts of a UVPSpec object that `set_cosmology` reads or writes. `C` is a cosmology, `B` a beam (`OmegaP`, `OmegaPP` and
`beam_freqs` together), `X` everything else (including `stats_array` and the covariances). Used by `step`, uvpspec.py L2167-2177. -/
structure Obj (K C B X : Type) where
  cosmo : Option C
  beam : Option B
  nspws : ℕ
  npols : ℕ
  data : List (List (List (List K)))   -- spw, row, delay, polpair
  scal : List (List K)                 -- spw, polpair
  units : Str
  rest : X

variable {K C B X : Type} [Field K]

/-- `data_array[spw][:, :, j] *= f`, uvpspec.py L2174. -/
def mulCol (s j : ℕ) (f : K) (d : List (List (List (List K)))) : List (List (List (List K))) :=
  d.modify s (fun rows => rows.map (fun row => row.map (fun x => x.modify j (fun y => y * f))))

/-- `scalar_array[spw, j]`. Used by `step`, uvpspec.py L2167-2177. -/
def at2 (l : List (List K)) (s j : ℕ) : K := (l.getD s []).getD j 0

/-- One step of the double loop, uvpspec.py L2167-2177; `sc` is `compute_scalar(spw, polpair, little_h=True)` for the new cosmology
and beam. -/
def step (sc : ℕ → ℕ → K) (u : Obj K C B X) (i : ℕ × ℕ) : Obj K C B X :=
  { u with
    data := mulCol i.1 i.2 (sc i.1 i.2 / at2 u.scal i.1 i.2) u.data
    scal := u.scal.modify i.1 (fun l => l.set i.2 (sc i.1 i.2)) }

/-- The pairs the double loop visits, in order. Used by `apply`, uvpspec.py L2151-2181. -/
def pairs (n p : ℕ) : List (ℕ × ℕ) := (List.range n).flatMap (fun s => (List.range p).map (fun j => (s, j)))

/-- Does a string contain another? Used by `fixUnits`, uvpspec.py L2179-2181. -/
def containsSub (s t : Str) : Bool := (List.range (t.length + 1)).any (fun i => (t.drop i).take s.length == s)

/-- uvpspec.py L2179-2181. -/
def fixUnits (s : Str) : Str := if containsSub "Mpc".toList s then s else "h^-3 Mpc^3".toList

/-- The renormalization, uvpspec.py L2151-2181. -/
def apply (compute : C → B → ℕ → ℕ → K) (u : Obj K C B X) (c : C) (b : B) : Obj K C B X :=
  let u' := (pairs u.nspws u.npols).foldl (step (compute c b)) { u with cosmo := some c, beam := some b }
  { u' with units := fixUnits u'.units }

/-- `set_cosmology`, uvpspec.py L2091-2181. `compute` is `compute_scalar` with `little_h=True` and the taper of the object
(L2844-2903); the conversion of dictionaries and file names into cosmologies and beams is not modelled. -/
def setCosmology (compute : C → B → ℕ → ℕ → K) (u : Obj K C B X) (c : C) (overwrite : Bool) (newBeam : Option B) : Obj K C B X :=
  if u.cosmo.isSome ∧ overwrite = false then u
  else match newBeam with
    | some b => apply compute u c b
    | none => match u.beam with
      | none => u
      | some b => apply compute u c b

/-- The scalar `PSpecData.pspec` multiplies into the data and stores, as a function of the taper and of `little_h`,
pspecdata.py L3767-3780: with `norm='H^-1'` the taper is overridden. -/
def pspecScalar {T : Type} (scalar : Bool → T → K) (noneTaper : T) (taper : T) (hinv : Bool) (littleH : Bool) : K :=
  if hinv then scalar littleH noneTaper else scalar littleH taper

/-- The scalar `compute_scalar` returns in `set_cosmology`: the taper of the object and `little_h=True`. (uvpspec.py L2169-2171) -/
def cosmoScalar {T : Type} (scalar : Bool → T → K) (taper : T) : K := scalar true taper

end HeraPspec.SetCosmo
