import Verif.Model.Scalar
import Verif.Model.Noise

/-!
Model of `Sensitivity` (noise.py L93-269). Objects are numbered; beams are shared mutable objects (numbered as well) whose attribute `cosmo` may be missing and is
written by `set_beam`. A cosmology given as a string or dictionary is the cosmology it denotes (L122-125). What the beams know (solid angles,
interpolation) and the cosmology enter through `env`, the integrand of `compute_pspec_scalar` (see Model/Scalar).
-/
namespace HeraPspec.Sensitivity
open HeraPspec.Scalar (Env beamScalar)
open HeraPspec.Noise (Form Comp calcPN)
variable {C P : Type}

/-- Exceptions: `AssertionError`, `AttributeError`, `ValueError` (minimum of an empty array). Used by `step`, noise.py L108-203. -/
inductive Err | assertion | attribute | value
  deriving DecidableEq

/-- The attributes of one object; `none` for an attribute that does not exist. noise.py L126-127, L156, L193-203. -/
structure Sens (C P : Type) where
  cosmo : Option C
  params : Option P
  beam : Option ℕ
  scalar : Option ℝ

/-- All objects, and the attribute `cosmo` of every beam. Used by `step`, noise.py L108-203. -/
structure State (C P : Type) where
  sens : ℕ → Sens C P
  beamCosmo : ℕ → Option C

/-- Assignment to one index. Used by `step`, noise.py L108-203. -/
def upd {α : Type} (f : ℕ → α) (i : ℕ) (a : α) : ℕ → α := fun j => if j = i then a else f j

/-- `set_cosmology`, noise.py L122-127; `par` is `str(cosmo.get_params())`. -/
def setCosmology (par : C → P) (st : State C P) (s : ℕ) (c : C) : State C P :=
  { st with sens := upd st.sens s { st.sens s with cosmo := some c, params := some (par c) } }

/-- `set_beam`, noise.py L137-156. -/
def setBeam (st : State C P) (s b : ℕ) : State C P × Except Err Unit :=
  match st.beamCosmo b, (st.sens s).cosmo with
  | some _, some c => ({ sens := upd st.sens s { st.sens s with beam := some b }, beamCosmo := upd st.beamCosmo b (some c) }, .ok ())
  | some c, none => ({ st with sens := upd st.sens s { st.sens s with cosmo := some c, beam := some b } }, .ok ())
  | none, some c => ({ sens := upd st.sens s { st.sens s with beam := some b }, beamCosmo := upd st.beamCosmo b (some c) }, .ok ())
  | none, none => (st, .error .assertion)

/-- `freqs.min()`, noise.py L194. -/
noncomputable def minOf : List ℝ → Option ℝ
  | [] => none
  | x :: xs => some (xs.foldl min x)

/-- `freqs.max()`, noise.py L195. -/
noncomputable def maxOf : List ℝ → Option ℝ
  | [] => none
  | x :: xs => some (xs.foldl max x)

/-- `calc_scalar`, noise.py L192-203; `env b c pol h` is the integrand for beam `b`, cosmology `c`, polarization and `little_h`. -/
noncomputable def calcScalar (env : ℕ → C → String → Bool → Env) (st : State C P) (s : ℕ) (freqs : List ℝ) (pol : String) (steps : ℕ) (h : Bool) :
    State C P × Except Err Unit :=
  match (st.sens s).beam with
  | none => (st, .error .attribute)
  | some b => match minOf freqs, maxOf freqs, st.beamCosmo b with
    | some lo, some hi, some c =>
      ({ st with sens := upd st.sens s { st.sens s with scalar := some (beamScalar (env b c pol h) lo hi freqs.length steps "none" true false) } }, .ok ())
    | some _, some _, none => (st, .error .attribute)
    | _, _, _ => (st, .error .value)

/-- `calc_P_N` of an object, noise.py L247-269. -/
noncomputable def calcPNof (st : State C P) (s : ℕ) (tsys tint ncoh : ℝ) (nincoh : Option ℝ) (form : Form) (k : Option ℝ) (comp : Comp) :
    Except HeraPspec.Noise.Err ℝ :=
  match (st.sens s).scalar with
  | none => .error .assertion
  | some v => if form = .other then .error .assertion else calcPN v tsys tint ncoh nincoh form k comp

/-- A call on object `s`. Used by `run`, noise.py L114-203. -/
inductive Call (C : Type)
  | setCosmology (s : ℕ) (c : C)
  | setBeam (s b : ℕ)
  | calcScalar (s : ℕ) (freqs : List ℝ) (pol : String) (steps : ℕ) (h : Bool)

/-- One call; exceptions are caught. noise.py L114-203. -/
noncomputable def step (par : C → P) (env : ℕ → C → String → Bool → Env) (st : State C P) : Call C → State C P
  | .setCosmology s c => setCosmology par st s c
  | .setBeam s b => (setBeam st s b).1
  | .calcScalar s f pol n h => (calcScalar env st s f pol n h).1

/-- A history of calls. noise.py L114-203. -/
noncomputable def run (par : C → P) (env : ℕ → C → String → Bool → Env) (st : State C P) (cs : List (Call C)) : State C P := cs.foldl (step par env) st

/-- Objects without attributes, noise.py L108-112 (a constructor with arguments is this followed by `set_cosmology` and `set_beam`). -/
def fresh : Sens C P := ⟨none, none, none, none⟩

end HeraPspec.Sensitivity
