import Verif.Model.PyDict
import Mathlib.Data.Int.Init

/-!
Model of the settings of `PSpecData` (`set_spw`, `set_Ndlys`, `set_filter_extension`, `set_symmetric_taper`, `set_taper`,
`set_weighting`, `set_r_param`, `get_spw`) and of its matrix caches (`I`, `Y`, `C_model` with the empirical model, `iC`, `R`,
`clear_cache`), pspecdata.py L453-491, L663-687, L780-820, L910-1200 and L1202-1370.

The numerical kernels (`np.identity`, the flag weights, the empirical covariance, the inverse, the products that form R) are
parameters: the statements hold for every choice of them. Baseline keys are values of a type `κ`, already parsed
(`parse_blkey` is modelled in `Labels`).
-/
namespace HeraPspec.Settings

/-- The exceptions raised by the modelled functions. Used by `setNdlys`, pspecdata.py L1352-1376. -/
inductive Err | value | assertion | notImplemented | key
  deriving DecidableEq, Repr

/-- `data_weighting`. Used by `RKey`, pspecdata.py L1098-1106. -/
inductive Wt | identity | iC | dayenu | other
  deriving DecidableEq, Repr

/-- The numerical kernels. `V` is the contents of the data sets, `M` matrices, `T` tapers, `P` dayenu parameters. Used by `addData`, pspecdata.py L294-300. -/
structure Kern (κ T P M V : Type) where
  /-- `np.identity(n)`, L930 -/
  ident : ℤ → M
  /-- `np.diag(np.max(self.w(key), axis=1))` for a range of channels, L1011 -/
  yOf : V → κ → ℤ × ℤ → M
  /-- `np.all(np.isclose(Y, 0) + np.isclose(Y, 1))`, L1012-1014 -/
  binary : M → Bool
  /-- `utils.cov(self.x(key), self.w(key))` for a range of channels, L756-763 -/
  covOf : V → κ → ℤ × ℤ → M
  /-- the inverse or pseudo-inverse, L967-973 -/
  inv : M → M
  /-- L1124-1143: taper, `spw_Nfreqs`, `filter_extension`, `symmetric_taper`, Y and K give R -/
  form : T → ℤ → ℤ × ℤ → Bool → M → M → M
  /-- L1145-1198: the same for dayenu, from the channel range of L1163 and the parameters; `none` if parameters are missing -/
  formDayenu : T → ℤ → ℤ × ℤ → Bool → ℤ × ℤ → V → M → P → Option M

variable {κ T P M V : Type}

/-- The settings that are not part of every cache key: the data, `Nfreqs`, `spw_range`, `spw_Nfreqs`, `filter_extension`,
`symmetric_taper`. Used by `getSpw`, pspecdata.py L663-687. -/
structure Geom (V : Type) where
  data : V
  nfreqs : ℤ
  spw : ℤ × ℤ
  spwN : ℤ
  fext : ℤ × ℤ
  symm : Bool
  deriving DecidableEq, Repr

/-- The key of the R cache, pspecdata.py L1098-1106: baseline key, weighting and taper, and for dayenu the extension, the number
of channels and the kind of taper. -/
structure RKey (κ T : Type) where
  key : κ
  wt : Wt
  taper : T
  extra : Option ((ℤ × ℤ) × ℤ × Bool)
  deriving DecidableEq

/-- The state of a `PSpecData`. Used by `setNdlys`, pspecdata.py L1352-1376. -/
structure PS (κ T P M V : Type) where
  g : Geom V
  ndlys : ℤ
  wt : Wt
  taper : T
  rparams : Dict (Wt × κ) P
  cI : Dict κ M
  cY : Dict κ M
  cC : Dict κ M
  ciC : Dict κ M
  cR : Dict (RKey κ T) M

/-- `get_spw`, pspecdata.py L663-687, with `include_extension=False`: the extension is included whenever it is non-zero. -/
def getSpw (g : Geom V) : ℤ × ℤ :=
  if g.fext.1 + g.fext.2 > 0 then (g.spw.1 - g.fext.1, g.spw.2 + g.fext.2) else g.spw

/-- `set_Ndlys`, pspecdata.py L1352-1376. -/
def setNdlys (s : PS κ T P M V) : Option ℤ → PS κ T P M V × Option Err
  | none => ({ s with ndlys := s.g.spwN }, none)
  | some n => if s.g.spwN < n then (s, some .value) else ({ s with ndlys := n }, none)

/-- `set_spw`, pspecdata.py L1330-1350 (for a tuple of two integers): the window is stored before the number of delays is
checked, and neither the filter extension nor the caches are touched. -/
def setSpw (s : PS κ T P M V) (lo hi : ℤ) (nd : Option ℤ) : PS κ T P M V × Option Err :=
  setNdlys { s with g := { s.g with spw := (lo, hi), spwN := hi - lo } } nd

/-- The warning branch of `set_filter_extension`, pspecdata.py L1237-1245. -/
def flipSymm (symm : Bool) (a b : ℤ) : Bool := if symm && decide (a ≠ 0) && decide (b ≠ 0) then false else symm

/-- `set_filter_extension`, pspecdata.py L1226-1271, for a pair of integers. -/
def setExt (s : PS κ T P M V) (a b : ℤ) : PS κ T P M V × Option Err :=
  if a ≥ 0 ∧ b ≥ 0 then
    ({ s with g := { s.g with symm := flipSymm s.g.symm a b,
                              fext := (min s.g.spw.1 a, min (s.g.nfreqs - s.g.spw.2) b) } }, none)
  else ({ s with g := { s.g with symm := flipSymm s.g.symm a b } }, some .assertion)

/-- `set_symmetric_taper`, pspecdata.py L1202-1224. -/
def setSymm (s : PS κ T P M V) (b : Bool) : PS κ T P M V × Option Err :=
  if b = true ∧ (s.g.fext.1 > 0 ∨ s.g.fext.2 > 0) then (s, some .value)
  else ({ s with g := { s.g with symm := b } }, none)

/-- `clear_cache()`, pspecdata.py L463-465. -/
def clearCache (s : PS κ T P M V) : PS κ T P M V := { s with cI := [], cY := [], cC := [], ciC := [], cR := [] }

/-- The end of `add`, pspecdata.py L294-300: new contents with `n` channels; the window is reset to the whole band, the filter
extension is not reset. -/
def addData (s : PS κ T P M V) (v : V) (n : ℤ) : PS κ T P M V :=
  { s with g := { s.g with data := v, nfreqs := n, spw := (0, n), spwN := n }, ndlys := n }

section Queries
variable [DecidableEq κ] [DecidableEq T] (K : Kern κ T P M V)

/-- `set_r_param`, pspecdata.py L1284-1318. -/
def setRParam (s : PS κ T P M V) (k : κ) (p : P) : PS κ T P M V := { s with rparams := s.rparams.set (s.wt, k) p }

/-- The matrix `I` computes when it is not cached, L930. -/
def newI (g : Geom V) : M := K.ident (g.spwN + (g.fext.1 + g.fext.2))

/-- `I`, pspecdata.py L910-931. -/
def qI (s : PS κ T P M V) (k : κ) : PS κ T P M V × M :=
  match s.cI.get k with
  | some m => (s, m)
  | none => ({ s with cI := s.cI.set k (newI K s.g) }, newI K s.g)

/-- `Y`, pspecdata.py L983-1016: a non-binary matrix is stored before the exception is raised. -/
def qY (s : PS κ T P M V) (k : κ) : PS κ T P M V × Except Err M :=
  match s.cY.get k with
  | some m => (s, .ok m)
  | none =>
    ({ s with cY := s.cY.set k (K.yOf s.g.data k (getSpw s.g)) },
     if K.binary (K.yOf s.g.data k (getSpw s.g)) then .ok (K.yOf s.g.data k (getSpw s.g)) else .error .notImplemented)

/-- `C_model(key, "empirical")`, pspecdata.py L689-811: `set_C` (L645-661) drops the inverse cached for the same key. -/
def qC (s : PS κ T P M V) (k : κ) : PS κ T P M V × M :=
  match s.cC.get k with
  | some m => (s, m)
  | none =>
    ({ s with cC := s.cC.set k (K.covOf s.g.data k (getSpw s.g)), ciC := s.ciC.del k }, K.covOf s.g.data k (getSpw s.g))

/-- `iC(key)` with the empirical model, pspecdata.py L933-981. -/
def qiC (s : PS κ T P M V) (k : κ) : PS κ T P M V × M :=
  match s.ciC.get k with
  | some m => (s, m)
  | none =>
    let r := qC K s k
    ({ r.1 with ciC := r.1.ciC.set k (K.inv r.2) }, K.inv r.2)

/-- The key under which `R` is cached, pspecdata.py L1096-1106. -/
def rKey (g : Geom V) (wt : Wt) (t : T) (k : κ) : RKey κ T :=
  ⟨k, wt, t, if wt = .dayenu then some (g.fext, g.spwN, g.symm) else none⟩

/-- Store a matrix in the R cache. Used by `buildR`, pspecdata.py L1108-1198. -/
def storeR (s : PS κ T P M V) (k : κ) (m : M) : PS κ T P M V := { s with cR := s.cR.set (rKey s.g s.wt s.taper k) m }

/-- The body of `R` when nothing is cached, pspecdata.py L1108-1198, once Y is known. An unknown weighting reaches the final
look-up and raises `KeyError`. -/
def buildR (s : PS κ T P M V) (k : κ) (y : M) : PS κ T P M V × Except Err M :=
  match s.wt with
  | .identity =>
    let r := qI K s k
    let m := K.form s.taper s.g.spwN s.g.fext s.g.symm y r.2
    (storeR r.1 k m, .ok m)
  | .iC =>
    let r := qiC K s k
    let m := K.form s.taper s.g.spwN s.g.fext s.g.symm y r.2
    (storeR r.1 k m, .ok m)
  | .dayenu =>
    match s.rparams.get (.dayenu, k) with
    | none => (s, .error .value)
    | some p =>
      match K.formDayenu s.taper s.g.spwN s.g.fext s.g.symm (s.g.spw.1 - s.g.fext.1, s.g.spw.2 + s.g.fext.2) s.g.data y p with
      | none => (s, .error .value)
      | some m => (storeR s k m, .ok m)
  | .other => (s, .error .key)

/-- `R`, pspecdata.py L1066-1200. -/
def qR (s : PS κ T P M V) (k : κ) : PS κ T P M V × Except Err M :=
  match s.cR.get (rKey s.g s.wt s.taper k) with
  | some m => (s, .ok m)
  | none =>
    let r := qY K s k
    match r.2 with
    | .error e => (r.1, .error e)
    | .ok y => buildR K r.1 k y

/-- One call; `modData` is any method that edits the stored data in place (flags, phases, units), without touching settings or
caches. (pspecdata.py L663-1376) -/
inductive Op (κ T P V : Type)
  | setSpw (lo hi : ℤ) (nd : Option ℤ) | setExt (a b : ℤ) | setSymm (b : Bool) | setTaper (t : T) | setWeighting (w : Wt)
  | setRParam (k : κ) (p : P) | clearCache | addData (v : V) (n : ℤ) | modData (v : V)
  | getI (k : κ) | getY (k : κ) | getIC (k : κ) | getR (k : κ)

/-- The state after one call (whose exception, if any, the caller catches). (pspecdata.py L663-1376) -/
def step (s : PS κ T P M V) : Op κ T P V → PS κ T P M V
  | .setSpw lo hi nd => (setSpw s lo hi nd).1
  | .setExt a b => (setExt s a b).1
  | .setSymm b => (setSymm s b).1
  | .setTaper t => { s with taper := t }
  | .setWeighting w => { s with wt := w }
  | .setRParam k p => setRParam s k p
  | .clearCache => clearCache s
  | .addData v n => addData s v n
  | .modData v => { s with g := { s.g with data := v } }
  | .getI k => (qI K s k).1
  | .getY k => (qY K s k).1
  | .getIC k => (qiC K s k).1
  | .getR k => (qR K s k).1

/-- A history of calls. (pspecdata.py L663-1376) -/
def run (s : PS κ T P M V) (ops : List (Op κ T P V)) : PS κ T P M V := ops.foldl (step K) s

end Queries

/-- `__init__` followed by the first `add`, pspecdata.py L73-108 and L294-300: the whole band, no extension, symmetric taper,
identity weighting, empty caches. -/
def init (v : V) (n : ℤ) (t : T) : PS κ T P M V :=
  ⟨⟨v, n, (0, n), n, (0, 0), true⟩, n, .identity, t, [], [], [], [], [], []⟩

end HeraPspec.Settings
