import Verif.Model.Window
import Verif.Model.KBins
import Verif.Model.UVP
import Mathlib.Analysis.SpecialFunctions.Pow.NNReal
import Mathlib.Analysis.Real.Sqrt

/-!
Model of `UVWindow.get_spherical_wf` (uvwindow.py L1111-1287), `check_kunits` (L1407-1421) and of the input checks and weighted bin centres
of `cylindrical_to_spherical` (L1032-1085); the binning itself is `Window.sphWf` (Model/Window.lean). `get_cylindrical_wf` and the default
bins are parameters which may raise. Floats are reals. Warnings and progress messages are not modelled; `cyl_wf` has the shape the function
gives it.
-/
namespace HeraPspec.GetSph
open HeraPspec.Window
open HeraPspec.KBins (diffs maxOf minOf)
open HeraPspec.Interp (arange)
noncomputable section

/-- Exceptions: `ValueError`, `IndexError`, `AttributeError`, and the failure of `np.arange` with step 0. Used by `getSphericalWf`, L1111-1287. -/
inductive Err | value | index | attribute | zeroStep
  deriving DecidableEq

/-- An astropy unit: powers of Mpc and of `h`, and the size of the unit in Mpc^a h^b. Used by `checkKunits`, L1407-1421. -/
structure KUnit where
  mpc : ℤ
  h : ℤ
  scale : ℝ

/-- An array argument, with or without a unit. Used by `getSphericalWf`, L1183-1252. -/
structure KArr where
  vals : List ℝ
  unit : Option KUnit

/-- `check_kunits(karray)`, L1416-1421: `is_equivalent` compares dimensions, not sizes. -/
def checkKunits (own : KUnit) (a : KArr) : Except Err Unit :=
  match a.unit with
  | none => .error .attribute
  | some u => if own.mpc = u.mpc ∧ own.h = u.h then .ok () else .error .value

open Classical in
/-- `np.allclose(np.diff(x), np.diff(x)[0])`, L1190, L1221, L1250, L1066: absolute tolerance 1e-8, relative tolerance 1e-5. `IndexError` for
fewer than two bins. -/
def checkLinear (x : List ℝ) : Except Err Unit :=
  match diffs x with
  | [] => .error .index
  | d0 :: ds => if ∀ d ∈ d0 :: ds, |d - d0| ≤ 1 / 10 ^ 8 + 1 / 10 ^ 5 * |d0| then .ok () else .error .value

/-- `np.diff(x).mean()`, L1193, L1224, L1252, L1069. -/
def step (x : List ℝ) : ℝ := (diffs x).sum / (diffs x).length

/-- `x.min()`, L1195, L1226, L1254, L1070. -/
def xmin (x : List ℝ) : ℝ := minOf (x.headD 0) x.tail

/-- `x.max()`, L1195, L1226, L1254, L1070. -/
def xmax (x : List ℝ) : ℝ := maxOf (x.headD 0) x.tail

/-- The bin edges, L1070, L1194-1196, L1225-1227, L1253-1255. -/
def edgesOf (x : List ℝ) : List ℝ := arange (xmin x - step x / 2) (xmax x + step x) (step x)

open Classical in
/-- The edges are built and their `.max()` taken: `np.arange` with step 0 raises, an empty array has no maximum (ValueError). L1194-1211,
L1225-1236, L1253-1261. -/
def checkEdges (x : List ℝ) : Except Err Unit :=
  if step x = 0 then .error .zeroStep else if edgesOf x = [] then .error .value else .ok ()

/-- The cylindrical bins: the default if none are given, else those given, which must have consistent units. L1183-1196, L1214-1227. -/
def cylBins (own : KUnit) (dflt : Except Err (List ℝ)) : Option KArr → Except Err (List ℝ)
  | none => dflt
  | some a => if a.vals.length = 0 then dflt else match checkKunits own a with
    | .error e => .error e
    | .ok _ => .ok a.vals

/-- Bins that have passed the checks of L1190-1211 and L1221-1236. -/
def checkedBins (own : KUnit) (dflt : Except Err (List ℝ)) (a : Option KArr) : Except Err (List ℝ) :=
  match cylBins own dflt a with
  | .error e => .error e
  | .ok x => match checkLinear x with
    | .error e => .error e
    | .ok _ => match checkEdges x with
      | .error e => .error e
      | .ok _ => .ok x

/-- `ktot`, L1243, row by row. -/
def ktotOf (kperp kpara : List ℝ) : List ℝ := kperp.flatMap (fun a => kpara.map (fun b => Real.sqrt (a ^ 2 + b ^ 2)))

/-- What the object provides: its units, `bl_to_kperp` and `tau_to_kpara` at its redshift, its delays, and `get_cylindrical_wf` as a function of the
baseline length and the bins: (delay, kperp bin, kpara bin). Used by `getSphericalWf`, L1111-1287. -/
structure Obj where
  kunits : KUnit
  blToK : ℝ
  tauToK : ℝ
  dlys : List ℝ
  defPerp : List ℝ → Except Err (List ℝ)
  defPara : Except Err (List ℝ)
  cyl : ℝ → List ℝ → List ℝ → Except Err (ℕ → ℕ → ℕ → ℝ)

/-- The (baseline, delay) pairs of one baseline: |k| (L1073-1077), weight, and window on the cells in the order of `ktot`. -/
def modesOf (o : Obj) (nPara : ℕ) (len wgt : ℝ) (W : ℕ → ℕ → ℕ → ℝ) : List Mode :=
  (List.range o.dlys.length).map (fun d : ℕ =>
    ⟨Real.sqrt ((o.blToK * len) ^ 2 + (o.tauToK * o.dlys.getD d 0) ^ 2), wgt, fun c => W d (c / nPara) (c % nPara)⟩)

/-- The windows of one baseline, L1267-1275. -/
def blModes (o : Obj) (kperp kpara : List ℝ) (b : ℝ × ℝ) : Except Err (List Mode) :=
  match o.cyl b.1 kperp kpara with
  | .error e => .error e
  | .ok W => .ok (modesOf o kpara.length b.1 b.2 W)

/-- `weighted_k[m1]`, L1081-1085. -/
def weightedK (kmin dk : ℝ) (l : List Mode) (m1 : ℕ) : ℝ :=
  open Classical in if inRow kmin dk m1 l = [] then 0 else Window.mean ((inRow kmin dk m1 l).map (fun p => p.kmag))

/-- `cylindrical_to_spherical` after its checks, L1068-1109: a missing edge is an `IndexError`. -/
def toSpherical (kbins ktot : List ℝ) (l : List Mode) : Except Err (List (List ℝ) × List ℝ) :=
  if (edgesOf kbins).length < kbins.length + 1 then .error .index
  else .ok (sphWf (xmin kbins) (step kbins) kbins.length ktot l, (List.range kbins.length).map (weightedK (xmin kbins) (step kbins) l))

/-- The checks on `kbins`, L1245-1261. -/
def checkKbins (own : KUnit) (a : KArr) : Except Err Unit :=
  match checkKunits own a with
  | .error e => .error e
  | .ok _ => if a.vals.length ≤ 1 then .error .value else match checkLinear a.vals with
    | .error e => .error e
    | .ok _ => checkEdges a.vals

/-- The weights: the given ones, or ones. L1173-1180. -/
def weightsOf (n : ℕ) : Option (List ℝ) → Except Err (List ℝ)
  | none => .ok (List.replicate n 1)
  | some w => if w.length ≠ n then .error .value else .ok w

/-- The last part, L1263-1282. -/
def compute (o : Obj) (kbins kperp kpara : List ℝ) (bls : List (ℝ × ℝ)) : Except Err (List (List ℝ) × List ℝ) :=
  match UVP.mapE (blModes o kperp kpara) bls with
  | .error e => .error e
  | .ok ls => toSpherical kbins (ktotOf kperp kpara) ls.flatten

/-- `get_spherical_wf(kbins, bl_lens, bl_weights, kperp_bins, kpara_bins, return_weighted_k=True)`, L1111-1287. `np.max` of no baseline
lengths is a `ValueError`. -/
def getSphericalWf (o : Obj) (kbins : KArr) (lens : List ℝ) (wgts : Option (List ℝ)) (kperp kpara : Option KArr) :
    Except Err (List (List ℝ) × List ℝ) :=
  match weightsOf lens.length wgts with
  | .error e => .error e
  | .ok w => match checkedBins o.kunits (o.defPerp lens) kperp with
    | .error e => .error e
    | .ok xp => if lens = [] then .error .value else match checkedBins o.kunits o.defPara kpara with
      | .error e => .error e
      | .ok xl => match checkKbins o.kunits kbins with
        | .error e => .error e
        | .ok _ => compute o kbins.vals xp xl (lens.zip w)

end
end HeraPspec.GetSph
