import Verif.Model.KBins
import Verif.Model.UVP
import Mathlib.Analysis.Complex.Basic

/-!
Model of `variance_from_auto_correlations` (utils.py L133-188) and of the diagonal models of `C_model` (pspecdata.py L741-806) with the
accessors `w` and `dx` (pspecdata.py L610-644). Floats are reals, `np.inf` is the top element; window bounds and time indices are natural
numbers (negative indices are not modelled); the matrix cache is that of C55 and starts empty here.
-/
namespace HeraPspec.AutoVar
open HeraPspec.UVP (mapE)
noncomputable section

variable {P : Type}

/-- `KeyError`, `IndexError`, `AssertionError`, `ValueError`; `nan` for a result that is not a number. Used by `autoVar`, utils.py L161-186. -/
inductive VErr | key | index | assertion | value | nan
  deriving DecidableEq

/-- What is used of a `UVData` object: integration times, channel widths, and for each baseline and polarization the waterfalls (times by
channels) of data, flags and samples; utils.py L165-182, pspecdata.py L613, L639-643. -/
structure UVD (P : Type) where
  intTime : List ℝ
  width : List ℝ
  data : ℕ × ℕ × P → Option (List (List ℂ))
  flags : ℕ × ℕ × P → Option (List (List Bool))
  nsamples : ℕ × ℕ × P → Option (List (List ℝ))

/-- `l[a:b]` for natural bounds. Python language semantics, utils.py L173-182. -/
def slice {α : Type} (a b : ℕ) (l : List α) : List α := (l.take b).drop a

/-- `uvd.get_...(bl)[time_index, spw]`: `KeyError` for an unknown baseline, `IndexError` for an unknown time, utils.py L174-176. -/
def rowOf {α : Type} (x : Option (List (List α))) (t a b : ℕ) : Except VErr (List α) :=
  match x with
  | none => .error .key
  | some rows => match rows[t]? with
    | none => .error .index
    | some r => .ok (slice a b r)

/-- The positive samples of the window, utils.py L180. -/
def positives (ns : List ℝ) : List ℝ := open Classical in ns.filter (fun x => decide (0 < x))

/-- `nsample_bl` after L177-181: zero samples are replaced by the median of the positive ones (zero if there is none), utils.py L177-181. -/
def fillSamples (ns : List ℝ) : List ℝ :=
  open Classical in ns.map (fun x => if 0 < x then x else (KBins.median (positives ns)).getD 0)

/-- One channel, utils.py L184-186. -/
def channelVar (dt df n : ℝ) (x1 x2 : ℂ) : WithTop ℝ := open Classical in if n = 0 then ⊤ else ((‖x1 * star x2‖ / dt / df / n : ℝ) : WithTop ℝ)

/-- `variance_from_auto_correlations(uvd, (a1, a2, pol), (lo, hi), time_index)`, utils.py L165-188. -/
def autoVar (u : UVD P) (bl : ℕ × ℕ × P) (lo hi t : ℕ) : Except VErr (List (WithTop ℝ)) :=
  match KBins.median u.intTime with
  | none => .error .nan
  | some dt => match rowOf (u.data (bl.1, bl.1, bl.2.2)) t lo hi with
    | .error e => .error e
    | .ok x1 => match rowOf (u.data (bl.2.1, bl.2.1, bl.2.2)) t lo hi with
      | .error e => .error e
      | .ok x2 => match rowOf (u.nsamples bl) t lo hi with
        | .error e => .error e
        | .ok ns => .ok (List.zipWith (fun (p : ℝ × ℝ) (x : ℂ × ℂ) => channelVar dt p.1 p.2 x.1 x.2)
            ((slice lo hi u.width).zip (fillSamples ns)) (x1.zip x2))

/-- `w(key)` at one time, pspecdata.py L638-644: the weights given, or one where the data are not flagged. -/
def weightRow (u : UVD P) (wgts : Option (UVD P)) (bl : ℕ × ℕ × P) (lo hi t : ℕ) : Except VErr (List ℂ) :=
  match wgts with
  | some w => rowOf (w.data bl) t lo hi
  | none => (rowOf (u.flags bl) t lo hi).map (fun r => r.map (fun f => if f then 0 else 1))

/-- `|w dx|^2` at one time, pspecdata.py L779-789 with `dx` L610-613. -/
def stdVar (u std : UVD P) (wgts : Option (UVD P)) (bl : ℕ × ℕ × P) (lo hi t : ℕ) : Except VErr (List (WithTop ℝ)) :=
  match weightRow u wgts bl lo hi t with
  | .error e => .error e
  | .ok w => match rowOf (std.data bl) t lo hi with
    | .error e => .error e
    | .ok dx => .ok (List.zipWith (fun a b => ((‖a * b‖ ^ 2 : ℝ) : WithTop ℝ)) w dx)

/-- `np.diag` of a vector, pspecdata.py L779, L796. -/
def diag (v : List (WithTop ℝ)) : List (List (WithTop ℝ)) :=
  (List.range v.length).map (fun i => (List.range v.length).map (fun j => if i = j then v.getD i 0 else 0))

/-- The argument `model`: `empirical` is modelled elsewhere (`Cov`, `Oqe`); any other name is `other`. Used by `cModel`, pspecdata.py L776-804. -/
inductive Model | dsets | autos | other
  deriving DecidableEq

/-- `C_model(key, model, known_cov, time_index)` for a model other than `empirical`, pspecdata.py L741-806: `known` is the entry of
`known_cov` for the key (baseline, model and time), if there is one; no time index raises `AssertionError`. -/
def cModel (u std : UVD P) (wgts : Option (UVD P)) (bl : ℕ × ℕ × P) (lo hi : ℕ) (time : Option ℕ) (m : Model)
    (known : Option (List (List (WithTop ℝ)))) : Except VErr (List (List (WithTop ℝ))) :=
  match time with
  | none => .error .assertion
  | some t => match known with
    | some k => .ok ((slice lo hi k).map (slice lo hi))
    | none => match m with
      | .dsets => (stdVar u std wgts bl lo hi t).map diag
      | .autos => (autoVar u bl lo hi t).map diag
      | .other => .error .value

end
end HeraPspec.AutoVar
