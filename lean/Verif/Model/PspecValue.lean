import Verif.Model.DelayAdj
import Verif.Model.ExactNorm
import Verif.Model.AnCov

/-!
Model of what `PSpecData.pspec` stores for one baseline-pair, polarization pair and spectral window (pspecdata.py L3755-4022): the spectra, their
covariances, the errors derived from them and the window functions. Exact complex numbers; logging and warnings are not modelled, and the G and H
of an earlier baseline-pair that `pspec` may reuse are the subject of Model/PspecLoop.lean.
-/
namespace HeraPspec.PspecValue
open Matrix HeraPspec.Oqe
noncomputable section

/-- The arguments of `pspec` that matter here; `beam` says whether `primary_beam` is set, `identity` whether `data_weighting` is 'identity'.
Used by `blpair`, pspecdata.py L3755-4022. -/
structure Opts where
  beam : Bool
  identity : Bool
  sampling : Bool
  allowFft : Bool
  returnQ : Bool
  storeCov : Bool
  storeDiag : Bool
  storeWindow : Bool
  norm : Mode

/-- The scalar, pspecdata.py L3755-3787; `scal` is `self.scalar(p, ...)` as a function of `taper_override` (Model/Scalar.lean `pspecScalar`). -/
def scalarOf (o : Opts) (scal : String → ℝ) (p q : Int) : Except Err ℝ :=
  if o.beam then
    if p ≠ q then .error .notImpl
    else if o.norm = .Hinv then .ok (scal "none") else .ok (scal "no_override")
  else .ok 1

/-- `Gv` and `Hv`, pspecdata.py L3873-3880 and L3890-3897. -/
def fisher {nf left right : ℕ} (o : Opts) (norm : Norm nf) (nd : ℕ) (R1 R2 : Matrix (Fin nf) (Fin (nf + (left + right))) ℂ) :
    Except Err (Matrix (Fin nd) (Fin nd) ℂ × Matrix (Fin nd) (Fin nd) ℂ) :=
  if norm.exact then
    match getGexact nd norm R1 R2, getHexact nd o.sampling norm R1 R2 with
    | .ok G, .ok H => .ok (G, H)
    | .error e, _ => .error e
    | _, .error e => .error e
  else .ok (getG nd R1 R2, getH nd o.sampling R1 R2)

/-- What is stored, pspecdata.py L3962-4022: one spectrum per time, and if asked for the covariance of real and of imaginary parts, the error bars and
the window function of each time. -/
structure Row (nd nt : ℕ) where
  scalar : ℝ
  data : Fin nt → Fin nd → ℂ
  cov : Option (List (Matrix (Fin nd) (Fin nd) ℝ × Matrix (Fin nd) (Fin nd) ℝ))
  stats : Option (List (Fin nd → ℂ))
  window : Option (Fin nt → Matrix (Fin nd) (Fin nd) ℝ)

/-- `sa`, pspecdata.py L3925-3928: only for the normalisation 'I' without `exact_norm`. -/
def adjOf {nf nd : ℕ} (o : Opts) (norm : Norm nf) (taper : Option (Fin nf → ℝ)) (G H : Matrix (Fin nd) (Fin nd) ℂ) : Except Err (Option (Fin nd → ℝ)) :=
  if o.norm = .I ∧ norm.exact = false then (DelayAdj.adjustment o.identity G H taper).map some else .ok none

/-- `pv` after normalisation, pspecdata.py L3917-3932; `sa` is `none` when no adjustment is made. -/
def spectra {nd nt : ℕ} (o : Opts) (s : ℝ) (sa : Option (Fin nd → ℝ)) (M : Matrix (Fin nd) (Fin nd) ℂ) (q : Matrix (Fin nd) (Fin nt) ℂ) :
    Matrix (Fin nd) (Fin nt) ℂ :=
  let pv := pHat M q
  let pv := if o.beam then (s : ℂ) • pv else pv
  match sa with
  | none => pv
  | some f => Matrix.of (fun a t => (f a : ℂ) * pv a t)

/-- `cov_real` or `cov_imag` of one time after scaling, pspecdata.py L3950-3960. -/
def scaleCov {nd : ℕ} (o : Opts) (s : ℝ) (sa : Option (Fin nd → ℝ)) (C : Matrix (Fin nd) (Fin nd) ℂ) : Matrix (Fin nd) (Fin nd) ℂ :=
  let C := if o.beam then ((s ^ 2 : ℝ) : ℂ) • C else C
  match sa with
  | none => C
  | some f => Matrix.of (fun a c => C a c * ((f a * f c : ℝ) : ℂ))

/-- The covariances that are stored for one time: of the spectra, or of the unnormalised bandpowers with `return_q`, pspecdata.py L3962-3984. -/
def storedCov {nd : ℕ} (o : Opts) (s : ℝ) (sa : Option (Fin nd → ℝ)) (c : AnCov.Out (Fin nd)) : Matrix (Fin nd) (Fin nd) ℝ × Matrix (Fin nd) (Fin nd) ℝ :=
  if o.returnQ then (c.qReal.map Complex.re, c.qImag.map Complex.re)
  else ((scaleCov o s sa c.pReal).map Complex.re, (scaleCov o s sa c.pImag).map Complex.re)

/-- `stats`, pspecdata.py L3971-3975 and L3986-3990. Simplification: the root of a negative number is 0, not nan. -/
def errorBars {nd : ℕ} (c : Matrix (Fin nd) (Fin nd) ℝ × Matrix (Fin nd) (Fin nd) ℝ) (a : Fin nd) : ℂ :=
  ⟨Real.sqrt (c.1 a a), Real.sqrt (c.2 a a)⟩

/-- The body of the loop over baseline-pairs, pspecdata.py L3755-4022. `E` is `get_unnormed_E` (Model/Oqe.lean `unnormedE`), `inp` holds the
covariances of the data at each time, `eig` the decomposition of `band_covar` (mode 'V^-1/2' only), `taper` the values of the taper. -/
def blpair {nf left right nd nt : ℕ} (o : Opts) (norm : Norm nf) (scal : String → ℝ) (p q : Int) (taper : Option (Fin nf → ℝ))
    (pinv : Matrix (Fin nd) (Fin nd) ℂ → Matrix (Fin nd) (Fin nd) ℂ) (eig : Option (Eig nd))
    (E : Fin nd → Matrix (Fin (nf + (left + right))) (Fin (nf + (left + right))) ℂ) (kind : AnCov.Kind) (inp : ℕ → AnCov.Inp (Fin (nf + (left + right))))
    (R1 R2 : Matrix (Fin nf) (Fin (nf + (left + right))) ℂ) (x1 x2 : Matrix (Fin (nf + (left + right))) (Fin nt) ℂ) : Except Err (Row nd nt) := do
  let s ← scalarOf o scal p q
  let GH ← fisher o norm nd R1 R2
  let qv ← (qHat o.allowFft norm [(R1, x1)] [(R2, x2)] : Except Err (Fin nd → Fin nt → ℂ))
  let MW ← getMW pinv GH.1 GH.2 o.norm (if o.norm = .Vhalf then eig else none) norm.exact
  let sa ← adjOf o norm taper GH.1 GH.2
  let covs := (AnCov.analytic kind E (fun _ => MW.1) nt inp).map (storedCov o s sa)
  return {
    scalar := s
    data := if o.returnQ then fun t a => qv a t else fun t a => spectra o s sa MW.1 (Matrix.of qv) a t
    cov := if o.storeCov then some covs else none
    stats := if o.storeDiag then some (covs.map errorBars) else none
    window := if o.storeWindow then some (fun _ => MW.2.map Complex.re) else none }

end
end HeraPspec.PspecValue
