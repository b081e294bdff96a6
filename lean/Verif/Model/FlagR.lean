import Verif.Model.PspecValue
import Verif.Model.Cov
import Verif.Model.Scalar
import Mathlib.Data.Real.Sqrt
import Mathlib.Data.Finset.Max

/-!
Model of the data-weighting matrix `PSpecData.R` (pspecdata.py L1066-1200) from the weights of the samples, with `Y` (L983-1028), `I` (L910-932) and `iC` (L933-981) for the
empirical covariance. Caches are left out (they are the subject of `Verif.Model.Settings`). `nf` is `spw_Nfreqs`, `left` and `right` the two parts of `filter_extension`.

Simplifications: real arithmetic; the square root of a negative number is zero (numpy: NaN, which L1122-1123 replace by zero); `np.linalg.inv`/`pinv` and
`dspec.dayenu_mat_inv` are arguments; a symmetric taper together with an extension is an error (in numpy the shapes do not fit).
-/
namespace HeraPspec.FlagR
open Matrix HeraPspec.Oqe
noncomputable section

variable {nf left right nt : ℕ}

/-- The diagonal of `Y`: the largest weight of each channel, pspecdata.py L1024. -/
def yDiag {ne : ℕ} [NeZero nt] (w : Matrix (Fin ne) (Fin nt) ℝ) (i : Fin ne) : ℝ := Finset.univ.sup' ⟨0, Finset.mem_univ _⟩ (fun t => w i t)

open Classical in
/-- `Y`, pspecdata.py L1024-1028: only weights close to 0 or 1 are accepted. -/
def yOf {ne : ℕ} [NeZero nt] (w : Matrix (Fin ne) (Fin nt) ℝ) : Except Err (Fin ne → ℝ) :=
  if ∀ i, |yDiag w i| ≤ 1 / 10 ^ 8 ∨ |yDiag w i - 1| ≤ 1 / 10 ^ 8 + 1 / 10 ^ 5 then .ok (yDiag w) else .error .notImpl

/-- `data_weighting`, with what it needs from outside: the inverse of a covariance, pspecdata.py L966-974, or the pseudo-inverse and the lazy covariance of 'dayenu', L1149-1198. -/
inductive Wt (ne : ℕ)
  | identity
  | iC (inv : Matrix (Fin ne) (Fin ne) ℂ → Matrix (Fin ne) (Fin ne) ℂ)
  | dayenu (pinv : Matrix (Fin ne) (Fin ne) ℂ → Matrix (Fin ne) (Fin ne) ℂ) (D : Matrix (Fin ne) (Fin ne) ℂ)

/-- `sqrtY.T * A * sqrtY`, pspecdata.py L1135-1198. -/
def sandwich {ne : ℕ} (y : Fin ne → ℝ) (A : Matrix (Fin ne) (Fin ne) ℂ) : Matrix (Fin ne) (Fin ne) ℂ :=
  Matrix.of (fun i j => (Real.sqrt (y i) : ℂ) * A i j * (Real.sqrt (y j) : ℂ))

/-- The matrix between the tapers, pspecdata.py L1133-1198. The flags are inside the pseudo-inverse for 'dayenu'. -/
def inner {ne : ℕ} (wt : Wt ne) (x : Matrix (Fin ne) (Fin nt) ℂ) (w : Matrix (Fin ne) (Fin nt) ℝ) (y : Fin ne → ℝ) : Except Err (Matrix (Fin ne) (Fin ne) ℂ) :=
  match wt with
  | .identity => .ok (sandwich y 1)
  | .iC inv => match Cov.cov x w with
    | .error _ => .error .value
    | .ok C => .ok (sandwich y (inv C))
  | .dayenu pinv D => .ok (pinv (sandwich y D))

/-- The place of channel `i` of the window among the channels with the extension: the ones of `tmat`, pspecdata.py L1126-1131. -/
def place (left right : ℕ) (i : Fin nf) : Fin (nf + (left + right)) := ⟨i.1 + left, by omega⟩

/-- Applying the taper, pspecdata.py L1134-1139, L1142-1147, L1164-1198: half of it on both sides, or all of it on the left after cutting the extension off. -/
def tapered (symm : Bool) (tap : Fin nf → ℝ) (A : Matrix (Fin (nf + (left + right))) (Fin (nf + (left + right))) ℂ) :
    Except Err (Matrix (Fin nf) (Fin (nf + (left + right))) ℂ) :=
  if symm then
    if h : left + right = 0 then
      .ok (fun i j => (Real.sqrt (tap i) : ℂ) * A (place left right i) j * (Real.sqrt (tap (Fin.cast (by omega) j)) : ℂ))
    else .error .value
  else .ok (fun i j => ((Real.sqrt (tap i) ^ 2 : ℝ) : ℂ) * A (place left right i) j)

/-- `R`, pspecdata.py L1107-1200. -/
def rMat [NeZero nt] (symm : Bool) (tap : Fin nf → ℝ) (wt : Wt (nf + (left + right))) (x : Matrix (Fin (nf + (left + right))) (Fin nt) ℂ)
    (w : Matrix (Fin (nf + (left + right))) (Fin nt) ℝ) : Except Err (Matrix (Fin nf) (Fin (nf + (left + right))) ℂ) := do
  let y ← yOf w
  let A ← inner wt x w y
  tapered symm tap A

end
end HeraPspec.FlagR
