import Verif.Model.Oqe

/-!
Model of `PSpecData.get_G` and `get_H` with `exact_norm=True` (pspecdata.py L1612-1797). The beam integral `norm.beam` is that of
`get_integral_beam` (Model/Oqe.lean); `norm.delTau` is `np.median(np.diff(self.delays())) * 1e-9`.
-/
namespace HeraPspec.Oqe
open Matrix Complex
noncomputable section

/-- numpy broadcasting of a square array against a square array that is at least as large: the same size, or a single element. Used at pspecdata.py L1674, L1773. -/
def bcast {n : ℕ} (m : ℕ) (B : Matrix (Fin n) (Fin n) ℝ) : Except Err (Matrix (Fin m) (Fin m) ℝ) :=
  if h : m = n then .ok (fun i j => B (Fin.cast h i) (Fin.cast h j))
  else if h : 1 = n then .ok (fun _ _ => B (Fin.cast h 0) (Fin.cast h 0))
  else .error .value

/-- `Q1`, the kernel of the estimator, pspecdata.py L1673 and L1772. -/
def q1Exact {nf nd : ℕ} (norm : Norm nf) (a : Fin nd) : Matrix (Fin nf) (Fin nf) ℂ :=
  fun i j => qPlain nf a i j * ((norm.delTau * norm.beam i j : ℝ) : ℂ)

/-- `Q2`, the response of the data to a bandpower, pspecdata.py L1674 and L1773-1775; `get_G` never damps. -/
def q2Exact {nf left right nd : ℕ} (sampling : Bool) (delTau : ℝ) (B : Matrix (Fin (nf + (left + right))) (Fin (nf + (left + right))) ℝ) (b : Fin nd) :
    Matrix (Fin (nf + (left + right))) (Fin (nf + (left + right))) ℂ :=
  fun i j => qExt nf b left right i j * ((delTau * B i j : ℝ) : ℂ) * (if sampling then 1 else (sincMat (nf + (left + right)) i j : ℂ))

/-- `get_H(exact_norm=True)`, pspecdata.py L1752-1797. -/
def getHexact {nf left right : ℕ} (nd : ℕ) (sampling : Bool) (norm : Norm nf) (R1 R2 : Matrix (Fin nf) (Fin (nf + (left + right))) ℂ) :
    Except Err (Matrix (Fin nd) (Fin nd) ℂ) :=
  match bcast (nf + (left + right)) norm.beam with
  | .error e => .error e
  | .ok B => .ok (finishGH (fun a b => trace (R1ᴴ * q1Exact norm a * (R2 * q2Exact sampling norm.delTau B b))))

/-- `get_G(exact_norm=True)`, pspecdata.py L1651-1686: the same without the damping of L1774-1775. -/
def getGexact {nf left right : ℕ} (nd : ℕ) (norm : Norm nf) (R1 R2 : Matrix (Fin nf) (Fin (nf + (left + right))) ℂ) :
    Except Err (Matrix (Fin nd) (Fin nd) ℂ) :=
  match bcast (nf + (left + right)) norm.beam with
  | .error e => .error e
  | .ok B => .ok (finishGH (fun a b => trace (R1ᴴ * q1Exact norm a * (R2 * q2Exact true norm.delTau B b))))

end
end HeraPspec.Oqe
