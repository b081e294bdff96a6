import Verif.Model.Noise
import Verif.Model.Cov
import Mathlib.LinearAlgebra.Matrix.NonsingularInverse
import Mathlib.LinearAlgebra.Matrix.Trace
import Mathlib.LinearAlgebra.Matrix.Hadamard
import Mathlib.Analysis.SpecialFunctions.Trigonometric.Sinc

/-!
Model of the quadratic-estimator algebra: `utils.get_Q_alt` (utils.py L1832-1910) and `PSpecData.q_hat`, `get_G`, `get_H`,
`get_unnormed_E`, `get_unnormed_V`, `get_MW`, `get_integral_beam`, `p_hat`, `cov_p_hat` (pspecdata.py L1483-1985, L2483-2860).

Arithmetic is exact (complex numbers instead of floats). `nd` is `spw_Ndlys`, `nf` is `spw_Nfreqs`, `ext` is
`sum(filter_extension)`. The weighting matrices `R`, data `x` and weights `w` of the keys are inputs (their caching is modelled in
Model/Cache.lean). Division by zero is zero here and inf or nan in numpy: theorems about quotients assume non-zero divisors.
-/
namespace HeraPspec.Oqe
open Matrix Complex
open HeraPspec.Noise (fft)
noncomputable section

/-- Exceptions: `IndexError`, `NotImplementedError`, `ValueError`, `AssertionError`. Used by `getQalt`, utils.py L1832-1910. -/
inductive Err | index | notImpl | value | assertion
  deriving DecidableEq

/-- `np.fft.fftshift`: roll by `n // 2`. Used by `qHat`, pspecdata.py L1483-1610. -/
def fftshift {n : ℕ} (x : Fin n → ℂ) (i : Fin n) : ℂ :=
  x ⟨(i.1 + (n - n / 2)) % n, Nat.mod_lt _ (lt_of_le_of_lt (Nat.zero_le _) i.2)⟩

/-- `np.fft.ifftshift`: roll by `-(n // 2)`. Used by `modeVec`, utils.py L1896-1907. -/
def ifftshift {n : ℕ} (x : Fin n → ℂ) (i : Fin n) : ℂ :=
  x ⟨(i.1 + n / 2) % n, Nat.mod_lt _ (lt_of_le_of_lt (Nat.zero_le _) i.2)⟩

/-- `start_idx`, utils.py L1902-1905. -/
def startIdx (nd : ℕ) : ℝ := if nd % 2 = 0 then -(nd : ℝ) / 2 else -((nd : ℝ) - 1) / 2

/-- The Fourier vector of a delay mode, utils.py L1896-1907; `n` is the number of channels including any extension. -/
def modeVec (mode nd n : ℕ) (allowFft : Bool) (phase : ℝ) : Fin n → ℂ :=
  if nd = n ∧ allowFft then fft (ifftshift (fun i : Fin n => if i.1 = mode then 1 else 0))
  else fun k => Complex.exp (-2 * I * Real.pi * (((startIdx nd + mode) * ((k.1 : ℝ) - phase) : ℝ) : ℂ) / nd)

/-- `Q_alt` of a mode in range, utils.py L1891-1910: `phase_correction` only counts with an extension. -/
def qMat (mode nd nf : ℕ) (allowFft : Bool) (ext : ℕ) (phase : ℝ) : Matrix (Fin (nf + ext)) (Fin (nf + ext)) ℂ :=
  fun i j =>
    let m := modeVec mode nd (nf + ext) allowFft (if ext ≠ 0 then phase else 0)
    star (m i) * m j

/-- `utils.get_Q_alt`, utils.py L1832-1910. -/
def getQalt (mode : ℤ) (nd nf : ℕ) (allowFft : Bool) (ext : ℕ) (phase : ℝ) :
    Except Err (Matrix (Fin (nf + ext)) (Fin (nf + ext)) ℂ) :=
  if (nd : ℤ) ≤ mode ∨ mode < 0 then .error .index else .ok (qMat mode.toNat nd nf allowFft ext phase)

/-- `Q_alt` without extension, as `get_Q_alt(ch)` and `get_Q_alt_tensor()` return it (pspecdata.py L2639-2733). -/
def qPlain (nf : ℕ) {nd : ℕ} (a : Fin nd) : Matrix (Fin nf) (Fin nf) ℂ := qMat a nd nf true 0 0

/-- `Q_alt` with the extension, `get_Q_alt(ch, include_extension=True)`; `ext = left + right` and the phase is `left`. Used by `getG`, pspecdata.py L1612-1688. -/
def qExt (nf : ℕ) {nd : ℕ} (a : Fin nd) (left right : ℕ) : Matrix (Fin (nf + (left + right))) (Fin (nf + (left + right))) ℂ :=
  qMat a nd nf true (left + right) left

/-- Sum of `R x` over the keys of a list (one key is a list of one), pspecdata.py L1538-1554. -/
def sumRx {nf ne : ℕ} {T : Type} (l : List (Matrix (Fin nf) (Fin ne) ℂ × Matrix (Fin ne) T ℂ)) : Matrix (Fin nf) T ℂ :=
  l.foldl (fun acc p => acc + p.1 * p.2) 0

/-- How the matrices are normalised: plain, or `exact_norm` with `del_tau` and the beam integral. Used by `qHat`, pspecdata.py L1483-1610. -/
structure Norm (nf : ℕ) where
  exact : Bool
  delTau : ℝ
  beam : Matrix (Fin nf) (Fin nf) ℝ

/-- `q_hat`, pspecdata.py L1483-1610. -/
def qHat {nf ne nd : ℕ} {T : Type} (allowFft : Bool) (norm : Norm nf)
    (l1 l2 : List (Matrix (Fin nf) (Fin ne) ℂ × Matrix (Fin ne) T ℂ)) : Except Err (Fin nd → T → ℂ) :=
  let y1 := sumRx l1
  let y2 := sumRx l2
  if norm.exact ∧ allowFft then .error .notImpl
  else if norm.exact then
    .ok (fun a t => 1 / 2 * ∑ i, star (y1 i t) * ∑ j, ((norm.delTau : ℂ) * qPlain nf a i j * norm.beam i j) * y2 j t)
  else if h : allowFft = true ∧ nf = nd then
    .ok (fun a t => 1 / 2 * star (fftshift (fft (fun k => y1 k t)) (Fin.cast h.2.symm a)) * fftshift (fft (fun k => y2 k t)) (Fin.cast h.2.symm a))
  else .ok (fun a t => 1 / 2 * ∑ i, star (y1 i t) * ∑ j, qPlain nf a i j * y2 j t)

open Classical in
/-- The identity that replaces an all-zero matrix, and the factor 1/2, pspecdata.py L1683-1688 and L1792-1797. -/
def finishGH {nd : ℕ} (G : Matrix (Fin nd) (Fin nd) ℂ) : Matrix (Fin nd) (Fin nd) ℂ :=
  (1 / 2 : ℂ) • (if G = 0 then 1 else G)

/-- `get_G` without `exact_norm`, pspecdata.py L1612-1688. -/
def getG {nf left right : ℕ} (nd : ℕ) (R1 R2 : Matrix (Fin nf) (Fin (nf + (left + right))) ℂ) : Matrix (Fin nd) (Fin nd) ℂ :=
  finishGH (fun a b => trace (R1ᴴ * qPlain nf a * (R2 * qExt nf b left right)))

/-- `np.sinc`. Used by `sincMat`, pspecdata.py L1743-1749. -/
def npSinc (x : ℝ) : ℝ := Real.sinc (Real.pi * x)

/-- `sinc_matrix`, pspecdata.py L1743-1749. -/
def sincMat (n : ℕ) : Matrix (Fin n) (Fin n) ℝ := fun i j => npSinc (((i.1 : ℝ) - j.1) / n)

/-- `get_H` without `exact_norm`, pspecdata.py L1690-1797. -/
def getH {nf left right : ℕ} (nd : ℕ) (sampling : Bool) (R1 R2 : Matrix (Fin nf) (Fin (nf + (left + right))) ℂ) : Matrix (Fin nd) (Fin nd) ℂ :=
  finishGH (fun a b => trace (R1ᴴ * qPlain nf a *
    (R2 * (if sampling then qExt nf b left right else Matrix.of (fun i j => qExt nf b left right i j * (sincMat (nf + (left + right)) i j : ℂ))))))

/-- `get_unnormed_E`, pspecdata.py L1799-1858. With `exact_norm` the beam integral multiplies the product `Q R_2` elementwise
(L1853), which numpy only accepts without an extension. -/
def unnormedE {nf ne nd : ℕ} (R1 R2 : Matrix (Fin nf) (Fin ne) ℂ) (a : Fin nd) : Matrix (Fin ne) (Fin ne) ℂ :=
  (1 / 2 : ℂ) • (R1ᴴ * (qPlain nf a * R2))

/-- `get_unnormed_E` with `exact_norm=True`, L1850-1854. -/
def unnormedEexact {nf nd : ℕ} (norm : Norm nf) (R1 R2 : Matrix (Fin nf) (Fin nf) ℂ) (a : Fin nd) : Matrix (Fin nf) (Fin nf) ℂ :=
  (1 / 2 : ℂ) • (R1ᴴ * Matrix.of (fun i j => (norm.delTau : ℂ) * norm.beam i j * (qPlain nf a * R2) i j))

/-- Models of the data covariance, `C_model` and `cross_covar_model` (pspecdata.py L688-908), without known covariances: the
empirical one, or a diagonal of variances with vanishing cross-covariance ('dsets' and 'autos'). -/
inductive CovModel (ne : ℕ) (T : Type)
  | empirical (w1 w2 : Matrix (Fin ne) T ℝ)
  | diagonal (v1 v2 : Fin ne → ℝ)

/-- `C1, C2, P21, S21` for the empirical model, pspecdata.py L1963-1971 with L763-772 and L871-879. -/
def covEmp {ne : ℕ} {T : Type} [Fintype T] (x1 x2 : Matrix (Fin ne) T ℂ) (w1 w2 : Matrix (Fin ne) T ℝ) :
    Except Cov.Err (Matrix (Fin ne) (Fin ne) ℂ × Matrix (Fin ne) (Fin ne) ℂ × Matrix (Fin ne) (Fin ne) ℂ × Matrix (Fin ne) (Fin ne) ℂ) := do
  let C1 ← Cov.cov x1 w1
  let C2 ← Cov.cov x2 w2
  let P21 ← Cov.cov2 x2 w2 x1 w1 false false
  let S21 ← Cov.cov2 x2 w2 x1 w1 true true
  return (C1, C2, P21, S21)

/-- `C1, C2, P21, S21`, pspecdata.py L1963-1971; the diagonal models are L774-800 and L880-888. -/
def covInputs {ne : ℕ} {T : Type} [Fintype T] (x1 x2 : Matrix (Fin ne) T ℂ) : CovModel ne T →
    Except Cov.Err (Matrix (Fin ne) (Fin ne) ℂ × Matrix (Fin ne) (Fin ne) ℂ × Matrix (Fin ne) (Fin ne) ℂ × Matrix (Fin ne) (Fin ne) ℂ)
  | .empirical w1 w2 => covEmp x1 x2 w1 w2
  | .diagonal v1 v2 => .ok (diagonal (fun i => (v1 i : ℂ)), diagonal (fun i => (v2 i : ℂ)), 0, 0)

/-- The two traces, pspecdata.py L1973-1985. -/
def vMat {ne nd : ℕ} (E : Fin nd → Matrix (Fin ne) (Fin ne) ℂ) (C1 C2 P21 S21 : Matrix (Fin ne) (Fin ne) ℂ) : Matrix (Fin nd) (Fin nd) ℂ :=
  Matrix.of (fun a b => trace ((E a * C2) * ((E b)ᴴ * C1)) + trace ((E a * P21) * ((E b).map star * S21)))

/-- `get_unnormed_V`, pspecdata.py L1962-1985, from the matrices `E`. -/
def unnormedV {ne nd : ℕ} {T : Type} [Fintype T] (E : Fin nd → Matrix (Fin ne) (Fin ne) ℂ) (x1 x2 : Matrix (Fin ne) T ℂ) (model : CovModel ne T) :
    Except Cov.Err (Matrix (Fin nd) (Fin nd) ℂ) :=
  (covInputs x1 x2 model).map (fun r => vMat E r.1 r.2.1 r.2.2.1 r.2.2.2)

/-- `norm` argument of `get_MW`. Used by `getMW`, pspecdata.py L2483-2637. -/
inductive Mode | I | Hinv | Vhalf | Linv | other
  deriving DecidableEq

/-- Row sums, `np.sum(A, axis=1)`. Used by `getMW`, pspecdata.py L2483-2637. -/
def rowSum {nd : ℕ} (A : Matrix (Fin nd) (Fin nd) ℂ) (i : Fin nd) : ℂ := ∑ j, A i j

/-- Eigenvalues kept and their eigenvectors (columns), as the code has them after the truncation of L2575-2582. `np.linalg.eigh` is
external: the eigen-decomposition is an input. -/
structure Eig (nd : ℕ) where
  k : ℕ
  vals : Fin k → ℝ
  vecs : Matrix (Fin nd) (Fin k) ℂ

/-- `V_minus_half`, pspecdata.py L2584-2586. -/
def vMinusHalf {nd : ℕ} (e : Eig nd) : Matrix (Fin nd) (Fin nd) ℂ :=
  e.vecs * (diagonal (fun i => ((1 / Real.sqrt (e.vals i) : ℝ) : ℂ)) * e.vecsᵀ)

/-- `get_MW`, pspecdata.py L2483-2637. `pinv` is `np.linalg.pinv`, external; `eig` is the decomposition of `band_covar`. -/
def getMW {nd : ℕ} (pinv : Matrix (Fin nd) (Fin nd) ℂ → Matrix (Fin nd) (Fin nd) ℂ) (G H : Matrix (Fin nd) (Fin nd) ℂ) (mode : Mode)
    (eig : Option (Eig nd)) (exactNorm : Bool) : Except Err (Matrix (Fin nd) (Fin nd) ℂ × Matrix (Fin nd) (Fin nd) ℂ) :=
  if mode = .other then .error .assertion
  else if mode ≠ .I ∧ exactNorm then .error .notImpl
  else match mode with
    | .Hinv =>
      let M := if H.det ≠ 0 then H⁻¹ else pinv H
      let W := M * H
      .ok (M, fun i j => W i j / rowSum W i)
    | .Vhalf =>
      match eig with
      | none => .error .value
      | some e =>
        let M := diagonal (fun i => 1 / rowSum (vMinusHalf e * H) i) * vMinusHalf e
        .ok (M, M * H)
    | .I => .ok (diagonal (fun i => 1 / rowSum G i), diagonal (fun i => 1 / rowSum H i) * H)
    | _ => .error .notImpl

/-- `p_hat`, pspecdata.py L2813-2830. -/
def pHat {nd : ℕ} {T : Type} (M : Matrix (Fin nd) (Fin nd) ℂ) (q : Matrix (Fin nd) T ℂ) : Matrix (Fin nd) T ℂ := M * q

/-- `cov_p_hat` at one time, pspecdata.py L2832-2850: `einsum("ab,cd,bd->ac", M, M, q_cov)`. -/
def covPhat {nd : ℕ} (M q : Matrix (Fin nd) (Fin nd) ℂ) : Matrix (Fin nd) (Fin nd) ℂ :=
  fun a c => ∑ b, ∑ d, M a b * M c d * q b d

/-- `beam_prod`, pspecdata.py L2762-2763. -/
def beamProd {nf np : ℕ} (res : Matrix (Fin nf) (Fin np) ℝ) (omega : Fin nf → ℝ) : Matrix (Fin nf) (Fin np) ℝ :=
  Matrix.of (fun i k => res i k * (1 / omega i))

/-- `get_integral_beam`, pspecdata.py L2735-2775: `np.pi / (3 N N) * beam_prod · beam_prod.T` with `beam_prod = beam / omega`, or all
ones without a beam. -/
def integralBeam {nf np : ℕ} (beam : Option (Matrix (Fin nf) (Fin np) ℝ × (Fin nf → ℝ) × ℝ)) : Matrix (Fin nf) (Fin nf) ℝ :=
  match beam with
  | none => fun _ _ => 1
  | some (res, omega, N) =>
    (Real.pi / (3 * N * N)) • (beamProd res omega * (beamProd res omega)ᵀ)

end
end HeraPspec.Oqe
