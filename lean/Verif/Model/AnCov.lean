import Mathlib.Analysis.Complex.Basic
import Mathlib.LinearAlgebra.Matrix.Trace

/-!
Model of `PSpecData.get_analytic_covariance` (pspecdata.py L1978-2481) over exact complex numbers. `E_matrices` (Model/Oqe.lean `unnormedE`), the
covariance matrices `C_model` and `cross_covar_model` give for each time, and the weighted data are inputs. `einsum_path` only chooses an order of
multiplication and is not modelled; a scalar zero is modelled as a zero matrix.
-/
namespace HeraPspec.AnCov
open Matrix Classical

variable {ι κ : Type} [Fintype ι] [Fintype κ]

/-- The covariances of the two data vectors at one time, L2278-2355: `C` is `<x x^†>`, `P` is `<x x>` and `S` is `<x^* x^*>`. Used by `general`. -/
structure Inp (ι : Type) where
  C11 : Matrix ι ι ℂ
  C22 : Matrix ι ι ℂ
  C21 : Matrix ι ι ℂ
  C12 : Matrix ι ι ℂ
  P11 : Matrix ι ι ℂ
  S11 : Matrix ι ι ℂ
  P22 : Matrix ι ι ℂ
  S22 : Matrix ι ι ℂ
  P21 : Matrix ι ι ℂ
  S21 : Matrix ι ι ℂ
  /-- weighted data `w * x` of the two keys, L2228-2229 -/
  x1 : ι → ℂ
  x2 : ι → ℂ

/-- `np.isclose(A, 0).all()`, L2357, L2365, L2377, L2385, L2392, L2410, L2421, L2439: `|a| <= 1e-8`. -/
def close0 {α β : Type} (A : Matrix α β ℂ) : Prop := ∀ i j, ‖A i j‖ ≤ 1 / 10 ^ 8

/-- `np.isclose(A, B).all()`, L2180: `|a - b| <= 1e-8 + 1e-5 |b|`. -/
def close {α β : Type} (A B : Matrix α β ℂ) : Prop := ∀ i j, ‖A i j - B i j‖ ≤ 1 / 10 ^ 8 + 1 / 10 ^ 5 * ‖B i j‖

/-- `np.einsum("bij, cji->bc", A, B)`, L2201, L2225, L2362-2398. -/
def trProd (A B : κ → Matrix ι ι ℂ) : Matrix κ κ ℂ := of fun b c => ∑ i, ∑ j, A b i j * B c j i

/-- `np.multiply(A, np.diag(C))`, L2195-2198, L2219-2222: column j is multiplied by `C[j, j]`. -/
def mulDiag (A C : Matrix ι ι ℂ) : Matrix ι ι ℂ := of fun i j => A i j * C j j

/-- `<q q>`, `<q q^†>` and `<q^† q^†>` at one time. Used by `covQ` and `covP`, pspecdata.py L2200-2399. -/
structure Mom (κ : Type) where
  qq : Matrix κ κ ℂ
  qqd : Matrix κ κ ℂ
  qdqd : Matrix κ κ ℂ

/-- The models "dsets" and "autos", L2185-2203. -/
noncomputable def diagonalMom (E : κ → Matrix ι ι ℂ) (d : Inp ι) : Mom κ :=
  { qq := 0, qdqd := 0, qqd := trProd (fun b => mulDiag (E b) d.C22) (fun c => mulDiag (E c)ᴴ d.C11) }

/-- `np.einsum("bi,ci,i->bc", u, v, d)`, L2239-2270. -/
def tri (u v : κ → ι → ℂ) (d : ι → ℂ) : Matrix κ κ ℂ := of fun b c => ∑ i, u b i * v c i * d i

/-- The signal-noise term before clipping, L2228-2271. -/
noncomputable def snCov (E : κ → Matrix ι ι ℂ) (d : Inp ι) : Matrix κ κ ℂ :=
  (1 / 2 : ℂ) • tri (fun b => E b *ᵥ d.x1) (fun c => star (E c *ᵥ d.x2)) d.C11.diag +
  (1 / 2 : ℂ) • tri (fun b => E b *ᵥ d.x2) (fun c => star (E c *ᵥ d.x1)) d.C11.diag +
  (1 / 2 : ℂ) • tri (fun b => (E b)ᵀ *ᵥ star d.x2) (fun c => star ((E c)ᵀ *ᵥ star d.x1)) d.C22.diag +
  (1 / 2 : ℂ) • tri (fun b => (E b)ᵀ *ᵥ star d.x1) (fun c => star ((E c)ᵀ *ᵥ star d.x2)) d.C22.diag

/-- `SN_cov[np.real(np.diag(SN_cov)) <= 0.0, :] = 0`, L2273. -/
noncomputable def clipRows (A : Matrix κ κ ℂ) : Matrix κ κ ℂ := of fun b c => if (A b b).re ≤ 0 then 0 else A b c
/-- `SN_cov[:, np.real(np.diag(SN_cov)) <= 0.0] = 0`, L2274. -/
noncomputable def clipCols (A : Matrix κ κ ℂ) : Matrix κ κ ℂ := of fun b c => if (A c c).re ≤ 0 then 0 else A b c

/-- The model "foreground_dependent", L2204-2275; `d.C11` and `d.C22` are those of the model "autos". -/
noncomputable def foregroundMom (E : κ → Matrix ι ι ℂ) (d : Inp ι) : Mom κ :=
  { qq := 0, qdqd := 0,
    qqd := trProd (fun b => mulDiag (E b) d.C22) (fun c => mulDiag (E c)ᴴ d.C11) + clipCols (clipRows (snCov E d)) }

/-- The general model, L2276-2399. -/
noncomputable def generalMom (E : κ → Matrix ι ι ℂ) (d : Inp ι) : Mom κ :=
  { qq := (if close0 d.P22 ∨ close0 d.S11 then 0 else trProd (fun b => E b * d.P22) (fun c => (E c)ᵀ * d.S11)) +
      (if close0 d.C21 then 0 else trProd (fun b => E b * d.C21) (fun c => E c * d.C21))
    qqd := trProd (fun b => E b * d.C22) (fun c => (E c)ᴴ * d.C11) +
      (if close0 d.P21 ∨ close0 d.S21 then 0 else trProd (fun b => E b * d.P21) (fun c => (E c).map star * d.S21))
    qdqd := (if close0 d.C12 then 0 else trProd (fun b => (E b)ᴴ * d.C12) (fun c => (E c)ᴴ * d.C12)) +
      (if close0 d.P11 ∨ close0 d.S22 then 0 else trProd (fun b => (E b)ᴴ * d.P11) (fun c => (E c).map star * d.S22)) }

/-- The kinds of covariance model, L2185, L2204, L2276. Used by `mom`. -/
inductive Kind | diagonal | foreground | general
  deriving DecidableEq, Repr

/-- The choice between the three, L2185-2276. -/
noncomputable def mom (k : Kind) (E : κ → Matrix ι ι ℂ) (d : Inp ι) : Mom κ :=
  match k with
  | .diagonal => diagonalMom E d
  | .foreground => foregroundMom E d
  | .general => generalMom E d

/-- The four results at one time. Used by `analytic`, pspecdata.py L2461-2481. -/
structure Out (κ : Type) where
  qReal : Matrix κ κ ℂ
  qImag : Matrix κ κ ℂ
  pReal : Matrix κ κ ℂ
  pImag : Matrix κ κ ℂ

/-- `np.einsum("ab,cd,bd->ac", A, B, Q)`, or zero if all of `Q` is close to zero, L2410-2451. -/
noncomputable def sandwich (A B Q : Matrix κ κ ℂ) : Matrix κ κ ℂ :=
  if close0 Q then 0 else of fun a c => ∑ b, ∑ d, A a b * B c d * Q b d

/-- `MM_q_qdagger` and `M_Mq_qdagger_` are both decided by `q_qdagger`, L2421-2437. -/
noncomputable def sandwichConj (A B Q : Matrix κ κ ℂ) : Matrix κ κ ℂ :=
  if close0 Q then 0 else of fun a c => ∑ b, ∑ d, A a b * B c d * (Q.map star) b d

/-- From the moments to the four covariances, L2401-2458. -/
noncomputable def outOf (m : Matrix κ κ ℂ) (s : Mom κ) : Out κ :=
  { qReal := (1 / 4 : ℂ) • (s.qq + s.qdqd + s.qqd + s.qqd.map star)
    qImag := -(1 / 4 : ℂ) • (s.qq + s.qdqd - s.qqd - s.qqd.map star)
    pReal := (1 / 4 : ℂ) • (sandwich m m s.qq + sandwich m (m.map star) s.qqd + sandwichConj (m.map star) m s.qqd + sandwich (m.map star) (m.map star) s.qdqd)
    pImag := -(1 / 4 : ℂ) • (sandwich m m s.qq - sandwich m (m.map star) s.qqd - sandwichConj (m.map star) m s.qqd +
      sandwich (m.map star) (m.map star) s.qdqd) }

/-- `check_uniform_input`, L2167-2181. -/
def uniform (k : Kind) (nt : ℕ) (inp : ℕ → Inp ι) : Prop := k ≠ .foreground ∧ close (inp 0).C11 (inp (nt - 1)).C11

/-- `get_analytic_covariance`, L2143-2481; `M t` is the normalization matrix of time `t` (a single matrix is repeated, L2144-2145). -/
noncomputable def analytic (k : Kind) (E : κ → Matrix ι ι ℂ) (M : ℕ → Matrix κ κ ℂ) (nt : ℕ) (inp : ℕ → Inp ι) : List (Out κ) :=
  if uniform k nt inp then List.replicate nt (outOf (M 0) (mom k E (inp 0)))
  else (List.range nt).map (fun t => outOf (M t) (mom k E (inp t)))

end HeraPspec.AnCov
