import Mathlib.Data.Matrix.Block
import Mathlib.Data.Matrix.Mul
import Mathlib.LinearAlgebra.Matrix.Trace
import Mathlib.Analysis.SpecialFunctions.Pow.Real
import Mathlib.Data.Fin.VecNotation

/-!
Model of `spherical_average` (grouping.py L710-1180) for one spectral window, one integration and one polarization: the code
treats these axes independently (`np.matmul` broadcasts over the polarization and time axes).

A cylindrical mode is a pair (baseline-pair `b`, delay `d`); the code flattens it to `d + Ndlys * b`. `np.linalg.pinv` is a
parameter satisfying the Moore-Penrose equations (`IsPinv`).
-/
namespace HeraPspec.Spherical
open Matrix

/-- `kbin_left = kbins - bin_widths / 2`, L825. -/
noncomputable def left {n : Nat} (kbins widths : Fin n → ℝ) (i : Fin n) : ℝ := kbins i - widths i / 2

/-- `kbin_right = kbins + bin_widths / 2`, L826. -/
noncomputable def right {n : Nat} (kbins widths : Fin n → ℝ) (i : Fin n) : ℝ := kbins i + widths i / 2

/-- `np.all(kbin_left[1:] >= kbin_right[:-1] - 1e-6)`, L827. -/
def accepted {n : Nat} (kbins widths : Fin n → ℝ) : Prop :=
  ∀ (i : Nat) (h : i + 1 < n), right kbins widths ⟨i, by omega⟩ - 1 / 10 ^ 6 ≤ left kbins widths ⟨i + 1, h⟩

open Classical in
/-- `kind = (kbin_left < kmag) & (kbin_right >= kmag)`, then the first such bin if any (`np.where(kind)[0][0]`),
L1012-1018. If there is none, `kind` is an all-false mask and the assignment to `A` has no effect. -/
noncomputable def binOf {n : Nat} (kbins widths : Fin n → ℝ) (kmag : ℝ) : Option (Fin n) :=
  (List.finRange n).find? (fun i => decide (left kbins widths i < kmag ∧ right kbins widths i ≥ kmag))

variable {nb nd nk : Nat}

/-- `kmags = sqrt(kperp^2 + kparas^2)`, L952. -/
noncomputable def kmag (kperp : Fin nb → ℝ) (kpara : Fin nd → ℝ) (m : Fin nb × Fin nd) : ℝ :=
  Real.sqrt (kperp m.1 ^ 2 + kpara m.2 ^ 2)

/-- The design matrix `A`, L1011-1020. -/
noncomputable def designMatrix (kbins widths : Fin nk → ℝ) (km : Fin nb × Fin nd → ℝ) : Matrix (Fin nb × Fin nd) (Fin nk) ℝ :=
  fun m k => if binOf kbins widths (km m) = some k then 1 else 0

/-- The weights of the three modes, L982-1003, as one `nd × nd` block per baseline-pair: inverse covariance, inverse variance
(`none` = infinite error), or one unless the pair has no integration time. -/
inductive Weighting (nb nd : Nat)
  | cov (E : Fin nb → Matrix (Fin nd) (Fin nd) ℝ)
  | error (s : Fin nb → Fin nd → Option ℝ)
  | uniform (intsTimesNsmp : Fin nb → ℝ)

/-- `1 / (stat ** 2).clip(1e-40, inf)`, L993-998. -/
noncomputable def invVar : Option ℝ → ℝ
  | none => 0
  | some s => 1 / max (s ^ 2) (1 / 10 ^ 40)

/-- The blocks of `E`. `np.isclose(x, 0)`: `|x| ≤ 1e-8`. (grouping.py L992-1015) -/
noncomputable def blocks : Weighting nb nd → Fin nb → Matrix (Fin nd) (Fin nd) ℝ
  | .cov E => E
  | .error s => fun b => Matrix.diagonal (fun d => invVar (s b d))
  | .uniform x => fun b => Matrix.diagonal (fun _ => if |x b| ≤ 1 / 10 ^ 8 then 0 else 1)

/-- `EmAm[blpslice] = Em[blpslice] @ Am[blpslice]`, L1050-1056. -/
noncomputable def EA (E : Fin nb → Matrix (Fin nd) (Fin nd) ℝ) (A : Matrix (Fin nb × Fin nd) (Fin nk) ℝ) :
    Matrix (Fin nb × Fin nd) (Fin nk) ℝ :=
  fun m k => ∑ d, E m.1 m.2 d * A (m.1, d) k

/-- `H = EmAm @ pinv(Am.T @ EmAm)`, L1057-1058. -/
noncomputable def hMatrix (pinv : Matrix (Fin nk) (Fin nk) ℝ → Matrix (Fin nk) (Fin nk) ℝ)
    (E : Fin nb → Matrix (Fin nd) (Fin nd) ℝ) (A : Matrix (Fin nb × Fin nd) (Fin nk) ℝ) : Matrix (Fin nb × Fin nd) (Fin nk) ℝ :=
  EA E A * pinv (Aᵀ * EA E A)

/-- `p_sph = H.T p_cyl`, L1061-1065 (one real component of the data). -/
noncomputable def binData (H : Matrix (Fin nb × Fin nd) (Fin nk) ℝ) (x : Fin nb × Fin nd → ℝ) : Fin nk → ℝ := Hᵀ *ᵥ x

/-- `sq_stat.clip(0, 1e40)`. Used by `binStat`, grouping.py L1077-1093. -/
noncomputable def clipStat : Option ℝ → ℝ
  | none => 10 ^ 40
  | some s => min (max (s ^ 2) 0) (10 ^ 40)

/-- `avg_stat`, L1077-1093; zero becomes `1e40`. -/
noncomputable def binStat (H : Matrix (Fin nb × Fin nd) (Fin nk) ℝ) (s : Fin nb × Fin nd → Option ℝ) (k : Fin nk) : ℝ :=
  let v := Real.sqrt (∑ m, H m k * clipStat (s m) * H m k)
  if |v| ≤ 1 / 10 ^ 8 then 10 ^ 40 else v

/-- `cm = Ht @ cm.clip(-1e40, 1e40) @ H`, L1095-1100. The covariance is block diagonal. -/
noncomputable def binCov (H : Matrix (Fin nb × Fin nd) (Fin nk) ℝ) (C : Fin nb → Matrix (Fin nd) (Fin nd) ℝ) :
    Matrix (Fin nk) (Fin nk) ℝ :=
  Hᵀ * (Matrix.of fun m m' => if m.1 = m'.1 then max (-(10 ^ 40)) (min (C m.1 m.2 m'.2) (10 ^ 40)) else 0) * H

/-- `integration_array`: the sum over baseline-pairs of `ints * trace(E block)` (L1005-1009), divided by
`np.trace(E, axis1=1, axis2=2)` (L1034), which is the trace of the *first* `Ndlys` rows of the `Ndlyblps × Ndlys` array. -/
noncomputable def integration (E : Fin nb → Matrix (Fin nd) (Fin nd) ℝ) (ints : Fin nb → ℝ) (b0 : Fin nb) : ℝ :=
  (∑ b, ints b * (E b).trace) / max ((E b0).trace) (1 / 10 ^ 40)

/-- `nsample_array`, L1009. -/
noncomputable def nsample (nsmp : Fin nb → ℝ) : ℝ := ∑ b, nsmp b

end HeraPspec.Spherical
