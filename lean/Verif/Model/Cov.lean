import Mathlib.Data.Complex.BigOperators
import Mathlib.LinearAlgebra.Matrix.Hermitian

/-!
Model of `utils.cov` (utils.py L66-128): the empirical covariance of waterfalls, channels along the first axis and times along the
second. Arithmetic is exact (real and complex numbers instead of floats); weights are real by type, so the two `TypeError`s of
L101-105 cannot occur.
-/
namespace HeraPspec.Cov
open Matrix
noncomputable section

/-- `ValueError` (L106-107). -/
inductive Err | value
  deriving DecidableEq

variable {m m' n : Type} [Fintype n]

/-- `np.where(x > 0, x, 1)`, L110-111 and L126. -/
def safe (x : ℝ) : ℝ := if 0 < x then x else 1

/-- `x.conj()` when the flag is set, L118-123. -/
def conjIf (c : Bool) (x : ℂ) : ℂ := if c then star x else x

/-- Weighted mean along the time axis, L108-111. -/
def wavg (d : Matrix m n ℂ) (w : Matrix m n ℝ) (i : m) : ℂ := (∑ t, (w i t : ℂ) * d i t) / (safe (∑ t, w i t) : ℂ)

/-- The covariance before the checks, L108-128. -/
def covRaw (d1 : Matrix m n ℂ) (w1 : Matrix m n ℝ) (d2 : Matrix m' n ℂ) (w2 : Matrix m' n ℝ) (c1 c2 : Bool) : Matrix m m' ℂ :=
  fun i j => (∑ t, conjIf c1 ((w1 i t : ℂ) * d1 i t) * conjIf c2 ((w2 j t : ℂ) * d2 j t)) / (safe (∑ t, w1 i t * w2 j t) : ℂ)
    - conjIf c1 (wavg d1 w1 i) * conjIf c2 (wavg d2 w2 j)

open Classical in
/-- `cov(d1, w1, d2, w2, conj_1, conj_2)` with two data arrays, L66-128. -/
def cov2 (d1 : Matrix m n ℂ) (w1 : Matrix m n ℝ) (d2 : Matrix m' n ℂ) (w2 : Matrix m' n ℝ) (c1 : Bool := false) (c2 : Bool := true) :
    Except Err (Matrix m m' ℂ) :=
  if (∃ i t, w1 i t < 0) ∨ (∃ i t, w2 i t < 0) then .error .value else .ok (covRaw d1 w1 d2 w2 c1 c2)

/-- `cov(d1, w1)`: the second data set defaults to the first, L99-100. -/
def cov (d : Matrix m n ℂ) (w : Matrix m n ℝ) (c1 : Bool := false) (c2 : Bool := true) : Except Err (Matrix m m ℂ) := cov2 d w d w c1 c2

end
end HeraPspec.Cov
