import Verif.Model.PyDict
import Mathlib.Analysis.SpecialFunctions.Pow.Real
import Mathlib.Data.Complex.Basic
import Mathlib.Data.List.Dedup
import Mathlib.Data.Int.Notation

/-!
Model of `subtract_uvp` (uvpspec_utils.py L11-137) after its call of `select_common` (modelled in Model/UVP.lean): `u1` and
`u2` are the two objects restricted to their common windows, baseline-pairs and LSTs.

Arrays are functions of their indices (window, row, delay or channel, polarization-pair); one number `d` stands for all the
axes between row and polarization (delay; delay pair; channel and side). Reals and complex numbers are exact. `uvp.check` and
printing are not modelled.
-/
namespace HeraPspec.Subtract

/-- Exceptions: `assertion` from `key_to_indices`, `value` from `list.index` and from numpy shape errors, `key` from an
unknown statistic. Used by `updStats`, uvpspec_utils.py L105-110. -/
inductive Err | assertion | value | key
  deriving DecidableEq, Repr

/-- An array with axes (window, row, anything, polpair). Used by `divMax`, uvpspec_utils.py L99-101. -/
abbrev Arr (α : Type) := ℕ → ℕ → ℕ → ℕ → α

/-- The part of a UVPSpec object used here. `R` is the type of window ranges `get_spw_ranges` returns. Used by `updErrors`, uvpspec_utils.py L104-129. -/
structure Obj (R : Type) where
  ranges : List R
  pols : List ℤ
  blp : List ℤ
  /-- `blp`-parallel LSTs; not read by the code below -/
  lst : List ℚ
  folded : Bool
  data : Arr ℂ
  nsample : Arr ℝ
  integ : Arr ℝ
  wgt : Arr ℝ
  /-- number of weights per spectrum (channels times two) -/
  nWgt : ℕ → ℕ
  stats : Option (Dict String (Arr ℂ))
  /-- model name, real and imaginary covariance -/
  cov : Option (String × Arr ℝ × Arr ℝ)
  window : Option (Arr ℝ)

variable {R : Type} [DecidableEq R]

/-- `blpair_to_indices(blp)`, uvpspec.py L1332-1338: the rows of a baseline-pair. -/
def rowsOf (b : List ℤ) (x : ℤ) : List ℕ := (List.range b.length).filter (fun r => b[r]? = some x)

/-- The row of the second object numpy pairs with row `r` of the first: same position, or the only one (broadcasting). Used by `upd`, uvpspec_utils.py L105-110. -/
def partner (i1 i2 : List ℕ) (r : ℕ) : ℕ := if i2.length = 1 then i2.getD 0 0 else i2.getD (i1.idxOf r) 0

/-- `np.sqrt(1.0 / (1.0 / a ** 2 + 1.0 / b ** 2))`, L72-98, with IEEE division by zero: the result is 0 when `a` or `b` is. -/
noncomputable def invQuad (a b : ℝ) : ℝ := if a = 0 ∨ b = 0 then 0 else Real.sqrt (1 / (1 / a ^ 2 + 1 / b ^ 2))

/-- `np.sqrt(s1.real**2 + s2.real**2) + 1j * np.sqrt(s1.imag**2 + s2.imag**2)`, L108-110. -/
noncomputable def quadC (a b : ℂ) : ℂ := ⟨Real.sqrt (a.re ^ 2 + b.re ^ 2), Real.sqrt (a.im ^ 2 + b.im ^ 2)⟩

/-- `np.sqrt(a**2 + b**2)`, L120-122, L127-129, L139-141. -/
noncomputable def quad (a b : ℝ) : ℝ := Real.sqrt (a ^ 2 + b ^ 2)

/-- `a[i][rows, ..., j] = f a b` with `b = get_*(key2)` of the other object. Used by `updStats`, uvpspec_utils.py L105-110. -/
def upd {α : Type} (f : α → α → α) (i j i2 j2 : ℕ) (rows1 rows2 : List ℕ) (a b : Arr α) : Arr α :=
  fun s r d p => if s = i ∧ p = j ∧ r ∈ rows1 then f (a s r d p) (b i2 (partner rows1 rows2 r) d j2) else a s r d p

/-- All weights of the rows of one key. Used by `divMax`, uvpspec_utils.py L99-101. -/
def wgtList (w : Arr ℝ) (i j : ℕ) (rows : List ℕ) (n : ℕ) : List ℝ :=
  rows.flatMap (fun r => (List.range n).map (fun d => w i r d j))

/-- `w[i][rows, :, :, j] /= w[i][rows, :, :, j].max()`, L99-101. (0/0 is `nan` in numpy and 0 here.) -/
noncomputable def divMax (w : Arr ℝ) (i j : ℕ) (rows : List ℕ) (n : ℕ) : Arr ℝ :=
  fun s r d p => if s = i ∧ p = j ∧ r ∈ rows then w s r d p / ((wgtList w i j rows n).max?.getD 0) else w s r d p

/-- The statistics loop, L105-110. -/
noncomputable def updStats (i j i2 j2 : ℕ) (r1 r2 : List ℕ) (d2 : Dict String (Arr ℂ)) : Dict String (Arr ℂ) → Except Err (Dict String (Arr ℂ))
  | [] => .ok []
  | (s, a) :: rest => match Dict.get d2 s with
    | none => .error .key
    | some b => match updStats i j i2 j2 r1 r2 d2 rest with
      | .error e => .error e
      | .ok l => .ok ((s, upd quadC i j i2 j2 r1 r2 a b) :: l)

/-- Statistics and covariance, L104-129: the covariances are touched only if both objects have statistics. -/
noncomputable def updErrors (i j i2 j2 : ℕ) (r1 r2 : List ℕ) (v u2 : Obj R) : Except Err (Obj R) :=
  match v.stats, u2.stats with
  | some d1, some d2 => match updStats i j i2 j2 r1 r2 d2 d1 with
    | .error e => .error e
    | .ok d => match v.cov, u2.cov with
      | some (m1, re1, im1), some (m2, re2, im2) =>
        .ok { v with stats := some d, cov := some (if m1 = m2 then (m1, upd quad i j i2 j2 r1 r2 re1 re2, upd quad i j i2 j2 r1 r2 im1 im2)
                                                    else (m1, re1, im1)) }
      | _, _ => .ok { v with stats := some d }
  | _, _ => .ok v

/-- Window functions, L132-141. -/
noncomputable def updWindow (i j i2 j2 : ℕ) (r1 r2 : List ℕ) (v u2 : Obj R) : Obj R :=
  match v.window, u2.window with
  | some a, some b => { v with window := some (upd quad i j i2 j2 r1 r2 a b) }
  | _, _ => v

/-- One pass of the innermost loop, L62-141, for window `i`, polpair position `j` and baseline-pair `b`. On folded objects
`get_data` returns fewer delays than the array has: numpy raises. -/
noncomputable def stepKey (u2 : Obj R) (v : Obj R) (i j : ℕ) (b : ℤ) : Except Err (Obj R) :=
  match v.ranges[i]?, v.pols[j]? with
  | some r, some p =>
    if r ∉ u2.ranges then .error .value
    else if b ∉ u2.blp ∨ u2.pols.count p ≠ 1 then .error .assertion
    else if u2.folded ∨ ¬ ((rowsOf u2.blp b).length = (rowsOf v.blp b).length ∨ (rowsOf u2.blp b).length = 1) then .error .value
    else
      let i2 := u2.ranges.idxOf r
      let j2 := u2.pols.idxOf p
      let r1 := rowsOf v.blp b
      let r2 := rowsOf u2.blp b
      let w := upd invQuad i j i2 j2 r1 r2 v.wgt u2.wgt
      match updErrors i j i2 j2 r1 r2
        { v with
          data := upd (fun a b => a - b) i j i2 j2 r1 r2 v.data u2.data
          nsample := upd invQuad i j i2 j2 r1 r2 v.nsample u2.nsample
          integ := upd invQuad i j i2 j2 r1 r2 v.integ u2.integ
          wgt := divMax w i j r1 (v.nWgt i) } u2 with
      | .error e => .error e
      | .ok v' => .ok (updWindow i j i2 j2 r1 r2 v' u2)
  | _, _ => .error .value

/-- The keys visited: all windows, all polpairs, all baseline-pairs of the first object, L56-61. (`sorted(set(...))`: the order
of the baseline-pairs is not modelled.) -/
def keysOf (u : Obj R) : List (ℕ × ℕ × ℤ) :=
  (List.range u.ranges.length).flatMap (fun i => (List.range u.pols.length).flatMap (fun j => u.blp.dedup.map (fun b => (i, j, b))))

/-- The loop. (uvpspec_utils.py L86-129) -/
noncomputable def loop (u2 : Obj R) : List (ℕ × ℕ × ℤ) → Obj R → Except Err (Obj R)
  | [], v => .ok v
  | (i, j, b) :: ks, v => match stepKey u2 v i j b with
    | .error e => .error e
    | .ok v' => loop u2 ks v'

/-- `subtract_uvp` after `select_common`. (uvpspec_utils.py L11-137) -/
noncomputable def subtract (u1 u2 : Obj R) : Except Err (Obj R) := loop u2 (keysOf u1) u1

end HeraPspec.Subtract
