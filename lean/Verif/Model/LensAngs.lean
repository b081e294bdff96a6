import Mathlib.Analysis.SpecialFunctions.Complex.Arg
import Mathlib.Analysis.SpecialFunctions.Trigonometric.Basic

/-!
Model of `get_bl_lens_angs` (utils.py L1189-1224) and of the cuts of `get_reds` (utils.py L1320-1336).

Arithmetic is exact; `np.arctan2(y, x)` is the argument of `x + iy` in (-π, π] (signed zeros are not modelled). A baseline vector is
the pair of its East and North components and, in three dimensions, its Up component.
-/
namespace HeraPspec.LensAngs
noncomputable section

/-- A baseline vector with two or three components. Used by `lens`, utils.py L1213. -/
structure Vec where
  e : ℝ
  n : ℝ
  u : Option ℝ

/-- `np.linalg.norm(v)`, utils.py L1213. -/
def norm (v : Vec) : ℝ := Real.sqrt (v.e ^ 2 + v.n ^ 2 + (v.u.getD 0) ^ 2)

/-- `np.arctan2(*v[:2][::-1]) * 180 / np.pi`, utils.py L1214. -/
def rawAng (v : Vec) : ℝ := Complex.arg ⟨v.e, v.n⟩ * 180 / Real.pi

/-- Python's `x % m` for positive `m`. Used by `foldAng`, utils.py L1215. -/
def pymod (x m : ℝ) : ℝ := x - m * ⌊x / m⌋

/-- `(a + 180) % 360 if a < 0 else a`, utils.py L1215. -/
def foldAng (a : ℝ) : ℝ := if a < 0 then pymod (a + 180) 360 else a

/-- `flip`, utils.py L1218. -/
def flip (tol : ℝ) (v : Vec) : Prop := -tol < v.n ∧ v.n < 0 ∧ 0 < v.e

open Classical in
/-- The angle of one baseline, utils.py L1214-1219. -/
def ang (tol : ℝ) (v : Vec) : ℝ := if flip tol v then 0 else foldAng (rawAng v)

/-- `get_bl_lens_angs`, utils.py L1189-1224. -/
def lensAngs (tol : ℝ) (vs : List Vec) : List ℝ × List ℝ := (vs.map norm, vs.map (ang tol))

open Classical in
/-- The cuts of `get_reds`, utils.py L1325-1336: which groups (here their first vectors, with an index) survive, with their lengths and angles. -/
def cuts {G : Type} (tol : ℝ) (lenRange degRange : ℝ × ℝ) (minEW : ℝ) (groups : List (G × Vec)) : List (G × ℝ × ℝ) :=
  (groups.map (fun g => (g.1, norm g.2, ang tol g.2))).filter (fun g =>
    !decide (g.2.1 < lenRange.1 ∨ lenRange.2 < g.2.1) && !decide (g.2.2 < degRange.1 ∨ degRange.2 < g.2.2) &&
      !decide (|g.2.1 * Real.cos (g.2.2 * Real.pi / 180)| < minEW))

end
end HeraPspec.LensAngs
