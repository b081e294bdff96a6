import Verif.Model.Cosmo
import Mathlib.Algebra.Order.Floor.Ring
import Mathlib.Data.Nat.Find

/-!
Model of the sky-plane part of uvwindow.py: `_get_kgrid` (L490-542), `_kperp4bl_freq` (L544-582) and `_interpolate_ft_beam` (L584-632).

Floats are reals and `np.arange(a, b, step)` has exactly `ceil((b - a) / step)` entries. `scipy`'s `RegularGridInterpolator` with
`bounds_error=False, fill_value=0.0` is modelled as bilinear interpolation in the cell of an ascending grid, 0 outside the grid. The
shape checks of the beam array (L606-612) hold by the type of the model's beam.
-/
namespace HeraPspec.Interp
noncomputable section

/-- Exceptions. Used by `getKgrid`, uvwindow.py L533-536. -/
inductive Err | value
  deriving DecidableEq, Repr

/-- What the UVWindow object knows: the cosmology, the unit convention, the half width of the beam map and the frequencies. Used by
`getKgrid`, uvwindow.py L490-542. -/
structure Env where
  cosmo : Cosmo.Params
  littleH : Bool
  mapsize : ℝ
  freqs : List ℝ

/-- `freq_array.max()`, L530, L568. -/
def Env.fmax (e : Env) : ℝ := e.freqs.foldr max (e.freqs.headD 0)

/-- `freq_array.min()`, L568. -/
def Env.fmin (e : Env) : ℝ := e.freqs.foldr min (e.freqs.headD 0)

/-- `self.avg_z`, L386-387. -/
def Env.avgZ (e : Env) : ℝ := Cosmo.f2z (e.freqs.sum / e.freqs.length) false

/-- `kp_centre`, L519-523. -/
def kpCentre (e : Env) (bl : ℝ) : ℝ := Cosmo.blToKperp e.cosmo e.avgZ e.littleH * bl / Real.sqrt 2

/-- `dk`, L525-532. -/
def gridStep (e : Env) : ℝ := 2 * Real.pi / (2 * e.mapsize) / Cosmo.dRperp e.cosmo (Cosmo.f2z e.fmax false) e.littleH

/-- `np.arange(a, b, step=s)`, L538. -/
def arange (a b s : ℝ) : List ℝ := (List.range ⌈(b - a) / s⌉₊).map (fun m : ℕ => a + m * s)

/-- `_get_kgrid`, L490-542: `kgrid` and `kperp_norm`. -/
def getKgrid (e : Env) (bl width : ℝ) : Except Err (List ℝ × List (List ℝ)) :=
  open Classical in
  if width ≤ gridStep e then .error .value
  else .ok (arange (kpCentre e bl - width) (kpCentre e bl + width) (gridStep e),
    (arange (kpCentre e bl - width) (kpCentre e bl + width) (gridStep e)).map (fun x =>
      (arange (kpCentre e bl - width) (kpCentre e bl + width) (gridStep e)).map (fun y => Real.sqrt (x ^ 2 + y ^ 2))))

/-- Entry `j` of `np.fft.fftshift(np.fft.fftfreq(n)) * n / (2.0 * mapsize)`, L574-578. -/
def qEntry (n : ℕ) (mapsize : ℝ) (j : ℕ) : ℝ := ((j : ℝ) - ((n / 2 : ℕ) : ℝ)) / n * n / (2 * mapsize)

/-- One entry of `k` before `np.flip`, L579. -/
def kEntry (e : Env) (freq bl : ℝ) (n j : ℕ) : ℝ :=
  2 * Real.pi / Cosmo.DM e.cosmo (Cosmo.f2z freq false) e.littleH * (freq * bl / Cosmo.c / Real.sqrt 2 - qEntry n e.mapsize j)

/-- `_kperp4bl_freq`, L544-582. -/
def kperp4bl (e : Env) (freq bl : ℝ) (n : ℕ) : Except Err (List ℝ) :=
  open Classical in
  if freq / 1e6 < 1 then .error .value
  else if ¬ (e.fmin ≤ freq ∧ freq ≤ e.fmax) then .error .value
  else .ok ((List.range n).map (fun j => kEntry e freq bl n j)).reverse

/-- The grid cell of a coordinate: the largest `i <= n - 2` with `k[i] <= x`. Used by `interp`, uvwindow.py L627-630. -/
def cell (k : ℕ → ℝ) (n : ℕ) (x : ℝ) : ℕ := open Classical in Nat.findGreatest (fun i => k i ≤ x) (n - 2)

/-- Fraction of the way through cell `i`. Used by `interp`, uvwindow.py L627-630. -/
def frac (k : ℕ → ℝ) (i : ℕ) (x : ℝ) : ℝ := (x - k i) / (k (i + 1) - k i)

/-- `RegularGridInterpolator((k, k), V, bounds_error=False, fill_value=0.0)` at the point (x, y), L627-630. -/
def interp (k : ℕ → ℝ) (n : ℕ) (V : ℕ → ℕ → ℝ) (x y : ℝ) : ℝ :=
  open Classical in
  if k 0 ≤ x ∧ x ≤ k (n - 1) ∧ k 0 ≤ y ∧ y ≤ k (n - 1) then
    (1 - frac k (cell k n x) x) * (1 - frac k (cell k n y) y) * V (cell k n x) (cell k n y)
    + (1 - frac k (cell k n x) x) * frac k (cell k n y) y * V (cell k n x) (cell k n y + 1)
    + frac k (cell k n x) x * (1 - frac k (cell k n y) y) * V (cell k n x + 1) (cell k n y)
    + frac k (cell k n x) x * frac k (cell k n y) y * V (cell k n x + 1) (cell k n y + 1)
  else 0

/-- `A_real(np.array([kgrid, kgrid]).T)`, L630: one value per row of the transposed array, whose rows are `(kgrid[m], kgrid[m])`. -/
def evalPoints (k : ℕ → ℝ) (n : ℕ) (V : ℕ → ℕ → ℝ) (kgrid : List ℝ) : List ℝ := kgrid.map (fun x => interp k n V x x)

/-- `interp_ft_beam[:, :, i] = <vector>`, L630: numpy repeats the vector along the first axis. -/
def plane (k : ℕ → ℝ) (n : ℕ) (V : ℕ → ℕ → ℝ) (kgrid : List ℝ) : List (List ℝ) := kgrid.map (fun _ => evalPoints k n V kgrid)

/-- One pass of the loop over frequencies, L623-630. `V` is `ft_beam[i]`, an n x n array. -/
def planeOf (e : Env) (bl : ℝ) (n : ℕ) (kgrid : List ℝ) (freq : ℝ) (V : ℕ → ℕ → ℝ) : Except Err (List (List ℝ)) :=
  match kperp4bl e freq bl n with
  | .error err => .error err
  | .ok k => .ok (plane (fun j => k.getD j 0) n V kgrid)

/-- The loop over frequencies, L623-630. Result: one plane per frequency. -/
def planes (e : Env) (bl : ℝ) (n : ℕ) (kgrid : List ℝ) : List (ℝ × (ℕ → ℕ → ℝ)) → Except Err (List (List (List ℝ)))
  | [] => .ok []
  | (f, V) :: l => match planeOf e bl n kgrid f V with
    | .error err => .error err
    | .ok p => match planes e bl n kgrid l with
      | .error err => .error err
      | .ok ps => .ok (p :: ps)

/-- `_interpolate_ft_beam`, L584-632 (default `width` of `_get_kgrid`): one plane per frequency, and `kperp_norm`. -/
def interpolateFtBeam (e : Env) (bl : ℝ) (n : ℕ) (beam : List (ℕ → ℕ → ℝ)) : Except Err (List (List (List ℝ)) × List (List ℝ)) :=
  if beam.length ≠ e.freqs.length then .error .value
  else match getKgrid e bl 0.020 with
    | .error err => .error err
    | .ok (kgrid, norms) => match planes e bl n kgrid (e.freqs.zip beam) with
      | .error err => .error err
      | .ok ps => .ok (ps, norms)

end
end HeraPspec.Interp
