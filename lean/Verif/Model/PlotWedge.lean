import Verif.Model.Sort
import Mathlib.Analysis.Complex.Basic

/-!
Model of `plot.delay_wedge` (plot.py L1056-1330): what is drawn, i.e. the cell edges, the colour matrix, the horizon lines and the quantity named on
the colour bar. The redundant and time average with its conversions (L1083-1106) is a parameter that gives the rows of the averaged object in the
object's order. Floats are reals; a logarithmic colour scale is a flag. Axes, ticks, titles and the drawing itself are not modelled.
-/
namespace HeraPspec.PlotWedge
noncomputable section

/-- Exceptions. Used by `wedge`, L1094-1098, L1178-1188. -/
inductive Err | value | index
  deriving DecidableEq

/-- The `component` argument. Used by `comp`, L1140-1152. -/
inductive Component | real | absReal | imag | absImag | abs
  deriving DecidableEq

/-- Components of a complex number, L1141-1150. -/
def comp : Component → ℂ → ℝ
  | .real, z => z.re
  | .absReal, z => |z.re|
  | .imag, z => z.im
  | .absImag, z => |z.im|
  | .abs, z => ‖z‖

/-- A row of the object before averaging. Used by `pick`, L1078-1079. -/
structure Raw where
  blp : ℕ
  time : ℝ
  sep : ℝ
  spec : List ℂ

open Classical in
/-- "Select out times and blpairs if provided": `if times is not None: uvp.select(blpairs=blpairs, times=times)`, L1077-1079. -/
def pick (blpairs : Option (List ℕ)) (times : Option (List ℝ)) (rows : List Raw) : List Raw :=
  match times with
  | none => rows
  | some ts => rows.filter (fun r => decide (r.time ∈ ts) && (match blpairs with | none => true | some b => decide (r.blp ∈ b)))

/-- A row of the averaged object: baseline-pair, separation (`get_blpair_seps`), and the spectrum `get_data((spw, blp, pol))`. Used by `wedge`, L1086-1138. -/
structure Row where
  blp : ℕ
  sep : ℝ
  spec : List ℂ

/-- `np.argsort(blpair_seps)`, L1092. (Stable; `np.argsort` may order equal separations differently.) -/
def argsort (x : List ℝ) : List ℕ := pySorted (fun i j => open Classical in decide (x.getD i 0 ≤ x.getD j 0)) (List.range x.length)

/-- `[blpairs[oi] for oi in osort]`, L1093. -/
def sortedBlps (rows : List Row) : List ℕ := (argsort (rows.map (·.sep))).map (fun i => (rows.map (·.blp)).getD i 0)

/-- `blpair_seps[osort]`, L1093. -/
def sortedSeps (rows : List Row) : List ℝ := (argsort (rows.map (·.sep))).map (fun i => (rows.map (·.sep)).getD i 0)

/-- `uvp.get_data((spw, blp, pol)).squeeze()`, L1138. -/
def getData (rows : List Row) (blp : ℕ) : List ℂ := ((rows.find? (fun r => decide (r.blp = blp))).map (·.spec)).getD []

/-- The matrix of the chosen component, L1138-1152. -/
def matrix (c : Component) (rows : List Row) : List (List ℝ) := (sortedBlps rows).map (fun b => (getData rows b).map (comp c))

/-- `np.abs(data).min()`, L1157. -/
def minAbs (m : List (List ℝ)) : ℝ := (m.flatten.map (fun x => |x|)).foldl min |m.flatten.headD 0|

open Classical in
/-- `data[data < 0] = np.abs(data).min() * 1e-6 + 1e-10`, L1156-1157. -/
def fixNeg (m : List (List ℝ)) : List (List ℝ) := m.map (fun r => r.map (fun x => if x < 0 then minAbs m * (1 / 10 ^ 6) + 1 / 10 ^ 10 else x))

/-- `fix_negval`, L1064. -/
def needsFix (c : Component) (log : Bool) : Bool := (c == .real || c == .imag) && log

/-- `data[:, ::-1]`, L1174. -/
def flipCols (m : List (List ℝ)) : List (List ℝ) := m.map List.reverse

/-- `np.rot90(m, k=1)`: entry (i, j) is entry (j, ncols - 1 - i). L1174. -/
def rot90 (m : List (List ℝ)) : List (List ℝ) :=
  (List.range (m.headD []).length).map (fun i => m.map (fun r => r.getD ((m.headD []).length - 1 - i) 0))

/-- `np.diff`, L1177, L1183. -/
def diff (x : List ℝ) : List ℝ := List.zipWith (fun a b => b - a) x x.tail

/-- `x_edges`, `y_edges`, L1178-1188. -/
def edges (x : List ℝ) : List ℝ :=
  [x.headD 0 - (diff x).headD 0 / 2] ++ List.zipWith (fun a d => a + d / 2) x.dropLast (diff x) ++ [x.getLastD 0 + (diff x).getLastD 0 / 2]

/-- What is drawn. `horizons` are (position, lower and upper end of the line). Used by `wedge`, L1189-1308. -/
structure Mesh where
  xEdges : List ℝ
  yEdges : List ℝ
  vals : List (List ℝ)
  logScale : Bool
  /-- the colour bar says Delta^2 -/
  saysDeltaSq : Bool
  horizons : List (ℝ × ℝ × ℝ)

/-- The arguments and the factors of the object: `c`, `tau_to_kpara`, `bl_to_kperp`. Used by `wedge`, L1056-1330. -/
structure Args where
  delay : Bool
  rotate : Bool
  log10 : Bool
  deltasq : Bool
  component : Component
  dlys : List ℝ
  c : ℝ
  tauToK : ℝ
  blToK : ℝ

/-- The delay or k_parallel axis, L1110, L1113. -/
def dlyAxis (a : Args) : List ℝ := if a.delay then a.dlys.map (fun t => t * 10 ^ 9) else a.dlys.map (fun t => t * a.tauToK)

/-- The baseline or k_perp axis: sorted separations, or `get_kperps`, which follows the order of the object. L1111, L1114. -/
def blAxis (a : Args) (rows : List Row) : List ℝ := if a.delay then sortedSeps rows else rows.map (fun r => r.sep * a.blToK)

/-- The colour matrix before rotation, L1138-1161. -/
def colours (a : Args) (rows : List Row) : List (List ℝ) :=
  if needsFix a.component a.log10 then fixNeg (matrix a.component rows) else matrix a.component rows

/-- `horizons`, L1271-1277. -/
def horizon (a : Args) (sep : ℝ) : ℝ := if a.delay then sep / a.c * 10 ^ 9 else sep / a.c * 10 ^ 9 * (a.tauToK / 10 ^ 9)

/-- Lines over `bin_edges[i : i + 2]`, L1280-1288. -/
def horizonLines (a : Args) (rows : List Row) (e : List ℝ) : List (ℝ × ℝ × ℝ) :=
  (List.range rows.length).map (fun i => (horizon a ((sortedSeps rows).getD i 0), e.getD i 0, e.getD (i + 1) 0))

/-- `delay_wedge` from the averaged object on, L1090-1308. -/
def wedge (a : Args) (rows : List Row) : Except Err Mesh :=
  if rows.length < 2 then .error .value
  else if a.dlys.length < 2 then .error .index
  else .ok (if a.rotate then
    ⟨edges (blAxis a rows), edges (dlyAxis a), rot90 (flipCols (colours a rows)), a.log10, a.deltasq, horizonLines a rows (edges (blAxis a rows))⟩
    else ⟨edges (dlyAxis a), edges (blAxis a rows), colours a rows, a.log10, a.deltasq, horizonLines a rows (edges (blAxis a rows))⟩)

/-- `delay_wedge`, with the average (and the conversion to Delta^2 if `deltasq and not delay`, L1101-1102) as a function of that flag. L1056-1330. -/
def delayWedge (avg : Bool → List Raw → List Row) (a : Args) (blpairs : Option (List ℕ)) (times : Option (List ℝ)) (rows : List Raw) : Except Err Mesh :=
  wedge a (avg (a.deltasq && !a.delay) (pick blpairs times rows))

end
end HeraPspec.PlotWedge
