import Verif.Model.PlotWedge
import Verif.Model.UVP
import Mathlib.Analysis.SpecialFunctions.Trigonometric.Basic
import Mathlib.Algebra.Order.Floor.Ring

/-!
Model of `plot.delay_waterfall` (plot.py L659-895) and of `plot._normalize_plot_blpairs` (L10-71): which spectra are drawn, with which values, at which LSTs.
A value is `none` if it is `nan`; a logarithmic colour scale is a flag. The processed object (selected, averaged, folded and converted, L672-691) is an input.
Axes, titles, colour bars and the drawing itself are not modelled.
-/
namespace HeraPspec.PlotFall
open HeraPspec.PlotWedge (Component)
noncomputable section

/-- Exceptions. Used by `normalize` and `waterfall`, L38-68, L663-665, L741-742. -/
inductive Err | value | type | key | index
  deriving DecidableEq

/-! ### `_normalize_plot_blpairs` -/

/-- An element of the `blpairs` argument or of a group in it: an integer, a baseline-pair tuple, an antenna-pair tuple, or anything else. Used by `norm1`, L52-68. -/
inductive Item
  | int (n : ℕ)
  | blpair (b : (ℕ × ℕ) × (ℕ × ℕ))
  | antpair (b : ℕ × ℕ)
  | other

/-- An element of `blpairs`: a list, or a single item. Used by `normalize`, L33-49. -/
inductive Entry
  | group (l : List Item)
  | single (i : Item)

/-- One member of a group, L52-68; `toInt` is `uvp.antnums_to_blpair`. -/
def norm1 (toInt : (ℕ × ℕ) × (ℕ × ℕ) → ℕ) : Item → Except Err ℕ
  | .int n => .ok n
  | .blpair b => .ok (toInt b)
  | .antpair _ => .error .value
  | .other => .error .type

/-- One entry, L33-69. -/
def normEntry (toInt : (ℕ × ℕ) × (ℕ × ℕ) → ℕ) : Entry → Except Err (List ℕ)
  | .group l => UVP.mapE (norm1 toInt) l
  | .single i => UVP.mapE (norm1 toInt) [i]

/-- `_normalize_plot_blpairs(uvp, blpairs, func_name)`, L28-71. -/
def normalize (toInt : (ℕ × ℕ) × (ℕ × ℕ) → ℕ) (l : List Entry) : Except Err (List (List ℕ)) := UVP.mapE (normEntry toInt) l

/-! ### `delay_waterfall` -/

/-- The rows of one baseline-pair of the processed object, for the chosen spectral window and polarization: spectrum, integration time, LST. Used by `waterfall`, L707-712. -/
structure Row where
  spec : List ℂ
  integ : ℝ
  lst : ℝ

/-- The component drawn, L714-724. -/
def comp : Component → ℂ → ℝ
  | .abs, z => ‖z‖
  | .real, z => z.re
  | .absReal, z => |z.re|
  | .imag, z => z.im
  | .absImag, z => |z.re|

open Classical in
/-- `np.isclose(integration, 0.0)`, L711. -/
def flagged (t : ℝ) : Bool := decide (|t| ≤ 1 / 10 ^ 8)

/-- `power` with flagged rows set to `nan` and the component taken, L709-724. -/
def power (c : Component) (rows : List Row) : List (List (Option ℝ)) :=
  rows.map (fun r => r.spec.map (fun z => if flagged r.integ then none else some (comp c z)))

/-- `np.abs(power).min()`: `nan` if any value is. L729. -/
def minAbs (m : List (Option ℝ)) : Option ℝ :=
  match m with
  | [] => none
  | x :: l => l.foldl (fun a b => match a, b with | some u, some v => some (min u |v|) | _, _ => none) (x.map (fun v => |v|))

/-- `np.abs(power).min() * 1e-6 + 1e-10`, L729. -/
def floorVal (m : List (Option ℝ)) : Option ℝ := (minAbs m).map (fun v => v * (1 / 10 ^ 6) + 1 / 10 ^ 10)

open Classical in
/-- One value under the replacement: blanks stay, negatives become the floor, everything else stays. L727-730. -/
def fixOne (f : Option ℝ) : Option ℝ → Option ℝ
  | none => none
  | some v => if v < 0 then f else some v

/-- `power[power < 0] = ...`, L729. -/
def fixNeg (m : List (List (Option ℝ))) : List (List (Option ℝ)) :=
  m.map (fun r => r.map (fixOne (floorVal m.flatten)))

/-- `fix_negval`, L666. -/
def needsFix (c : Component) (log : Bool) : Bool := (c == .real || c == .imag) && log

/-- The matrix assigned to a key, L705-732. -/
def values (c : Component) (log : Bool) (rows : List Row) : List (List (Option ℝ)) :=
  if needsFix c log then fixNeg (power c rows) else power c rows

/-- The baseline-pairs drawn: all members of the groups, or only the first of each if they were averaged. L703-737. -/
def drawn (avg : Bool) (groups : List (List ℕ)) : List ℕ := if avg then groups.flatMap (fun g => g.take 1) else groups.flatten

/-- The dictionary keyed by the (window, baseline-pair, polarization): insertion order, repeated keys once. L702, L732. -/
def keys (l : List ℕ) : List ℕ := l.foldl (fun acc b => if b ∈ acc then acc else acc ++ [b]) []

/-- One step of `np.unwrap`: the increment between two LSTs, moved into [-pi, pi] by a multiple of 2 pi. L775. -/
def unwrapStep (a b : ℝ) : ℝ :=
  open Classical in
  let d := b - a
  let m := d + Real.pi - ⌊(d + Real.pi) / (2 * Real.pi)⌋ * (2 * Real.pi) - Real.pi
  if m = -Real.pi ∧ 0 < d then Real.pi else if |d| < Real.pi then d else m

/-- `np.unwrap(y)`, L775. -/
def unwrapFrom (cur prev : ℝ) : List ℝ → List ℝ
  | [] => []
  | b :: l => (cur + unwrapStep prev b) :: unwrapFrom (cur + unwrapStep prev b) b l

/-- `np.unwrap(y)`, L775. -/
def unwrap : List ℝ → List ℝ
  | [] => []
  | a :: l => a :: unwrapFrom a a l

open Classical in
/-- The LST axis in radians, L774-778. -/
def lstAxis (y : List ℝ) : List ℝ := if (unwrap y).headD 0 > Real.pi then (unwrap y).map (fun v => v - 2 * Real.pi) else unwrap y

/-- A subplot: baseline-pair, values, and the LST axis it is drawn against. Used by `waterfall`, L810-836. -/
structure Panel where
  blp : ℕ
  vals : List (List (Option ℝ))
  lsts : List ℝ

/-- The data are found for every key; a missing baseline-pair is an error. L707-709. -/
def readKey (data : ℕ → Option (List Row)) (b : ℕ) : Except Err (ℕ × List Row) :=
  match data b with
  | none => .error .key
  | some r => .ok (b, r)

/-- The LST axis: that of the first key. L774. -/
def firstLsts : List (ℕ × List Row) → List ℝ
  | [] => []
  | p :: _ => lstAxis (p.2.map (·.lst))

/-- `delay_waterfall` on the processed object, with a grid of `naxes` axes (`none`: a new square grid, large enough): panels in order. L702-877. -/
def waterfall (c : Component) (log avg force : Bool) (naxes : Option ℕ) (groups : List (List ℕ)) (data : ℕ → Option (List Row)) : Except Err (List Panel) :=
  match UVP.mapE (readKey data) (drawn avg groups) with
  | .error e => .error e
  | .ok _ => match UVP.mapE (readKey data) (keys (drawn avg groups)) with
    | .error e => .error e
    | .ok l => if 20 < l.length ∧ force = false then .error .value
      else if l = [] then .error .index
      else .ok ((l.map (fun p => (⟨p.1, values c log p.2, firstLsts l⟩ : Panel))).take (naxes.getD l.length))

end
end HeraPspec.PlotFall
