import Verif.Model.PlotFall

/-!
Model of `plot.delay_spectrum` (plot.py L159-548) and its helpers for titles and labels (L74-156): which spectra are drawn, with which values, markers, error bars,
title and labels. A value is `none` if it is `nan`. The processed object (selected, averaged, converted and folded, L305-337) is an input. Strings are represented
by what is written into them: the integers of the baseline-pairs of a group, the window, the polarization pair, and LSTs and times rounded as printed (ties away
from even are not modelled). Colours, axes and the drawing itself are not modelled.
-/
namespace HeraPspec.PlotSpec
open HeraPspec.PlotFall (flagged)
noncomputable section

/-- Exceptions. Used by `spectrum`, L103, L326-329, L348-351, L368-395. -/
inductive Err | value | key | assertion | unbound
  deriving DecidableEq

/-- The `component` argument; `other` leaves `cast` unbound. Used by `cast`, L363-368. -/
inductive Component | real | imag | abs | other
  deriving DecidableEq

/-- `cast`, L363-368. -/
def cast : Component → Option (ℂ → ℝ)
  | .real => some (fun z => z.re)
  | .imag => some (fun z => z.im)
  | .abs => some (fun z => ‖z‖)
  | .other => none

/-- The rows of one baseline-pair of the processed object for the chosen window and polarization: the spectrum (or the entry of `stats_array` named by `plot_stats`), the
errors named by `error`, integration time, time and LST. Used by `seriesOf`, L370-399. -/
structure Row where
  spec : List ℂ
  errs : List ℂ
  integ : ℝ
  time : ℝ
  lst : ℝ

/-- One plotted spectrum, L402-414. The window and polarization are the same for all. -/
structure Series where
  y : List (Option ℝ)
  t : ℝ
  lst : ℝ
  grp : List ℕ
  errs : Option (List ℝ)

/-- Whether error bars were asked for: not, or for a name that is or is not in `stats_array`. Used by `seriesOf`, L381-395. -/
inductive ErrArg | no | found | missing
  deriving DecidableEq

/-- Values of one row: blank if the integration time is zero. L372-378. -/
def vals (f : ℂ → ℝ) (r : Row) : List (Option ℝ) := r.spec.map (fun z => if flagged r.integ then none else some (f z))

/-- All integrations of one baseline-pair, with the label of its group; L361-414. -/
def seriesOf (c : Component) (e : ErrArg) (data : ℕ → Option (List Row)) (g : List ℕ) (b : ℕ) : Except Err (List Series) :=
  match cast c with
  | none => .error .unbound
  | some f => match data b with
    | none => .error .key
    | some rows => if e = .missing then .error .key
      else .ok (rows.map (fun r => ⟨vals f r, r.time, r.lst, g, if e = .found then some (r.errs.map f) else none⟩))

/-- The members of a group that are drawn: all, or the first if they were averaged. L359, L418-419. -/
def members (avg : Bool) (g : List ℕ) : List ℕ := if avg then g.take 1 else g

/-- The list `series`, L355-419. -/
def collect (avg : Bool) (c : Component) (e : ErrArg) (data : ℕ → Option (List Row)) (groups : List (List ℕ)) : Except Err (List Series) :=
  match UVP.mapE (fun p : List ℕ × ℕ => seriesOf c e data p.1 p.2) (groups.flatMap (fun g => (members avg g).map (fun b => (g, b)))) with
  | .error x => .error x
  | .ok l => .ok l.flatten

/-! ### Title and labels -/

/-- The fields of the automatic title and labels, `field_order`. L130. -/
inductive Field | spw | blpair | pol | lst
  deriving DecidableEq

/-- A formatted field. Used by `part`, L131-136. -/
inductive Part
  | spw (n : ℕ)
  | blpair (g : List ℕ)
  | pol (p : ℕ × ℕ)
  | lst (milliHours : ℤ)
  deriving DecidableEq

/-- `_format_lst_label`: hours with three decimals, L89-92. -/
def lstLabel (l : ℝ) : ℤ := round ((l - ⌊l / (2 * Real.pi)⌋ * (2 * Real.pi)) * 12 / Real.pi * 1000)

/-- `field_labels[field](metadata[field])`, L131-136. -/
def part (spw : ℕ) (pol : ℕ × ℕ) (s : Series) : Field → Part
  | .spw => .spw spw
  | .blpair => .blpair s.grp
  | .pol => .pol pol
  | .lst => .lst (lstLabel s.lst)

open Classical in
/-- `len({metadata[field] for metadata in series_metadata}) > 1`, L137-141. -/
def varies (l : List Series) : Field → Bool
  | .spw => false
  | .blpair => decide (1 < (l.map (fun s => s.grp)).dedup.length)
  | .pol => false
  | .lst => decide (1 < (l.map (fun s => s.lst)).dedup.length)

/-- `field_order`, L130. -/
def fields : List Field := [.spw, .blpair, .pol, .lst]

/-- A legend entry. Used by `titleAndLabels`, L95-156. -/
inductive Label
  | none
  | auto (l : List Part)
  | key (spw : ℕ) (g : List ℕ) (pol : ℕ × ℕ)
  | blpair (g : List ℕ)
  | blpairt (g : List ℕ) (time5 : ℤ)
  deriving DecidableEq

/-- The `label_type` argument. Used by `titleAndLabels`, L95-103, L120. -/
inductive LabelType | auto | key | blpair | blpairt | other
  deriving DecidableEq

/-- `_format_delay_spectrum_manual_label`, L95-103. -/
def manual (t : LabelType) (spw : ℕ) (pol : ℕ × ℕ) (s : Series) : Except Err Label :=
  match t with
  | .key => .ok (.key spw s.grp pol)
  | .blpair => .ok (.blpair s.grp)
  | .blpairt => .ok (.blpairt s.grp (round (s.t * 100000)))
  | _ => .error .value

/-- Title fields, L137-147. -/
def titleFields (avg : Bool) (l : List Series) : List Field := fields.filter (fun f => !varies l f && !(avg && f == .blpair))

/-- The label of one series: the fields that vary, L153-155. -/
def autoLabel (spw : ℕ) (pol : ℕ × ℕ) (l : List Series) (s : Series) : Label :=
  match fields.filter (varies l) with
  | [] => .none
  | fs => .auto (fs.map (part spw pol s))

/-- `_get_delay_spectrum_title_and_labels`, L106-156: title, labels, whether a legend is shown. -/
def titleAndLabels (titleLegend : Bool) (t : LabelType) (avg : Bool) (spw : ℕ) (pol : ℕ × ℕ) (l : List Series) : Except Err (List Part × List Label × Bool) :=
  if titleLegend = false then .ok ([], l.map (fun _ => Label.none), false)
  else if t ≠ .auto then
    match UVP.mapE (manual t spw pol) l with
    | .error e => .error e
    | .ok ls => .ok ([], ls, true)
  else match l with
    | [] => .ok ([], [], false)
    | s :: _ => .ok ((titleFields avg l).map (part spw pol s), l.map (autoLabel spw pol l), (l.map (autoLabel spw pol l)).any (fun x => x != Label.none))

/-! ### Drawing -/

/-- What is drawn for one spectrum: the line, filled and empty markers, error bars (position, value, error). Used by `draw`, L438-506. -/
structure Drawn where
  line : List (ℝ × Option ℝ)
  filled : List (ℝ × ℝ)
  empty : List (ℝ × ℝ)
  bars : List (ℝ × Option ℝ × ℝ)
  label : Label

/-- `np.abs(y)` on a logarithmic scale, L444-447. -/
def shown (log : Bool) (y : Option ℝ) : Option ℝ := if log then y.map (fun v => |v|) else y

open Classical in
/-- The points `x[y >= 0]`, `np.abs(y[y >= 0])`, L461-471. -/
def posMarks (x : List ℝ) (y : List (Option ℝ)) : List (ℝ × ℝ) :=
  (x.zip y).filterMap (fun p => match p.2 with | none => none | some v => if 0 ≤ v then some (p.1, |v|) else none)

open Classical in
/-- The points `x[y < 0]`, `np.abs(y[y < 0])`, L474-483. -/
def negMarks (x : List ℝ) (y : List (Option ℝ)) : List (ℝ × ℝ) :=
  (x.zip y).filterMap (fun p => match p.2 with | none => none | some v => if v < 0 then some (p.1, |v|) else none)

/-- The points with a value: `nan` is not drawn. L485-495. -/
def allMarks (x : List ℝ) (y : List (Option ℝ)) : List (ℝ × ℝ) := (x.zip y).filterMap (fun p => p.2.map (fun v => (p.1, v)))

/-- The plotting of one spectrum, L438-506. -/
def draw (lines markers log : Bool) (x : List ℝ) (s : Series) (lab : Label) : Drawn where
  line := if lines then x.zip (s.y.map (shown log)) else []
  filled := if markers then (if log then posMarks x s.y else allMarks x s.y) else []
  empty := if markers && log then negMarks x s.y else []
  bars := match s.errs with
    | none => []
    | some e => x.zip ((s.y.map (shown log)).zip e)
  label := if lines || markers then lab else .none

/-- The arguments. Used by `spectrum`, L159-183. -/
structure Args where
  avg : Bool
  force : Bool
  component : Component
  error : ErrArg
  statsOk : Bool
  titleLegend : Bool
  labelType : LabelType
  legend : Bool
  lines : Bool
  markers : Bool
  log : Bool
  delay : Bool
  deltasq : Bool
  spw : ℕ
  pol : ℕ × ℕ

/-- The figure. `saysDeltaSq`: the y label names Delta^2. Used by `spectrum`, L508-544. -/
structure Figure where
  curves : List Drawn
  title : List Part
  hasLegend : Bool
  saysDeltaSq : Bool

/-- The x axis: delays in ns or k_parallel, L339-345. -/
def xAxis (a : Args) (dlys kparas : List ℝ) : List ℝ := if a.delay then dlys.map (fun t => t * 10 ^ 9) else kparas

/-- `delay_spectrum` on the processed object, L325-544; `statsOk` is false if `plot_stats` names no statistic. -/
def spectrum (a : Args) (ntimes : ℕ) (dlys kparas : List ℝ) (groups : List (List ℕ)) (data : ℕ → Option (List Row)) : Except Err Figure :=
  if 100 < ntimes * groups.length ∧ a.force = false then .error .value
  else if a.statsOk = false then .error .assertion
  else match collect a.avg a.component a.error data groups with
    | .error e => .error e
    | .ok l => match titleAndLabels a.titleLegend a.labelType a.avg a.spw a.pol l with
      | .error e => .error e
      | .ok (title, labels, show_) =>
        .ok ⟨(l.zip labels).map (fun p => draw a.lines a.markers a.log (xAxis a dlys kparas) p.1 p.2), title, a.legend && show_, a.deltasq⟩

/-- The processed object depends on the conversion flag `deltasq and not delay`, L331-333; the figure of the whole call. -/
def delaySpectrum (process : Bool → ℕ × List ℝ × List ℝ × (ℕ → Option (List Row))) (a : Args) (groups : List (List ℕ)) : Except Err Figure :=
  let o := process (a.deltasq && !a.delay)
  spectrum a o.1 o.2.1 o.2.2.1 groups o.2.2.2

end
end HeraPspec.PlotSpec
