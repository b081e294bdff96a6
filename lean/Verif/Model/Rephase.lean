import Mathlib.Data.Complex.Basic
import Mathlib.Algebra.Order.Ring.Rat

/-!
Model of `PSpecData.rephase_to_dset`, pspecdata.py L4291-4404, and of the checks of `validate_datasets`, L331-413, that decide
whether it runs. `hera_cal.utils.lst_rephase` is not part of the repository: its effect is a multiplication by a phasor that
depends on the baseline, the channel and the LST shift, and is an argument here.
Simplifications: every baseline has all times and rows are time ordered, so data are indexed by (baseline, time, channel,
polarization index); LSTs and visibilities are exact numbers.
-/
namespace HeraPspec.Rephase

/-- The parts of a `UVData` object the method uses. `cat` is `phase_center_catalog[0]["cat_type"]` of the only phase center. Used by `valid`, pspecdata.py L349-396. -/
structure UV where
  centers : ℕ
  cat : String
  lsts : List ℚ
  pols : List ℤ
  nf : ℕ
  data : ℕ → ℕ → ℕ → ℕ → ℂ

/-- The phasor of `lst_rephase` for a baseline, a channel and an LST shift. Used by `store`, pspecdata.py L4378-4395. -/
abbrev Phasor := ℕ → ℕ → ℚ → ℂ

/-- The hard failures of `validate_datasets`, L349-396: number of channels and of times, one phase center, one phase type. -/
def valid (ds : List UV) : Bool := ds.all (fun u => ds.all (fun v =>
  u.nf == v.nf && u.lsts.length == v.lsts.length && u.cat == v.cat) && decide (u.centers ≤ 1))

/-- `lst_grid`, L4333-4338: the distinct LSTs of the anchor in order of first appearance. -/
def lstGrid (l : List ℚ) : List ℚ := l.foldl (fun acc x => if x ∈ acc then acc else acc ++ [x]) []

/-- `dlst = lst_grid - lsts`, L4369: numpy needs equal lengths or one of length one. -/
def dlst (grid lsts : List ℚ) : Option (ℕ → ℚ) :=
  if grid.length = lsts.length ∨ lsts.length = 1 ∨ grid.length = 1 then
    some (fun t => grid.getD (if grid.length = 1 then 0 else t) 0 - lsts.getD (if lsts.length = 1 then 0 else t) 0)
  else none

/-- L4378-4395 for one polarization: store the rephased visibilities of polarization number `j` of the data set at the index the
polarization has in the anchor's list. (`load_vis` is taken to return copies.) -/
def store (ph : Phasor) (d : ℕ → ℚ) (anchor : List ℤ) (orig : ℕ → ℕ → ℕ → ℕ → ℂ) (acc : ℕ → ℕ → ℕ → ℕ → ℂ) (jp : ℕ × ℤ) :
    ℕ → ℕ → ℕ → ℕ → ℂ := fun b t f q => if q = anchor.idxOf jp.2 then orig b t f jp.1 * ph b f (d t) else acc b t f q

/-- `enumerate` of the polarizations of the data set. Used by `rephaseOne`, pspecdata.py L4358-4399. -/
def enumPols (u : UV) : List (ℕ × ℤ) := (List.range u.pols.length).zip u.pols

/-- L4358-4399 for one data set that is not the anchor. The test of L4358-4360 only warns, so `cat` is not consulted. `none`:
a shape error, or a polarization the anchor lacks (`list.index` raises). -/
def rephaseOne (ph : Phasor) (grid : List ℚ) (anchor : List ℤ) (u : UV) : Option UV :=
  match dlst grid u.lsts with
  | none => none
  | some d =>
    if u.pols.all (fun p => decide (p ∈ anchor) && decide (anchor.idxOf p < u.pols.length)) then
      some { u with data := (enumPols u).foldl (store ph d anchor u.data) u.data, cat := "unknown" }
    else none

/-- The loop body, L4344-4399. -/
def step (ph : Phasor) (grid : List ℚ) (anchor : List ℤ) (k : ℕ) (iu : ℕ × UV) : Option UV :=
  if iu.1 = k then some { iu.2 with cat := "unknown" } else rephaseOne ph grid anchor iu.2

/-- `Option` version of mapping a loop body over a list. Used by `rephase`, pspecdata.py L4291-4401. -/
def mapO {α β : Type} (f : α → Option β) : List α → Option (List β)
  | [] => some []
  | a :: l => match f a with
    | none => none
    | some b => match mapO f l with
      | none => none
      | some bs => some (b :: bs)

/-- `rephase_to_dset(k)` on the list of data sets, L4291-4401; `none` when it raises. -/
def rephase (ph : Phasor) (k : ℕ) (ds : List UV) : Option (List UV) :=
  if valid ds then
    match ds[k]? with
    | none => none
    | some a => mapO (step ph (lstGrid a.lsts) a.pols k) ((List.range ds.length).zip ds)
  else none

/-- The object's data sets and the returned list after `rephase_to_dset(k, inplace)`, L4322-4326, L4401-4402. -/
def rephaseApi (ph : Phasor) (k : ℕ) (inplace : Bool) (ds : List UV) : Option (List UV × Option (List UV)) :=
  match rephase ph k ds with
  | none => none
  | some r => if inplace then some (r, none) else some (ds, some r)

/-- `n` calls in a row. (pspecdata.py L4291-4404) -/
def rephaseN (ph : Phasor) (k : ℕ) : ℕ → List UV → Option (List UV)
  | 0, ds => some ds
  | n + 1, ds => match rephase ph k ds with
    | none => none
    | some r => rephaseN ph k n r

end HeraPspec.Rephase
