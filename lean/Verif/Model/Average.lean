import Verif.Model.UVP
import Verif.Model.Combine
import Mathlib.Analysis.SpecialFunctions.Pow.Real

/-!
Model of `average_spectra` (grouping.py L156-707).

* Floats are reals; `+inf` of an error bar is `none` (`Option ℝ`); NaN is not modelled.
* Array shapes are not modelled: along the delay axis (and the frequency axis of `wgt_array`, and the remaining axes of a
  window function) an array is a function of the index, because every expression acts index by index.
* The data values live in any real vector space `E` (complex numbers in the code).
* A polarization pair is identified with its position in `polpair_array`, a spectral window with its index.
* `bl_array`, `bl_vecs`, the counts `Nbltpairs ...` and the history string (L649-663, L698-702) are not modelled.
-/
namespace HeraPspec.Average
open HeraPspec.UVP (Err mapE)
open HeraPspec.Combine (uniq)

/-- All arrays of the object at one (window, row, polpair). Used by `weight`, grouping.py L441-466. -/
structure Cell (E : Type) where
  data : Nat → E
  wgts : Nat → ℝ
  ints : ℝ
  nsmp : ℝ
  stat : String → Nat → Option ℝ
  cov : Nat → Nat → ℝ
  win : Nat → Nat → ℝ

/-- Metadata of one row. Used by `groupMeta`, grouping.py L626-647. -/
structure Meta where
  blp : Nat
  time1 : ℝ
  time2 : ℝ
  timeAvg : ℝ
  lst1 : ℝ
  lst2 : ℝ
  lstAvg : ℝ

/-- The object: metadata rows, and `cells[spw][pol][row]`. Used by `indices`, uvpspec.py L1324-1340. -/
structure Obj (E : Type) where
  rows : List Meta
  cells : List (List (List (Cell E)))
  statNames : List String
  exact : Bool

/-- Quantities of one integration in the inner loop (L413-466), with its weight `w` per delay and variance `errws`. -/
structure Acc (E : Type) where
  w : Nat → ℝ
  data : Nat → E
  wgts : Nat → ℝ
  ints : Nat → ℝ
  nsmp : ℝ
  var : String → Nat → Option ℝ
  cov : Nat → Nat → ℝ
  win : Nat → Nat → ℝ

/-- `1e-40`. Used by `clipTiny`, grouping.py L441-466. -/
noncomputable def tiny : ℝ := 1 / 10 ^ 40

/-- `x.clip(1e-40, np.inf)`. Used by `weight`, grouping.py L441-466. -/
noncomputable def clipTiny (x : ℝ) : ℝ := max x tiny

/-- `errws.clip(0, 1e40)`. Used by `timeMean`, grouping.py L468-516. -/
noncomputable def clipVar : Option ℝ → ℝ
  | none => 10 ^ 40
  | some v => min (max v 0) (10 ^ 40)

/-- `x[np.isclose(x, 0)] = np.inf` (absolute tolerance 1e-8), L512 and L566. -/
noncomputable def nearZeroInf (v : ℝ) : Option ℝ := if |v| ≤ 1 / 10 ^ 8 then none else some v

variable {E : Type} [AddCommGroup E] [Module ℝ E]

/-- The weight of one integration at delay `d`, L441-466: inverse variance, or `(ints * sqrt(nsmp)) ** 2`. -/
noncomputable def weight (errw : Option String) (c : Cell E) (d : Nat) : ℝ :=
  match errw with
  | some s => match c.stat s d with
    | none => 0
    | some x => 1 / clipTiny (x ^ 2)
  | none => (c.ints * Real.sqrt c.nsmp) ^ 2

/-- Reading one integration, L414-439. -/
noncomputable def prep (errw : Option String) (c : Cell E) : Acc E where
  w := weight errw c
  data := c.data
  wgts := c.wgts
  ints := fun _ => c.ints
  nsmp := c.nsmp
  var := fun s d => (c.stat s d).map (· ^ 2)
  cov := c.cov
  win := c.win

/-- Time average of the integrations of one baseline-pair, L468-516. -/
noncomputable def timeMean (l : List (Acc E)) : Acc E :=
  let ws : Nat → ℝ := fun d => clipTiny (l.map (·.w d)).sum
  { w := fun d => (l.map (·.w d)).sum
    data := fun d => (ws d)⁻¹ • (l.map (fun a => a.w d • a.data d)).sum
    wgts := fun f => (l.map (fun a => a.wgts f * a.w 0)).sum / ws 0
    ints := fun d => (l.map (fun a => a.ints d * a.w d)).sum / ws d
    nsmp := (l.map (·.nsmp)).sum
    var := fun s d => nearZeroInf ((l.map (fun a => clipVar (a.var s d) * a.w d ^ 2)).sum / ws d ^ 2)
    cov := fun d e => (l.map (fun a => a.cov d e * a.w d * a.w e)).sum / ws d / ws e
    win := fun d e => (l.map (fun a => a.win d e * a.w d)).sum / ws d }

/-- Average over the copies `l` within a baseline-pair group for one integration, L546-575. The window function is not
normalised when `exact` (L570-571). -/
noncomputable def groupMean (exact : Bool) (l : List (Acc E)) : Cell E :=
  let ws : Nat → ℝ := fun d => clipTiny (l.map (·.w d)).sum
  { data := fun d => (ws d)⁻¹ • (l.map (fun a => a.w d • a.data d)).sum
    wgts := fun f => (l.map (fun a => a.wgts f * a.w 0)).sum / ws 0
    ints := (l.map (fun a => a.ints 0 * a.w 0)).sum / ws 0
    nsmp := (l.map (·.nsmp)).sum
    stat := fun s d => (nearZeroInf ((l.map (fun a => clipVar (a.var s d) * a.w d ^ 2)).sum / ws d ^ 2)).map Real.sqrt
    cov := fun d e => (l.map (fun a => a.cov d e * a.w d * a.w e)).sum / ws d / ws e
    win := fun d e => if exact then (l.map (fun a => a.win d e * a.w d)).sum
      else (l.map (fun a => a.win d e * a.w d)).sum / ws d }

/-- The normalised weights of the baseline-pairs in a group, L396-411. -/
noncomputable def blpgWgts (normalize : Bool) (ws : List ℝ) : Except Err (List ℝ) :=
  let norm := if normalize then ws.sum else 1
  if norm ≤ 0 then .error .value else .ok (ws.map (fun w => w * ws.length / norm))

/-- `for m in range(int(blpg_wgts[k]))`, L520: the copies of every baseline-pair. -/
noncomputable def copies {α : Type} (ws : List ℝ) (accs : List α) : List α :=
  (List.zipWith (fun w a => List.replicate ⌊w⌋₊ a) ws accs).flatten

/-- Summing the list of arrays over its first axis: one output integration per row of the arrays. No copy at all: the
clipped scalar `w_list_sum` cannot be indexed (IndexError); arrays with different numbers of integrations: ValueError. Used by `groupRows`, grouping.py L386-580. -/
noncomputable def sumCopies (exact : Bool) (cs : List (List (Acc E))) : Except Err (List (Cell E)) :=
  match cs with
  | [] => .error .index
  | c :: _ =>
    if cs.all (fun c' => c'.length = c.length) then
      .ok ((List.range c.length).map (fun t => groupMean exact (cs.filterMap (·[t]?))))
    else .error .value

/-- Positions of a baseline-pair in `blpair_array`; AssertionError if it is absent (`blpair_to_indices`, uvpspec.py L1324-1340, and `key_to_indices`, L1615). -/
def indices (u : Obj E) (b : Nat) : Except Err (List Nat) :=
  let l := (List.range u.rows.length).filter (fun i => (u.rows[i]?.map (·.blp)) = some b)
  if l.isEmpty then .error .assertion else .ok l

/-- `uvp.get_data((spw, blp, p))` and its sisters for one baseline-pair; AssertionError if it is absent (`key_to_indices`, uvpspec.py L1615). Used by `accsOf`, grouping.py L386-580. -/
def cellsOf (u : Obj E) (s p b : Nat) : Except Err (List (Cell E)) :=
  match indices u b with
  | .error e => .error e
  | .ok is => mapE (fun i => match ((u.cells[s]?.bind (·[p]?)).bind (·[i]?)) with
    | none => .error .index
    | some c => .ok c) is

/-- The integrations of one baseline-pair after the optional time average. Used by `groupRows`, grouping.py L386-580. -/
noncomputable def accsOf (errw : Option String) (timeAvg : Bool) (u : Obj E) (s p b : Nat) :
    Except Err (List (Acc E)) :=
  match cellsOf u s p b with
  | .error e => .error e
  | .ok cs => .ok (if timeAvg then [timeMean (cs.map (prep errw))] else cs.map (prep errw))

/-- One baseline-pair group, for one window and polarization, L386-580. -/
noncomputable def groupRows (errw : Option String) (timeAvg normalize : Bool) (u : Obj E) (s p : Nat)
    (g : List Nat × List ℝ) : Except Err (List (Cell E)) :=
  match blpgWgts normalize g.2 with
  | .error e => .error e
  | .ok ws =>
    match mapE (accsOf errw timeAvg u s p) g.1 with
    | .error e => .error e
    | .ok accs => sumCopies u.exact (copies ws accs)

/-- `np.mean`. Used by `groupMeta`, grouping.py L626-647. -/
noncomputable def mean (l : List ℝ) : ℝ := l.sum / l.length

/-- Metadata rows of one group: those of its zeroth baseline-pair, L626-647. `circ` is `utils.circular_average`. -/
noncomputable def groupMeta (circ : List ℝ → ℝ) (timeAvg : Bool) (u : Obj E) (g : List Nat × List ℝ) :
    Except Err (List Meta) :=
  match g.1 with
  | [] => .error .index
  | b :: _ =>
    match indices u b with
    | .error e => .error e
    | .ok is =>
      let ms := is.filterMap (u.rows[·]?)
      .ok (if timeAvg then
        [{ blp := b, time1 := mean (ms.map (·.time1)), time2 := mean (ms.map (·.time2)),
           timeAvg := mean (ms.map (·.timeAvg)), lst1 := circ (ms.map (·.lst1)), lst2 := circ (ms.map (·.lst2)),
           lstAvg := circ (ms.map (·.lstAvg)) }]
      else ms.map (fun m => { m with blp := b }))

/-- The arguments. `setOrder` is the iteration order of a Python `set`, any permutation. Used by `weightsOf`, grouping.py L309-322. -/
structure Args where
  groups : Option (List (List Nat))
  weights : Option (List (List ℝ))
  timeAvg : Bool
  errorField : List String
  errorWeights : Option String
  normalize : Bool

/-- The weights, or unit weights if not specified, L309-322. -/
noncomputable def weightsOf (a : Args) (gs : List (List Nat)) : List (List ℝ) :=
  match a.weights with
  | none => gs.map (fun g => g.map (fun _ => 1))
  | some w => w

/-- `blpair_groups` with weights, L265-347. An empty list of groups: `get_bl_lens_angs` of no vectors is an IndexError, utils.py L1212-1213. -/
noncomputable def groupsOf (setOrder : List Nat → List Nat) (a : Args) (u : Obj E) :
    Except Err (List (List Nat × List ℝ)) :=
  let blps := u.rows.map (·.blp)
  match a.groups with
  | none =>
    match a.weights with
    | some _ => .error .value
    | none => .ok ((uniq blps).map (fun b => ([b], [1])))
  | some gs =>
    if gs.isEmpty then .error .index
    else if gs.any (·.isEmpty) then .error .value
    else if !gs.all (fun g => match g.head? with | some b => decide (b ∈ blps) | none => false) then .error .value
    else
      let wss := weightsOf a gs
      if wss.any (·.isEmpty) then .error .value
      else if !(List.range gs.length).all (fun i => (wss[i]?.map (·.length)) = (gs[i]?.map (·.length))) then .error .value
      else
        let extra := if u.exact then [] else setOrder ((uniq blps).filter (fun b => b ∉ gs.flatten))
        .ok ((gs ++ extra.map (fun b => [b])).zip (wss ++ extra.map (fun _ => [1])))

/-- The names of the statistics that are kept, L324-341. -/
def statNames (a : Args) : List String :=
  match a.errorWeights with
  | none => a.errorField
  | some s => if s ∈ a.errorField then a.errorField else a.errorField ++ [s]

/-- `average_spectra`, L255-707. -/
noncomputable def averageSpectra (circ : List ℝ → ℝ) (setOrder : List Nat → List Nat) (a : Args) (u : Obj E) :
    Except Err (Obj E) :=
  match groupsOf setOrder a u with
  | .error e => .error e
  | .ok gs =>
    if !(statNames a).all (· ∈ u.statNames) then .error .key
    else
      match mapE (fun s => mapE (fun p => mapE (groupRows a.errorWeights a.timeAvg a.normalize u s p) gs)
        (List.range ((u.cells[s]?.map (·.length)).getD 0))) (List.range u.cells.length) with
      | .error e => .error e
      | .ok blocks =>
        match mapE (groupMeta circ a.timeAvg u) gs with
        | .error e => .error e
        | .ok ms =>
          .ok { rows := ms.flatten
                cells := blocks.map (fun ps => ps.map (fun bs => bs.flatten))
                statNames := statNames a
                exact := u.exact }

end HeraPspec.Average
