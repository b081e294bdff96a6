import Verif.Model.CombineMap
import Verif.Spec.CombineMap
import Verif.Props.Combine
import Verif.Lemmas.SplitMerge
import Verif.Lemmas.Combine3
import Mathlib.Tactic.FieldSimp
import Mathlib.Algebra.Order.Field.Rat
import Mathlib.Tactic.NormNum

/-!
Property C166: combining commutes with what is done to every spectrum by itself.
-/
namespace HeraPspec.Combine
open HeraPspec.UVP (Err mapE mapE_ok_iff forall₂_getElem_left)
variable {R M T Z S X X' C C' K V F Y : Type}
variable [LinearOrder R] [LinearOrder T] [DecidableEq C] [DecidableEq C'] [DecidableEq K] [DecidableEq V]
variable {rangeOf : M → R} {rnd : T → T} {close : S → S → Bool}

/-! ### One function for all spectra -/

theorem mapE_comp {α β γ ε : Type} (f : β → Except ε γ) (g : α → β) (l : List α) : mapE f (l.map g) = mapE (fun a => f (g a)) l := by
  induction l with
  | nil => rfl
  | cons a l ih => simp only [List.map_cons, mapE, ih]

theorem mapE_post {α β γ ε : Type} (f : α → Except ε β) (g : β → γ) (l : List α) : mapE (fun a => (f a).map g) l = (mapE f l).map (List.map g) := by
  induction l with
  | nil => rfl
  | cons a l ih =>
    simp only [mapE, ih]
    cases f a with
    | error e => rfl
    | ok b => cases mapE f l <;> rfl

theorem pairs_map {α β : Type} (g : α → β) (l : List α) : pairs (l.map g) = (pairs l).map (Prod.map g g) := by
  induction l with
  | nil => rfl
  | cons a l ih => simp only [List.map_cons, pairs, ih, List.map_append, List.map_map]; rfl

theorem owner_map {α β : Type} (g : α → β) (p : β → Bool) (l : List α) : owner p (l.map g) = (owner (fun a => p (g a)) l).map g := by
  unfold owner
  rw [List.find?_map]
  show (match (l.find? (fun a => p (g a))).map g with | some u => Except.ok u | none => Except.error Err.value) = _
  cases l.find? (fun a => p (g a)) <;> rfl

theorem at?_map {α β : Type} (g : α → β) (l : List α) (i : Nat) : at? (l.map g) i = (at? l i).map g := by
  unfold at?
  rw [List.getElem?_map]
  cases l[i]? <;> rfl

theorem at3_map {α β : Type} (g : α → β) (a : List (List (List α))) (m n q : Nat) :
    at3 (a.map (List.map (List.map g))) m n q = (at3 a m n q).map g := by
  unfold at3
  rw [at?_map]
  cases at? a m with
  | error e => rfl
  | ok x =>
    simp only [Except.map, bind, Except.bind]
    rw [at?_map]
    cases at? x n with
    | error e => rfl
    | ok y =>
      simp only [Except.map]
      rw [at?_map]; rfl

variable (f : X → X') (g : C → C')

theorem map_spws (v : Obj M T Z S X C K V) : (mapAll f g v).spws rangeOf = v.spws rangeOf := rfl
theorem map_blpts (v : Obj M T Z S X C K V) : (mapAll f g v).blpts = v.blpts := rfl
theorem map_pols (v : Obj M T Z S X C K V) : (mapAll f g v).pols = v.pols := rfl
theorem map_labels (v : Obj M T Z S X C K V) : (mapAll f g v).labels = v.labels := rfl
theorem map_data (v : Obj M T Z S X C K V) : (mapAll f g v).data = v.data.map (List.map (List.map (Cell.onVal f))) := rfl

theorem bind_map' {α β γ ε : Type} (x : Except ε α) (k : α → Except ε β) (h : β → γ) : Except.map h (x.bind k) = x.bind (fun a => (k a).map h) := by
  cases x <;> rfl

theorem map_bind' {α β γ ε : Type} (x : Except ε α) (h : α → β) (k : β → Except ε γ) : (Except.map h x).bind k = x.bind (fun a => k (h a)) := by
  cases x <;> rfl

theorem copyCell_map (ls : List String) (v : Obj M T Z S X C K V) (r : R) (n : Nat) (p : Int) :
    copyCell rangeOf ls (mapAll f g v) r n p = (copyCell rangeOf ls v r n p).map (Cell.onVal f) := by
  simp only [copyCell, bind, map_spws, map_pols, map_labels, map_data, at3_map, map_bind', bind_map']
  rfl

theorem source_map (ax : Axis) (us : List (Obj M T Z S X C K V)) (bs : List (Int × T × T)) (r : R) (j : Nat) (b : Int × T × T) (p : Int) :
    source rangeOf rnd ax (us.map (mapAll f g)) bs r j b p = (source rangeOf rnd ax us bs r j b p).map (fun x => (mapAll f g x.1, x.2)) := by
  cases ax <;> simp only [source, bind, owner_map, map_bind', bind_map', map_spws, map_blpts, map_pols] <;> rfl

theorem rowSource_map (ax : Axis) (us : List (Obj M T Z S X C K V)) (ss : List R) (bs : List (Int × T × T)) (ps : List Int) (j : Nat) (b : Int × T × T) :
    rowSource rangeOf rnd ax (us.map (mapAll f g)) ss bs ps j b = (rowSource rangeOf rnd ax us ss bs ps j b).map (fun x => (mapAll f g x.1, x.2)) := by
  cases ax <;> simp only [rowSource, bind, owner_map, at?_map, map_bind', bind_map', map_spws, map_blpts, map_pols] <;> rfl

theorem scalarSource_map (ax : Axis) (us : List (Obj M T Z S X C K V)) (bs : List (Int × T × T)) (r : R) (p : Int) :
    scalarSource rangeOf ax (us.map (mapAll f g)) bs r p = (scalarSource rangeOf ax us bs r p).map (mapAll f g) := by
  cases ax <;> simp only [scalarSource, bind, owner_map, map_bind', bind_map', map_spws, map_blpts, map_pols] <;> rfl

theorem newSpws_map (us : List (Obj M T Z S X C K V)) : newSpws rangeOf (us.map (mapAll f g)) = newSpws rangeOf us := by
  unfold newSpws; rw [List.flatMap_map]; rfl
theorem newBlpts_map (us : List (Obj M T Z S X C K V)) : newBlpts (us.map (mapAll f g)) = newBlpts us := by
  unfold newBlpts; rw [List.flatMap_map]; rfl
theorem newPols_map (us : List (Obj M T Z S X C K V)) : newPols (us.map (mapAll f g)) = newPols us := by
  unfold newPols; rw [List.flatMap_map]; rfl
theorem newLabels_map (us : List (Obj M T Z S X C K V)) : newLabels (us.map (mapAll f g)) = newLabels us := by
  unfold newLabels; rw [List.flatMap_map]; rfl

theorem metaOf_map (ax : Axis) (us : List (Obj M T Z S X C K V)) (u0 : Obj M T Z S X C K V) :
    metaOf rangeOf ax (us.map (mapAll f g)) (mapAll f g u0) = metaOf rangeOf ax us u0 := by
  unfold metaOf
  simp only [newSpws_map, bind, owner_map, map_bind', map_spws]
  rfl

theorem scalarOf_map (ax : Axis) (us : List (Obj M T Z S X C K V)) : scalarOf rangeOf ax (us.map (mapAll f g)) = scalarOf rangeOf ax us := by
  unfold scalarOf
  simp only [newSpws_map, newBlpts_map, newPols_map, bind, scalarSource_map, map_bind']
  rfl

theorem dataOf_map (ax : Axis) (us : List (Obj M T Z S X C K V)) :
    dataOf rangeOf rnd ax (us.map (mapAll f g)) = (dataOf rangeOf rnd ax us).map (List.map (List.map (List.map (Cell.onVal f)))) := by
  unfold dataOf
  simp only [newSpws_map, newBlpts_map, newPols_map, newLabels_map, bind, source_map, map_bind', copyCell_map]
  rw [← mapE_post]
  congr 1
  funext r
  rw [← mapE_post]
  congr 1
  funext jb
  rw [← mapE_post]
  congr 1
  funext p
  rw [bind_map']

theorem rowsOf_map (ax : Axis) (us : List (Obj M T Z S X C K V)) : rowsOf rangeOf rnd ax (us.map (mapAll f g)) = rowsOf rangeOf rnd ax us := by
  unfold rowsOf
  simp only [newSpws_map, newBlpts_map, newPols_map, bind, rowSource_map, map_bind']
  rfl

theorem overlap_map (us : List (Obj M T Z S X C K V)) (hg : ∀ u ∈ us, ∀ v ∈ us, g u.static = g v.static → u.static = v.static) :
    overlap rangeOf close (us.map (mapAll f g)) = overlap rangeOf close us := by
  rcases us with _ | ⟨u0, rest⟩
  · rfl
  · have hs : (rest.map (mapAll f g)).all (fun u => decide (g u0.static = u.static)) = rest.all (fun u => decide (u0.static = u.static)) := by
      rw [List.all_map, Bool.eq_iff_iff]
      simp only [List.all_eq_true, Function.comp_apply, decide_eq_true_eq]
      constructor
      · intro h u hu; exact hg _ List.mem_cons_self _ (List.mem_cons_of_mem _ hu) (h u hu)
      · intro h u hu; show g u0.static = g u.static; rw [h u hu]
    have hp : mapE (fun p => pairAxis rangeOf p.1 p.2) (pairs ((u0 :: rest).map (mapAll f g))) = mapE (fun p => pairAxis rangeOf p.1 p.2) (pairs (u0 :: rest)) := by
      rw [pairs_map, mapE_comp]; rfl
    have hc : (rest.map (mapAll f g)).all (fun u => allClose close u0.scalar u.scalar) = rest.all (fun u => allClose close u0.scalar u.scalar) := by
      rw [List.all_map]; rfl
    unfold overlap
    rw [List.map_cons] at *
    simp only
    rw [show (mapAll f g u0).static = g u0.static from rfl, show (mapAll f g u0).scalar = u0.scalar from rfl, hs, hp, hc, ← List.map_cons (f := mapAll f g),
      List.flatMap_map, List.flatMap_map, List.flatMap_map]
    rfl

/-- **C166** Applying one function to every spectrum and combining commute, without any condition on the objects: the same errors, and the same result, array for array; `g` (what
happens to the fixed metadata) must not make different metadata equal. -/
theorem C166_one_function (us : List (Obj M T Z S X C K V)) (hg : ∀ u ∈ us, ∀ v ∈ us, g u.static = g v.static → u.static = v.static) :
    combine rangeOf rnd close (us.map (mapAll f g)) = (combine rangeOf rnd close us).map (mapAll f g) := by
  have key : ∀ us : List (Obj M T Z S X C K V), us.length ≠ 1 → (∀ u ∈ us, ∀ v ∈ us, g u.static = g v.static → u.static = v.static) →
      combine rangeOf rnd close (us.map (mapAll f g)) = (combine rangeOf rnd close us).map (mapAll f g) := by
    intro us hl hg
    have e : ∀ (ws : List (Obj M T Z S X C K V)), ws.length ≠ 1 → combine rangeOf rnd close ws = (do
        let (ax, _) ← overlap rangeOf close ws
        let u0 ← at? ws 0
        let rparams ← mergeR (ws.map (·.rparams))
        let spwMeta ← metaOf rangeOf ax ws u0
        let scalar ← scalarOf rangeOf ax ws
        let data ← dataOf rangeOf rnd ax ws
        let rows ← rowsOf rangeOf rnd ax ws
        .ok { spwMeta := spwMeta, blpair := rows.map (·.1.1), time1 := rows.map (·.1.2.1), time2 := rows.map (·.1.2.2), rowMeta := rows.map (·.2), pols := newPols ws,
              scalar := scalar, data := data, labels := newLabels ws, rparams := rparams, static := u0.static }) := by
      intro ws hw
      match ws, hw with
      | [], _ => rfl
      | [_], h => exact absurd rfl h
      | _ :: _ :: _, _ => rfl
    have e' : ∀ (ws : List (Obj M T Z S X' C' K V)), ws.length ≠ 1 → combine rangeOf rnd close ws = (do
        let (ax, _) ← overlap rangeOf close ws
        let u0 ← at? ws 0
        let rparams ← mergeR (ws.map (·.rparams))
        let spwMeta ← metaOf rangeOf ax ws u0
        let scalar ← scalarOf rangeOf ax ws
        let data ← dataOf rangeOf rnd ax ws
        let rows ← rowsOf rangeOf rnd ax ws
        .ok { spwMeta := spwMeta, blpair := rows.map (·.1.1), time1 := rows.map (·.1.2.1), time2 := rows.map (·.1.2.2), rowMeta := rows.map (·.2), pols := newPols ws,
              scalar := scalar, data := data, labels := newLabels ws, rparams := rparams, static := u0.static }) := by
      intro ws hw
      match ws, hw with
      | [], _ => rfl
      | [_], h => exact absurd rfl h
      | _ :: _ :: _, _ => rfl
    rw [e us hl, e' _ (by rw [List.length_map]; exact hl)]
    have hr : (us.map (mapAll f g)).map (·.rparams) = us.map (·.rparams) := by rw [List.map_map]; rfl
    simp only [bind, overlap_map f g us hg, at?_map, map_bind', bind_map', hr, metaOf_map, scalarOf_map, dataOf_map, rowsOf_map, newPols_map, newLabels_map]
    rfl
  match us, hg with
  | [], hg => exact key [] (by simp) hg
  | [u], _ => rfl
  | a :: b :: l, hg => exact key (a :: b :: l) (by simp) hg

/-! ### A function that depends on where the spectrum is -/

/-- The three axes. -/
def axes (rangeOf : M → R) (u : Obj M T Z S X C K V) : List R × List (Int × T × T) × List Int := (u.spwMeta.map rangeOf, u.blpts, u.pols)

theorem acts_axes {φ : R → (Int × T × T) → Int → X → X'} {u : Obj M T Z S X C K V} {v : Obj M T Z S X' C' K V} (h : Acts rangeOf φ u v) :
    axes rangeOf v = axes rangeOf u := by
  simp only [axes, h.spws, h.rows, h.pols]

theorem all_axes {φ : R → (Int × T × T) → Int → X → X'} {us : List (Obj M T Z S X C K V)} {vs : List (Obj M T Z S X' C' K V)}
    (h : List.Forall₂ (Acts rangeOf φ) us vs) : vs.map (axes rangeOf) = us.map (axes rangeOf) := by
  induction h with
  | nil => rfl
  | cons h1 _ ih => simp only [List.map_cons, acts_axes h1, ih]

section
variable {us : List (Obj M T Z S X C K V)} {vs : List (Obj M T Z S X' C' K V)}

theorem axes_back (h : vs.map (axes rangeOf) = us.map (axes rangeOf)) {v} (hv : v ∈ vs) : ∃ u ∈ us, axes rangeOf u = axes rangeOf v := by
  have : axes rangeOf v ∈ us.map (axes rangeOf) := h ▸ List.mem_map_of_mem hv
  exact List.mem_map.1 this

theorem axes_newSpws (h : vs.map (axes rangeOf) = us.map (axes rangeOf)) : newSpws rangeOf vs = newSpws rangeOf us := by
  have : vs.flatMap (·.spws rangeOf) = us.flatMap (·.spws rangeOf) := by
    have := congrArg (List.flatMap (·.1)) h
    rw [List.flatMap_map, List.flatMap_map] at this; exact this
  unfold newSpws; rw [this]

theorem axes_newBlpts (h : vs.map (axes rangeOf) = us.map (axes rangeOf)) : newBlpts vs = newBlpts us := by
  have : vs.flatMap (·.blpts) = us.flatMap (·.blpts) := by
    have := congrArg (List.flatMap (·.2.1)) h
    rw [List.flatMap_map, List.flatMap_map] at this; exact this
  unfold newBlpts; rw [this]

theorem axes_newPols (h : vs.map (axes rangeOf) = us.map (axes rangeOf)) : newPols vs = newPols us := by
  have : vs.flatMap (·.pols) = us.flatMap (·.pols) := by
    have := congrArg (List.flatMap (·.2.2)) h
    rw [List.flatMap_map, List.flatMap_map] at this; exact this
  unfold newPols; rw [this]

theorem axes_head (h : vs.map (axes rangeOf) = us.map (axes rangeOf)) {v0} (hv : v0 ∈ vs.head?) : ∃ u0 ∈ us.head?, axes rangeOf u0 = axes rangeOf v0 := by
  have e : vs.head?.map (axes rangeOf) = us.head?.map (axes rangeOf) := by rw [← List.head?_map, ← List.head?_map, h]
  rw [Option.mem_def] at hv
  rw [hv] at e
  obtain ⟨u0, hu, he⟩ := Option.map_eq_some_iff.1 e.symm
  exact ⟨u0, hu, he⟩

theorem axes_aligned {ax : Axis} (h : vs.map (axes rangeOf) = us.map (axes rangeOf)) (hal : Aligned rangeOf rnd ax us) : Aligned rangeOf rnd ax vs := by
  constructor
  · intro ha v hv
    obtain ⟨u, hu, he⟩ := axes_back h hv
    have : u.blpts = v.blpts := congrArg (·.2.1) he
    have k := hal.keyed ha u hu
    unfold Keyed at k ⊢
    rw [← this]; exact k
  · intro ha v0 h0 v hv
    obtain ⟨u, hu, he⟩ := axes_back h hv
    obtain ⟨u0, hu0, he0⟩ := axes_head h h0
    have e1 : u.blpts = v.blpts := congrArg (·.2.1) he
    have e2 : u0.blpts = v0.blpts := congrArg (·.2.1) he0
    rw [← e1, ← e2]; exact hal.order ha u0 hu0 u hu
  · intro ha v0 h0
    obtain ⟨u0, hu0, he0⟩ := axes_head h h0
    have e2 : u0.spwMeta.map rangeOf = v0.spwMeta.map rangeOf := congrArg (·.1) he0
    rw [← e2]; exact hal.windows ha u0 hu0

theorem axes_axis {ax ax' : Axis} (h : vs.map (axes rangeOf) = us.map (axes rangeOf)) (h2 : 2 ≤ us.length)
    (hu : us.Pairwise (PairOK rangeOf ax)) (hv : vs.Pairwise (PairOK rangeOf ax')) : ax' = ax := by
  match us, vs, h2, h, hu, hv with
  | a :: b :: l, [], _, h, _, _ => cases h
  | a :: b :: l, [c], _, h, _, _ => simp at h
  | a :: b :: l, c :: d :: l', _, h, hu, hv =>
    simp only [List.map_cons, List.cons.injEq] at h
    obtain ⟨e1, e2, _⟩ := h
    have p1 := (List.pairwise_cons.1 hu).1 b List.mem_cons_self
    have p2 := (List.pairwise_cons.1 hv).1 d List.mem_cons_self
    have s1 : c.spwMeta.map rangeOf = a.spwMeta.map rangeOf := congrArg (·.1) e1
    have s2 : c.blpts = a.blpts := congrArg (·.2.1) e1
    have s3 : c.pols = a.pols := congrArg (·.2.2) e1
    have t1 : d.spwMeta.map rangeOf = b.spwMeta.map rangeOf := congrArg (·.1) e2
    have t2 : d.blpts = b.blpts := congrArg (·.2.1) e2
    have t3 : d.pols = b.pols := congrArg (·.2.2) e2
    have p2' : PairOK rangeOf ax' a b := by
      unfold PairOK at p2 ⊢
      rw [s1, s2, s3, t1, t2, t3] at p2; exact p2
    have := pairAxis_ok.2 p1
    rw [pairAxis_ok.2 p2'] at this
    cases this; rfl

end

/-- **C166** Changing every spectrum by itself, before or after combining, by a function that may depend on the window, the row and the polarization pair: if both ways give a result,
the result of combining the changed objects is the changed combination. -/
theorem C166_acts {φ : R → (Int × T × T) → Int → X → X'} {us : List (Obj M T Z S X C K V)} {vs : List (Obj M T Z S X' C' K V)} {ax : Axis}
    (hφ : List.Forall₂ (Acts rangeOf φ) us vs) (hc : Combinable rangeOf close ax us) (hal : Aligned rangeOf rnd ax us)
    (hwu : ∀ u ∈ us, WF rangeOf u) (hwv : ∀ v ∈ vs, WF rangeOf v)
    {out : Obj M T Z S X C K V} (h : combine rangeOf rnd close us = .ok out) {out' : Obj M T Z S X' C' K V} (h' : combine rangeOf rnd close vs = .ok out') :
    Acts rangeOf φ out out' := by
  have ha := all_axes hφ
  have hl : vs.length = us.length := hφ.length_eq.symm
  have h2 : 2 ≤ vs.length := hl ▸ hc.two
  obtain ⟨ax', _, _, hc', _⟩ := (combine_iff h2).1 h'
  obtain rfl := axes_axis ha hc.two hc.pair hc'.pair
  obtain ⟨a1, _, a3, a4, a5, _⟩ := combine_spec hc hwu hal h
  obtain ⟨b1, _, b3, b4, b5, _⟩ := combine_spec hc' hwv (axes_aligned ha hal) h'
  refine ⟨by rw [a3, b3, axes_newSpws ha], by rw [a4, b4, axes_newBlpts ha], by rw [a5, b5, axes_newPols ha], ?_⟩
  intro r b p x' n1 n2
  rw [b1]
  simp only [a1]
  constructor
  · rintro ⟨v, hv, hx⟩
    obtain ⟨i, hi, rfl⟩ := List.getElem_of_mem hv
    have hi' : i < us.length := hl ▸ hi
    obtain ⟨x, hx, e⟩ := ((List.forall₂_iff_get.1 hφ).2 i hi' hi).cells r b p x' n1 n2 |>.1 hx
    exact ⟨x, ⟨_, List.get_mem us ⟨i, hi'⟩, hx⟩, e⟩
  · rintro ⟨x, ⟨u, hu, hx⟩, e⟩
    obtain ⟨i, hi, rfl⟩ := List.getElem_of_mem hu
    have hi' : i < vs.length := hl ▸ hi
    exact ⟨_, List.get_mem vs ⟨i, hi'⟩, ((List.forall₂_iff_get.1 hφ).2 i hi hi').cells r b p x' n1 n2 |>.2 ⟨x, hx, e⟩⟩

/-! ### Setting the cosmology -/

/-- The scalars of the combination are scalars of the inputs. -/
theorem scalarAt_combine {us : List (Obj M T Z S X C K V)} {ax : Axis} (hc : Combinable rangeOf close ax us)
    (hwu : ∀ u ∈ us, WF rangeOf u) (hal : Aligned rangeOf rnd ax us) {out : Obj M T Z S X C K V} (h : combine rangeOf rnd close us = .ok out) {r : R} {p : Int} {s : S}
    (hs : ScalarAt rangeOf out r p s) : ∃ u ∈ us, ScalarAt rangeOf u r p s := by
  obtain ⟨ax', _, _, hc', _, _, _, hsc, _⟩ := (combine_iff hc.two).1 h
  obtain ⟨_, _, e1, _, e3, _⟩ := combine_spec hc hwu hal h
  obtain ⟨i, k, l, h1, h2, h3, h4⟩ := hs
  rw [e1] at h1
  rw [e3] at h2
  obtain ⟨a, ha, g1⟩ := forall₂_getElem_left (mapE_ok_iff.1 hsc) h1
  rw [ha] at h3; cases h3
  obtain ⟨c, hc2, g2⟩ := forall₂_getElem_left (mapE_ok_iff.1 g1) h2
  rw [hc2] at h4; cases h4
  obtain ⟨v, g3, g4⟩ := bind_ok.1 g2
  have hv : v ∈ us := by
    cases ax' with
    | blpairts => obtain ⟨b, _, g⟩ := bind_ok.1 g3; exact (owner_ok g).1
    | polpairs => exact (owner_ok g3).1
    | spw => exact (owner_ok g3).1
  refine ⟨v, hv, ?_⟩
  obtain ⟨m, hm, g5⟩ := bind_ok.1 g4
  obtain ⟨q, hq, g6⟩ := bind_ok.1 g5
  obtain ⟨x, hx, g7⟩ := bind_ok.1 g6
  exact ⟨m, q, x, indexOf_ok hm, indexOf_ok hq, at?_ok.1 hx, at?_ok.1 g7⟩

variable [Field F] {compute : R → Int → F} {gs : C → C}

theorem cellAt_setCosmo (u : Obj M T Z F (List F × Y) C K V) (i j k : Nat) : cellAt (setCosmo rangeOf compute gs u) i j k =
    (cellAt u i j k).map (Cell.onVal (fun x => (x.1.map (· * ratio rangeOf compute u i k), x.2))) := by
  unfold cellAt setCosmo
  simp only [List.getElem?_mapIdx]
  cases h1 : u.data[i]? with
  | none => rfl
  | some a =>
    simp only [Option.map_some, Option.bind_some, List.getElem?_map]
    cases h2 : a[j]? with
    | none => rfl
    | some b =>
      simp only [Option.map_some, Option.bind_some, List.getElem?_mapIdx]

theorem setCosmo_wf {u : Obj M T Z F (List F × Y) C K V} (h : WF rangeOf u) : WF rangeOf (setCosmo rangeOf compute gs u) where
  time1 := h.time1
  time2 := h.time2
  rowMeta := h.rowMeta
  scalar := by simpa [setCosmo] using h.scalar
  scalar2 := by
    intro a ha
    obtain ⟨i, hi, rfl⟩ := List.getElem_of_mem ha
    simp only [setCosmo, List.getElem_mapIdx, List.length_mapIdx]
    exact h.scalar2 _ (List.getElem_mem _)
  data := by simpa [setCosmo] using h.data
  data2 := by
    intro a ha
    obtain ⟨i, hi, rfl⟩ := List.getElem_of_mem ha
    simp only [setCosmo, List.getElem_mapIdx, List.length_map]
    exact h.data2 _ (List.getElem_mem _)
  data3 := by
    intro a ha b hb
    obtain ⟨i, hi, rfl⟩ := List.getElem_of_mem ha
    simp only [setCosmo, List.getElem_mapIdx] at hb
    obtain ⟨b', hb', rfl⟩ := List.mem_map.1 hb
    rw [List.length_mapIdx]
    exact h.data3 _ (List.getElem_mem _) _ hb'
  lab := by
    intro a ha b hb c hc
    obtain ⟨i, hi, rfl⟩ := List.getElem_of_mem ha
    simp only [setCosmo, List.getElem_mapIdx] at hb
    obtain ⟨b', hb', rfl⟩ := List.mem_map.1 hb
    obtain ⟨k, hk, rfl⟩ := List.getElem_of_mem hc
    rw [List.getElem_mapIdx]
    rw [List.length_mapIdx] at hk
    exact h.lab _ (List.getElem_mem _) _ hb' (b'[k]) (List.getElem_mem hk)
  spws := h.spws
  rows := h.rows
  pols := h.pols
  someSpw := h.someSpw
  somePol := h.somePol
  rkeys := h.rkeys

theorem scalar_exists {u : Obj M T Z S X C K V} (h : WF rangeOf u) {i k : Nat} {r : R} {p : Int} (hi : (u.spwMeta.map rangeOf)[i]? = some r) (hk : u.pols[k]? = some p) :
    ∃ l s, u.scalar[i]? = some l ∧ l[k]? = some s := by
  have li : i < u.scalar.length := by
    rw [h.scalar]
    have := (List.getElem?_eq_some_iff.1 hi).1
    rwa [List.length_map] at this
  have lk : k < (u.scalar[i]).length := by
    rw [h.scalar2 _ (List.getElem_mem li)]; exact (List.getElem?_eq_some_iff.1 hk).1
  exact ⟨_, _, List.getElem?_eq_getElem li, List.getElem?_eq_getElem lk⟩

theorem newScalar_eq {u : Obj M T Z F X C K V} {i k : Nat} {r : R} {p : Int} (hi : (u.spwMeta.map rangeOf)[i]? = some r) (hk : u.pols[k]? = some p) :
    newScalar rangeOf compute u i k = some (compute r p) := by
  rw [List.getElem?_map] at hi
  simp only [newScalar, hi, hk]

/-- **C166** What `set_cosmology` does: every spectrum of window `r` and polarization pair `p` is multiplied by the quotient of the new and the stored scalar, and the stored
scalar becomes the new one; nothing else changes. `σ` is the stored scalar. -/
theorem C166_set_cosmology {σ : R → Int → F} {u : Obj M T Z F (List F × Y) C K V} (h : WF rangeOf u) (hσ : ∀ r p s, ScalarAt rangeOf u r p s → s = σ r p) :
    Acts rangeOf (fun r _ p x => (x.1.map (· * (compute r p / σ r p)), x.2)) u (setCosmo rangeOf compute gs u) ∧
    (∀ r p s, ScalarAt rangeOf (setCosmo rangeOf compute gs u) r p s ↔ (r ∈ u.spwMeta.map rangeOf ∧ p ∈ u.pols ∧ s = compute r p)) := by
  have hr : ∀ {i k : Nat} {r : R} {p : Int}, (u.spwMeta.map rangeOf)[i]? = some r → u.pols[k]? = some p → ratio rangeOf compute u i k = compute r p / σ r p := by
    intro i k r p hi hk
    obtain ⟨l, s, h1, h2⟩ := scalar_exists h hi hk
    have := hσ r p s ⟨i, k, l, hi, hk, h1, h2⟩
    simp only [ratio, newScalar_eq hi hk, List.getD_eq_getElem?_getD, h1, h2, Option.getD_some, this]
  refine ⟨⟨rfl, rfl, rfl, ?_⟩, ?_⟩
  · intro r b p x' n1 n2
    rw [has_iff]
    simp only [has_iff]
    constructor
    · rintro ⟨i, j, k, c, h1, h2, h3, h4, h5, h6, h7⟩
      rw [cellAt_setCosmo] at h4
      obtain ⟨c', h4', rfl⟩ := Option.map_eq_some_iff.1 h4
      refine ⟨c'.val, ⟨i, j, k, c', h1, h2, h3, h4', rfl, h6, h7⟩, ?_⟩
      rw [← h5, ← hr h1 h3]; rfl
    · rintro ⟨x, ⟨i, j, k, c, h1, h2, h3, h4, h5, h6, h7⟩, e⟩
      refine ⟨i, j, k, Cell.onVal (fun x => (x.1.map (· * ratio rangeOf compute u i k), x.2)) c, h1, h2, h3, by rw [cellAt_setCosmo, h4]; rfl, ?_, h6, h7⟩
      rw [← e, ← h5, ← hr h1 h3]; rfl
  · intro r p s
    constructor
    · rintro ⟨i, k, l, h1, h2, h3, h4⟩
      refine ⟨List.mem_of_getElem? h1, List.mem_of_getElem? h2, ?_⟩
      simp only [setCosmo, List.getElem?_mapIdx] at h3
      obtain ⟨l', h3, rfl⟩ := Option.map_eq_some_iff.1 h3
      rw [List.getElem?_mapIdx] at h4
      obtain ⟨s', h4, rfl⟩ := Option.map_eq_some_iff.1 h4
      rw [newScalar_eq (u := u) (compute := compute) h1 h2]; rfl
    · rintro ⟨h1, h2, rfl⟩
      obtain ⟨i, hi⟩ := List.mem_iff_getElem?.1 h1
      obtain ⟨k, hk⟩ := List.mem_iff_getElem?.1 h2
      obtain ⟨l, s, h3, h4⟩ := scalar_exists h hi hk
      refine ⟨i, k, l.mapIdx (fun k s => (newScalar rangeOf compute u i k).getD s), hi, hk, ?_, ?_⟩
      · simp only [setCosmo, List.getElem?_mapIdx, h3, Option.map_some]
      · rw [List.getElem?_mapIdx, h4]; simp only [Option.map_some, newScalar_eq (compute := compute) hi hk]; rfl

/-- **C166** Combining and setting the cosmology commute when the inputs agree on the stored scalar of every window and polarization pair (exactly; the code only asks for
closeness, see the finding): both ways hold the same spectra and the same scalars. -/
theorem C166_cosmology_combine {σ : R → Int → F} {close : F → F → Bool} {us : List (Obj M T Z F (List F × Y) C K V)} {ax : Axis} (hc : Combinable rangeOf close ax us)
    (hal : Aligned rangeOf rnd ax us) (hwu : ∀ u ∈ us, WF rangeOf u) (hσ : ∀ u ∈ us, ∀ r p s, ScalarAt rangeOf u r p s → s = σ r p)
    {out out' : Obj M T Z F (List F × Y) C K V} (h : combine rangeOf rnd close us = .ok out)
    (h' : combine rangeOf rnd close (us.map (setCosmo rangeOf compute gs)) = .ok out') :
    Acts rangeOf (fun _ _ _ x => x) (setCosmo rangeOf compute gs out) out' ∧
    (∀ r p s, ScalarAt rangeOf (setCosmo rangeOf compute gs out) r p s ↔ ScalarAt rangeOf out' r p s) := by
  have hwo : WF rangeOf out := (combine_spec hc hwu hal h).2.2.2.2.2.2.2.2
  have hso : ∀ r p s, ScalarAt rangeOf out r p s → s = σ r p := by
    intro r p s hs
    obtain ⟨u, hu, hs⟩ := scalarAt_combine hc hwu hal h hs
    exact hσ u hu r p s hs
  have hf : List.Forall₂ (Acts rangeOf (fun r _ p (x : List F × Y) => (x.1.map (· * (compute r p / σ r p)), x.2))) us (us.map (setCosmo rangeOf compute gs)) := by
    rw [List.forall₂_map_right_iff, List.forall₂_same]
    exact fun u hu => (C166_set_cosmology (hwu u hu) (hσ u hu)).1
  have hwv : ∀ v ∈ us.map (setCosmo rangeOf compute gs), WF rangeOf v := by
    intro v hv; obtain ⟨u, hu, rfl⟩ := List.mem_map.1 hv; exact setCosmo_wf (hwu u hu)
  have a := C166_acts hf hc hal hwu hwv h h'
  obtain ⟨b, bs⟩ := C166_set_cosmology (compute := compute) (gs := gs) hwo hso
  refine ⟨⟨a.spws.trans b.spws.symm, a.rows.trans b.rows.symm, a.pols.trans b.pols.symm, ?_⟩, ?_⟩
  · intro r b' p x' n1 n2
    rw [a.cells]
    constructor
    · rintro ⟨x, hx, e⟩; exact ⟨x', (b.cells _ _ _ _ _ _).2 ⟨x, hx, e⟩, rfl⟩
    · rintro ⟨x, hx, rfl⟩; exact (b.cells _ _ _ _ _ _).1 hx
  · intro r p s
    rw [bs]
    obtain ⟨ax', _, _, hc', _⟩ := (combine_iff (by rw [List.length_map]; exact hc.two)).1 h'
    have ha := all_axes hf
    obtain rfl := axes_axis ha hc.two hc.pair hc'.pair
    have hwo' : WF rangeOf out' := (combine_spec hc' hwv (axes_aligned ha hal) h').2.2.2.2.2.2.2.2
    have key : ∀ r p s, ScalarAt rangeOf out' r p s → s = compute r p := by
      intro r p s hs
      obtain ⟨v, hv, hs⟩ := scalarAt_combine hc' hwv (axes_aligned ha hal) h' hs
      obtain ⟨u, hu, rfl⟩ := List.mem_map.1 hv
      exact (((C166_set_cosmology (hwu u hu) (hσ u hu)).2 r p s).1 hs).2.2
    constructor
    · rintro ⟨h1, h2, rfl⟩
      rw [← a.spws] at h1
      rw [← a.pols] at h2
      obtain ⟨i, hi⟩ := List.mem_iff_getElem?.1 h1
      obtain ⟨k, hk⟩ := List.mem_iff_getElem?.1 h2
      obtain ⟨l, s, h3, h4⟩ := scalar_exists hwo' hi hk
      have hs : ScalarAt rangeOf out' r p s := ⟨i, k, l, hi, hk, h3, h4⟩
      rw [← key r p s hs]; exact hs
    · intro hs
      refine ⟨?_, ?_, key r p s hs⟩
      · obtain ⟨i, k, l, h1, _⟩ := hs; rw [← a.spws]; exact List.mem_of_getElem? h1
      · obtain ⟨i, k, l, _, h1, _⟩ := hs; rw [← a.pols]; exact List.mem_of_getElem? h1

/-! ### Examples -/

/-- Concrete instance: windows and times are numbers, spectra have two delays. -/
abbrev Exq := Obj Nat Nat Unit ℚ (List ℚ × Nat) Nat Nat Nat

/-- One window, one polarization pair, one row. -/
def exq (b : Int) (s : ℚ) (x : List ℚ) : Exq where
  spwMeta := [4]
  blpair := [b]
  time1 := [1]
  time2 := [2]
  rowMeta := [()]
  pols := [5]
  scalar := [[s]]
  data := [[[⟨(x, 9), 0, 0⟩]]]
  labels := ["a"]
  rparams := [(1, 2)]
  static := 0

/-- The new scalar of the example. -/
def exCompute (r : Nat) (p : Int) : ℚ := r + p

/-- Two scalars that differ by at most one are close. -/
def exClose (a b : ℚ) : Bool := decide (a - b ≤ 1) && decide (b - a ≤ 1)

theorem exq_wf (b : Int) (s : ℚ) (x : List ℚ) : WF (id : Nat → Nat) (exq b s x) := by
  constructor <;> simp [exq, Obj.blpts, Dict.keys]

theorem exq_scalar (b : Int) (s : ℚ) (x : List ℚ) (r : Nat) (p : Int) (t : ℚ) (h : ScalarAt (id : Nat → Nat) (exq b s x) r p t) : t = s := by
  obtain ⟨i, k, l, h1, h2, h3, h4⟩ := h
  simp only [exq] at h1 h2 h3
  obtain rfl : i = 0 := by
    rcases i with _ | i
    · rfl
    · cases h3
  simp only [List.getElem?_cons_zero, Option.some.injEq] at h3
  subst h3
  obtain rfl : k = 0 := by
    rcases k with _ | k
    · rfl
    · cases h4
  simpa using h4.symm

/-- The hypotheses of `C166_cosmology_combine` hold for two objects with one row each. -/
example : ∃ us : List Exq, Combinable id exClose .blpairts us ∧ Aligned id id .blpairts us ∧ (∀ u ∈ us, WF id u) ∧
    (∀ u ∈ us, ∀ r p s, ScalarAt id u r p s → s = (2 : ℚ)) ∧ (∃ out, combine id id exClose us = .ok out) ∧
    ∃ out', combine id id exClose (us.map (setCosmo id exCompute (· + 1))) = .ok out' := by
  refine ⟨[exq 8 2 [1, 2], exq 7 2 [3, 4]], ?_, ⟨by simp, by simp, ?_⟩, ?_, ?_, ?_, ?_⟩
  · have hb : (overlap id exClose [exq 8 2 [1, 2], exq 7 2 [3, 4]]).map (·.1) = .ok .blpairts := by decide +kernel
    apply (C21_overlap_iff (rangeOf := id) (close := exClose) _ _).1
    cases h : overlap id exClose [exq 8 2 [1, 2], exq 7 2 [3, 4]] with
    | error e => rw [h] at hb; cases hb
    | ok o =>
      rw [h] at hb
      obtain ⟨ax, a, b, c⟩ := o
      cases hb
      exact ⟨a, b, c, rfl⟩
  · intro _ u0 h0; simp at h0; subst h0; simp [exq]
  · intro v hv
    simp only [List.mem_cons, List.not_mem_nil, or_false] at hv
    rcases hv with rfl | rfl <;> exact exq_wf _ _ _
  · intro v hv r p s hs
    simp only [List.mem_cons, List.not_mem_nil, or_false] at hv
    rcases hv with rfl | rfl <;> exact exq_scalar _ _ _ _ _ _ hs
  · have hb : (combine id id exClose [exq 8 2 [1, 2], exq 7 2 [3, 4]]).toOption.isSome = true := by decide +kernel
    cases h : combine id id exClose [exq 8 2 [1, 2], exq 7 2 [3, 4]] with
    | error e => rw [h] at hb; cases hb
    | ok o => exact ⟨o, rfl⟩
  · have hb : (combine id id exClose ([exq 8 2 [1, 2], exq 7 2 [3, 4]].map (setCosmo id exCompute (· + 1)))).toOption.isSome = true := by decide +kernel
    cases h : combine id id exClose ([exq 8 2 [1, 2], exq 7 2 [3, 4]].map (setCosmo id exCompute (· + 1))) with
    | error e => rw [h] at hb; cases hb
    | ok o => exact ⟨o, rfl⟩

/-- Combining changed objects gives the changed combination, on numbers. -/
example : (combine id id exClose ([exq 8 2 [1, 2], exq 7 2 [3, 4]].map (setCosmo id exCompute (· + 1)))).map (fun u => (u.scalar, u.data.map (·.map (·.map (·.val.1))))) =
    .ok ([[9]], [[[[27 / 2, 18]], [[9 / 2, 9]]]]) := by decide +kernel

/-- **C166, finding** The stored scalars need only be close for objects with different rows to be combined, and the combination keeps the scalar of one of them: setting the
cosmology afterwards then gives other spectra than setting it before (here scalars 2 and 3, spectra 1 and 1: together 9/2, 9/2, one by one 9/2, 3). -/
theorem C166_finding_close_scalars :
    (combine id id exClose [exq 7 2 [1], exq 8 3 [1]]).map (fun u => (setCosmo id exCompute id u).data.map (·.map (·.map (·.val.1)))) =
      .ok [[[[9 / 2]], [[9 / 2]]]] ∧
    (combine id id exClose ([exq 7 2 [1], exq 8 3 [1]].map (setCosmo id exCompute id))).map (fun u => u.data.map (·.map (·.map (·.val.1)))) =
      .ok [[[[9 / 2]], [[3]]]] := by
  constructor <;> decide +kernel

/-- The hypothesis of `C166_one_function` about the metadata holds for every injective `g`; without it objects with different metadata could become combinable. -/
example (us : List Exq) : combine id id exClose (us.map (mapAll (fun x => (x.1.map (2 * ·), x.2)) (· + 1))) =
    (combine id id exClose us).map (mapAll (fun x => (x.1.map (2 * ·), x.2)) (· + 1)) :=
  C166_one_function _ _ us (fun _ _ _ _ h => Nat.succ.inj h)

end HeraPspec.Combine
