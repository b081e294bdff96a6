import Verif.Spec.SelectCombine
import Verif.Props.Combine
import Verif.Lemmas.SplitMerge2

/-!
Property C167: selecting and combining commute.
-/
namespace HeraPspec.Combine
open HeraPspec.UVP (mapE Err)
variable {R M T Z S X C K V : Type}
variable [LinearOrder R] [LinearOrder T] [DecidableEq C] [DecidableEq K] [DecidableEq V]
variable {rangeOf : M → R} {rnd : T → T} {close : S → S → Bool} {keysOf : Int → Int → List K}
variable {W : R → Bool} {B : (Int × T × T) → Bool} {P : Int → Bool}

theorem Chosen.mem {α : Type} {p : α → Bool} {l : List α} {is : List Nat} (h : Chosen p l is) {x : α} : x ∈ pick is l ↔ x ∈ l ∧ p x = true := by
  rw [mem_pick]
  constructor
  · rintro ⟨i, hi, hx⟩; exact ⟨List.mem_of_getElem? hx, (h.2 i x hx).1 hi⟩
  · rintro ⟨hx, hp⟩
    obtain ⟨i, hi⟩ := List.mem_iff_getElem?.1 hx
    exact ⟨i, (h.2 i x hi).2 hp, hi⟩

theorem Chosen.unique {α : Type} {p : α → Bool} {l : List α} {is js : List Nat} (h : Chosen p l is) (h' : Chosen p l js) : is = js := by
  refine sorted_unique (le := (· ≤ ·)) (fun a b h1 h2 => Nat.le_antisymm h1 h2) (h.1.1.imp Nat.le_of_lt) (h'.1.1.imp Nat.le_of_lt) h.1.nodup h'.1.nodup ?_
  intro i
  constructor
  · intro hi
    have hx := List.getElem?_eq_getElem (h.1.2 i hi)
    exact (h'.2 i _ hx).2 ((h.2 i _ hx).1 hi)
  · intro hi
    have hx := List.getElem?_eq_getElem (h'.1.2 i hi)
    exact (h.2 i _ hx).2 ((h'.2 i _ hx).1 hi)

theorem blpts_len {u : Obj M T Z S X C K V} (h : WF rangeOf u) : u.blpts.length = u.blpair.length := by
  have := h.time1; have := h.time2
  simp [Obj.blpts]; omega

theorem Chosen.pos {u : Obj M T Z S X C K V} (hu : WF rangeOf u) {ws bs ps : List Nat} (h1 : Chosen W (u.spwMeta.map rangeOf) ws) (h2 : Chosen B u.blpts bs)
    (h3 : Chosen P u.pols ps) : Positions u.spwMeta.length ws ∧ Positions u.blpair.length bs ∧ Positions u.pols.length ps := by
  refine ⟨?_, ?_, h3.1⟩
  · have := h1.1; rwa [List.length_map] at this
  · have := h2.1; rwa [blpts_len hu] at this

section
variable {u v : Obj M T Z S X C K V}

theorem selectedBy_spws (h : SelectedBy rangeOf keysOf W B P u v) (r : R) : r ∈ v.spwMeta.map rangeOf ↔ r ∈ u.spwMeta.map rangeOf ∧ W r = true := by
  obtain ⟨ws, bs, ps, h1, h2, h3, rfl⟩ := h
  rw [select_spws, h1.mem]

theorem selectedBy_blpts (hu : WF rangeOf u) (h : SelectedBy rangeOf keysOf W B P u v) (b) : b ∈ v.blpts ↔ b ∈ u.blpts ∧ B b = true := by
  obtain ⟨ws, bs, ps, h1, h2, h3, rfl⟩ := h
  rw [select_blpts hu (h1.pos hu h2 h3).2.1, h2.mem]

theorem selectedBy_pols (h : SelectedBy rangeOf keysOf W B P u v) (p) : p ∈ v.pols ↔ p ∈ u.pols ∧ P p = true := by
  obtain ⟨ws, bs, ps, h1, h2, h3, rfl⟩ := h
  exact h3.mem

theorem selectedBy_hasVal (hu : WF rangeOf u) (h : SelectedBy rangeOf keysOf W B P u v) (r b p) (x : X) :
    HasVal rangeOf v r b p x ↔ HasVal rangeOf u r b p x ∧ W r = true ∧ B b = true ∧ P p = true := by
  obtain ⟨ws, bs, ps, h1, h2, h3, rfl⟩ := h
  obtain ⟨g1, g2, g3⟩ := h1.pos hu h2 h3
  rw [select_hasVal hu g1 g2 g3, h1.mem, h2.mem, h3.mem]
  constructor
  · rintro ⟨h, ⟨_, a⟩, ⟨_, b⟩, ⟨_, c⟩⟩; exact ⟨h, a, b, c⟩
  · rintro ⟨h, a, b, c⟩
    obtain ⟨n1, n2, hh⟩ := h
    obtain ⟨i, j, k, _, e1, e2, e3, _⟩ := has_iff.1 hh
    exact ⟨⟨n1, n2, hh⟩, ⟨List.mem_of_getElem? e1, a⟩, ⟨List.mem_of_getElem? e2, b⟩, ⟨List.mem_of_getElem? e3, c⟩⟩

theorem selectedBy_has (hu : WF rangeOf u) (ho : OneOrigin u) (h : SelectedBy rangeOf keysOf W B P u v) (r b p) (x : X) (n1 n2) :
    Has rangeOf v r b p x n1 n2 ↔ Has rangeOf u r b p x n1 n2 ∧ W r = true ∧ B b = true ∧ P p = true := by
  obtain ⟨ws, bs, ps, h1, h2, h3, rfl⟩ := h
  obtain ⟨g1, g2, g3⟩ := h1.pos hu h2 h3
  rw [select_has hu ho g1 g2 g3, h1.mem, h2.mem, h3.mem]
  constructor
  · rintro ⟨h, ⟨_, a⟩, ⟨_, b⟩, ⟨_, c⟩⟩; exact ⟨h, a, b, c⟩
  · rintro ⟨hh, a, b, c⟩
    obtain ⟨i, j, k, _, e1, e2, e3, _⟩ := has_iff.1 hh
    exact ⟨hh, ⟨List.mem_of_getElem? e1, a⟩, ⟨List.mem_of_getElem? e2, b⟩, ⟨List.mem_of_getElem? e3, c⟩⟩

theorem selectedBy_wf (hu : WF rangeOf u) (h : SelectedBy rangeOf keysOf W B P u v) (hw : v.spwMeta ≠ []) (hp : v.pols ≠ []) : WF rangeOf v := by
  obtain ⟨ws, bs, ps, h1, h2, h3, rfl⟩ := h
  obtain ⟨g1, g2, g3⟩ := h1.pos hu h2 h3
  refine select_wf hu g1 g2 g3 ?_ ?_
  · rintro rfl; exact hw rfl
  · rintro rfl; exact hp rfl

theorem selectedBy_static (h : SelectedBy rangeOf keysOf W B P u v) : v.static = u.static := by
  obtain ⟨ws, bs, ps, h1, h2, h3, rfl⟩ := h; rfl

theorem selectedBy_keyed (hu : WF rangeOf u) (h : SelectedBy rangeOf keysOf W B P u v) (hk : Keyed rnd u) : Keyed rnd v := by
  obtain ⟨ws, bs, ps, h1, h2, h3, rfl⟩ := h
  unfold Keyed
  rw [select_blpts hu (h1.pos hu h2 h3).2.1]
  exact pick_pairwise h2.1.1 hk

theorem selectedBy_sorted (h : SelectedBy rangeOf keysOf W B P u v) (hk : (u.spwMeta.map rangeOf).Pairwise (· ≤ ·)) : (v.spwMeta.map rangeOf).Pairwise (· ≤ ·) := by
  obtain ⟨ws, bs, ps, h1, h2, h3, rfl⟩ := h
  rw [select_spws]
  exact pick_pairwise h1.1.1 hk

theorem selectedBy_order {u' v' : Obj M T Z S X C K V} (hu : WF rangeOf u) (hu' : WF rangeOf u') (h : SelectedBy rangeOf keysOf W B P u v)
    (h' : SelectedBy rangeOf keysOf W B P u' v') (e : u.blpts = u'.blpts) : v.blpts = v'.blpts := by
  obtain ⟨ws, bs, ps, h1, h2, h3, rfl⟩ := h
  obtain ⟨ws', bs', ps', h1', h2', h3', rfl⟩ := h'
  rw [select_blpts hu (h1.pos hu h2 h3).2.1, select_blpts hu' (h1'.pos hu' h2' h3').2.1, e]
  rw [e] at h2
  rw [h2.unique h2']
end

theorem Same.keep {α : Type} {a b a' b' : List α} {p : α → Bool} (h : Same a b) (ha : ∀ x, x ∈ a' ↔ x ∈ a ∧ p x = true) (hb : ∀ x, x ∈ b' ↔ x ∈ b ∧ p x = true) : Same a' b' := by
  intro x; rw [ha, hb, h x]

theorem pairOK_same {ax ax' : Axis} {u v u' v' : Obj M T Z S X C K V} (hu : WF rangeOf u) (hv : WF rangeOf v)
    (h : SelectedBy rangeOf keysOf W B P u u') (h' : SelectedBy rangeOf keysOf W B P v v') (h1 : PairOK rangeOf ax u v) (h2 : PairOK rangeOf ax' u' v') : ax' = ax := by
  obtain ⟨a1, a2, a3⟩ := h1
  obtain ⟨b1, b2, b3⟩ := h2
  cases ax' with
  | spw =>
    by_contra hne
    rw [if_neg (fun e => hne e.symm)] at a1
    rw [if_pos rfl] at b1
    exact b1.2 (a1.keep (selectedBy_spws h) (selectedBy_spws h'))
  | blpairts =>
    by_contra hne
    rw [if_neg (fun e => hne e.symm)] at a2
    rw [if_pos rfl] at b2
    exact b2.2 (a2.keep (selectedBy_blpts hu h) (selectedBy_blpts hv h'))
  | polpairs =>
    by_contra hne
    rw [if_neg (fun e => hne e.symm)] at a3
    rw [if_pos rfl] at b3
    exact b3.2 (a3.keep (selectedBy_pols h) (selectedBy_pols h'))

section
variable {us vs : List (Obj M T Z S X C K V)}

theorem sel_back (h : List.Forall₂ (SelectedBy rangeOf keysOf W B P) us vs) {v} (hv : v ∈ vs) : ∃ u ∈ us, SelectedBy rangeOf keysOf W B P u v := by
  obtain ⟨i, hi, rfl⟩ := List.getElem_of_mem hv
  have hi' : i < us.length := h.length_eq ▸ hi
  exact ⟨_, List.get_mem us ⟨i, hi'⟩, (List.forall₂_iff_get.1 h).2 i hi' hi⟩

theorem sel_forth (h : List.Forall₂ (SelectedBy rangeOf keysOf W B P) us vs) {u} (hu : u ∈ us) : ∃ v ∈ vs, SelectedBy rangeOf keysOf W B P u v := by
  obtain ⟨i, hi, rfl⟩ := List.getElem_of_mem hu
  have hi' : i < vs.length := h.length_eq.symm ▸ hi
  exact ⟨_, List.get_mem vs ⟨i, hi'⟩, (List.forall₂_iff_get.1 h).2 i hi hi'⟩

theorem sel_head (h : List.Forall₂ (SelectedBy rangeOf keysOf W B P) us vs) {v0} (hv : v0 ∈ vs.head?) : ∃ u0 ∈ us.head?, SelectedBy rangeOf keysOf W B P u0 v0 := by
  cases h with
  | nil => cases hv
  | cons h1 _ => cases hv; exact ⟨_, rfl, h1⟩

theorem sel_aligned {ax : Axis} (h : List.Forall₂ (SelectedBy rangeOf keysOf W B P) us vs) (hwu : ∀ u ∈ us, WF rangeOf u) (hal : Aligned rangeOf rnd ax us) :
    Aligned rangeOf rnd ax vs := by
  constructor
  · intro ha v hv
    obtain ⟨u, hu, he⟩ := sel_back h hv
    exact selectedBy_keyed (hwu u hu) he (hal.keyed ha u hu)
  · intro ha v0 h0 v hv
    obtain ⟨u, hu, he⟩ := sel_back h hv
    obtain ⟨u0, hu0, he0⟩ := sel_head h h0
    exact selectedBy_order (hwu u hu) (hwu u0 (List.mem_of_mem_head? hu0)) he he0 (hal.order ha u0 hu0 u hu)
  · intro ha v0 h0
    obtain ⟨u0, hu0, he0⟩ := sel_head h h0
    exact selectedBy_sorted he0 (hal.windows ha u0 hu0)

theorem sel_axis {ax ax' : Axis} (h : List.Forall₂ (SelectedBy rangeOf keysOf W B P) us vs) (hwu : ∀ u ∈ us, WF rangeOf u) (h2 : 2 ≤ us.length)
    (hu : us.Pairwise (PairOK rangeOf ax)) (hv : vs.Pairwise (PairOK rangeOf ax')) : ax' = ax := by
  match us, vs, h2, h, hu, hv with
  | a :: b :: l, c :: d :: l', _, .cons h1 (.cons h2 _), hu, hv =>
    exact pairOK_same (hwu a (by simp)) (hwu b (by simp)) h1 h2 ((List.pairwise_cons.1 hu).1 b List.mem_cons_self) ((List.pairwise_cons.1 hv).1 d List.mem_cons_self)

/-- **C167** Keeping the windows, baseline-pair-times and polarization pairs that satisfy some conditions can be done before or after combining: both ways hold the same windows and rows
in the same order, the same polarization pairs and the same values, and for objects of one pair of data sets also the same data set names; every weighting parameter (`r_params`) of the first way
is one of the second. Every input must keep a window and a
polarization pair. -/
theorem C167_select_combine {ax : Axis} (hsel : List.Forall₂ (SelectedBy rangeOf keysOf W B P) us vs) (hc : Combinable rangeOf close ax us)
    (hal : Aligned rangeOf rnd ax us) (hwu : ∀ u ∈ us, WF rangeOf u) (hne : ∀ v ∈ vs, v.spwMeta ≠ [] ∧ v.pols ≠ [])
    {out : Obj M T Z S X C K V} (h : combine rangeOf rnd close us = .ok out) {sel : Obj M T Z S X C K V} (hs : SelectedBy rangeOf keysOf W B P out sel)
    {out' : Obj M T Z S X C K V} (h' : combine rangeOf rnd close vs = .ok out') :
    out'.spwMeta.map rangeOf = sel.spwMeta.map rangeOf ∧ out'.blpts = sel.blpts ∧ out'.pols.Perm sel.pols ∧
    (∀ r b p x, HasVal rangeOf out' r b p x ↔ HasVal rangeOf sel r b p x) ∧
    (OneOrigin out → (∀ u ∈ us, OneOrigin u) → ∀ r b p x n1 n2, Has rangeOf out' r b p x n1 n2 ↔ Has rangeOf sel r b p x n1 n2) ∧
    out'.static = sel.static ∧ (∀ k v, Dict.get out'.rparams k = some v → Dict.get sel.rparams k = some v) := by
  obtain ⟨a1, _, a3, a4, a5, _, a7, a8, a9⟩ := combine_spec hc hwu hal h
  obtain ⟨ax', _, _, hc', _⟩ := (combine_iff (hsel.length_eq ▸ hc.two)).1 h'
  obtain rfl := sel_axis hsel hwu hc.two hc.pair hc'.pair
  have hwv : ∀ v ∈ vs, WF rangeOf v := by
    intro v hv
    obtain ⟨u, hu, he⟩ := sel_back hsel hv
    exact selectedBy_wf (hwu u hu) he (hne v hv).1 (hne v hv).2
  obtain ⟨b1, _, b3, b4, b5, _, b7, b8, b9⟩ := combine_spec hc' hwv (sel_aligned hsel hwu hal) h'
  obtain ⟨ws, bs, ps, c1, c2, c3, e⟩ := hs
  have hs : SelectedBy rangeOf keysOf W B P out sel := ⟨ws, bs, ps, c1, c2, c3, e⟩
  have mw : ∀ r, r ∈ newSpws rangeOf vs ↔ r ∈ newSpws rangeOf us ∧ W r = true := by
    intro r
    rw [mem_newSpws, mem_newSpws]
    constructor
    · rintro ⟨v, hv, hr⟩
      obtain ⟨u, hu, he⟩ := sel_back hsel hv
      exact ⟨⟨u, hu, ((selectedBy_spws he r).1 hr).1⟩, ((selectedBy_spws he r).1 hr).2⟩
    · rintro ⟨⟨u, hu, hr⟩, hw⟩
      obtain ⟨v, hv, he⟩ := sel_forth hsel hu
      exact ⟨v, hv, (selectedBy_spws he r).2 ⟨hr, hw⟩⟩
  have mb : ∀ b, b ∈ newBlpts vs ↔ b ∈ newBlpts us ∧ B b = true := by
    intro b
    rw [mem_newBlpts, mem_newBlpts]
    constructor
    · rintro ⟨v, hv, hr⟩
      obtain ⟨u, hu, he⟩ := sel_back hsel hv
      exact ⟨⟨u, hu, ((selectedBy_blpts (hwu u hu) he b).1 hr).1⟩, ((selectedBy_blpts (hwu u hu) he b).1 hr).2⟩
    · rintro ⟨⟨u, hu, hr⟩, hw⟩
      obtain ⟨v, hv, he⟩ := sel_forth hsel hu
      exact ⟨v, hv, (selectedBy_blpts (hwu u hu) he b).2 ⟨hr, hw⟩⟩
  have mp : ∀ p, p ∈ newPols vs ↔ p ∈ newPols us ∧ P p = true := by
    intro p
    rw [mem_newPols, mem_newPols]
    constructor
    · rintro ⟨v, hv, hr⟩
      obtain ⟨u, hu, he⟩ := sel_back hsel hv
      exact ⟨⟨u, hu, ((selectedBy_pols he p).1 hr).1⟩, ((selectedBy_pols he p).1 hr).2⟩
    · rintro ⟨⟨u, hu, hr⟩, hw⟩
      obtain ⟨v, hv, he⟩ := sel_forth hsel hu
      exact ⟨v, hv, (selectedBy_pols he p).2 ⟨hr, hw⟩⟩
  refine ⟨?_, ?_, ?_, ?_, ?_, ?_, ?_⟩
  · rw [b3, e, select_spws]
    refine sorted_unique (le := (· ≤ ·)) (fun a b h1 h2 => le_antisymm h1 h2) sorted_newSpws (pick_pairwise c1.1.1 (by rw [a3]; exact sorted_newSpws)) nodup_newSpws
      (pick_pairwise c1.1.1 a9.spws) ?_
    intro r
    rw [c1.mem, mw, a3]
  · rw [b4, e, select_blpts a9 (c1.pos a9 c2 c3).2.1]
    refine sorted_unique (le := fun a b => bleT a b = true) (fun a b h1 h2 => bleT_antisymm h1 h2) sorted_newBlpts (pick_pairwise c2.1.1 (by rw [a4]; exact sorted_newBlpts)) nodup_newBlpts
      (pick_pairwise c2.1.1 a9.rows) ?_
    intro b
    rw [c2.mem, mb, a4]
  · rw [b5, e]
    refine (List.perm_ext_iff_of_nodup nodup_newPols (pick_pairwise c3.1.1 a9.pols)).2 ?_
    intro p
    show p ∈ newPols vs ↔ p ∈ pick ps out.pols
    rw [c3.mem, mp, a5]
  · intro r b p x
    rw [selectedBy_hasVal a9 hs]
    have e1 : HasVal rangeOf out' r b p x ↔ ∃ v ∈ vs, HasVal rangeOf v r b p x := by
      unfold HasVal
      simp only [b1]
      constructor
      · rintro ⟨n1, n2, v, hv, hh⟩; exact ⟨v, hv, n1, n2, hh⟩
      · rintro ⟨v, hv, n1, n2, hh⟩; exact ⟨n1, n2, v, hv, hh⟩
    have e2 : HasVal rangeOf out r b p x ↔ ∃ v ∈ us, HasVal rangeOf v r b p x := by
      unfold HasVal
      simp only [a1]
      constructor
      · rintro ⟨n1, n2, v, hv, hh⟩; exact ⟨v, hv, n1, n2, hh⟩
      · rintro ⟨v, hv, n1, n2, hh⟩; exact ⟨n1, n2, v, hv, hh⟩
    rw [e1, e2]
    constructor
    · rintro ⟨v, hv, hh⟩
      obtain ⟨u, hu, he⟩ := sel_back hsel hv
      obtain ⟨hh, hrest⟩ := (selectedBy_hasVal (hwu u hu) he r b p x).1 hh
      exact ⟨⟨u, hu, hh⟩, hrest⟩
    · rintro ⟨⟨u, hu, hh⟩, hrest⟩
      obtain ⟨v, hv, he⟩ := sel_forth hsel hu
      exact ⟨v, hv, (selectedBy_hasVal (hwu u hu) he r b p x).2 ⟨hh, hrest⟩⟩
  · intro ho hou r b p x n1 n2
    rw [selectedBy_has a9 ho hs, b1, a1]
    constructor
    · rintro ⟨v, hv, hh⟩
      obtain ⟨u, hu, he⟩ := sel_back hsel hv
      obtain ⟨hh, hrest⟩ := (selectedBy_has (hwu u hu) (hou u hu) he r b p x n1 n2).1 hh
      exact ⟨⟨u, hu, hh⟩, hrest⟩
    · rintro ⟨⟨u, hu, hh⟩, hrest⟩
      obtain ⟨v, hv, he⟩ := sel_forth hsel hu
      exact ⟨v, hv, (selectedBy_has (hwu u hu) (hou u hu) he r b p x n1 n2).2 ⟨hh, hrest⟩⟩
  · rw [selectedBy_static hs]
    obtain ⟨u, hu⟩ : ∃ u, u ∈ us := by
      match us, hc.two with
      | a :: _, _ => exact ⟨a, List.mem_cons_self⟩
    obtain ⟨v, hv, he⟩ := sel_forth hsel hu
    rw [b8 v hv, a8 u hu, selectedBy_static he]
  · intro k v hk
    obtain ⟨w, hw, hk⟩ := (b7 k v).1 hk
    obtain ⟨u, hu, ws', bs', ps', d1, d2, d3, rfl⟩ := sel_back hsel hw
    have he : SelectedBy rangeOf keysOf W B P u (select keysOf u ws' bs' ps') := ⟨ws', bs', ps', d1, d2, d3, rfl⟩
    have hk : Dict.get (keepR keysOf u.rparams (select keysOf u ws' bs' ps').blpair (select keysOf u ws' bs' ps').pols) k = some v := hk
    rw [get_keepR] at hk
    obtain ⟨hk, b, hb, p, hp, hkk⟩ := hk
    have hsw : WF rangeOf sel := selectedBy_wf a9 hs
      (by
        obtain ⟨r, hr⟩ := List.exists_mem_of_ne_nil _ (hne _ hw).1
        have h1 := (selectedBy_spws he _).1 (List.mem_map_of_mem (f := rangeOf) hr)
        intro e0
        have h2 := (selectedBy_spws hs (rangeOf r)).2 ⟨by rw [a3]; exact mem_newSpws.2 ⟨u, hu, h1.1⟩, h1.2⟩
        rw [e0] at h2; cases h2)
      (by
        have h1 := (selectedBy_pols he _).1 hp
        intro e0
        have h2 := (selectedBy_pols hs p).2 ⟨by rw [a5]; exact mem_newPols.2 ⟨u, hu, h1.1⟩, h1.2⟩
        rw [e0] at h2; cases h2)
    obtain ⟨j, hj⟩ := List.mem_iff_getElem?.1 hb
    have hj' : j < (select keysOf u ws' bs' ps').blpts.length := by
      rw [blpts_len (hwv _ hw)]; exact (List.getElem?_eq_some_iff.1 hj).1
    have hg := List.getElem?_eq_getElem hj'
    have hbb := (blpts_get.1 hg).1
    rw [hj] at hbb
    have h1 := (selectedBy_blpts (hwu u hu) he _).1 (List.getElem_mem hj')
    have h2 := (selectedBy_blpts a9 hs _).2 ⟨by rw [a4]; exact mem_newBlpts.2 ⟨u, hu, h1.1⟩, h1.2⟩
    obtain ⟨j2, hj2⟩ := List.mem_iff_getElem?.1 h2
    have h3 := (blpts_get.1 hj2).1
    rw [← Option.some.inj hbb] at h3
    have hps := (selectedBy_pols he _).1 hp
    have hp2 := (selectedBy_pols hs p).2 ⟨by rw [a5]; exact mem_newPols.2 ⟨u, hu, hps.1⟩, hps.2⟩
    rw [e] at h3 hp2 ⊢
    show Dict.get (keepR keysOf out.rparams _ _) k = some v
    rw [get_keepR]
    exact ⟨(a7 k v).2 ⟨u, hu, hk⟩, b, List.mem_of_getElem? h3, p, hp2, hkk⟩

/-- **C167** When the selected objects can be combined: every input keeps a window and a polarization pair (and a row, if rows are joined), the remaining `r_params` are compatible, and
the stored scalars still agree place by place if rows are joined. -/
theorem C167_combine_exists {ax : Axis} (hsel : List.Forall₂ (SelectedBy rangeOf keysOf W B P) us vs) (hc : Combinable rangeOf close ax us)
    (hal : Aligned rangeOf rnd ax us) (hwu : ∀ u ∈ us, WF rangeOf u) (hne : ∀ v ∈ vs, v.spwMeta ≠ [] ∧ v.pols ≠ []) (hrow : ax = .blpairts → ∀ v ∈ vs, v.blpts ≠ [])
    (hr : Compatible (vs.map (·.rparams))) (hsc : ax = .blpairts → ∀ v0 ∈ vs.head?, ∀ v ∈ vs.tail, ScalarsAgree close v0.scalar v.scalar) :
    ∃ out', combine rangeOf rnd close vs = .ok out' := by
  have hwv : ∀ v ∈ vs, WF rangeOf v := by
    intro v hv
    obtain ⟨u, hu, he⟩ := sel_back hsel hv
    exact selectedBy_wf (hwu u hu) he (hne v hv).1 (hne v hv).2
  have apart : ∀ {α : Type} {a b a' b' : List α} {p : α → Bool}, Apart a b → (∀ x, x ∈ a' ↔ x ∈ a ∧ p x = true) → (∀ x, x ∈ b' ↔ x ∈ b ∧ p x = true) → a' ≠ [] → Apart a' b' := by
    intro α a b a' b' p hab ha hb hn
    have hd : ∀ x ∈ a', x ∉ b' := fun x hx hx' => hab.1 x ((ha x).1 hx).1 ((hb x).1 hx').1
    refine ⟨hd, fun hsame => ?_⟩
    obtain ⟨x, hx⟩ := List.exists_mem_of_ne_nil _ hn
    exact hd x hx ((hsame x).1 hx)
  have hpair : ∀ i j (hi : i < vs.length) (hj : j < vs.length), i < j → PairOK rangeOf ax vs[i] vs[j] := by
    intro i j hi hj hij
    have hi' : i < us.length := hsel.length_eq ▸ hi
    have hj' : j < us.length := hsel.length_eq ▸ hj
    have si : SelectedBy rangeOf keysOf W B P us[i] vs[i] := (List.forall₂_iff_get.1 hsel).2 i hi' hi
    have sj : SelectedBy rangeOf keysOf W B P us[j] vs[j] := (List.forall₂_iff_get.1 hsel).2 j hj' hj
    obtain ⟨p1, p2, p3⟩ := List.pairwise_iff_getElem.1 hc.pair i j hi' hj' hij
    have wi := hwu _ (List.getElem_mem hi')
    have wj := hwu _ (List.getElem_mem hj')
    have ni := hne _ (List.getElem_mem hi)
    refine ⟨?_, ?_, ?_⟩
    · split at p1
      · rename_i e; rw [if_pos e]; exact apart p1 (selectedBy_spws si) (selectedBy_spws sj) (by simpa using ni.1)
      · rename_i e; rw [if_neg e]; exact p1.keep (selectedBy_spws si) (selectedBy_spws sj)
    · split at p2
      · rename_i e; rw [if_pos e]; exact apart p2 (selectedBy_blpts wi si) (selectedBy_blpts wj sj) (hrow e _ (List.getElem_mem hi))
      · rename_i e; rw [if_neg e]; exact p2.keep (selectedBy_blpts wi si) (selectedBy_blpts wj sj)
    · split at p3
      · rename_i e; rw [if_pos e]; exact apart p3 (selectedBy_pols si) (selectedBy_pols sj) ni.2
      · rename_i e; rw [if_neg e]; exact p3.keep (selectedBy_pols si) (selectedBy_pols sj)
  have hcv : Combinable rangeOf close ax vs := by
    refine ⟨hsel.length_eq ▸ hc.two, ?_, List.pairwise_iff_getElem.2 hpair, hsc⟩
    intro v0 h0 v hv
    obtain ⟨u, hu, he⟩ := sel_back hsel hv
    obtain ⟨u0, hu0, he0⟩ := sel_head hsel h0
    rw [selectedBy_static he, selectedBy_static he0]
    exact hc.static u0 hu0 u hu
  exact combine_exists hcv hwv (sel_aligned hsel hwu hal) hr

end

/-! ### Example: two objects with two windows, different rows and two polarization pairs; windows above 1 and polarization pair 6 are kept, and all rows but the first. -/

/-- The inputs. -/
def exIn : List Ex := [exObj [1, 2] [(9, 1, 1), (7, 1, 1)] [5, 6] code, exObj [1, 2] [(8, 1, 1)] [5, 6] code]
/-- The selected inputs. -/
def exSel : List Ex := [select (fun _ _ => [1]) (exObj [1, 2] [(9, 1, 1), (7, 1, 1)] [5, 6] code) [1] [0] [1],
  select (fun _ _ => [1]) (exObj [1, 2] [(8, 1, 1)] [5, 6] code) [1] [0] [1]]
/-- The conditions. -/
def exW (r : Nat) : Bool := decide (1 < r)
def exB (b : Int × Nat × Nat) : Bool := decide (7 < b.1)
def exP (p : Int) : Bool := decide (p = 6)

theorem chosen_of {α : Type} {p : α → Bool} {l : List α} {is : List Nat} (h1 : is.Pairwise (· < ·)) (h2 : ∀ i ∈ is, i < l.length)
    (h3 : ∀ i (h : i < l.length), (i ∈ is ↔ p l[i] = true)) : Chosen p l is := by
  refine ⟨⟨h1, h2⟩, ?_⟩
  intro i x hx
  obtain ⟨hi, rfl⟩ := List.getElem?_eq_some_iff.1 hx
  exact h3 i hi

/-- The hypotheses of `C167_select_combine` and `C167_combine_exists` hold for it, and both ways give the values shown. -/
example : List.Forall₂ (SelectedBy id (fun _ _ => [1]) exW exB exP) exIn exSel ∧ Combinable id (fun a b => decide (a = b)) .blpairts exIn ∧
    Aligned id id .blpairts exIn ∧ (∀ u ∈ exIn, WF id u) ∧ (∀ v ∈ exSel, v.spwMeta ≠ [] ∧ v.pols ≠ [] ∧ v.blpts ≠ []) ∧ Compatible (exSel.map (·.rparams)) ∧
    (∀ v0 ∈ exSel.head?, ∀ v ∈ exSel.tail, ScalarsAgree (fun a b => decide (a = b)) v0.scalar v.scalar) := by
  have c1 : Chosen exW [1, 2] [1] := chosen_of (by simp) (by simp) (by decide)
  have c2 : Chosen exP [5, 6] [1] := chosen_of (by simp) (by simp) (by decide)
  have c3 : Chosen exB [(9, 1, 1), (7, 1, 1)] [0] := chosen_of (by simp) (by simp) (by decide)
  have c4 : Chosen exB [(8, 1, 1)] [0] := chosen_of (by simp) (by simp) (by decide)
  refine ⟨.cons ⟨[1], [0], [1], c1, c3, c2, rfl⟩ (.cons ⟨[1], [0], [1], c1, c4, c2, rfl⟩ .nil), ?_, ⟨by simp, by simp, ?_⟩, ?_, by decide, ?_, ?_⟩
  · exact (C21_overlap_iff (rangeOf := id) (close := fun a b => decide (a = b)) _ _).1 ⟨_, _, _, rfl⟩
  · intro _ u0 h0; simp [exIn] at h0; subst h0; simp [exObj]
  · intro v hv
    simp only [exIn, List.mem_cons, List.not_mem_nil, or_false] at hv
    rcases hv with rfl | rfl <;> exact exObj_wf (by decide) (by decide) (by decide) (by decide) (by decide)
  · have e : exSel.map (·.rparams) = [[(1, 2)], [(1, 2)]] := by rfl
    rw [e]
    constructor
    · intro d hd e he k v w h1 h2
      simp only [List.mem_cons, List.not_mem_nil, or_false, or_self] at hd he
      subst hd; subst he
      rw [h1] at h2; cases h2; rfl
    · right; intro d hd; simp at hd; subst hd; simp
  · intro v0 h0 v hv
    apply allClose_iff.1
    simp [exSel] at h0 hv
    subst h0; subst hv
    rfl

example : (combine id id (fun a b => decide (a = b)) exSel).map (fun u => (u.spwMeta, u.blpts, u.pols, u.data.map (·.map (·.map (·.val))))) =
    .ok ([2], [(8, 1, 1), (9, 1, 1)], [6], [[[20816], [20916]]]) := by rfl
example : (combine id id (fun a b => decide (a = b)) exIn).map (fun u => (select (fun _ _ => [1]) u [1] [1, 2] [1])) =
    combine id id (fun a b => decide (a = b)) exSel := by rfl

end HeraPspec.Combine
