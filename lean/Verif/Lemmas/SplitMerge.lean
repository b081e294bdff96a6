import Verif.Lemmas.Combine3
import Verif.Model.SplitMerge
import Verif.Spec.SplitMerge
import Mathlib.Data.List.Basic

namespace HeraPspec.Combine
variable {α β : Type} {R M T Z S X C K V : Type}

theorem Positions.range (n : Nat) : Positions n (List.range n) := ⟨List.pairwise_lt_range, fun _ h => List.mem_range.1 h⟩

theorem Positions.nodup {n : Nat} {is : List Nat} (h : Positions n is) : is.Nodup := h.1.imp (fun h => Nat.ne_of_lt h)

theorem Positions.length_le {n : Nat} {is : List Nat} (h : Positions n is) : is.length ≤ n := by
  have : is ⊆ List.range n := fun i hi => List.mem_range.2 (h.2 i hi)
  have := (List.subperm_of_subset h.nodup this).length_le
  simpa using this

theorem pick_eq_map {is : List Nat} {l : List α} (h : ∀ i ∈ is, i < l.length) :
    ∀ a : Nat, (pick is l)[a]? = (is[a]?).bind (l[·]?) := by
  induction is with
  | nil => simp [pick]
  | cons i is ih =>
    intro a
    have hi := h i (by simp)
    have e : pick (i :: is) l = l[i] :: pick is l := by
      simp [pick, List.getElem?_eq_getElem hi]
    rw [e]
    cases a with
    | zero => simp [List.getElem?_eq_getElem hi]
    | succ a => simpa using ih (fun j hj => h j (by simp [hj])) a

theorem pick_length {is : List Nat} {l : List α} (h : ∀ i ∈ is, i < l.length) : (pick is l).length = is.length := by
  induction is with
  | nil => simp [pick]
  | cons i is ih =>
    have hi := h i (by simp)
    have e : pick (i :: is) l = l[i] :: pick is l := by
      simp [pick, List.getElem?_eq_getElem hi]
    rw [e, List.length_cons, List.length_cons, ih (fun j hj => h j (by simp [hj]))]

theorem mem_pick {is : List Nat} {l : List α} {x : α} : x ∈ pick is l ↔ ∃ i ∈ is, l[i]? = some x := by
  simp [pick, List.mem_filterMap]

theorem pick_map {is : List Nat} {l : List α} (f : α → β) : pick is (l.map f) = (pick is l).map f := by
  induction is with
  | nil => rfl
  | cons i is ih =>
    simp only [pick, List.filterMap_cons, List.getElem?_map] at ih ⊢
    cases l[i]? with
    | none => simpa using ih
    | some x => simp [ih]

theorem pick_range (l : List α) : pick (List.range l.length) l = l := by
  apply List.ext_getElem?
  intro a
  rw [pick_eq_map (fun i hi => List.mem_range.1 hi)]
  by_cases h : a < l.length
  · rw [List.getElem?_range h]; rfl
  · rw [List.getElem?_eq_none (by simpa using h), List.getElem?_eq_none (by simpa using h)]; rfl

theorem pick_pairwise {is : List Nat} {l : List α} {r : α → α → Prop} (hs : is.Pairwise (· < ·)) (h : l.Pairwise r) :
    (pick is l).Pairwise r := by
  rw [pick, List.pairwise_filterMap]
  refine hs.imp ?_
  intro i j hij a ha b hb
  obtain ⟨hi, rfl⟩ := List.getElem?_eq_some_iff.1 ha
  obtain ⟨hj, rfl⟩ := List.getElem?_eq_some_iff.1 hb
  exact List.pairwise_iff_getElem.1 h i j hi hj hij

theorem pick_zip {is : List Nat} {l : List α} {m : List β} (h1 : ∀ i ∈ is, i < l.length) (h2 : l.length = m.length) :
    pick is (l.zip m) = (pick is l).zip (pick is m) := by
  apply List.ext_getElem?
  intro a
  rw [pick_eq_map (by simpa [← h2] using h1)]
  rw [List.zip, List.getElem?_zipWith, pick_eq_map h1, pick_eq_map (by simpa [← h2] using h1)]
  cases is[a]? with
  | none => rfl
  | some i => simp only [Option.bind_some, List.zip, List.getElem?_zipWith]

/-- The cell at a position. -/
def cellAt (u : Obj M T Z S X C K V) (i j k : Nat) : Option (Cell X) := ((u.data[i]?).bind (·[j]?)).bind (·[k]?)

variable [LinearOrder R] [LinearOrder T] [DecidableEq C] [DecidableEq K] [DecidableEq V]
variable {rangeOf : M → R}

theorem has_iff {u : Obj M T Z S X C K V} {r b p x n1 n2} : Has rangeOf u r b p x n1 n2 ↔
    ∃ i j k c, (u.spwMeta.map rangeOf)[i]? = some r ∧ u.blpts[j]? = some b ∧ u.pols[k]? = some p ∧ cellAt u i j k = some c ∧
      c.val = x ∧ u.labels[c.lab1]? = some n1 ∧ u.labels[c.lab2]? = some n2 := by
  constructor
  · rintro ⟨i, j, k, a, a', c, h1, h2, h3, h4, h5, h6, h7, h8, h9, h10, h11⟩
    exact ⟨i, j, k, c, by rw [List.getElem?_map]; exact h1, blpts_get.2 ⟨h2, h3, h4⟩, h5, by simp [cellAt, h6, h7, h8], h9, h10, h11⟩
  · rintro ⟨i, j, k, c, h1, h2, h5, h6, h9, h10, h11⟩
    obtain ⟨h2, h3, h4⟩ := blpts_get.1 h2
    unfold cellAt at h6
    obtain ⟨a', h6, h8⟩ := Option.bind_eq_some_iff.1 h6
    obtain ⟨a, h6, h7⟩ := Option.bind_eq_some_iff.1 h6
    exact ⟨i, j, k, a, a', c, by rw [← List.getElem?_map]; exact h1, h2, h3, h4, h5, h6, h7, h8, h9, h10, h11⟩

theorem WF.cell_exists {u : Obj M T Z S X C K V} (h : WF rangeOf u) {i j k : Nat} (hi : i < u.spwMeta.length)
    (hj : j < u.blpair.length) (hk : k < u.pols.length) :
    ∃ c, cellAt u i j k = some c ∧ c.lab1 < u.labels.length ∧ c.lab2 < u.labels.length := by
  have hi' : i < u.data.length := by rw [h.data]; exact hi
  have m1 := List.getElem_mem hi'
  have hj' : j < u.data[i].length := by rw [h.data2 _ m1]; exact hj
  have m2 := List.getElem_mem hj'
  have hk' : k < u.data[i][j].length := by rw [h.data3 _ m1 _ m2]; exact hk
  refine ⟨u.data[i][j][k], ?_, h.lab _ m1 _ m2 _ (List.getElem_mem hk')⟩
  simp [cellAt, List.getElem?_eq_getElem hi', List.getElem?_eq_getElem hj', List.getElem?_eq_getElem hk']

theorem cell_mem {u : Obj M T Z S X C K V} {i j k : Nat} {c : Cell X} (h : cellAt u i j k = some c) :
    ∃ a ∈ u.data, ∃ b ∈ a, c ∈ b := by
  unfold cellAt at h
  obtain ⟨a', h6, h8⟩ := Option.bind_eq_some_iff.1 h
  obtain ⟨a, h6, h7⟩ := Option.bind_eq_some_iff.1 h6
  exact ⟨a, List.mem_of_getElem? h6, a', List.mem_of_getElem? h7, List.mem_of_getElem? h8⟩

theorem WF.cell_lt {u : Obj M T Z S X C K V} (h : WF rangeOf u) {i j k : Nat} {c : Cell X} (hc : cellAt u i j k = some c) :
    i < u.spwMeta.length ∧ j < u.blpair.length ∧ k < u.pols.length := by
  unfold cellAt at hc
  obtain ⟨a', h6, h8⟩ := Option.bind_eq_some_iff.1 hc
  obtain ⟨a, h6, h7⟩ := Option.bind_eq_some_iff.1 h6
  refine ⟨?_, ?_, ?_⟩
  · rw [← h.data]; exact (List.getElem?_eq_some_iff.1 h6).1
  · rw [← h.data2 _ (List.mem_of_getElem? h6)]; exact (List.getElem?_eq_some_iff.1 h7).1
  · rw [← h.data3 _ (List.mem_of_getElem? h6) _ (List.mem_of_getElem? h7)]; exact (List.getElem?_eq_some_iff.1 h8).1

/-- The cells of a selection. -/
theorem cell_select {keysOf : Int → Int → List K} {u : Obj M T Z S X C K V} (h : WF rangeOf u) {ws bs ps : List Nat}
    (hw : Positions u.spwMeta.length ws) (hb : Positions u.blpair.length bs) (hp : Positions u.pols.length ps) (i j k : Nat) :
    cellAt (select keysOf u ws bs ps) i j k = (ws[i]?).bind (fun i' => (bs[j]?).bind (fun j' => (ps[k]?).bind (fun k' =>
      (cellAt u i' j' k').bind (fun c => (cellAt u i j k).map (fun d => relabel c d))))) := by
  unfold cellAt select
  simp only [List.getElem?_zipWith, List.getElem?_map]
  rw [pick_eq_map (by rw [h.data]; exact hw.2)]
  cases hi : ws[i]? with
  | none => rfl
  | some i' =>
    have hi' : i' < u.data.length := by rw [h.data]; exact hw.2 _ (List.mem_of_getElem? hi)
    have m1 := List.getElem_mem hi'
    have hi2 : i < u.data.length := by
      rw [h.data]; exact lt_of_lt_of_le (List.getElem?_eq_some_iff.1 hi).1 hw.length_le
    have m2 := List.getElem_mem hi2
    simp only [List.getElem?_eq_getElem hi', List.getElem?_eq_getElem hi2, Option.bind_some, Option.map_some,
      List.getElem?_zipWith, List.getElem?_map]
    rw [pick_eq_map (by rw [h.data2 _ m1]; exact hb.2)]
    cases hj : bs[j]? with
    | none => simp
    | some j' =>
      have hj' : j' < u.data[i'].length := by rw [h.data2 _ m1]; exact hb.2 _ (List.mem_of_getElem? hj)
      have n1 := List.getElem_mem hj'
      have hj2 : j < u.data[i].length := by
        rw [h.data2 _ m2]; exact lt_of_lt_of_le (List.getElem?_eq_some_iff.1 hj).1 hb.length_le
      simp only [List.getElem?_eq_getElem hj', List.getElem?_eq_getElem hj2, Option.bind_some, Option.map_some,
        List.getElem?_zipWith]
      rw [pick_eq_map (by rw [h.data3 _ m1 _ n1]; exact hp.2)]
      cases hk : ps[k]? with
      | none => simp
      | some k' =>
        simp only [Option.bind_some]
        cases u.data[i'][j'][k']? <;> cases u.data[i][j][k]? <;> rfl

theorem select_spws {keysOf : Int → Int → List K} {u : Obj M T Z S X C K V} {ws bs ps : List Nat} :
    (select keysOf u ws bs ps).spwMeta.map rangeOf = pick ws (u.spwMeta.map rangeOf) := (pick_map _).symm

theorem select_blpts {keysOf : Int → Int → List K} {u : Obj M T Z S X C K V} (h : WF rangeOf u) {ws bs ps : List Nat}
    (hb : Positions u.blpair.length bs) : (select keysOf u ws bs ps).blpts = pick bs u.blpts := by
  have e1 := h.time1; have e2 := h.time2
  rw [Obj.blpts, Obj.blpts, pick_zip (by exact hb.2) (by simp; omega), pick_zip (by rw [e1]; exact hb.2) (by omega)]
  rfl

theorem keys_filter_nodup {d : Dict K V} (h : d.keys.Nodup) (f : K × V → Bool) : Dict.keys (d.filter f) |>.Nodup := by
  unfold Dict.keys at *
  exact h.sublist ((List.filter_sublist).map _)

theorem select_wf {keysOf : Int → Int → List K} {u : Obj M T Z S X C K V} (h : WF rangeOf u) {ws bs ps : List Nat}
    (hw : Positions u.spwMeta.length ws) (hb : Positions u.blpair.length bs) (hp : Positions u.pols.length ps)
    (hw0 : ws ≠ []) (hp0 : ps ≠ []) : WF rangeOf (select keysOf u ws bs ps) := by
  have lb : ∀ {β : Type} (l : List β), l.length = u.blpair.length → (pick bs l).length = bs.length :=
    fun l e => pick_length (by rw [e]; exact hb.2)
  have lw : ∀ {β : Type} (l : List β), l.length = u.spwMeta.length → (pick ws l).length = ws.length :=
    fun l e => pick_length (by rw [e]; exact hw.2)
  have lp : ∀ {β : Type} (l : List β), l.length = u.pols.length → (pick ps l).length = ps.length :=
    fun l e => pick_length (by rw [e]; exact hp.2)
  have hmem : ∀ a ∈ (select keysOf u ws bs ps).data, ∃ x ∈ u.data, ∃ y ∈ u.data,
      a = List.zipWith (List.zipWith relabel) ((pick bs x).map (pick ps)) y := by
    intro a ha
    obtain ⟨i, hi⟩ := List.mem_iff_getElem?.1 ha
    simp only [select, List.getElem?_zipWith, List.getElem?_map] at hi
    cases h1 : (pick ws u.data)[i]? with
    | none => rw [h1] at hi; simp at hi
    | some x =>
      cases h2 : u.data[i]? with
      | none => rw [h1, h2] at hi; simp at hi
      | some y =>
        rw [h1, h2] at hi
        simp only [Option.map_some, Option.some.injEq] at hi
        obtain ⟨i', _, hx⟩ := mem_pick.1 (List.mem_of_getElem? h1)
        exact ⟨x, List.mem_of_getElem? hx, y, List.mem_of_getElem? h2, hi.symm⟩
  have hmem2 : ∀ a ∈ (select keysOf u ws bs ps).data, ∀ b ∈ a, ∃ x ∈ u.data, ∃ y ∈ u.data, ∃ x' ∈ x, ∃ y' ∈ y,
      b = List.zipWith relabel (pick ps x') y' := by
    intro a ha b hb'
    obtain ⟨x, hx, y, hy, rfl⟩ := hmem a ha
    obtain ⟨i, hi⟩ := List.mem_iff_getElem?.1 hb'
    simp only [List.getElem?_zipWith, List.getElem?_map] at hi
    cases h1 : (pick bs x)[i]? with
    | none => rw [h1] at hi; simp at hi
    | some x' =>
      cases h2 : y[i]? with
      | none => rw [h1, h2] at hi; simp at hi
      | some y' =>
        rw [h1, h2] at hi
        simp only [Option.map_some, Option.some.injEq] at hi
        obtain ⟨i', _, hx'⟩ := mem_pick.1 (List.mem_of_getElem? h1)
        exact ⟨x, hx, y, hy, x', List.mem_of_getElem? hx', y', List.mem_of_getElem? h2, hi.symm⟩
  constructor
  · show (pick bs u.time1).length = (pick bs u.blpair).length
    rw [lb _ h.time1, lb _ rfl]
  · show (pick bs u.time2).length = (pick bs u.blpair).length
    rw [lb _ h.time2, lb _ rfl]
  · show (pick bs u.rowMeta).length = (pick bs u.blpair).length
    rw [lb _ h.rowMeta, lb _ rfl]
  · show ((pick ws u.scalar).map (pick ps)).length = (pick ws u.spwMeta).length
    rw [List.length_map, lw _ h.scalar, lw _ rfl]
  · intro a ha
    obtain ⟨x, hx, rfl⟩ := List.mem_map.1 (show a ∈ (pick ws u.scalar).map (pick ps) from ha)
    obtain ⟨i, _, hi⟩ := mem_pick.1 hx
    show _ = (pick ps u.pols).length
    rw [lp _ (h.scalar2 _ (List.mem_of_getElem? hi)), lp _ rfl]
  · show (List.zipWith _ _ _).length = (pick ws u.spwMeta).length
    rw [List.length_zipWith, List.length_map, lw _ h.data, lw _ rfl, h.data]
    exact min_eq_left hw.length_le
  · intro a ha
    obtain ⟨x, hx, y, hy, rfl⟩ := hmem a ha
    show _ = (pick bs u.blpair).length
    rw [List.length_zipWith, List.length_map, lb _ (h.data2 _ hx), lb _ rfl, h.data2 _ hy]
    exact min_eq_left hb.length_le
  · intro a ha b hb'
    obtain ⟨x, hx, y, hy, x', hx', y', hy', rfl⟩ := hmem2 a ha b hb'
    show _ = (pick ps u.pols).length
    rw [List.length_zipWith, lp _ (h.data3 _ hx _ hx'), lp _ rfl, h.data3 _ hy _ hy']
    exact min_eq_left hp.length_le
  · intro a ha b hb' c hc
    obtain ⟨x, hx, y, hy, x', hx', y', hy', rfl⟩ := hmem2 a ha b hb'
    obtain ⟨k, hk⟩ := List.mem_iff_getElem?.1 hc
    rw [List.getElem?_zipWith] at hk
    cases h1 : (pick ps x')[k]? with
    | none => rw [h1] at hk; simp at hk
    | some c1 =>
      cases h2 : y'[k]? with
      | none => rw [h1, h2] at hk; simp at hk
      | some c2 =>
        rw [h1, h2] at hk
        simp only [Option.some.injEq] at hk
        subst hk
        exact (h.lab _ hy _ hy' c2 (List.mem_of_getElem? h2))
  · rw [select_spws]; exact pick_pairwise hw.1 h.spws
  · rw [select_blpts h hb]; exact pick_pairwise hb.1 h.rows
  · exact pick_pairwise hp.1 h.pols
  · intro e
    have := lw _ (rfl : u.spwMeta.length = _)
    rw [show pick ws u.spwMeta = [] from e] at this
    exact hw0 (List.length_eq_zero_iff.1 this.symm)
  · intro e
    have := lp _ (rfl : u.pols.length = _)
    rw [show pick ps u.pols = [] from e] at this
    exact hp0 (List.length_eq_zero_iff.1 this.symm)
  · exact keys_filter_nodup h.rkeys _

/-- What a selection holds, as long as the labels are all alike. -/
theorem select_has {keysOf : Int → Int → List K} {u : Obj M T Z S X C K V} (h : WF rangeOf u) (ho : OneOrigin u) {ws bs ps : List Nat}
    (hw : Positions u.spwMeta.length ws) (hb : Positions u.blpair.length bs) (hp : Positions u.pols.length ps) {r b p x n1 n2} :
    Has rangeOf (select keysOf u ws bs ps) r b p x n1 n2 ↔ Has rangeOf u r b p x n1 n2 ∧
      r ∈ pick ws (u.spwMeta.map rangeOf) ∧ b ∈ pick bs u.blpts ∧ p ∈ pick ps u.pols := by
  obtain ⟨l1, l2, ho⟩ := ho
  have lab : ∀ {i j k c}, cellAt u i j k = some c → c.lab1 = l1 ∧ c.lab2 = l2 := by
    intro i j k c hc
    obtain ⟨a, ha, b, hb, hc⟩ := cell_mem hc
    exact ho a ha b hb c hc
  have hbl := select_blpts (keysOf := keysOf) h (ws := ws) (ps := ps) hb
  have lbl : u.blpts.length = u.blpair.length := by
    have := h.time1; have := h.time2; simp [Obj.blpts]; omega
  have pw := pick_eq_map (l := u.spwMeta.map rangeOf) (is := ws) (by simpa using hw.2)
  have pb := pick_eq_map (l := u.blpts) (is := bs) (by rw [lbl]; exact hb.2)
  have pp := pick_eq_map (l := u.pols) (is := ps) hp.2
  rw [has_iff, has_iff, select_spws, hbl]
  constructor
  · rintro ⟨i, j, k, c, h1, h2, h3, h4, h5, h6, h7⟩
    rw [cell_select h hw hb hp] at h4
    obtain ⟨i', hi, h4⟩ := Option.bind_eq_some_iff.1 h4
    obtain ⟨j', hj, h4⟩ := Option.bind_eq_some_iff.1 h4
    obtain ⟨k', hk, h4⟩ := Option.bind_eq_some_iff.1 h4
    obtain ⟨c', hc', h4⟩ := Option.bind_eq_some_iff.1 h4
    obtain ⟨d, hd, rfl⟩ := Option.map_eq_some_iff.1 h4
    refine ⟨⟨i', j', k', c', ?_, ?_, ?_, hc', h5, ?_, ?_⟩, List.mem_of_getElem? h1, List.mem_of_getElem? h2, List.mem_of_getElem? h3⟩
    · rw [pw, hi] at h1; exact h1
    · rw [pb, hj] at h2; exact h2
    · have : (pick ps u.pols)[k]? = some p := h3
      rw [pp, hk] at this; exact this
    · rw [(lab hc').1, ← (lab hd).1]; exact h6
    · rw [(lab hc').2, ← (lab hd).2]; exact h7
  · rintro ⟨⟨i', j', k', c', h1, h2, h3, h4, h5, h6, h7⟩, m1, m2, m3⟩
    obtain ⟨i, hi⟩ := List.mem_iff_getElem?.1 m1
    obtain ⟨j, hj⟩ := List.mem_iff_getElem?.1 m2
    obtain ⟨k, hk⟩ := List.mem_iff_getElem?.1 m3
    have hi0 := hi; have hj0 := hj; have hk0 := hk
    rw [pw] at hi0; rw [pb] at hj0; rw [pp] at hk0
    obtain ⟨i2, hi2, hi3⟩ := Option.bind_eq_some_iff.1 hi0
    obtain ⟨j2, hj2, hj3⟩ := Option.bind_eq_some_iff.1 hj0
    obtain ⟨k2, hk2, hk3⟩ := Option.bind_eq_some_iff.1 hk0
    obtain rfl := nodup_idx h.spws h1 hi3
    obtain rfl := nodup_idx h.rows h2 hj3
    obtain rfl := nodup_idx h.pols h3 hk3
    have gi := lt_of_lt_of_le (List.getElem?_eq_some_iff.1 hi2).1 hw.length_le
    have gj := lt_of_lt_of_le (List.getElem?_eq_some_iff.1 hj2).1 hb.length_le
    have gk := lt_of_lt_of_le (List.getElem?_eq_some_iff.1 hk2).1 hp.length_le
    obtain ⟨d, hd, _⟩ := h.cell_exists gi gj gk
    refine ⟨i, j, k, relabel c' d, hi, hj, hk, ?_, h5, ?_, ?_⟩
    · rw [cell_select h hw hb hp, hi2, hj2, hk2]
      simp [h4, hd]
    · show u.labels[d.lab1]? = _
      rw [(lab hd).1, ← (lab h4).1]; exact h6
    · show u.labels[d.lab2]? = _
      rw [(lab hd).2, ← (lab h4).2]; exact h7

/-- The values a selection holds, for any labels. -/
theorem select_hasVal {keysOf : Int → Int → List K} {u : Obj M T Z S X C K V} (h : WF rangeOf u) {ws bs ps : List Nat}
    (hw : Positions u.spwMeta.length ws) (hb : Positions u.blpair.length bs) (hp : Positions u.pols.length ps) {r b p x} :
    HasVal rangeOf (select keysOf u ws bs ps) r b p x ↔ HasVal rangeOf u r b p x ∧
      r ∈ pick ws (u.spwMeta.map rangeOf) ∧ b ∈ pick bs u.blpts ∧ p ∈ pick ps u.pols := by
  have hbl := select_blpts (keysOf := keysOf) h (ws := ws) (ps := ps) hb
  have lbl : u.blpts.length = u.blpair.length := by
    have := h.time1; have := h.time2; simp [Obj.blpts]; omega
  have pw := pick_eq_map (l := u.spwMeta.map rangeOf) (is := ws) (by simpa using hw.2)
  have pb := pick_eq_map (l := u.blpts) (is := bs) (by rw [lbl]; exact hb.2)
  have pp := pick_eq_map (l := u.pols) (is := ps) hp.2
  unfold HasVal
  simp only [has_iff]
  rw [select_spws, hbl]
  constructor
  · rintro ⟨n1, n2, i, j, k, c, h1, h2, h3, h4, h5, h6, h7⟩
    rw [cell_select h hw hb hp] at h4
    obtain ⟨i', hi, h4⟩ := Option.bind_eq_some_iff.1 h4
    obtain ⟨j', hj, h4⟩ := Option.bind_eq_some_iff.1 h4
    obtain ⟨k', hk, h4⟩ := Option.bind_eq_some_iff.1 h4
    obtain ⟨c', hc', h4⟩ := Option.bind_eq_some_iff.1 h4
    obtain ⟨d, hd, rfl⟩ := Option.map_eq_some_iff.1 h4
    obtain ⟨a, ha, b', hb', hcm⟩ := cell_mem hc'
    obtain ⟨q1, q2⟩ := h.lab a ha b' hb' c' hcm
    refine ⟨⟨u.labels[c'.lab1], u.labels[c'.lab2], i', j', k', c', ?_, ?_, ?_, hc', h5, List.getElem?_eq_getElem q1, List.getElem?_eq_getElem q2⟩,
      List.mem_of_getElem? h1, List.mem_of_getElem? h2, List.mem_of_getElem? h3⟩
    · rw [pw, hi] at h1; exact h1
    · rw [pb, hj] at h2; exact h2
    · have : (pick ps u.pols)[k]? = some p := h3
      rw [pp, hk] at this; exact this
  · rintro ⟨⟨n1, n2, i', j', k', c', h1, h2, h3, h4, h5, h6, h7⟩, m1, m2, m3⟩
    obtain ⟨i, hi⟩ := List.mem_iff_getElem?.1 m1
    obtain ⟨j, hj⟩ := List.mem_iff_getElem?.1 m2
    obtain ⟨k, hk⟩ := List.mem_iff_getElem?.1 m3
    have hi0 := hi; have hj0 := hj; have hk0 := hk
    rw [pw] at hi0; rw [pb] at hj0; rw [pp] at hk0
    obtain ⟨i2, hi2, hi3⟩ := Option.bind_eq_some_iff.1 hi0
    obtain ⟨j2, hj2, hj3⟩ := Option.bind_eq_some_iff.1 hj0
    obtain ⟨k2, hk2, hk3⟩ := Option.bind_eq_some_iff.1 hk0
    obtain rfl := nodup_idx h.spws h1 hi3
    obtain rfl := nodup_idx h.rows h2 hj3
    obtain rfl := nodup_idx h.pols h3 hk3
    have gi := lt_of_lt_of_le (List.getElem?_eq_some_iff.1 hi2).1 hw.length_le
    have gj := lt_of_lt_of_le (List.getElem?_eq_some_iff.1 hj2).1 hb.length_le
    have gk := lt_of_lt_of_le (List.getElem?_eq_some_iff.1 hk2).1 hp.length_le
    obtain ⟨d, hd, e1, e2⟩ := h.cell_exists gi gj gk
    refine ⟨u.labels[d.lab1], u.labels[d.lab2], i, j, k, relabel c' d, hi, hj, hk, ?_, h5, List.getElem?_eq_getElem e1, List.getElem?_eq_getElem e2⟩
    rw [cell_select h hw hb hp, hi2, hj2, hk2]
    simp [h4, hd]

end HeraPspec.Combine
