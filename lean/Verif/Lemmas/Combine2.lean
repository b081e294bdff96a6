import Verif.Lemmas.Combine
import Mathlib.Data.List.Pairwise

namespace HeraPspec.Combine
open HeraPspec.UVP (mapE Err mapE_ok_iff mapE_exists forall₂_getElem_left forall₂_getElem_right)
variable {α β : Type} {R M T Z S X C K V : Type}
variable [LinearOrder R] [LinearOrder T] [DecidableEq C] [DecidableEq K] [DecidableEq V]
variable {rangeOf : M → R} {rnd : T → T} {close : S → S → Bool}

theorem combine_iff {us : List (Obj M T Z S X C K V)} (h2 : 2 ≤ us.length) {u : Obj M T Z S X C K V} :
    combine rangeOf rnd close us = .ok u ↔ ∃ ax u0 rows, Combinable rangeOf close ax us ∧ us[0]? = some u0 ∧
      mergeR (us.map (·.rparams)) = .ok u.rparams ∧ metaOf rangeOf ax us u0 = .ok u.spwMeta ∧
      scalarOf rangeOf ax us = .ok u.scalar ∧ dataOf rangeOf rnd ax us = .ok u.data ∧
      rowsOf rangeOf rnd ax us = .ok rows ∧ u.blpair = rows.map (·.1.1) ∧ u.time1 = rows.map (·.1.2.1) ∧
      u.time2 = rows.map (·.1.2.2) ∧ u.rowMeta = rows.map (·.2) ∧ u.pols = newPols us ∧ u.labels = newLabels us ∧
      u.static = u0.static := by
  obtain ⟨a, b, l, rfl⟩ : ∃ a b l, us = a :: b :: l := by
    match us, h2 with
    | a :: b :: l, _ => exact ⟨a, b, l, rfl⟩
  unfold combine
  simp only [bind, Except.bind]
  cases ho : overlap rangeOf close (a :: b :: l) with
  | error e =>
    simp only [false_iff, reduceCtorEq]
    rintro ⟨ax, u0, rows, hc, _⟩
    rw [overlap_ok.2 ⟨hc, rfl, rfl, rfl⟩] at ho; cases ho
  | ok r =>
    obtain ⟨ax, spws, blpts, pols⟩ := r
    obtain ⟨hc, rfl, rfl, rfl⟩ := overlap_ok.1 ho
    have hax : ∀ ax', Combinable rangeOf close ax' (a :: b :: l) → ax' = ax := by
      intro ax' h'
      have := overlap_ok.2 ⟨h', rfl, rfl, rfl⟩
      rw [ho] at this; cases this; rfl
    have h0 : at? (a :: b :: l) 0 = .ok a := rfl
    simp only [h0]
    constructor
    · intro h
      split at h
      · cases h
      rename_i rp hrp
      split at h
      · cases h
      rename_i sm hsm
      split at h
      · cases h
      rename_i sc hsc
      split at h
      · cases h
      rename_i dt hdt
      split at h
      · cases h
      rename_i rw_ hrw
      cases h
      exact ⟨ax, a, rw_, hc, rfl, hrp, hsm, hsc, hdt, hrw, rfl, rfl, rfl, rfl, rfl, rfl, rfl⟩
    · rintro ⟨ax', u0, rows, hc', hu0, hrp, hsm, hsc, hdt, hrw, e1, e2, e3, e4, e5, e6, e7⟩
      obtain rfl := hax _ hc'
      simp at hu0; subst hu0
      rw [hrp]
      simp only [hsm, hsc, hdt, hrw]
      obtain ⟨⟩ := u
      simp_all

theorem fastLookup_eq {src query : List (Int × T × T)}
    (hk : src.Pairwise (fun a b => ¬ (a.1 = b.1 ∧ rnd a.2.1 = rnd b.2.1))) (hq : ∀ q ∈ query, q ∈ src) :
    fastLookup rnd src query = query.map (fun q => src.idxOf q) := by
  unfold fastLookup
  induction query with
  | nil => rfl
  | cons q l ih =>
    rw [List.flatMap_cons, List.map_cons, ih (fun x hx => hq x (List.mem_cons_of_mem _ hx))]
    have hm := hq q List.mem_cons_self
    have hlt := List.idxOf_lt_length_of_mem hm
    have : UVP.whereTrue (src.map (fun s => decide (s.1 = q.1 ∧ rnd s.2.1 = rnd q.2.1))) = [src.idxOf q] := by
      apply UVP.sorted_ext (UVP.whereTrue_sorted _) (by simp)
      intro i
      rw [UVP.mem_whereTrue, List.getElem?_map, List.mem_singleton]
      constructor
      · intro h
        cases hi : src[i]? with
        | none => simp [hi] at h
        | some s =>
          simp only [hi, Option.map_some, Option.some.injEq, decide_eq_true_eq] at h
          by_contra hne
          obtain ⟨hil, rfl⟩ := List.getElem?_eq_some_iff.1 hi
          have e : src[src.idxOf q] = q := List.getElem_idxOf hlt
          rw [List.pairwise_iff_getElem] at hk
          rcases lt_or_gt_of_ne hne with h1 | h1
          · exact hk i (src.idxOf q) hil hlt h1 (by rw [e]; exact h)
          · exact hk (src.idxOf q) i hlt hil h1 (by rw [e]; exact ⟨h.1.symm, h.2.symm⟩)
      · rintro rfl
        rw [List.getElem?_eq_getElem hlt, List.getElem_idxOf hlt]; simp
    rw [this]; rfl

theorem mem_newSpws {us : List (Obj M T Z S X C K V)} {r : R} : r ∈ newSpws rangeOf us ↔ ∃ v ∈ us, r ∈ v.spws rangeOf := by
  simp [newSpws, mem_uniq]
theorem mem_newBlpts {us : List (Obj M T Z S X C K V)} {r} : r ∈ newBlpts us ↔ ∃ v ∈ us, r ∈ v.blpts := by
  simp [newBlpts]
theorem mem_newPols {us : List (Obj M T Z S X C K V)} {r} : r ∈ newPols us ↔ ∃ v ∈ us, r ∈ v.pols := by
  simp [newPols, mem_uniq]
theorem mem_newLabels {us : List (Obj M T Z S X C K V)} {r} : r ∈ newLabels us ↔ ∃ v ∈ us, r ∈ v.labels := by
  simp [newLabels]
theorem nodup_newSpws {us : List (Obj M T Z S X C K V)} : (newSpws rangeOf us).Nodup :=
  (pySorted_perm _ _).nodup_iff.2 (uniq_nodup _)
theorem nodup_newBlpts {us : List (Obj M T Z S X C K V)} : (newBlpts us).Nodup :=
  (pySorted_perm _ _).nodup_iff.2 (List.nodup_dedup _)
theorem nodup_newPols {us : List (Obj M T Z S X C K V)} : (newPols us).Nodup :=
  (pySorted_perm _ _).nodup_iff.2 (uniq_nodup _)
theorem nodup_newLabels {us : List (Obj M T Z S X C K V)} : (newLabels us).Nodup :=
  (pySorted_perm _ _).nodup_iff.2 (List.nodup_dedup _)
theorem sorted_newSpws {us : List (Obj M T Z S X C K V)} : (newSpws rangeOf us).Pairwise (· ≤ ·) := by
  have := pySorted_pairwise (le := fun a b : R => decide (a ≤ b)) (by simp; exact fun _ _ _ => le_trans)
    (by simp [le_total]) (uniq (us.flatMap (fun u => u.spws rangeOf)))
  simpa [newSpws] using this
theorem sorted_newBlpts {us : List (Obj M T Z S X C K V)} : (newBlpts us).Pairwise (fun a b => bleT a b = true) :=
  pySorted_pairwise bleT_trans bleT_total _
theorem sorted_newPols {us : List (Obj M T Z S X C K V)} : (newPols us).Pairwise (fun a b => a.natAbs ≤ b.natAbs) := by
  have := pySorted_pairwise (le := fun a b : Int => decide (a.natAbs ≤ b.natAbs)) (by simp; exact fun _ _ _ => le_trans)
    (by simp [le_total]) (uniq (us.flatMap (fun u => u.pols)))
  simpa [newPols] using this

theorem PairOK.symm {ax : Axis} {u v : Obj M T Z S X C K V} (h : PairOK rangeOf ax u v) : PairOK rangeOf ax v u := by
  obtain ⟨h1, h2, h3⟩ := h
  have s : ∀ {γ : Type} {a b : List γ}, Same a b → Same b a := fun h x => (h x).symm
  have t : ∀ {γ : Type} {a b : List γ}, Apart a b → Apart b a :=
    fun h => ⟨fun x hx hx' => h.1 x hx' hx, fun h' => h.2 (s h')⟩
  cases ax <;> simp only [PairOK, if_true, if_false, reduceCtorEq] at * <;>
    refine ⟨?_, ?_, ?_⟩ <;> first | exact s ‹_› | exact t ‹_›

/-- Two members of a combinable list are equal or a legal pair. -/
theorem Combinable.rel {us : List (Obj M T Z S X C K V)} {ax : Axis} (hc : Combinable rangeOf close ax us)
    {u v : Obj M T Z S X C K V} (hu : u ∈ us) (hv : v ∈ us) : u = v ∨ PairOK rangeOf ax u v := by
  by_cases h : u = v
  · exact .inl h
  · have : Std.Symm (PairOK (T := T) (Z := Z) (S := S) (X := X) (C := C) (K := K) (V := V) rangeOf ax) := ⟨fun _ _ h => h.symm⟩
    exact .inr (List.Pairwise.forall hc.pair hu hv h)


theorem blpts_get {u : Obj M T Z S X C K V} {j : Nat} {b : Int × T × T} :
    u.blpts[j]? = some b ↔ u.blpair[j]? = some b.1 ∧ u.time1[j]? = some b.2.1 ∧ u.time2[j]? = some b.2.2 := by
  obtain ⟨b1, b2, b3⟩ := b
  simp [Obj.blpts, List.getElem?_zip_eq_some]

theorem at3_ok {a : List (List (List α))} {m n q : Nat} {x : α} :
    at3 a m n q = .ok x ↔ ∃ b c, a[m]? = some b ∧ b[n]? = some c ∧ c[q]? = some x := by
  unfold at3
  simp only [bind, Except.bind]
  constructor
  · intro h
    split at h
    · cases h
    rename_i b hb
    split at h
    · cases h
    rename_i c hc
    exact ⟨b, c, at?_ok.1 hb, at?_ok.1 hc, at?_ok.1 h⟩
  · rintro ⟨b, c, h1, h2, h3⟩
    rw [at?_ok.2 h1]; simp only []; rw [at?_ok.2 h2]; exact at?_ok.2 h3

theorem bind_ok {ε : Type} {x : Except ε α} {f : α → Except ε β} {b : β} :
    (x >>= f) = .ok b ↔ ∃ a, x = .ok a ∧ f a = .ok b := by
  cases x <;> simp [bind, Except.bind]

/-- A copied cell is the cell the source object holds, labels included. -/
theorem copyCell_has {L : List String} {v : Obj M T Z S X C K V} {r : R} {n : Nat} {b : Int × T × T} {p : Int} {c : Cell X}
    (hb : v.blpts[n]? = some b) (h : copyCell rangeOf L v r n p = .ok c) :
    ∃ n1 n2, L[c.lab1]? = some n1 ∧ L[c.lab2]? = some n2 ∧ Has rangeOf v r b p c.val n1 n2 := by
  unfold copyCell at h
  obtain ⟨m, hm, h⟩ := bind_ok.1 h
  obtain ⟨q, hq, h⟩ := bind_ok.1 h
  obtain ⟨c0, hc0, h⟩ := bind_ok.1 h
  obtain ⟨s1, hs1, h⟩ := bind_ok.1 h
  obtain ⟨s2, hs2, h⟩ := bind_ok.1 h
  obtain ⟨l1, hl1, h⟩ := bind_ok.1 h
  obtain ⟨l2, hl2, h⟩ := bind_ok.1 h
  cases h
  obtain ⟨a, a', e1, e2, e3⟩ := at3_ok.1 hc0
  have hm' := indexOf_ok hm
  rw [Obj.spws, List.getElem?_map] at hm'
  obtain ⟨g1, g2, g3⟩ := blpts_get.1 hb
  exact ⟨s1, s2, indexOf_ok hl1, indexOf_ok hl2, m, n, q, a, a', c0, hm', g1, g2, g3, indexOf_ok hq, e1, e2, e3, rfl,
    at?_ok.1 hs1, at?_ok.1 hs2⟩

theorem nodup_idx {l : List α} (hn : l.Nodup) {i j : Nat} {x : α} (hi : l[i]? = some x) (hj : l[j]? = some x) : i = j := by
  obtain ⟨h1, e1⟩ := List.getElem?_eq_some_iff.1 hi
  obtain ⟨h2, e2⟩ := List.getElem?_eq_some_iff.1 hj
  exact (List.Nodup.getElem_inj_iff hn).1 (e1.trans e2.symm)

/-- An object without repeated windows, rows or polpairs holds at most one entry per key. -/
theorem Has.unique {v : Obj M T Z S X C K V} (hw : WF rangeOf v) {r b p x n1 n2 x' n1' n2'}
    (h : Has rangeOf v r b p x n1 n2) (h' : Has rangeOf v r b p x' n1' n2') : x = x' ∧ n1 = n1' ∧ n2 = n2' := by
  obtain ⟨i, j, k, a, a', c, h1, h2, h3, h4, h5, h6, h7, h8, rfl, h9, h10⟩ := h
  obtain ⟨i', j', k', d, d', c', g1, g2, g3, g4, g5, g6, g7, g8, rfl, g9, g10⟩ := h'
  obtain rfl : i = i' := nodup_idx hw.spws (by rw [List.getElem?_map]; exact h1) (by rw [List.getElem?_map]; exact g1)
  obtain rfl : j = j' := nodup_idx hw.rows (blpts_get.2 ⟨h2, h3, h4⟩) (blpts_get.2 ⟨g2, g3, g4⟩)
  obtain rfl : k = k' := nodup_idx hw.pols h5 g5
  rw [h6] at g6; cases g6
  rw [h7] at g7; cases g7
  rw [h8] at g8; cases g8
  rw [h9] at g9; rw [h10] at g10
  simp_all

/-- Copying succeeds wherever the object has the window, row and polpair. -/
theorem copyCell_exists {L : List String} {v : Obj M T Z S X C K V} (hw : WF rangeOf v) {r : R} {n : Nat} {b : Int × T × T}
    {p : Int} (hL : ∀ s ∈ v.labels, s ∈ L) (hr : r ∈ v.spws rangeOf) (hb : v.blpts[n]? = some b) (hp : p ∈ v.pols) :
    ∃ c, copyCell rangeOf L v r n p = .ok c := by
  obtain ⟨m, hm⟩ := indexOf_exists hr
  obtain ⟨q, hq⟩ := indexOf_exists hp
  have hm' := indexOf_ok hm
  have hml : m < v.data.length := by
    rw [hw.data]; have := (List.getElem?_eq_some_iff.1 hm').1; simpa [Obj.spws] using this
  have hnl : n < v.blpair.length := (List.getElem?_eq_some_iff.1 (blpts_get.1 hb).1).1
  have hql : q < v.pols.length := (List.getElem?_eq_some_iff.1 (indexOf_ok hq)).1
  have hA : v.data[m] ∈ v.data := List.getElem_mem _
  have hn2 : n < v.data[m].length := by rw [hw.data2 _ hA]; exact hnl
  have hB : v.data[m][n] ∈ v.data[m] := List.getElem_mem _
  have hq2 : q < v.data[m][n].length := by rw [hw.data3 _ hA _ hB]; exact hql
  have h3 : at3 v.data m n q = .ok v.data[m][n][q] :=
    at3_ok.2 ⟨_, _, List.getElem?_eq_getElem hml, List.getElem?_eq_getElem hn2, List.getElem?_eq_getElem hq2⟩
  obtain ⟨hl1, hl2⟩ := hw.lab _ hA _ hB _ (List.getElem_mem hq2)
  obtain ⟨l1, e1⟩ := indexOf_exists (hL _ (List.getElem_mem hl1))
  obtain ⟨l2, e2⟩ := indexOf_exists (hL _ (List.getElem_mem hl2))
  refine ⟨⟨v.data[m][n][q].val, l1, l2⟩, ?_⟩
  unfold copyCell
  rw [bind_ok]; refine ⟨m, hm, ?_⟩
  rw [bind_ok]; refine ⟨q, hq, ?_⟩
  rw [bind_ok]; refine ⟨_, h3, ?_⟩
  rw [bind_ok]; refine ⟨_, at?_ok.2 (List.getElem?_eq_getElem hl1), ?_⟩
  rw [bind_ok]; refine ⟨_, at?_ok.2 (List.getElem?_eq_getElem hl2), ?_⟩
  rw [bind_ok]; refine ⟨_, e1, ?_⟩
  rw [bind_ok]; refine ⟨_, e2, ?_⟩
  rfl

/-- The axis item of a cell. -/
def onAxis (rangeOf : M → R) (ax : Axis) (v : Obj M T Z S X C K V) (r : R) (b : Int × T × T) (p : Int) : Prop :=
  match ax with
  | .spw => r ∈ v.spws rangeOf
  | .blpairts => b ∈ v.blpts
  | .polpairs => p ∈ v.pols

theorem Combinable.owner_unique {us : List (Obj M T Z S X C K V)} {ax : Axis} (hc : Combinable rangeOf close ax us)
    {u v : Obj M T Z S X C K V} (hu : u ∈ us) (hv : v ∈ us) {r b p} (h1 : onAxis rangeOf ax u r b p)
    (h2 : onAxis rangeOf ax v r b p) : u = v := by
  rcases hc.rel hu hv with h | h
  · exact h
  · exfalso
    obtain ⟨a1, a2, a3⟩ := h
    cases ax <;> simp only [onAxis, if_true, if_false, reduceCtorEq] at *
    · exact a1.1 r h1 h2
    · exact a2.1 b h1 h2
    · exact a3.1 p h1 h2

theorem Combinable.mem_spws {us : List (Obj M T Z S X C K V)} {ax : Axis} (hc : Combinable rangeOf close ax us)
    (hax : ax ≠ .spw) {v : Obj M T Z S X C K V} (hv : v ∈ us) {r : R} : r ∈ newSpws rangeOf us ↔ r ∈ v.spws rangeOf := by
  rw [mem_newSpws]
  refine ⟨?_, fun h => ⟨v, hv, h⟩⟩
  rintro ⟨w, hw, h⟩
  rcases hc.rel hw hv with rfl | h'
  · exact h
  · have := h'.1; rw [if_neg hax] at this; exact (this r).1 h

theorem Combinable.mem_blpts {us : List (Obj M T Z S X C K V)} {ax : Axis} (hc : Combinable rangeOf close ax us)
    (hax : ax ≠ .blpairts) {v : Obj M T Z S X C K V} (hv : v ∈ us) {b} : b ∈ newBlpts us ↔ b ∈ v.blpts := by
  rw [mem_newBlpts]
  refine ⟨?_, fun h => ⟨v, hv, h⟩⟩
  rintro ⟨w, hw, h⟩
  rcases hc.rel hw hv with rfl | h'
  · exact h
  · have := h'.2.1; rw [if_neg hax] at this; exact (this b).1 h

theorem Combinable.mem_pols {us : List (Obj M T Z S X C K V)} {ax : Axis} (hc : Combinable rangeOf close ax us)
    (hax : ax ≠ .polpairs) {v : Obj M T Z S X C K V} (hv : v ∈ us) {p} : p ∈ newPols us ↔ p ∈ v.pols := by
  rw [mem_newPols]
  refine ⟨?_, fun h => ⟨v, hv, h⟩⟩
  rintro ⟨w, hw, h⟩
  rcases hc.rel hw hv with rfl | h'
  · exact h
  · have := h'.2.2; rw [if_neg hax] at this; exact (this p).1 h

theorem lookup_at {us : List (Obj M T Z S X C K V)} {ax : Axis} (hc : Combinable rangeOf close ax us) (hax : ax ≠ .blpairts)
    {v : Obj M T Z S X C K V} (hv : v ∈ us) (hk : Keyed rnd v) {j : Nat} {b} (hj : (newBlpts us)[j]? = some b) :
    at? (fastLookup rnd v.blpts (newBlpts us)) j = .ok (v.blpts.idxOf b) ∧ v.blpts[v.blpts.idxOf b]? = some b := by
  have hq : ∀ q ∈ newBlpts us, q ∈ v.blpts := fun q h => (hc.mem_blpts hax hv).1 h
  rw [fastLookup_eq hk hq]
  refine ⟨at?_ok.2 (by rw [List.getElem?_map, hj]; rfl), ?_⟩
  have hm := hq b (List.mem_of_getElem? hj)
  rw [List.getElem?_eq_getElem (List.idxOf_lt_length_of_mem hm)]; simp

/-- Every cell of the result is copied from a member that owns its axis item, at the row holding its baseline-pair-time. -/
theorem source_spec {us : List (Obj M T Z S X C K V)} {ax : Axis} (hc : Combinable rangeOf close ax us)
    (hk : ax ≠ .blpairts → ∀ v ∈ us, Keyed rnd v) {r : R} (hr : r ∈ newSpws rangeOf us) {p} (hp : p ∈ newPols us)
    {j : Nat} {b} (hj : (newBlpts us)[j]? = some b) :
    ∃ v n, source rangeOf rnd ax us (newBlpts us) r j b p = .ok (v, n) ∧ v ∈ us ∧ v.blpts[n]? = some b ∧
      onAxis rangeOf ax v r b p ∧ r ∈ v.spws rangeOf ∧ p ∈ v.pols := by
  have hb := List.mem_of_getElem? hj
  cases ax with
  | blpairts =>
    obtain ⟨w, hw, hwb⟩ := mem_newBlpts.1 hb
    obtain ⟨v, hv⟩ := owner_exists (p := fun v : Obj M T Z S X C K V => decide (b ∈ v.blpts)) ⟨w, hw, by simpa using hwb⟩
    obtain ⟨hvm, hvb⟩ := owner_ok hv
    simp only [decide_eq_true_eq] at hvb
    obtain ⟨n, hn⟩ := indexOf_exists hvb
    refine ⟨v, n, ?_, hvm, indexOf_ok hn, hvb, (hc.mem_spws (by simp) hvm).1 hr, (hc.mem_pols (by simp) hvm).1 hp⟩
    unfold source
    simp only []
    rw [bind_ok]; exact ⟨v, hv, by rw [bind_ok]; exact ⟨n, hn, rfl⟩⟩
  | polpairs =>
    obtain ⟨w, hw, hwb⟩ := mem_newPols.1 hp
    obtain ⟨v, hv⟩ := owner_exists (p := fun v : Obj M T Z S X C K V => decide (p ∈ v.pols)) ⟨w, hw, by simpa using hwb⟩
    obtain ⟨hvm, hvb⟩ := owner_ok hv
    simp only [decide_eq_true_eq] at hvb
    obtain ⟨hn, hn2⟩ := lookup_at hc (by simp) hvm (hk (by simp) v hvm) hj
    refine ⟨v, _, ?_, hvm, hn2, hvb, (hc.mem_spws (by simp) hvm).1 hr, hvb⟩
    unfold source
    simp only []
    rw [bind_ok]; exact ⟨v, hv, by rw [bind_ok]; exact ⟨_, hn, rfl⟩⟩
  | spw =>
    obtain ⟨w, hw, hwb⟩ := mem_newSpws.1 hr
    obtain ⟨v, hv⟩ := owner_exists (p := fun v : Obj M T Z S X C K V => decide (r ∈ v.spws rangeOf)) ⟨w, hw, by simpa using hwb⟩
    obtain ⟨hvm, hvb⟩ := owner_ok hv
    simp only [decide_eq_true_eq] at hvb
    obtain ⟨hn, hn2⟩ := lookup_at hc (by simp) hvm (hk (by simp) v hvm) hj
    refine ⟨v, _, ?_, hvm, hn2, hvb, hvb, (hc.mem_pols (by simp) hvm).1 hp⟩
    unfold source
    simp only []
    rw [bind_ok]; exact ⟨v, hv, by rw [bind_ok]; exact ⟨_, hn, rfl⟩⟩

/-- What each cell of the computed data array holds. -/
theorem dataOf_get {us : List (Obj M T Z S X C K V)} {ax : Axis} {D} (h : dataOf rangeOf rnd ax us = .ok D) {i j k : Nat}
    {r b p} (hi : (newSpws rangeOf us)[i]? = some r) (hj : (newBlpts us)[j]? = some b) (hk : (newPols us)[k]? = some p) :
    ∃ a a' c v n, D[i]? = some a ∧ a[j]? = some a' ∧ a'[k]? = some c ∧
      source rangeOf rnd ax us (newBlpts us) r j b p = .ok (v, n) ∧ copyCell rangeOf (newLabels us) v r n p = .ok c := by
  obtain ⟨a, ha, h1⟩ := forall₂_getElem_left (mapE_ok_iff.1 h) hi
  have hz : (newBlpts us).zipIdx[j]? = some (b, j) := by rw [List.getElem?_zipIdx, hj]; simp
  obtain ⟨a', ha', h2⟩ := forall₂_getElem_left (mapE_ok_iff.1 h1) hz
  obtain ⟨c, hc, h3⟩ := forall₂_getElem_left (mapE_ok_iff.1 h2) hk
  obtain ⟨⟨v, n⟩, h4, h5⟩ := bind_ok.1 h3
  exact ⟨a, a', c, v, n, ha, ha', hc, h4, h5⟩

/-- Any cell of the computed data array sits at new axis positions. -/
theorem dataOf_get' {us : List (Obj M T Z S X C K V)} {ax : Axis} {D} (h : dataOf rangeOf rnd ax us = .ok D) {i j k : Nat}
    {a a' c} (ha : D[i]? = some a) (ha' : a[j]? = some a') (hc : a'[k]? = some c) :
    ∃ r b p, (newSpws rangeOf us)[i]? = some r ∧ (newBlpts us)[j]? = some b ∧ (newPols us)[k]? = some p := by
  obtain ⟨r, hr, h1⟩ := forall₂_getElem_right (mapE_ok_iff.1 h) ha
  obtain ⟨⟨b, jj⟩, hb, h2⟩ := forall₂_getElem_right (mapE_ok_iff.1 h1) ha'
  obtain ⟨p, hp, h3⟩ := forall₂_getElem_right (mapE_ok_iff.1 h2) hc
  refine ⟨r, b, p, hr, ?_, hp⟩
  rw [List.getElem?_zipIdx] at hb
  cases hb' : (newBlpts us)[j]? with
  | none => rw [hb'] at hb; cases hb
  | some x => rw [hb'] at hb; simp at hb; rw [hb.1]

theorem metaOf_spws {us : List (Obj M T Z S X C K V)} {ax : Axis} (hc : Combinable rangeOf close ax us)
    (hwf : ∀ v ∈ us, WF rangeOf v) (hal : Aligned rangeOf rnd ax us) {u0 m} (h0 : us[0]? = some u0)
    (h : metaOf rangeOf ax us u0 = .ok m) : m.map rangeOf = newSpws rangeOf us := by
  have hm0 : u0 ∈ us := List.mem_of_getElem? h0
  have hh : u0 ∈ us.head? := by rw [List.head?_eq_getElem?, h0]; simp
  unfold metaOf at h
  split at h
  · have h := mapE_ok_iff.1 h
    apply List.ext_getElem?
    intro i
    rw [List.getElem?_map]
    cases hi : (newSpws rangeOf us)[i]? with
    | none =>
      have : m[i]? = none := by
        rw [List.getElem?_eq_none_iff] at hi ⊢; rw [← h.length_eq]; exact hi
      rw [this]; rfl
    | some r =>
      obtain ⟨x, hx, h1⟩ := forall₂_getElem_left h hi
      obtain ⟨v, hv, h1⟩ := bind_ok.1 h1
      obtain ⟨k, hk, h1⟩ := bind_ok.1 h1
      have := indexOf_ok hk
      rw [Obj.spws, List.getElem?_map, at?_ok.1 h1] at this
      rw [hx]; exact this
  · rename_i hax
    cases h
    refine sorted_unique (le := (· ≤ ·)) (fun a b h1 h2 => le_antisymm h1 h2) (hal.windows hax u0 hh) sorted_newSpws
      (hwf u0 hm0).spws nodup_newSpws (fun x => (hc.mem_spws hax hm0).symm)

theorem rowSource_spec {us : List (Obj M T Z S X C K V)} {ax : Axis} (hc : Combinable rangeOf close ax us)
    (hal : Aligned rangeOf rnd ax us) (hs : newSpws rangeOf us ≠ []) (hp : newPols us ≠ []) {j : Nat} {b}
    (hj : (newBlpts us)[j]? = some b) :
    ∃ v n, rowSource rangeOf rnd ax us (newSpws rangeOf us) (newBlpts us) (newPols us) j b = .ok (v, n) ∧ v ∈ us ∧
      v.blpts[n]? = some b := by
  have hne : us ≠ [] := by rintro rfl; have := hc.two; simp at this
  obtain ⟨u0, l, rfl⟩ := List.exists_cons_of_ne_nil hne
  obtain ⟨r0, rl, hr0⟩ := List.exists_cons_of_ne_nil hs
  obtain ⟨p0, pl, hp0⟩ := List.exists_cons_of_ne_nil hp
  have h0 : at? (u0 :: l) 0 = .ok u0 := rfl
  have hr : r0 ∈ newSpws rangeOf (u0 :: l) := by rw [hr0]; simp
  have hpp : p0 ∈ newPols (u0 :: l) := by rw [hp0]; simp
  obtain ⟨v, n, hsrc, hv, hn, _, _⟩ := source_spec (rnd := rnd) hc hal.keyed hr hpp hj
  have hord : ax ≠ .blpairts → u0.blpts[n]? = some b := by
    intro hax; rw [← hal.order hax u0 (by simp) v hv]; exact hn
  cases ax with
  | blpairts => exact ⟨v, n, hsrc, hv, hn⟩
  | polpairs =>
    refine ⟨u0, n, ?_, List.mem_cons_self, hord (by simp)⟩
    unfold source at hsrc; simp only [] at hsrc
    obtain ⟨v', hv', hsrc⟩ := bind_ok.1 hsrc
    obtain ⟨n', hn', hsrc⟩ := bind_ok.1 hsrc
    cases hsrc
    unfold rowSource; simp only []
    rw [bind_ok]; refine ⟨p0, at?_ok.2 (by rw [hp0]; rfl), ?_⟩
    rw [bind_ok]; refine ⟨v, hv', ?_⟩
    rw [bind_ok]; refine ⟨n, hn', ?_⟩
    rw [bind_ok]; exact ⟨u0, h0, rfl⟩
  | spw =>
    refine ⟨u0, n, ?_, List.mem_cons_self, hord (by simp)⟩
    unfold source at hsrc; simp only [] at hsrc
    obtain ⟨v', hv', hsrc⟩ := bind_ok.1 hsrc
    obtain ⟨n', hn', hsrc⟩ := bind_ok.1 hsrc
    cases hsrc
    unfold rowSource; simp only []
    rw [bind_ok]; refine ⟨r0, at?_ok.2 (by rw [hr0]; rfl), ?_⟩
    rw [bind_ok]; refine ⟨v, hv', ?_⟩
    rw [bind_ok]; refine ⟨n, hn', ?_⟩
    rw [bind_ok]; exact ⟨u0, h0, rfl⟩

theorem rowsOf_spec {us : List (Obj M T Z S X C K V)} {ax : Axis} (hc : Combinable rangeOf close ax us)
    (hal : Aligned rangeOf rnd ax us) (hs : newSpws rangeOf us ≠ []) (hp : newPols us ≠ []) {rows}
    (h : rowsOf rangeOf rnd ax us = .ok rows) :
    rows.map (·.1) = newBlpts us ∧ ∀ (j : Nat) b z, rows[j]? = some (b, z) → ∃ v ∈ us, HasRow v b z := by
  have hF := mapE_ok_iff.1 h
  have key : ∀ (j : Nat) b, (newBlpts us)[j]? = some b → ∃ z, rows[j]? = some (b, z) ∧ ∃ v ∈ us, HasRow v b z := by
    intro j b hj
    obtain ⟨y, hy, h1⟩ := forall₂_getElem_left hF (i := j) (a := (b, j)) (by rw [List.getElem?_zipIdx, hj]; simp)
    obtain ⟨⟨v, n⟩, h2, h1⟩ := bind_ok.1 h1
    obtain ⟨v', n', h3, hv', hn'⟩ := rowSource_spec hc hal hs hp hj
    rw [h2] at h3; cases h3
    obtain ⟨x1, e1, h1⟩ := bind_ok.1 h1
    obtain ⟨x2, e2, h1⟩ := bind_ok.1 h1
    obtain ⟨x3, e3, h1⟩ := bind_ok.1 h1
    obtain ⟨z, e4, h1⟩ := bind_ok.1 h1
    cases h1
    obtain ⟨g1, g2, g3⟩ := blpts_get.1 hn'
    rw [at?_ok] at e1 e2 e3 e4
    rw [g1] at e1; rw [g2] at e2; rw [g3] at e3
    cases e1; cases e2; cases e3
    exact ⟨z, hy, v, hv', n, g1, g2, g3, e4⟩
  have hlen : rows.length = (newBlpts us).length := by rw [← hF.length_eq]; simp
  constructor
  · apply List.ext_getElem?
    intro j
    rw [List.getElem?_map]
    cases hj : (newBlpts us)[j]? with
    | none =>
      have : rows[j]? = none := by rw [List.getElem?_eq_none_iff] at hj ⊢; omega
      rw [this]; rfl
    | some b => obtain ⟨z, hz, _⟩ := key j b hj; rw [hz]; rfl
  · intro j b z hj
    have hl : j < (newBlpts us).length := by
      rw [← hlen]; exact (List.getElem?_eq_some_iff.1 hj).1
    obtain ⟨z', hz', h'⟩ := key j _ (List.getElem?_eq_getElem hl)
    rw [hj] at hz'; cases hz'; exact h'

end HeraPspec.Combine
