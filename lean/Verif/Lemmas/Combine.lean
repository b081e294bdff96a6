import Verif.Spec.Combine
import Verif.Lemmas.MapE
import Verif.Lemmas.UVP
import Mathlib.Data.List.Sort
import Mathlib.Data.String.Basic
import Mathlib.Data.Prod.Lex

namespace HeraPspec.Combine
open HeraPspec.UVP (mapE Err mapE_ok_iff mapE_exists forall₂_getElem_left forall₂_getElem_right)
variable {α : Type} {R M T Z S X C K V : Type}

theorem indexOf_ok [DecidableEq α] {l : List α} {x : α} {i : Nat} (h : indexOf l x = .ok i) : l[i]? = some x := by
  unfold indexOf at h
  split at h
  · rename_i hx
    cases h
    rw [List.getElem?_eq_getElem (List.idxOf_lt_length_of_mem hx)]; simp
  · cases h

theorem indexOf_exists [DecidableEq α] {l : List α} {x : α} (h : x ∈ l) : ∃ i, indexOf l x = .ok i :=
  ⟨_, by simp [indexOf, h]; rfl⟩

theorem at?_ok {l : List α} {i : Nat} {x : α} : at? l i = .ok x ↔ l[i]? = some x := by
  unfold at?; split <;> simp_all

theorem owner_ok {p : α → Bool} {us : List α} {u : α} (h : owner p us = .ok u) : u ∈ us ∧ p u = true := by
  unfold owner at h
  split at h
  · rename_i v hv; cases h; exact ⟨List.mem_of_find?_eq_some hv, List.find?_some hv⟩
  · cases h

theorem owner_exists {p : α → Bool} {us : List α} (h : ∃ u ∈ us, p u = true) : ∃ u, owner p us = .ok u := by
  unfold owner
  cases hf : us.find? p with
  | some v => exact ⟨v, rfl⟩
  | none =>
    obtain ⟨u, hu, hp⟩ := h
    have := List.find?_eq_none.1 hf u hu
    simp [hp] at this

theorem uniq_aux [DecidableEq α] (l acc : List α) (ha : acc.Nodup) :
    let r := l.foldl (fun acc x => if x ∈ acc then acc else acc ++ [x]) acc
    r.Nodup ∧ ∀ x, x ∈ r ↔ x ∈ acc ∨ x ∈ l := by
  induction l generalizing acc with
  | nil => simp [ha]
  | cons a l ih =>
    simp only [List.foldl_cons]
    by_cases h : a ∈ acc
    · simp only [h, if_true]
      obtain ⟨h1, h2⟩ := ih acc ha
      refine ⟨h1, fun x => ?_⟩
      rw [h2]; constructor
      · rintro (h | h) <;> simp [h]
      · rintro (h3 | h3)
        · exact .inl h3
        · rcases List.mem_cons.1 h3 with rfl | h3
          · exact .inl h
          · exact .inr h3
    · simp only [h, if_false]
      obtain ⟨h1, h2⟩ := ih (acc ++ [a]) (by
        rw [List.nodup_append]; refine ⟨ha, by simp, ?_⟩
        intro x hx y hy; simp at hy; subst hy; rintro rfl; exact h hx)
      refine ⟨h1, fun x => ?_⟩
      rw [h2]; simp only [List.mem_append, List.mem_singleton, List.mem_cons]; tauto

theorem uniq_nodup [DecidableEq α] (l : List α) : (uniq l).Nodup := (uniq_aux l [] List.nodup_nil).1
theorem mem_uniq [DecidableEq α] (l : List α) (x : α) : x ∈ uniq l ↔ x ∈ l := by
  have := (uniq_aux l [] List.nodup_nil).2 x; simpa [uniq] using this

theorem setEq_iff [DecidableEq α] (a b : List α) : setEq a b = true ↔ Same a b := by
  unfold setEq Same
  simp only [Bool.and_eq_true, List.all_eq_true, decide_eq_true_eq]
  exact ⟨fun h x => ⟨h.1 x, h.2 x⟩, fun h => ⟨fun x => (h x).1, fun x => (h x).2⟩⟩

theorem disj_iff [DecidableEq α] (a b : List α) : disj a b = true ↔ ∀ x ∈ a, x ∉ b := by
  simp [disj]

theorem bleT_iff [LinearOrder T] (a b : Int × T × T) :
    bleT a b = true ↔ (toLex (a.1, toLex (a.2.1, a.2.2)) : Int ×ₗ T ×ₗ T) ≤ toLex (b.1, toLex (b.2.1, b.2.2)) := by
  simp [bleT, Prod.Lex.toLex_le_toLex]

theorem bleT_trans [LinearOrder T] (a b c : Int × T × T) (h1 : bleT a b = true) (h2 : bleT b c = true) : bleT a c = true := by
  rw [bleT_iff] at *; exact le_trans h1 h2

theorem bleT_total [LinearOrder T] (a b : Int × T × T) : (bleT a b || bleT b a) = true := by
  rw [Bool.or_eq_true, bleT_iff, bleT_iff]; exact le_total _ _

theorem bleT_antisymm [LinearOrder T] {a b : Int × T × T} (h1 : bleT a b = true) (h2 : bleT b a = true) : a = b := by
  rw [bleT_iff] at *
  have := le_antisymm h1 h2
  obtain ⟨a1, a2, a3⟩ := a; obtain ⟨b1, b2, b3⟩ := b
  simpa using this

/-- Sorted duplicate-free lists with the same elements are equal. -/
theorem sorted_unique {le : α → α → Prop} (ha : ∀ a b, le a b → le b a → a = b) {l₁ l₂ : List α}
    (h1 : l₁.Pairwise le) (h2 : l₂.Pairwise le) (n1 : l₁.Nodup) (n2 : l₂.Nodup) (h : ∀ x, x ∈ l₁ ↔ x ∈ l₂) : l₁ = l₂ := by
  refine List.Perm.eq_of_pairwise (le := le) ?_ h1 h2 ((List.perm_ext_iff_of_nodup n1 n2).2 h)
  intro a b _ _; exact ha a b

section
variable [LinearOrder R] [LinearOrder T] [DecidableEq C] [DecidableEq K] [DecidableEq V]
variable {rangeOf : M → R} {rnd : T → T} {close : S → S → Bool}

theorem pairAxis_bool (s1 s2 s3 t1 t2 t3 : Bool) (ax : Axis) :
    ((if !s1 && !t1 then Except.error Err.assertion
      else if !s2 && !t2 then .error .assertion
      else if !s3 && !t3 then .error .assertion
      else if s1.toNat + s2.toNat + s3.toNat = 3 then .error .assertion
      else if ¬ s1.toNat + s2.toNat + s3.toNat > 1 then .error .assertion
      else .ok (if !s1 then Axis.spw else if !s2 then .blpairts else .polpairs)) = Except.ok ax) ↔
    ((if ax = .spw then t1 = true ∧ ¬ s1 = true else s1 = true) ∧
     (if ax = .blpairts then t2 = true ∧ ¬ s2 = true else s2 = true) ∧
     (if ax = .polpairs then t3 = true ∧ ¬ s3 = true else s3 = true)) := by
  cases ax <;> cases s1 <;> cases s2 <;> cases s3 <;> cases t1 <;> cases t2 <;> cases t3 <;> simp

theorem pairAxis_ok {u v : Obj M T Z S X C K V} {ax : Axis} :
    pairAxis rangeOf u v = .ok ax ↔ PairOK rangeOf ax u v := by
  have e1 := setEq_iff (u.spws rangeOf) (v.spws rangeOf)
  have e2 := setEq_iff u.blpts v.blpts
  have e3 := setEq_iff u.pols v.pols
  have d1 := disj_iff (u.spws rangeOf) (v.spws rangeOf)
  have d2 := disj_iff u.blpts v.blpts
  have d3 := disj_iff u.pols v.pols
  have aux := pairAxis_bool (setEq (u.spws rangeOf) (v.spws rangeOf)) (setEq u.blpts v.blpts) (setEq u.pols v.pols)
    (disj (u.spws rangeOf) (v.spws rangeOf)) (disj u.blpts v.blpts) (disj u.pols v.pols) ax
  rw [e1, e2, e3, d1, d2, d3] at aux
  exact aux

theorem mem_pairs_iff {l : List α} {P : α → α → Prop} : (∀ x ∈ pairs l, P x.1 x.2) ↔ l.Pairwise P := by
  induction l with
  | nil => simp [pairs]
  | cons a l ih =>
    simp only [pairs, List.mem_append, List.mem_map, List.pairwise_cons, ← ih]
    constructor
    · intro h; exact ⟨fun b hb => h (a, b) (.inl ⟨b, hb, rfl⟩), fun x hx => h x (.inr hx)⟩
    · rintro ⟨h1, h2⟩ x (⟨b, hb, rfl⟩ | hx)
      · exact h1 b hb
      · exact h2 x hx

theorem forall₂_const {β : Type} {P : α → β → Prop} {l : List α} {r : List β} {c : β} (h : List.Forall₂ P l r)
    (hr : ∀ x ∈ r, x = c) : ∀ a ∈ l, P a c := by
  induction h with
  | nil => simp
  | cons h1 h2 ih =>
    intro a ha
    rcases List.mem_cons.1 ha with rfl | ha
    · rw [← hr _ List.mem_cons_self]; exact h1
    · exact ih (fun x hx => hr x (List.mem_cons_of_mem _ hx)) a ha

theorem allClose_iff {close : S → S → Bool} {a b : List (List S)} : allClose close a b = true ↔ ScalarsAgree close a b := by
  unfold allClose ScalarsAgree
  simp only [List.all_eq_true]
  constructor
  · intro h i j r q x y hr hq hx hy
    have h1 : (r, q) ∈ a.zip b := List.mem_iff_getElem?.2 ⟨i, by rw [List.getElem?_zip_eq_some]; exact ⟨hr, hq⟩⟩
    exact h _ h1 (x, y) (List.mem_iff_getElem?.2 ⟨j, by rw [List.getElem?_zip_eq_some]; exact ⟨hx, hy⟩⟩)
  · intro h p hp v hv
    obtain ⟨i, hi⟩ := List.mem_iff_getElem?.1 hp
    obtain ⟨j, hj⟩ := List.mem_iff_getElem?.1 hv
    rw [List.getElem?_zip_eq_some] at hi hj
    exact h i j _ _ _ _ hi.1 hi.2 hj.1 hj.2

/-- `get_uvp_overlap` succeeds exactly on combinable lists, and returns the union of each axis. -/
theorem overlap_ok {us : List (Obj M T Z S X C K V)} {ax : Axis} {spws : List R} {blpts : List (Int × T × T)}
    {pols : List Int} :
    overlap rangeOf close us = .ok (ax, spws, blpts, pols) ↔
      Combinable rangeOf close ax us ∧ spws = uniq (us.flatMap (fun u => u.spws rangeOf)) ∧
        blpts = (us.flatMap Obj.blpts).dedup ∧ pols = uniq (us.flatMap (·.pols)) := by
  cases us with
  | nil => simp only [overlap, false_iff, reduceCtorEq]; rintro ⟨h, _⟩; exact absurd h.two (by simp)
  | cons u0 rest =>
    unfold overlap
    by_cases hst : (rest.all (fun u => u0.static = u.static)) = true
    · simp only [hst, Bool.not_true, Bool.false_eq_true, if_false]
      have hst' : ∀ u ∈ rest, u0.static = u.static := by simpa using hst
      cases hp : mapE (fun p => pairAxis rangeOf p.1 p.2) (pairs (u0 :: rest)) with
      | error e =>
        simp only [false_iff, reduceCtorEq]
        rintro ⟨h, _⟩
        have := mem_pairs_iff.2 h.pair
        obtain ⟨r, hr⟩ := mapE_exists (f := fun p => pairAxis rangeOf p.1 p.2) (l := pairs (u0 :: rest))
          (fun a ha => ⟨ax, pairAxis_ok.2 (this a ha)⟩)
        rw [hr] at hp; cases hp
      | ok axs =>
        have hF := mapE_ok_iff.1 hp
        cases axs with
        | nil =>
          simp only [false_iff, reduceCtorEq]
          rintro ⟨h, _⟩
          have h2 := h.two
          cases rest with
          | nil => simp at h2
          | cons b l => simp [pairs] at hF
        | cons ax' axs =>
          have hne : rest ≠ [] := by
            rintro rfl; simp [pairs] at hF
          simp only []
          by_cases hax : (axs.all (· = ax')) = true
          · simp only [hax, Bool.not_true, Bool.false_eq_true, if_false]
            have hall : ∀ x ∈ pairs (u0 :: rest), PairOK rangeOf ax' x.1 x.2 := by
              intro x hx
              have := forall₂_const (c := ax') hF (by
                intro y hy
                rcases List.mem_cons.1 hy with rfl | hy
                · rfl
                · simpa using List.all_eq_true.1 hax y hy) x hx
              exact pairAxis_ok.1 this
            have huniq : ∀ ax'', (u0 :: rest).Pairwise (PairOK rangeOf ax'') → ax'' = ax' := by
              intro ax'' h
              have h1 := mem_pairs_iff.2 h
              obtain ⟨b, l, rfl⟩ := List.exists_cons_of_ne_nil hne
              have m : (u0, b) ∈ pairs (u0 :: b :: l) := by simp [pairs]
              have a1 := pairAxis_ok.2 (h1 _ m)
              have a2 := pairAxis_ok.2 (hall _ m)
              rw [a1] at a2; cases a2; rfl
            by_cases hsc : ax' = .blpairts ∧ !rest.all (fun u => allClose close u0.scalar u.scalar)
            · simp only [hsc, and_self, if_true, false_iff, reduceCtorEq]
              rintro ⟨h, _⟩
              have he := huniq _ h.pair
              have := h.scalar (he.trans hsc.1) u0 (by simp)
              have h3 := hsc.2
              simp only [Bool.not_eq_true', List.all_eq_false] at h3
              obtain ⟨y, hy, hy2⟩ := h3
              exact hy2 (allClose_iff.2 (this y (by simpa using hy)))
            · rw [if_neg hsc]
              simp only [Except.ok.injEq, Prod.mk.injEq]
              constructor
              · rintro ⟨rfl, rfl, rfl, rfl⟩
                refine ⟨⟨?_, ?_, mem_pairs_iff.1 hall, ?_⟩, rfl, rfl, rfl⟩
                · obtain ⟨b, l, rfl⟩ := List.exists_cons_of_ne_nil hne; simp
                · intro v hv u hu
                  simp at hv; subst hv
                  rcases List.mem_cons.1 hu with rfl | hu
                  · rfl
                  · exact (hst' u hu).symm
                · intro hb v hv u hu
                  simp at hv; subst hv
                  by_contra hcon
                  apply hsc
                  refine ⟨hb, ?_⟩
                  simp only [Bool.not_eq_true', List.all_eq_false]
                  exact ⟨u, by simpa using hu, fun hx => hcon (allClose_iff.1 hx)⟩
              · rintro ⟨h, rfl, rfl, rfl⟩
                exact ⟨(huniq _ h.pair).symm, rfl, rfl, rfl⟩
          · simp only [hax, Bool.not_false, if_true, false_iff, reduceCtorEq]
            rintro ⟨h, _⟩
            apply hax
            have h1 := mem_pairs_iff.2 h.pair
            have key : ∀ y ∈ ax' :: axs, y = ax := by
              have := mapE_ok_iff.1 hp
              clear hp hax
              revert h1 this
              generalize pairs (u0 :: rest) = ps
              generalize ax' :: axs = as
              intro h1 hF
              induction hF with
              | nil => simp
              | cons e1 e2 ih =>
                intro y hy
                rcases List.mem_cons.1 hy with rfl | hy
                · have := pairAxis_ok.2 (h1 _ List.mem_cons_self); rw [e1] at this; cases this; rfl
                · exact ih (fun x hx => h1 x (List.mem_cons_of_mem _ hx)) y hy
            rw [List.all_eq_true]
            intro y hy
            have := key y (List.mem_cons_of_mem _ hy)
            have h2 := key ax' List.mem_cons_self
            simp [this, h2]
    · simp only [hst, Bool.not_false, if_true, false_iff, reduceCtorEq]
      rintro ⟨h, _⟩
      apply hst
      rw [List.all_eq_true]
      intro u hu
      have := h.static u0 (by simp) u (by simp [hu])
      simp [this]

end
end HeraPspec.Combine
