import Verif.Model.Blpairs
import Mathlib.Data.List.Nodup
import Mathlib.Data.List.Infix

namespace HeraPspec.Blpairs
variable {α : Type}

theorem mem_comb2 (l : List α) (a b : α) : (a, b) ∈ comb2 l ↔ [a, b].Sublist l := by
  induction l with
  | nil => simp [comb2]
  | cons x l ih =>
    simp only [comb2, List.mem_append, List.mem_map, ih, Prod.mk.injEq]
    constructor
    · rintro (⟨y, hy, rfl, rfl⟩ | h)
      · exact List.Sublist.cons_cons _ (List.singleton_sublist.2 hy)
      · exact h.trans (List.sublist_cons_self x l)
    · intro h
      cases h with
      | cons _ h => right; exact h
      | cons_cons _ h => left; exact ⟨b, List.singleton_sublist.1 h, rfl, rfl⟩

theorem comb2_mem_fst (l : List α) (a b : α) (h : (a, b) ∈ comb2 l) : a ∈ l ∧ b ∈ l := by
  rw [mem_comb2] at h
  exact ⟨h.subset (by simp), h.subset (by simp)⟩

theorem comb2_nodup (l : List α) (h : l.Nodup) : (comb2 l).Nodup := by
  induction l with
  | nil => simp [comb2]
  | cons x l ih =>
    rw [List.nodup_cons] at h
    simp only [comb2]
    rw [List.nodup_append]
    refine ⟨(h.2).map (fun a b hab => (Prod.mk.inj hab).2), ih h.2, ?_⟩
    rintro ⟨a, b⟩ h1 ⟨c, d⟩ h2 heq
    obtain ⟨y, -, hy⟩ := List.mem_map.1 h1
    cases hy; cases heq
    exact h.1 (comb2_mem_fst l _ _ h2).1

theorem mem_perm2 (l : List α) (h : l.Nodup) (a b : α) : (a, b) ∈ perm2 l ↔ a ∈ l ∧ b ∈ l ∧ a ≠ b := by
  unfold perm2
  rw [List.mem_flatMap]
  constructor
  · rintro ⟨⟨x, i⟩, hxi, hm⟩
    obtain ⟨y, hy, e⟩ := List.mem_map.1 hm
    cases e
    have hx := List.mem_zipIdx' hxi
    have hlt : i < l.length := hx.1
    have hai : l[i] = x := hx.2.symm
    refine ⟨hai ▸ List.getElem_mem hlt, (List.eraseIdx_sublist l i).subset hy, ?_⟩
    rintro rfl
    obtain ⟨j, hj, hji, hjx⟩ := List.mem_eraseIdx_iff_getElem.1 hy
    exact hji ((h.getElem_inj_iff).1 (hjx.trans hai.symm))
  · rintro ⟨ha, hb, hne⟩
    obtain ⟨i, hi, hai⟩ := List.getElem_of_mem ha
    refine ⟨(a, i), ?_, ?_⟩
    · rw [List.mem_zipIdx_iff_getElem?]; simp [← hai]
    · apply List.mem_map.2
      refine ⟨b, ?_, rfl⟩
      simp only []
      obtain ⟨j, hj, hbj⟩ := List.getElem_of_mem hb
      rw [List.mem_eraseIdx_iff_getElem]
      refine ⟨j, hj, ?_, hbj⟩
      rintro rfl
      exact hne (hai.symm.trans hbj)

theorem perm2_nodup (l : List α) (h : l.Nodup) : (perm2 l).Nodup := by
  unfold perm2
  rw [List.nodup_flatMap]
  constructor
  · rintro ⟨x, i⟩ _
    exact (h.sublist (List.eraseIdx_sublist l i)).map (fun a b hab => (Prod.mk.inj hab).2)
  · have hz : l.zipIdx.Pairwise (fun a b => a.1 ≠ b.1) := by
      have : (l.zipIdx.map Prod.fst).Nodup := by rw [List.zipIdx_map_fst]; exact h
      exact (List.pairwise_map.1 this)
    refine hz.imp ?_
    rintro ⟨x, i⟩ ⟨y, j⟩ hne
    intro p hp hq
    obtain ⟨u, -, rfl⟩ := List.mem_map.1 hp
    obtain ⟨v, -, hv⟩ := List.mem_map.1 hq
    exact hne (Prod.mk.inj hv).1.symm

theorem mem_zip_self (l : List α) (a b : α) : (a, b) ∈ l.zip l ↔ a ∈ l ∧ a = b := by
  induction l with
  | nil => simp
  | cons x l ih =>
    simp only [List.zip_cons_cons, List.mem_cons, Prod.mk.injEq, ih]
    constructor
    · rintro (⟨rfl, rfl⟩ | ⟨h, rfl⟩) <;> simp [*]
    · rintro ⟨rfl | h, rfl⟩ <;> simp [*]

theorem zip_self_nodup (l : List α) (h : l.Nodup) : (l.zip l).Nodup := by
  have : (l.zip l) = l.map (fun x => (x, x)) := by
    induction l with
    | nil => rfl
    | cons x l ih => simp [ih (List.nodup_cons.1 h).2]
  rw [this]
  exact h.map (fun a b hab => (Prod.mk.inj hab).1)

theorem sublist_pair_ne (l : List α) (h : l.Nodup) (a b : α) (hs : [a, b].Sublist l) : a ≠ b := by
  have := h.sublist hs
  simpa using this

theorem sublist_pair_or (l : List α) (a b : α) (ha : a ∈ l) (hb : b ∈ l) (hne : a ≠ b) :
    [a, b].Sublist l ∨ [b, a].Sublist l := by
  induction l with
  | nil => simp at ha
  | cons x l ih =>
    rcases List.mem_cons.1 ha with rfl | ha'
    · left
      rcases List.mem_cons.1 hb with rfl | hb'
      · exact absurd rfl hne
      · exact List.Sublist.cons_cons _ (List.singleton_sublist.2 hb')
    · rcases List.mem_cons.1 hb with rfl | hb'
      · right; exact List.Sublist.cons_cons _ (List.singleton_sublist.2 ha')
      · rcases ih ha' hb' with h | h
        · left; exact h.trans (List.sublist_cons_self _ _)
        · right; exact h.trans (List.sublist_cons_self _ _)

theorem sublist_pair_asymm (l : List α) (h : l.Nodup) (a b : α) (h1 : [a, b].Sublist l) (h2 : [b, a].Sublist l) :
    False := by
  induction l with
  | nil => cases h1
  | cons x l ih =>
    rw [List.nodup_cons] at h
    cases h1 with
    | cons _ h1 =>
      cases h2 with
      | cons _ h2 => exact ih h.2 h1 h2
      | cons_cons _ h2 => exact h.1 (h1.subset (by simp))
    | cons_cons _ h1 =>
      cases h2 with
      | cons _ h2 => exact h.1 (h2.subset (by simp))
      | cons_cons _ h2 => exact h.1 (List.singleton_sublist.1 h1)

theorem flatten_slices {β : Type} (l : List β) (n m : Nat) :
    ((List.range m).map (fun i => slice l (i * n) ((i + 1) * n))).flatten = l.take (m * n) := by
  induction m with
  | zero => simp
  | succ m ih =>
    rw [List.range_succ, List.map_append, List.flatten_append, ih]
    simp only [slice, List.map_cons, List.map_nil, List.flatten_cons, List.flatten_nil, List.append_nil]
    have : l.take (m * n) = (l.take ((m + 1) * n)).take (m * n) := by
      rw [List.take_take]
      congr 1
      rw [Nat.add_mul]; omega
    rw [this, List.take_append_drop]

/-- Chunking facts. -/
theorem group_spec {β : Type} (l : List β) (k : Nat) (hk : 1 ≤ k) :
    (group l.length k l).flatten = l ∧ (∀ g ∈ group l.length k l, 1 ≤ g.length ∧ g.length ≤ k) ∧
    (∀ g ∈ (group l.length k l).dropLast, g.length = k) := by
  have hdm := Nat.div_add_mod (l.length + k - 1) k
  have hml := Nat.mod_lt (l.length + k - 1) (by omega : k > 0)
  set m := (l.length + k - 1) / k with hm
  have hcm : k * m = m * k := Nat.mul_comm _ _
  have hlen : ∀ i, (slice l (i * k) ((i + 1) * k)).length = min ((i + 1) * k) l.length - i * k := by
    intro i; unfold slice; rw [List.length_drop, List.length_take]
  refine ⟨?_, ?_, ?_⟩
  · unfold group
    rw [flatten_slices, ← hm, List.take_of_length_le]
    omega
  · intro g hg
    obtain ⟨i, hi, rfl⟩ := List.mem_map.1 hg
    rw [List.mem_range, ← hm] at hi
    rw [hlen]
    have h1 : (i + 1) * k ≤ m * k := Nat.mul_le_mul_right k hi
    rw [Nat.add_mul] at h1 ⊢
    omega
  · intro g hg
    unfold group at hg
    rw [← hm] at hg
    cases hmm : m with
    | zero => rw [hmm] at hg; simp at hg
    | succ q =>
      rw [hmm, List.range_succ, List.map_append, List.map_singleton, List.dropLast_concat] at hg
      obtain ⟨i, hi, rfl⟩ := List.mem_map.1 hg
      rw [List.mem_range] at hi
      rw [hlen]
      have h1 : (i + 1) * k ≤ q * k := Nat.mul_le_mul_right k hi
      rw [hmm, Nat.add_mul] at hcm
      rw [hmm] at hdm
      rw [Nat.add_mul] at h1 ⊢
      omega

end HeraPspec.Blpairs
