import Verif.Lemmas.Blpairs

/-! Properties C07 and C08: `construct_blpairs`. -/
namespace HeraPspec.Blpairs
variable {α : Type} [DecidableEq α]

/-- Specification: `a` occurs before `b` in the list. -/
def Precedes (l : List α) (a b : α) : Prop := ∃ i j : Nat, i < j ∧ l[i]? = some a ∧ l[j]? = some b

theorem precedes_iff (l : List α) (a b : α) : Precedes l a b ↔ [a, b].Sublist l := by
  unfold Precedes
  induction l with
  | nil => simp
  | cons x l ih =>
    constructor
    · rintro ⟨i, j, hij, hi, hj⟩
      obtain ⟨j, rfl⟩ : ∃ j', j = j' + 1 := ⟨j - 1, by omega⟩
      rw [List.getElem?_cons_succ] at hj
      cases i with
      | zero =>
        simp only [List.getElem?_cons_zero, Option.some.injEq] at hi; subst hi
        exact List.Sublist.cons_cons _ (List.singleton_sublist.2 (List.mem_of_getElem? hj))
      | succ i =>
        rw [List.getElem?_cons_succ] at hi
        exact (ih.1 ⟨i, j, by omega, hi, hj⟩).trans (List.sublist_cons_self _ _)
    · intro h
      cases h with
      | cons _ h =>
        obtain ⟨i, j, hij, hi, hj⟩ := ih.2 h
        exact ⟨i + 1, j + 1, by omega, by simpa using hi, by simpa using hj⟩
      | cons_cons _ h =>
        obtain ⟨j, hj, hjb⟩ := List.getElem_of_mem (List.singleton_sublist.1 h)
        exact ⟨0, j + 1, by omega, by simp, by simp [hj, hjb]⟩

/-- C07: for every duplicate-free, non-empty list of baselines and every combination of flags except excluding both
autos and crosses: the call succeeds, no baseline-pair is repeated, `(a,b)` is returned iff it is an auto pair that was
not excluded, or a cross pair that was not excluded (with `exclude_permutations`, only in list order), and `bls1[i]`,
`bls2[i]` are the two halves of `blpairs[i]`. -/
theorem C07_construct_spec (bls : List α) (hn : bls.Nodup) (hne : bls ≠ []) (ea ec ep : Bool)
    (hex : ¬ (ea = true ∧ ec = true)) :
    ∃ bls1 bls2 blpairs, construct bls ea ec ep = .ok (bls1, bls2, blpairs) ∧ blpairs.Nodup ∧
      (∀ a b, (a, b) ∈ blpairs ↔ (a = b ∧ a ∈ bls ∧ ea = false) ∨
        (a ≠ b ∧ a ∈ bls ∧ b ∈ bls ∧ ec = false ∧ (ep = true → Precedes bls a b))) ∧
      bls1.length = blpairs.length ∧ bls2.length = blpairs.length ∧
      (∀ i : Nat, bls1[i]? = (blpairs[i]?).map Prod.fst) ∧ (∀ i : Nat, bls2[i]? = (blpairs[i]?).map Prod.snd) := by
  have hbase : ∀ a b, (a, b) ∈ (if ep then comb2 bls else perm2 bls) ↔
      a ≠ b ∧ a ∈ bls ∧ b ∈ bls ∧ (ep = true → Precedes bls a b) := by
    intro a b
    cases ep with
    | true =>
      simp only [if_true, precedes_iff, mem_comb2, forall_const]
      constructor
      · intro h; exact ⟨sublist_pair_ne bls hn a b h, h.subset (by simp), h.subset (by simp), h⟩
      · exact fun h => h.2.2.2
    | false => simp only [Bool.false_eq_true, if_false, mem_perm2 bls hn, false_implies, and_true]; tauto
  have hbn : (if ep then comb2 bls else perm2 bls).Nodup := by
    cases ep with
    | true => exact comb2_nodup bls hn
    | false => exact perm2_nodup bls hn
  have hall : ((if ep then comb2 bls else perm2 bls) ++ bls.zip bls).Nodup := by
    rw [List.nodup_append]
    refine ⟨hbn, zip_self_nodup bls hn, ?_⟩
    rintro ⟨a, b⟩ h1 ⟨c, d⟩ h2 heq
    cases heq
    exact ((hbase _ _).1 h1).1 ((mem_zip_self bls _ _).1 h2).2
  refine ⟨_, _, _, by unfold construct; rw [if_neg hne, if_neg hex], ?_, ?_, by simp, by simp, by simp, by simp⟩
  · cases ea <;> cases ec <;> simp only [Bool.false_eq_true, if_false, if_true]
    · exact hall
    · exact hall.filter _
    · exact hall.filter _
    · exact (hall.filter _).filter _
  · intro a b
    cases ea <;> cases ec <;>
      simp only [Bool.false_eq_true, if_false, if_true, List.mem_filter, List.mem_append, hbase, mem_zip_self,
        decide_eq_true_eq] at hex ⊢ <;>
      by_cases hab : a = b <;> simp_all

/-- C07: with `exclude_permutations` each unordered pair of distinct baselines appears exactly once (in one of its two
orders); without it each ordered pair appears exactly once. -/
theorem C07_each_pair_once (bls : List α) (hn : bls.Nodup) (hne : bls ≠ []) (ea ep : Bool)
    (a b : α) (ha : a ∈ bls) (hb : b ∈ bls) (hab : a ≠ b) :
    ∃ bls1 bls2 blpairs, construct bls ea false ep = .ok (bls1, bls2, blpairs) ∧
      (ep = true → blpairs.count (a, b) + blpairs.count (b, a) = 1) ∧
      (ep = false → blpairs.count (a, b) = 1 ∧ blpairs.count (b, a) = 1) := by
  obtain ⟨b1, b2, bp, e, hnd, hmem, -⟩ := C07_construct_spec bls hn hne ea false ep (by simp)
  refine ⟨b1, b2, bp, e, ?_, ?_⟩
  · intro hep
    subst hep
    have m1 := hmem a b
    have m2 := hmem b a
    rw [precedes_iff] at m1 m2
    rcases sublist_pair_or bls a b ha hb hab with h | h
    · have c1 : (a, b) ∈ bp := m1.2 (Or.inr ⟨hab, ha, hb, rfl, fun _ => h⟩)
      have c2 : (b, a) ∉ bp := by
        intro h2
        rcases m2.1 h2 with h3 | h3
        · exact hab h3.1.symm
        · exact sublist_pair_asymm bls hn a b h (h3.2.2.2.2 rfl)
      rw [List.count_eq_one_of_mem hnd c1, List.count_eq_zero_of_not_mem c2]
    · have c1 : (b, a) ∈ bp := m2.2 (Or.inr ⟨hab.symm, hb, ha, rfl, fun _ => h⟩)
      have c2 : (a, b) ∉ bp := by
        intro h2
        rcases m1.1 h2 with h3 | h3
        · exact hab h3.1
        · exact sublist_pair_asymm bls hn a b (h3.2.2.2.2 rfl) h
      rw [List.count_eq_one_of_mem hnd c1, List.count_eq_zero_of_not_mem c2]
  · intro hep
    subst hep
    exact ⟨List.count_eq_one_of_mem hnd ((hmem a b).2 (Or.inr ⟨hab, ha, hb, rfl, by simp⟩)),
      List.count_eq_one_of_mem hnd ((hmem b a).2 (Or.inr ⟨hab.symm, hb, ha, rfl, by simp⟩))⟩

/-- C07: excluding both kinds raises, and so does an empty list. -/
theorem C07_errors (bls : List α) (ep : Bool) :
    (bls ≠ [] → construct bls true true ep = .error .assertion) ∧
    (∀ ea ec, construct ([] : List α) ea ec ep = .error .index) := by
  constructor
  · intro h; simp [construct, h]
  · intro ea ec; simp [construct]

/-- C07, lists with repeated baselines: excluding autos still removes every pair of equal baselines (including those
arising from repetitions), and excluding crosses still leaves only pairs of equal baselines. -/
theorem C07_exclusion_any_list (bls bls1 bls2 : List α) (blpairs : List (α × α)) (ea ec ep : Bool)
    (h : construct bls ea ec ep = .ok (bls1, bls2, blpairs)) :
    (ea = true → ∀ p ∈ blpairs, p.1 ≠ p.2) ∧ (ec = true → ∀ p ∈ blpairs, p.1 = p.2) := by
  unfold construct at h
  split at h
  · cases h
  split at h
  · cases h
  rename_i hx
  simp only [Except.ok.injEq, Prod.mk.injEq] at h
  obtain ⟨-, -, rfl⟩ := h
  constructor
  · rintro rfl p hp
    cases ec with
    | true => simp at hx
    | false => simp only [if_true, Bool.false_eq_true, if_false, List.mem_filter] at hp; simpa using hp.2
  · rintro rfl p hp
    simp only [if_true, List.mem_filter] at hp
    simpa using hp.2

example : construct [1, 2, 3] false false true =
    .ok ([1, 1, 2, 1, 2, 3], [2, 3, 3, 1, 2, 3], [(1, 2), (1, 3), (2, 3), (1, 1), (2, 2), (3, 3)]) := rfl
example : construct [1, 2, 3] true false false =
    .ok ([1, 1, 2, 2, 3, 3], [2, 3, 1, 3, 1, 2], [(1, 2), (1, 3), (2, 1), (2, 3), (3, 1), (3, 2)]) := rfl

/-- C08: grouping loses, repeats and reorders nothing: concatenating the groups gives the ungrouped output, every group
has between 1 and `k` members and all but the last have exactly `k`; the three outputs are grouped alike. -/
theorem C08_grouping (bls : List α) (ea ec ep : Bool) (k : Nat) (hk : 1 ≤ k)
    (bls1 bls2 : List α) (blpairs : List (α × α)) (h : construct bls ea ec ep = .ok (bls1, bls2, blpairs)) :
    ∃ g1 g2 gp, constructGrouped bls ea ec ep k = .ok (g1, g2, gp) ∧
      gp.flatten = blpairs ∧ g1.flatten = bls1 ∧ g2.flatten = bls2 ∧
      (∀ g ∈ gp, 1 ≤ g.length ∧ g.length ≤ k) ∧ (∀ g ∈ gp.dropLast, g.length = k) ∧
      g1 = gp.map (List.map Prod.fst) ∧ g2 = gp.map (List.map Prod.snd) := by
  have hb : bls1 = blpairs.map Prod.fst ∧ bls2 = blpairs.map Prod.snd := by
    unfold construct at h
    split at h
    · cases h
    split at h
    · cases h
    simp only [Except.ok.injEq, Prod.mk.injEq] at h
    obtain ⟨h1, h2, h3⟩ := h
    rw [h3] at h1 h2
    exact ⟨h1.symm, h2.symm⟩
  obtain ⟨h1, h2⟩ := hb
  have hg := group_spec blpairs k hk
  have hmap : ∀ f : α × α → α, group blpairs.length k (blpairs.map f) = (group blpairs.length k blpairs).map (List.map f) := by
    intro f; unfold group; rw [List.map_map]; congr 1; funext i; simp [slice]
  refine ⟨group blpairs.length k bls1, group blpairs.length k bls2, group blpairs.length k blpairs, ?_, hg.1, ?_, ?_,
    hg.2.1, hg.2.2, ?_, ?_⟩
  · unfold constructGrouped; rw [h]; simp only [bind, Except.bind]; rw [if_neg (by omega)]
  · rw [h1, hmap, ← List.map_flatten, hg.1]
  · rw [h2, hmap, ← List.map_flatten, hg.1]
  · rw [h1, hmap]
  · rw [h2, hmap]

example : constructGrouped [1, 2, 3] false false true 4 =
    .ok ([[1, 1, 2, 1], [2, 3]], [[2, 3, 3, 1], [2, 3]], [[(1, 2), (1, 3), (2, 3), (1, 1)], [(2, 2), (3, 3)]]) := rfl

end HeraPspec.Blpairs
