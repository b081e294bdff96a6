import Verif.Lemmas.RedGroups
import Mathlib.Tactic.IntervalCases

/-! Properties C09, C10, C11: redundant groups. -/
namespace HeraPspec.RedGroups
open Antnums (Bl Blp ValidBlp)

section
variable {F : Type} [AddCommGroup F] [LinearOrder F] [IsOrderedAddMonoid F]

/-- C09 for `UVPSpec.get_red_bls` with positive tolerances: every baseline (occurrence) is in exactly one group, and no
group contains anything else. Partial: for a tolerance that is not positive the claim is false, see
`C09_counterexample_zero_tolerance`. Missing: tolerances that are not positive. -/
theorem C09_get_red_bls_partition_partial (lenTol angTol : F) (hl : 0 < lenTol) (ha : 0 < angTol)
    (items : List (Item F)) : (getRedBls lenTol angTol items).flatten.Perm (items.map (·.bl)) :=
  redLoop_perm lenTol angTol hl ha items.length items le_rfl

/-- C09: with distinct baselines, "exactly one": each baseline of the object is in exactly one group, once. Missing: tolerances that are not positive, for which the claim is false of the code. -/
theorem C09_get_red_bls_exactly_one_partial (lenTol angTol : F) (hl : 0 < lenTol) (ha : 0 < angTol)
    (items : List (Item F)) (hn : (items.map (·.bl)).Nodup) (b : Int) (hb : b ∈ items.map (·.bl)) :
    ∃ i : Nat, ∃ g, (getRedBls lenTol angTol items)[i]? = some g ∧ g.count b = 1 ∧
      ∀ (j : Nat) (g' : List Int), (getRedBls lenTol angTol items)[j]? = some g' → j ≠ i → b ∉ g' := by
  have hp := C09_get_red_bls_partition_partial lenTol angTol hl ha items
  have hnf : (getRedBls lenTol angTol items).flatten.Nodup := hp.nodup_iff.2 hn
  have hbf : b ∈ (getRedBls lenTol angTol items).flatten := hp.mem_iff.2 hb
  generalize getRedBls lenTol angTol items = gs at hnf hbf
  obtain ⟨g, hg, hbg⟩ := List.mem_flatten.1 hbf
  obtain ⟨i, hi, rfl⟩ := List.getElem_of_mem hg
  refine ⟨i, gs[i], by simp [hi], ?_, ?_⟩
  · exact List.count_eq_one_of_mem ((List.nodup_flatten.1 hnf).1 _ hg) hbg
  · intro j g' hj hne hb'
    obtain ⟨hj', rfl⟩ := List.getElem?_eq_some_iff.1 hj
    have hd := (List.nodup_flatten.1 hnf).2
    rw [List.pairwise_iff_getElem] at hd
    rcases Nat.lt_or_gt_of_ne hne with h | h
    · exact hd j i hj' hi h hb' hbg
    · exact hd i j hi hj' h hbg hb'

/-- C09: each group has a first member, and every other member is within both tolerances of that first member. Missing: tolerances that are not positive, for which the claim is false of the code. -/
theorem C09_get_red_bls_within_tolerance_partial (lenTol angTol : F) (hl : 0 < lenTol) (ha : 0 < angTol)
    (items : List (Item F)) (g : List Int) (hg : g ∈ getRedBls lenTol angTol items) :
    ∃ x ∈ items, ∃ xs : List (Item F), g = x.bl :: xs.map (·.bl) ∧
      ∀ y ∈ xs, y ∈ items ∧ |y.len - x.len| < lenTol ∧ |y.ang - x.ang| < angTol := by
  obtain ⟨x, hx, xs, h1, h2⟩ := redLoop_close lenTol angTol hl ha _ items g hg
  refine ⟨x, hx, xs, h1, fun y hy => ?_⟩
  obtain ⟨h3, h4⟩ := h2 y hy
  simp only [matches_, Bool.and_eq_true, decide_eq_true_eq] at h4
  exact ⟨h3, h4⟩

end

/-- C09 is false at tolerance zero (exact matching requested): the baseline is in no group at all. -/
theorem C09_counterexample_zero_tolerance :
    getRedBls (0 : Int) 1 [⟨101102, 5, 0⟩] = [[]] := by decide

example : getRedBls (2 : Int) 2 [⟨101102, 10, 0⟩, ⟨101103, 20, 0⟩, ⟨102103, 11, 1⟩] = [[101102, 102103], [101103]] := by
  decide

/-- C09 for `get_blvec_reds`, for every closeness test (so every tolerance) and every reordering by tag: each key is in
exactly one group. -/
theorem C09_blvec_reds_partition {K V : Type} (close : V → V → Bool)
    (order : List (V × List K) → List (V × List K)) (ho : ∀ l, (order l).Perm l) (blvecs : List (K × V)) :
    (getBlvecReds close order blvecs).flatten.Perm (blvecs.map (·.1)) := by
  obtain ⟨-, h⟩ := blvec_fold close blvecs [] [] (by intro g hg; simp at hg) (by simp)
  unfold getBlvecReds
  exact (((ho _).map _).flatten).trans (by simpa using h)

/-- C09 for `get_blvec_reds`: the members of a group are close to the group's first member. -/
theorem C09_blvec_reds_within_tolerance {K V : Type} (close : V → V → Bool)
    (order : List (V × List K) → List (V × List K)) (ho : ∀ l, (order l).Perm l) (blvecs : List (K × V))
    (g : List K) (hg : g ∈ getBlvecReds close order blvecs) :
    ∃ k u ks, g = k :: ks ∧ (k, u) ∈ blvecs ∧ ∀ x ∈ ks, ∃ v, (x, v) ∈ blvecs ∧ close u v = true := by
  obtain ⟨h, -⟩ := blvec_fold close blvecs [] [] (by intro g hg; simp at hg) (by simp)
  unfold getBlvecReds at hg
  obtain ⟨e, he, rfl⟩ := List.mem_map.1 hg
  obtain ⟨k, ks, h1, h2, h3⟩ := h e ((ho _).mem_iff.1 he)
  exact ⟨k, e.1, ks, h1, by simpa using h2, by simpa using h3⟩

example : getBlvecReds (fun u v : Int => decide (|u - v| ≤ 1)) id [("a", 10), ("b", 20), ("c", 11), ("d", 12)] =
    [["a", "c"], ["b"], ["d"]] := by decide

/-! ## C10 -/

/-- C10: `get_red_blpairs` returns one list per redundant group; the i-th is exactly the object's baseline-pairs (as
integers, in order, each as often as it occurs) both of whose baselines are in the i-th redundant group. Hypotheses: the
groups are disjoint and cover the baselines (which `get_red_bls` guarantees, see `C10_end_to_end`), antennas are valid. -/
theorem C10_red_blpairs (redBls : List (List Int)) (blpairs : List Blp) (hne : blpairs ≠ [])
    (hd : redBls.flatten.Nodup) (hv : ∀ p ∈ blpairs, ValidBlp p)
    (hc : ∀ p ∈ blpairs, Antnums.antnumsToBl p.1 ∈ redBls.flatten ∧ Antnums.antnumsToBl p.2 ∈ redBls.flatten) :
    ∃ out, getRedBlpairs redBls blpairs = .ok out ∧ out.length = redBls.length ∧
      ∀ (i : Nat) (g : List Int), redBls[i]? = some g → out[i]? = some
        ((blpairs.filter (fun p => Antnums.antnumsToBl p.1 ∈ g ∧ Antnums.antnumsToBl p.2 ∈ g)).map
          Antnums.antnumsToBlpair) := by
  have e1 : lookupAll (groupIdx redBls) (blpairs.map (fun p => Antnums.antnumsToBl p.1)) =
      .ok ((blpairs.map (fun p => Antnums.antnumsToBl p.1)).map (fun b => redBls.findIdx (fun g => decide (b ∈ g)))) := by
    apply lookupAll_ok
    intro b hb
    obtain ⟨p, hp, rfl⟩ := List.mem_map.1 hb
    rw [get_groupIdx _ _ hd, if_pos (hc p hp).1]
  have e2 : lookupAll (groupIdx redBls) (blpairs.map (fun p => Antnums.antnumsToBl p.2)) =
      .ok ((blpairs.map (fun p => Antnums.antnumsToBl p.2)).map (fun b => redBls.findIdx (fun g => decide (b ∈ g)))) := by
    apply lookupAll_ok
    intro b hb
    obtain ⟨p, hp, rfl⟩ := List.mem_map.1 hb
    rw [get_groupIdx _ _ hd, if_pos (hc p hp).2]
  refine ⟨_, by unfold getRedBlpairs; rw [if_neg hne]; simp only [e1, e2]; rfl, by simp, ?_⟩
  intro i g hg
  obtain ⟨hi, rfl⟩ := List.getElem?_eq_some_iff.1 hg
  rw [List.getElem?_map, List.getElem?_range hi]
  simp only [Option.map_some, Option.some.injEq, List.map_map]
  rw [zip4_map]
  simp only [Function.comp]
  have hfilt : blpairs.filter (fun a => decide (redBls.findIdx (fun g => decide (Antnums.antnumsToBl a.1 ∈ g)) = i ∧
        redBls.findIdx (fun g => decide (Antnums.antnumsToBl a.2 ∈ g)) = i)) =
      blpairs.filter (fun p => decide (Antnums.antnumsToBl p.1 ∈ redBls[i] ∧ Antnums.antnumsToBl p.2 ∈ redBls[i])) := by
    apply List.filter_congr
    intro p hp
    rw [decide_eq_decide, findIdx_iff redBls _ i hd hi (hc p hp).1, findIdx_iff redBls _ i hd hi (hc p hp).2]
  rw [hfilt]
  apply List.map_congr_left
  intro p hp
  obtain ⟨⟨_, _⟩, ⟨_, _⟩, ⟨_, _⟩, ⟨_, _⟩⟩ := hv p (List.mem_filter.1 hp).1
  rw [concatInt_eq, Antnums.antnumsToBl_eq, Antnums.antnumsToBl_eq, Antnums.antnumsToBlpair_eq]
  · ring
  · rw [Antnums.antnumsToBl_eq]; omega
  · rw [Antnums.antnumsToBl_eq]; omega
  · rw [Antnums.antnumsToBl_eq]; omega

/-- C10 end to end: for an object with distinct baselines `items`, positive tolerances and valid baseline-pairs over
those baselines, `get_red_blpairs` succeeds; a baseline-pair integer is returned iff it belongs to a baseline-pair of
the object with both baselines in one redundant group, and (if the object's baseline-pairs are distinct) it is returned
exactly once. -/
theorem C10_end_to_end {F : Type} [AddCommGroup F] [LinearOrder F] [IsOrderedAddMonoid F]
    (lenTol angTol : F) (hl : 0 < lenTol) (ha : 0 < angTol)
    (items : List (Item F)) (hn : (items.map (·.bl)).Nodup) (blpairs : List Blp) (hne : blpairs ≠ [])
    (hv : ∀ p ∈ blpairs, ValidBlp p) (hnd : blpairs.Nodup)
    (hc : ∀ p ∈ blpairs, Antnums.antnumsToBl p.1 ∈ items.map (·.bl) ∧ Antnums.antnumsToBl p.2 ∈ items.map (·.bl)) :
    ∃ out, getRedBlpairs (getRedBls lenTol angTol items) blpairs = .ok out ∧
      (∀ n, n ∈ out.flatten ↔ ∃ p ∈ blpairs, n = Antnums.antnumsToBlpair p ∧ ∃ g ∈ getRedBls lenTol angTol items,
        Antnums.antnumsToBl p.1 ∈ g ∧ Antnums.antnumsToBl p.2 ∈ g) ∧ out.flatten.Nodup := by
  have hp := C09_get_red_bls_partition_partial lenTol angTol hl ha items
  have hd : (getRedBls lenTol angTol items).flatten.Nodup := hp.nodup_iff.2 hn
  generalize getRedBls lenTol angTol items = gs at hp hd
  obtain ⟨out, ho, hlen, hout⟩ := C10_red_blpairs gs blpairs hne hd hv
    (fun p h => ⟨hp.mem_iff.2 (hc p h).1, hp.mem_iff.2 (hc p h).2⟩)
  refine ⟨out, ho, ?_, ?_⟩
  · intro n
    constructor
    · intro hmem
      obtain ⟨l, hl', hnl⟩ := List.mem_flatten.1 hmem
      obtain ⟨i, hi, rfl⟩ := List.getElem_of_mem hl'
      have := hout i gs[i] (by simp)
      rw [List.getElem?_eq_getElem hi, Option.some.injEq] at this
      rw [this] at hnl
      obtain ⟨p, hpf, rfl⟩ := List.mem_map.1 hnl
      obtain ⟨h1, h2⟩ := List.mem_filter.1 hpf
      exact ⟨p, h1, rfl, gs[i], List.getElem_mem _, by simpa using h2⟩
    · rintro ⟨p, hpm, rfl, g, hg, h1⟩
      obtain ⟨i, hi, rfl⟩ := List.getElem_of_mem hg
      have := hout i gs[i] (by simp)
      refine List.mem_flatten.2 ⟨_, List.mem_of_getElem? this, ?_⟩
      exact List.mem_map.2 ⟨p, List.mem_filter.2 ⟨hpm, by simpa using h1⟩, rfl⟩
  · rw [List.nodup_flatten]
    have hrow : ∀ i (hi : i < out.length), out[i] = ((blpairs.filter (fun p => Antnums.antnumsToBl p.1 ∈ gs[i]'(hlen ▸ hi) ∧
        Antnums.antnumsToBl p.2 ∈ gs[i]'(hlen ▸ hi))).map Antnums.antnumsToBlpair) := by
      intro i hi
      have := hout i (gs[i]'(hlen ▸ hi)) (by simp)
      rw [List.getElem?_eq_getElem hi, Option.some.injEq] at this
      exact this
    constructor
    · intro l hl'
      obtain ⟨i, hi, rfl⟩ := List.getElem_of_mem hl'
      rw [hrow i hi]
      refine (hnd.filter _).map_on ?_
      intro p h1 q h2 heq
      exact Antnums.C01_blpair_injective p q (hv p (List.mem_filter.1 h1).1) (hv q (List.mem_filter.1 h2).1) heq
    · rw [List.pairwise_iff_getElem]
      intro i j hi hj hij n h1 h2
      rw [hrow i hi] at h1
      rw [hrow j hj] at h2
      obtain ⟨p, hp1, rfl⟩ := List.mem_map.1 h1
      obtain ⟨q, hq1, heq⟩ := List.mem_map.1 h2
      obtain ⟨hpm, hpg⟩ := List.mem_filter.1 hp1
      obtain ⟨hqm, hqg⟩ := List.mem_filter.1 hq1
      have := Antnums.C01_blpair_injective q p (hv q hqm) (hv p hpm) heq
      subst this
      simp only [decide_eq_true_eq] at hpg hqg
      have hdis := (List.nodup_flatten.1 hd).2
      rw [List.pairwise_iff_getElem] at hdis
      exact hdis i j (hlen ▸ hi) (hlen ▸ hj) hij hpg.1 hqg.1

/-- C10: a baseline-pair whose baseline is in no group makes the call raise `KeyError` (it is never silently dropped). -/
theorem C10_missing_baseline_raises (redBls : List (List Int)) (blpairs : List Blp) (hd : redBls.flatten.Nodup)
    (p : Blp) (hp : p ∈ blpairs)
    (hm : Antnums.antnumsToBl p.1 ∉ redBls.flatten ∨ Antnums.antnumsToBl p.2 ∉ redBls.flatten) :
    getRedBlpairs redBls blpairs = .error .key := by
  have hne : blpairs ≠ [] := List.ne_nil_of_mem hp
  unfold getRedBlpairs
  rw [if_neg hne]
  simp only
  by_cases h1 : ∃ q ∈ blpairs, Antnums.antnumsToBl q.1 ∉ redBls.flatten
  · obtain ⟨q, hq, hq1⟩ := h1
    rw [lookupAll_error (groupIdx redBls) _ (Antnums.antnumsToBl q.1) (List.mem_map.2 ⟨q, hq, rfl⟩)
      (by rw [get_groupIdx _ _ hd, if_neg hq1])]
  · have h1' : ∀ q ∈ blpairs, Antnums.antnumsToBl q.1 ∈ redBls.flatten := by
      intro q hq; by_contra hcon; exact h1 ⟨q, hq, hcon⟩
    rw [lookupAll_ok (groupIdx redBls) _ (fun b => redBls.findIdx (fun g => decide (b ∈ g))) (by
      intro b hb
      obtain ⟨q, hq, rfl⟩ := List.mem_map.1 hb
      rw [get_groupIdx _ _ hd, if_pos (h1' q hq)])]
    simp only
    rw [lookupAll_error (groupIdx redBls) _ (Antnums.antnumsToBl p.2) (List.mem_map.2 ⟨p, hp, rfl⟩)
      (by
        rw [get_groupIdx _ _ hd, if_neg]
        rcases hm with h | h
        · exact absurd (h1' p hp) h
        · exact h)]

example : ValidBlp ((1, 2), (2, 3)) ∧ Antnums.antnumsToBl (1, 2) = 101102 ∧ Antnums.antnumsToBl (2, 3) = 102103 := by
  refine ⟨by simp [ValidBlp, Antnums.ValidAnt], ?_, ?_⟩ <;> rw [Antnums.antnumsToBl_eq] <;> rfl

/-! ## C11 -/

/-- C11: what `calc_blpair_reds(filter_blpairs=True)` returns, for every collection of redundant groups, data sets,
excluded antennas and flags: each returned baseline-pair has its first (second) baseline, in one of the two
orientations, in the first (second) data set, and none of its four antennas is excluded (by the flags of either data set
or by hand). Both baselines belong to the redundant group with the returned index. -/
theorem C11_present_and_not_excluded (posReds : List (List Bl)) (keep : List Bl → Bool) (ants : List Int)
    (antpairs1 antpairs2 : List Bl) (x1 x2 x : List Int) (ea ec ep ia ic : Bool) (out : List ((Bl × Bl) × Nat))
    (h : calcBlpairReds posReds keep ants antpairs1 antpairs2 x1 x2 x true ea ec ep ia ic = .ok out)
    (p : Bl × Bl) (j : Nat) (hp : (p, j) ∈ out) :
    (p.1 ∈ antpairs1 ∨ (p.1.2, p.1.1) ∈ antpairs1) ∧ (p.2 ∈ antpairs2 ∨ (p.2.2, p.2.1) ∈ antpairs2) ∧
    (∀ a, a ∈ x1 ∨ a ∈ x2 ∨ a ∈ x → a ≠ p.1.1 ∧ a ≠ p.1.2 ∧ a ≠ p.2.1 ∧ a ≠ p.2.2) ∧
    (∃ r, (getReds posReds keep ants ia (!ic) ((x1 ++ x) ++ (x2 ++ x)))[j]? = some r ∧ p.1 ∈ r ∧ p.2 ∈ r) := by
  unfold calcBlpairReds at h
  obtain ⟨k, r, hjk, hr, blps, hb, hpb⟩ := (calcPairs_spec _ _ _ _ _ _ _ _ _ h p j).1 hp
  rw [Nat.zero_add] at hjk; subst hjk
  have hmem := List.mem_of_getElem? hr
  obtain ⟨hrne, hrx⟩ := getReds_mem _ _ _ _ _ _ _ hmem
  unfold groupPairs at hb
  cases hcst : Blpairs.construct r ea ec ep with
  | error e => rw [hcst] at hb; cases hb
  | ok t =>
    obtain ⟨b1, b2, bp⟩ := t
    rw [hcst] at hb
    simp only [if_true, Except.ok.injEq] at hb
    subst hb
    obtain ⟨hpm, hpf⟩ := List.mem_filter.1 hpb
    simp only [decide_eq_true_eq] at hpf
    have hin : p.1 ∈ r ∧ p.2 ∈ r := by
      unfold Blpairs.construct at hcst
      rw [if_neg hrne] at hcst
      split at hcst
      · cases hcst
      simp only [Except.ok.injEq, Prod.mk.injEq] at hcst
      obtain ⟨-, -, rfl⟩ := hcst
      have hbase : p ∈ (if ep then Blpairs.comb2 r else Blpairs.perm2 r) ++ r.zip r := by
        cases ea <;> cases ec <;>
          simp only [Bool.false_eq_true, if_false, if_true, List.mem_filter] at hpm <;> tauto
      rcases List.mem_append.1 hbase with h1 | h1
      · cases ep with
        | true => exact Blpairs.comb2_mem_fst r p.1 p.2 h1
        | false =>
          simp only [Bool.false_eq_true, if_false, Blpairs.perm2, List.mem_flatMap] at h1
          obtain ⟨⟨y, i⟩, hyi, hm⟩ := h1
          obtain ⟨z, hz, rfl⟩ := List.mem_map.1 hm
          have := List.mem_zipIdx' hyi
          exact ⟨by simp only []; rw [this.2]; exact List.getElem_mem _, (List.eraseIdx_sublist r i).subset hz⟩
      · have := (Blpairs.mem_zip_self r p.1 p.2).1 h1
        exact ⟨this.1, this.2 ▸ this.1⟩
    refine ⟨hpf.1, hpf.2, ?_, r, hr, hin⟩
    intro a hax
    have hax' : a ∈ (x1 ++ x) ++ (x2 ++ x) := by simp only [List.mem_append]; tauto
    have h1 := hrx p.1 hin.1
    have h2 := hrx p.2 hin.2
    refine ⟨?_, ?_, ?_, ?_⟩ <;> rintro rfl
    · exact h1.1 hax'
    · exact h1.2 hax'
    · exact h2.1 hax'
    · exact h2.2 hax'

/-- C11, completeness: unless both autos and crosses are excluded the call succeeds, and for a duplicate-free redundant
group every admissible baseline-pair of the group that is present in the data is returned. -/
theorem C11_complete (posReds : List (List Bl)) (keep : List Bl → Bool) (ants : List Int)
    (antpairs1 antpairs2 : List Bl) (x1 x2 x : List Int) (ea ec ep ia ic : Bool) (hx : ¬ (ea = true ∧ ec = true)) :
    ∃ out, calcBlpairReds posReds keep ants antpairs1 antpairs2 x1 x2 x true ea ec ep ia ic = .ok out ∧
      ∀ j r a b, (getReds posReds keep ants ia (!ic) ((x1 ++ x) ++ (x2 ++ x)))[j]? = some r → r.Nodup →
        a ∈ r → b ∈ r →
        (a ∈ antpairs1 ∨ (a.2, a.1) ∈ antpairs1) → (b ∈ antpairs2 ∨ (b.2, b.1) ∈ antpairs2) →
        (a = b → ea = false) → (a ≠ b → ec = false ∧ (ep = true → Blpairs.Precedes r a b)) → ((a, b), j) ∈ out := by
  obtain ⟨out, ho⟩ := calcPairs_ok true ea ec ep antpairs1 antpairs2
    (getReds posReds keep ants ia (!ic) ((x1 ++ x) ++ (x2 ++ x))) 0 hx
    (fun r hr => (getReds_mem _ _ _ _ _ _ _ hr).1)
  refine ⟨out, ho, ?_⟩
  intro j r a b hr hnd ha hb h1 h2 hauto hcross
  rw [calcPairs_spec _ _ _ _ _ _ _ _ _ ho]
  refine ⟨j, r, by omega, hr, ?_⟩
  obtain ⟨b1, b2, bp, hc, -, hmem, -⟩ := Blpairs.C07_construct_spec r hnd (List.ne_nil_of_mem ha) ea ec ep hx
  refine ⟨_, by unfold groupPairs; rw [hc]; simp only [if_true]; rfl, ?_⟩
  rw [List.mem_filter]
  refine ⟨(hmem a b).2 ?_, by simpa using ⟨h1, h2⟩⟩
  by_cases hab : a = b
  · left; exact ⟨hab, ha, hauto hab⟩
  · right; exact ⟨hab, ha, hb, (hcross hab).1, (hcross hab).2⟩

/-- C11: the flag-based exclusion list of a data set consists exactly of the telescope's antennas that occur in no
sufficiently unflagged baseline (of the kinds requested). -/
theorem C11_flag_exclusion (ants : List Int) (bls : List Bl) (good : Bl → Bool) (ia ic : Bool) (a : Int) :
    a ∈ flagXants ants bls good ia ic ↔ a ∈ ants ∧
      ¬ ∃ bl ∈ bls, (bl.1 = bl.2 → ia = true) ∧ (bl.1 ≠ bl.2 → ic = true) ∧ good bl = true ∧ (a = bl.1 ∨ a = bl.2) := by
  rw [flagXants_mem]
  constructor
  · rintro ⟨h1, h2⟩
    refine ⟨h1, ?_⟩
    rintro ⟨bl, hb, h3, h4, h5, h6⟩
    have := h2 bl hb h5 h3 h4
    tauto
  · rintro ⟨h1, h2⟩
    refine ⟨h1, fun bl hb h5 h3 h4 => ?_⟩
    constructor <;> intro h6 <;> exact h2 ⟨bl, hb, h3, h4, h5, by tauto⟩

/-- Finding: asking for neither auto- nor cross-correlations returns the cross-correlations, because "only autos" is
honoured only when autos were added. -/
theorem C11_finding_neither_kind_returns_crosses :
    calcBlpairReds [[(1, 2), (2, 3)]] (fun _ => true) [1, 2, 3] [(1, 2), (2, 3)] [(1, 2), (2, 3)] [] [] []
      true false false true false false = .ok [(((1, 2), (2, 3)), 0), (((1, 2), (1, 2)), 0), (((2, 3), (2, 3)), 0)] := by
  rfl

example : calcBlpairReds [[(1, 2), (2, 3), (3, 4)]] (fun _ => true) [1, 2, 3, 4] [(1, 2), (3, 2)] [(1, 2), (2, 3), (3, 4)]
    [] [] [4] true true false true false true = .ok [(((1, 2), (2, 3)), 0)] := by rfl

end HeraPspec.RedGroups
