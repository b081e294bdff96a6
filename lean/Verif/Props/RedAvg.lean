import Verif.Props.Stages
import Verif.Props.RedGroups

/-!
C29: when an average of groups succeeds. C157: averaging over redundant baseline-pairs (`get_red_blpairs`, then `average_spectra`).
-/
namespace HeraPspec.Average
open HeraPspec.UVP (Err mapE mapE_ok_iff)
variable {E : Type} [AddCommGroup E] [Module ℝ E]

/-! ### Specification -/

/-- A group can be averaged: it is not empty, all its pairs are in the object, and they have equally many integrations unless time is averaged first. -/
def Fits (u : Obj E) (ta : Bool) (g : List Nat) : Prop :=
  g ≠ [] ∧ (∀ b ∈ g, b ∈ u.rows.map (·.blp)) ∧ (ta = true ∨ ∀ b ∈ g, ∀ b' ∈ g, (metaOf u b).length = (metaOf u b').length)

/-! ### Proofs -/

theorem forall₂_left {α β : Type} {R : α → β → Prop} {l : List α} {r : List β} (hf : List.Forall₂ R l r) : ∀ x ∈ l, ∃ y, R x y := by
  induction hf with
  | nil => intro g hg; cases hg
  | cons h1 _ ih =>
    intro g hg
    rcases List.mem_cons.1 hg with rfl | hg
    · exact ⟨_, h1⟩
    · exact ih g hg

theorem accsOf_mem {e : Option String} {ta : Bool} {u : Obj E} {s p b : Nat} {l : List (Acc E)} (h : accsOf e ta u s p b = .ok l) : b ∈ u.rows.map (·.blp) := by
  unfold accsOf cellsOf at h
  cases hi : indices u b with
  | error e => rw [hi] at h; cases h
  | ok is =>
    obtain ⟨hl, hne⟩ := indices_ok hi
    obtain ⟨j, hj⟩ := List.exists_mem_of_ne_nil _ hne
    rw [hl, List.mem_filter] at hj
    have hj2 := hj.2
    simp only [decide_eq_true_eq, Option.map_eq_some_iff] at hj2
    obtain ⟨m, hm1, hm2⟩ := hj2
    exact List.mem_map.2 ⟨m, List.mem_of_getElem? hm1, hm2⟩

theorem groupsOf_some {so : List Nat → List Nat} {a : Args} {u : Obj E} {given : List (List Nat)} (hg : a.groups = some given) (hw : a.weights = none) (hgn : given ≠ [])
    (hf : ∀ g ∈ given, g ≠ [] ∧ ∀ b ∈ g, b ∈ u.rows.map (·.blp)) : ∃ gs, groupsOf so a u = .ok gs := by
  unfold groupsOf weightsOf
  rw [hg, hw]
  simp only
  rw [if_neg (by simpa using hgn), if_neg, if_neg, if_neg, if_neg]
  · exact ⟨_, rfl⟩
  · simp only [Bool.not_eq_true', Bool.not_eq_false, List.all_eq_true, decide_eq_true_eq]
    intro i hi
    simp only [List.getElem?_map]
    cases given[i]? <;> simp
  · rw [Bool.not_eq_true, List.any_eq_false]
    intro x hx
    obtain ⟨g, hg, rfl⟩ := List.mem_map.1 hx
    simpa using (hf g hg).1
  · simp only [Bool.not_eq_true', Bool.not_eq_false, List.all_eq_true]
    intro g hg
    obtain ⟨h1, h2⟩ := hf g hg
    cases g with
    | nil => exact absurd rfl h1
    | cons b l => simpa using h2 b List.mem_cons_self
  · rw [Bool.not_eq_true, List.any_eq_false]
    intro g hg
    simpa using (hf g hg).1

/-- C29: an average of groups without weights, of errors the object has, on an object with one entry per row, succeeds exactly if there is a group, no group is empty, every pair of a group
is in the object, and the pairs of a group have equally many integrations (any numbers if time is averaged first). -/
theorem C29_succeeds_iff {circ : List ℝ → ℝ} {so : List Nat → List Nat} (hso : ∀ l, (so l).Perm l) {a : Args} {u : Obj E} (hu : Shaped u)
    {given : List (List Nat)} (hg : a.groups = some given) (hw : a.weights = none) (hn : a.normalize = true) (hst : ∀ x ∈ statNames a, x ∈ u.statNames)
    (hc : ∃ (s p : Nat) (cs : List (Cell E)), (u.cells[s]?.bind (·[p]?)) = some cs) :
    (∃ v, averageSpectra circ so a u = .ok v) ↔ given ≠ [] ∧ ∀ g ∈ given, Fits u a.timeAvg g := by
  have hlenA : ∀ {s p : Nat} {cs : List (Cell E)}, (u.cells[s]?.bind (·[p]?)) = some cs → a.timeAvg = false → ∀ b,
      (accs a.errorWeights a.timeAvg u s p b).length = (metaOf u b).length := by
    intro s p cs hcs hta b
    unfold accs
    rw [hta]
    simp only [Bool.false_eq_true, if_false, List.length_map]
    exact length_integrations hu hcs b
  constructor
  · rintro ⟨v, h⟩
    refine ⟨fun h0 => ?_, ?_⟩
    · subst h0
      unfold averageSpectra groupsOf at h
      rw [hg] at h
      simp at h
    intro g hgm
    obtain ⟨gs, hgs, _, _, _, _, _, hcells⟩ := averageSpectra_ok h
    obtain ⟨hall, hgr⟩ := C29_groups hso hgs
    rw [hg] at hgr
    obtain ⟨extra, he, _, _⟩ := hgr
    obtain ⟨g', hg', rfl⟩ : ∃ g' ∈ gs, g'.1 = g := by
      have : g ∈ gs.map (·.1) := by rw [he]; exact List.mem_append_left _ hgm
      simpa using this
    obtain ⟨s, p, cs, hcs⟩ := hc
    obtain ⟨bl, _, hf⟩ := hcells s p cs hcs
    obtain ⟨r, hr⟩ := forall₂_left hf g' hg'
    obtain ⟨hne, hwt⟩ := hall g' hg'
    obtain ⟨_, hacc, n, _, hlen, _⟩ := groupRows_ok hr
    refine ⟨hne, fun b hb => accsOf_mem (hacc b hb), ?_⟩
    cases hta : a.timeAvg with
    | true => exact Or.inl rfl
    | false =>
      right
      have hm : mult a.normalize g'.2 = g'.1.map (fun _ => 1) := by
        rw [hwt hw, hn]
        exact mult_ones _ _ hne (Or.inl rfl)
      have : ∀ b ∈ g'.1, (metaOf u b).length = n := by
        intro b hb
        rw [← hlenA hcs hta b]
        refine hlen (b, 1) ?_ Nat.one_pos
        rw [hm, zip_ones]
        exact List.mem_map.2 ⟨b, hb, rfl⟩
      intro b hb b' hb'
      rw [this b hb, this b' hb']
  · rintro ⟨hgn, hf⟩
    obtain ⟨gs, hgs⟩ := groupsOf_some (so := so) hg hw hgn (fun g hgm => ⟨(hf g hgm).1, (hf g hgm).2.1⟩)
    obtain ⟨hall, hgr⟩ := C29_groups hso hgs
    rw [hg] at hgr
    obtain ⟨extra, he, _, hx⟩ := hgr
    have hfit : ∀ g ∈ gs, Fits u a.timeAvg g.1 := by
      intro g hgm
      have : g.1 ∈ given ++ extra.map (fun b => [b]) := by rw [← he]; exact List.mem_map_of_mem hgm
      rw [List.mem_append] at this
      rcases this with h1 | h1
      · exact hf _ h1
      · obtain ⟨b, hb, hbe⟩ := List.mem_map.1 h1
        rw [← hbe]
        refine ⟨by simp, ?_, Or.inr ?_⟩
        · intro b' hb'
          rw [List.mem_singleton] at hb'
          rw [hb']
          exact ((hx b).1 hb).2.1
        · intro b1 h1 b2 h2
          rw [List.mem_singleton] at h1 h2
          rw [h1, h2]
    refine averageSpectra_of hgs hst ?_ ?_
    · intro s p cs hcs g hgm
      obtain ⟨hne, hmem, hl⟩ := hfit g hgm
      obtain ⟨_, hwt⟩ := hall g hgm
      have hm : mult a.normalize g.2 = g.1.map (fun _ => 1) := by
        rw [hwt hw, hn]
        exact mult_ones _ _ hne (Or.inl rfl)
      obtain ⟨b0, hb0⟩ := List.exists_mem_of_ne_nil _ hne
      refine ⟨_, groupRows_of (n := (accs a.errorWeights a.timeAvg u s p b0).length) ?_ ?_ ⟨(b0, 1), ?_, Nat.one_pos⟩ ?_⟩
      · rw [hn, if_pos rfl, hwt hw]
        simp only [List.map_const', List.sum_replicate, nsmul_eq_mul, mul_one]
        have := List.length_pos_of_mem hb0
        exact_mod_cast this
      · intro b hb
        obtain ⟨l, hl⟩ := accsOf_of hu hcs (hmem b hb) a.errorWeights a.timeAvg
        rw [hl, accsOf_ok hl]
      · rw [hm, zip_ones]
        exact List.mem_map.2 ⟨b0, hb0, rfl⟩
      · intro bm hbm _
        have hb := (List.of_mem_zip hbm).1
        cases hta : a.timeAvg with
        | true => simp [accs]
        | false =>
          rw [← hta, hlenA hcs hta, hlenA hcs hta]
          rcases hl with h1 | h1
          · rw [hta] at h1; cases h1
          · exact h1 _ hb _ hb0
    · intro g hgm
      obtain ⟨hne, hmem, _⟩ := hfit g hgm
      cases hg1 : g.1 with
      | nil => exact absurd hg1 hne
      | cons b bs => exact groupMeta_of circ _ hg1 (hmem b (by rw [hg1]; exact List.mem_cons_self))

/-! ### C157: redundant averaging -/

/-- The baseline-pairs both of whose baselines are in the redundant group `g`. -/
def pairsIn (g : List Int) (blpairs : List Antnums.Blp) : List Antnums.Blp :=
  blpairs.filter (fun p => Antnums.antnumsToBl p.1 ∈ g ∧ Antnums.antnumsToBl p.2 ∈ g)

/-- All integrations of a list of baseline-pairs. -/
def allInts (u : Obj E) (s p : Nat) (l : List Antnums.Blp) : List (Cell E) := l.flatMap (fun q => integrations u s p (Antnums.antnumsToBlpair q).toNat)

theorem members_ones (u : Obj E) (s p t : Nat) (l : List Nat) (hl : l ≠ []) :
    members true true u s p (l, l.map (fun _ => (1 : ℝ))) t = l.flatMap (integrations u s p) := by
  unfold members
  simp only [mult_ones l true hl (Or.inl rfl), zip_ones, if_true]
  rw [List.flatMap_map]
  simp

section
variable {F : Type} [AddCommGroup F] [LinearOrder F] [IsOrderedAddMonoid F]

/-- C157: let `items` be the distinct baselines of an object with length and angle, and let the rows of the object belong to the distinct valid baseline-pairs `blpairs`
over these baselines. Averaging in time over the groups given by `get_red_blpairs` (any positive tolerances)
* succeeds exactly if every redundant group of baselines contains both baselines of some pair (otherwise ValueError);
* returns for the i-th redundant group one spectrum, the weighted mean of all integrations of all pairs with both baselines in that group;
* without exact windows conserves the total number of samples: pairs mixing two redundant groups are kept, each on its own.

Missing: one spectrum per redundant group for every object; the call fails when some redundant group contains no pair (`C157_counterexample_empty_group`). -/
theorem C157_redundant_average_partial {circ : List ℝ → ℝ} {so : List Nat → List Nat} (hso : ∀ l, (so l).Perm l) (lenTol angTol : F) (hl : 0 < lenTol) (ha : 0 < angTol)
    (items : List (RedGroups.Item F)) (hn : (items.map (·.bl)).Nodup) (blpairs : List Antnums.Blp) (hne : blpairs ≠ []) (hv : ∀ p ∈ blpairs, Antnums.ValidBlp p)
    (hnd : blpairs.Nodup) (hcov : ∀ p ∈ blpairs, Antnums.antnumsToBl p.1 ∈ items.map (·.bl) ∧ Antnums.antnumsToBl p.2 ∈ items.map (·.bl))
    (u : Obj E) (hu : Shaped u) (hrows : ∀ z : Int, z ∈ u.rows.map (fun m => (m.blp : Int)) ↔ z ∈ blpairs.map Antnums.antnumsToBlpair)
    (hc : ∃ (s p : Nat) (cs : List (Cell E)), (u.cells[s]?.bind (·[p]?)) = some cs) (F' : List String) (e : Option String)
    (hst : ∀ x ∈ F', x ∈ u.statNames) (hse : ∀ x, e = some x → x ∈ u.statNames) :
    ∃ out, RedGroups.getRedBlpairs (RedGroups.getRedBls lenTol angTol items) blpairs = .ok out ∧
      let a : Args := { groups := some (out.map (·.map Int.toNat)), weights := none, timeAvg := true, errorField := F', errorWeights := e, normalize := true }
      ((∃ v, averageSpectra circ so a u = .ok v) ↔ ∀ g ∈ RedGroups.getRedBls lenTol angTol items, pairsIn g blpairs ≠ []) ∧
      ((∃ g ∈ RedGroups.getRedBls lenTol angTol items, pairsIn g blpairs = []) → averageSpectra circ so a u = .error .value) ∧
      ∀ v, averageSpectra circ so a u = .ok v → ∀ s p cs, (u.cells[s]?.bind (·[p]?)) = some cs → ∃ cs' : List (Cell E), (v.cells[s]?.bind (·[p]?)) = some cs' ∧
        (u.exact = false → (cs'.map (·.nsmp)).sum = (cs.map (·.nsmp)).sum) ∧
        ∀ (i : Nat) (g : List Int), (RedGroups.getRedBls lenTol angTol items)[i]? = some g → ∃ c : Cell E, cs'[i]? = some c ∧ ∀ d : Nat,
          (∀ q ∈ pairsIn g blpairs, (∀ m ∈ allInts u s p [q], RegularCell e m) ∧ RegularSum e (allInts u s p [q]) d) →
          tiny ≤ ((allInts u s p (pairsIn g blpairs)).map (fun m : Cell E => specWeight e m d)).sum →
          c.data d = wmean ((allInts u s p (pairsIn g blpairs)).map (fun m : Cell E => (specWeight e m d, m.data d))) := by
  have hp := RedGroups.C09_get_red_bls_partition_partial lenTol angTol hl ha items
  have hd : (RedGroups.getRedBls lenTol angTol items).flatten.Nodup := hp.nodup_iff.2 hn
  obtain ⟨out0, ho0, _, hndout⟩ := RedGroups.C10_end_to_end lenTol angTol hl ha items hn blpairs hne hv hnd hcov
  generalize RedGroups.getRedBls lenTol angTol items = gsr at hp hd ho0 ⊢
  obtain ⟨out, ho, hlen, hout⟩ := RedGroups.C10_red_blpairs gsr blpairs hne hd hv
    (fun p h => ⟨hp.mem_iff.2 (hcov p h).1, hp.mem_iff.2 (hcov p h).2⟩)
  rw [ho0] at ho
  injection ho with ho
  subst ho
  refine ⟨out0, ho0, ?_⟩
  intro a
  have hg : a.groups = some (out0.map (·.map Int.toNat)) := rfl
  have hoe : out0 = gsr.map (fun g => (pairsIn g blpairs).map Antnums.antnumsToBlpair) := by
    apply List.ext_getElem?
    intro i
    rw [List.getElem?_map]
    cases hi : gsr[i]? with
    | none =>
      rw [List.getElem?_eq_none_iff] at hi
      rw [List.getElem?_eq_none (by omega)]
      rfl
    | some g => exact hout i g hi
  have hnat : ∀ q ∈ blpairs, ((Antnums.antnumsToBlpair q).toNat : Int) = Antnums.antnumsToBlpair q ∧ (Antnums.antnumsToBlpair q).toNat ∈ u.rows.map (·.blp) := by
    intro q hq
    have := (hrows _).2 (List.mem_map_of_mem (f := Antnums.antnumsToBlpair) hq)
    obtain ⟨m, hm, he⟩ := List.mem_map.1 this
    rw [← he]
    exact ⟨by simp, by simpa using List.mem_map_of_mem (f := (·.blp)) hm⟩
  have hsub : ∀ g, ∀ q ∈ pairsIn g blpairs, q ∈ blpairs := fun g q hq => (List.mem_filter.1 hq).1
  have hstn : ∀ x ∈ statNames a, x ∈ u.statNames := by
    intro x hx
    unfold statNames at hx
    split at hx
    · exact hst x hx
    · rename_i t he
      split at hx
      · exact hst x hx
      · rcases List.mem_append.1 hx with hx | hx
        · exact hst x hx
        · rw [List.mem_singleton] at hx
          subst hx
          exact hse x he
  have hgn : out0.map (·.map Int.toNat) ≠ [] := by
    obtain ⟨p, hpm⟩ := List.exists_mem_of_ne_nil _ hne
    have h1 := hp.mem_iff.2 (hcov p hpm).1
    obtain ⟨g, hg1, _⟩ := List.mem_flatten.1 h1
    rw [hoe]
    intro h0
    rw [List.map_eq_nil_iff, List.map_eq_nil_iff] at h0
    rw [h0] at hg1
    cases hg1
  have hfit : (∀ g ∈ out0.map (·.map Int.toNat), Fits u a.timeAvg g) ↔ ∀ g ∈ gsr, pairsIn g blpairs ≠ [] := by
    rw [hoe]
    simp only [List.mem_map, exists_exists_and_eq_and, forall_exists_index, and_imp, forall_apply_eq_imp_iff₂]
    constructor
    · intro h g hg h0
      have := (h g hg).1
      rw [h0] at this
      exact this rfl
    · intro h g hg
      refine ⟨by simpa using h g hg, ?_, Or.inl rfl⟩
      intro b hb
      simp only [List.mem_map, exists_exists_and_eq_and] at hb
      obtain ⟨q, hq, rfl⟩ := hb
      exact (hnat q (hsub g q hq)).2
  refine ⟨?_, ?_, ?_⟩
  · rw [C29_succeeds_iff hso hu hg rfl rfl hstn hc, hfit, and_iff_right hgn]
  · rintro ⟨g, hgm, h0⟩
    have : groupsOf so a u = .error .value := by
      unfold groupsOf
      rw [hg]
      simp only
      rw [if_neg (by simpa using hgn), if_pos]
      rw [List.any_eq_true]
      refine ⟨[], ?_, rfl⟩
      rw [hoe]
      simp only [List.mem_map, exists_exists_and_eq_and]
      exact ⟨g, hgm, by rw [h0]; rfl⟩
    unfold averageSpectra
    rw [this]
  · intro v h s p cs hcs
    obtain ⟨gs, hgs, _, _, _, _, _, hcells2⟩ := averageSpectra_ok h
    obtain ⟨hall, hgr⟩ := C29_groups hso hgs
    rw [hg] at hgr
    obtain ⟨extra, he, _, _⟩ := hgr
    obtain ⟨blocks2, hb2, hf2⟩ := hcells2 s p cs hcs
    have hlens : ∀ (gs : List (List Nat × List ℝ)) (bl : List (List (Cell E))), List.Forall₂ (fun g b => groupRows a.errorWeights a.timeAvg a.normalize u s p g = .ok b) gs bl →
        ∃ l : List (Cell E), bl = l.map (fun c => [c]) ∧ l.length = gs.length := by
      intro gs bl hf
      induction hf with
      | nil => exact ⟨[], rfl, rfl⟩
      | cons h1 _ ih =>
        obtain ⟨l, rfl, hl⟩ := ih
        obtain ⟨_, _, n, ⟨bm, hbm, hpos⟩, hn, rfl⟩ := groupRows_ok h1
        have := hn bm hbm hpos
        have : n = 1 := by rw [← this]; rfl
        subst this
        exact ⟨_ :: l, rfl, by simp [hl]⟩
    obtain ⟨l, rfl, hll⟩ := hlens _ _ hf2
    have hfl : (l.map (fun c => [c])).flatten = l := by rw [flatten_singles (fun c : Cell E => c) l]; simp
    rw [hfl] at hb2
    refine ⟨l, hb2, ?_, ?_⟩
    · intro hex
      obtain ⟨cs', hcs', hsum⟩ := C80_nsample_conserved hso hu h rfl rfl (by
        intro given hgiven
        rw [hg] at hgiven
        injection hgiven with hgiven
        subst hgiven
        refine ⟨?_, ?_, fun hx => by rw [hex] at hx; cases hx⟩
        · rw [← List.map_flatten]
          refine List.Nodup.map_on ?_ hndout
          intro x hx y hy hxy
          rw [hoe] at hx hy
          simp only [List.mem_flatten, List.mem_map, exists_exists_and_eq_and] at hx hy
          obtain ⟨g1, _, q1, hq1, rfl⟩ := hx
          obtain ⟨g2, _, q2, hq2, rfl⟩ := hy
          rw [← (hnat q1 (hsub g1 q1 hq1)).1, ← (hnat q2 (hsub g2 q2 hq2)).1, hxy]
        · intro b hb
          rw [hoe] at hb
          simp only [List.mem_flatten, List.mem_map, exists_exists_and_eq_and] at hb
          obtain ⟨g, _, hb⟩ := hb
          obtain ⟨q, hq, rfl⟩ := hb
          exact (hnat q (hsub g q hq)).2) s p cs hcs
      rw [hb2] at hcs'
      injection hcs' with hcs'
      rw [hcs']
      exact hsum
    · intro i g hgi
      have hgsi : ∃ g' : List Nat × List ℝ, gs[i]? = some g' ∧ g'.1 = (pairsIn g blpairs).map (fun q => (Antnums.antnumsToBlpair q).toNat) := by
        have h1 : (gs.map (·.1))[i]? = some ((pairsIn g blpairs).map (fun q => (Antnums.antnumsToBlpair q).toNat)) := by
          rw [he, List.getElem?_append_left, List.getElem?_map, hoe, List.getElem?_map, hgi]
          · simp [Function.comp_def]
          · have := (List.getElem?_eq_some_iff.1 hgi).1
            rw [List.length_map, hoe, List.length_map]; exact this
        rw [List.getElem?_map, Option.map_eq_some_iff] at h1
        exact h1
      obtain ⟨g', hg', hge⟩ := hgsi
      have hli : i < l.length := by rw [hll]; exact (List.getElem?_eq_some_iff.1 hg').1
      refine ⟨l[i], List.getElem?_eq_getElem hli, ?_⟩
      intro d hreg htot
      obtain ⟨hne', hwt⟩ := hall g' (List.mem_of_getElem? hg')
      have hpair : g' = ((pairsIn g blpairs).map (fun q => (Antnums.antnumsToBlpair q).toNat),
          ((pairsIn g blpairs).map (fun q => (Antnums.antnumsToBlpair q).toNat)).map (fun _ => (1 : ℝ))) := by
        rw [← hge, ← hwt rfl]
      have hmem : members a.timeAvg a.normalize u s p g' 0 = allInts u s p (pairsIn g blpairs) := by
        rw [hpair]
        show members true true u s p _ 0 = _
        rw [members_ones u s p 0 _ (by rw [← hge]; exact hne'), List.flatMap_map]
        rfl
      obtain ⟨block2, hbi2, hgb2⟩ := HeraPspec.UVP.forall₂_getElem_left hf2 hg'
      rw [List.getElem?_map, List.getElem?_eq_getElem hli] at hbi2
      injection hbi2 with hbi2
      subst hbi2
      have hfin := row_mean (t := 0) (c := l[i]) (d := d) hgb2 rfl
        { cells := by
            intro b hb c hc
            rw [hge] at hb
            obtain ⟨q, hq, rfl⟩ := List.mem_map.1 hb
            exact (hreg q hq).1 c (by simpa [allInts] using hc)
          pair := by
            intro _ b hb
            rw [hge] at hb
            obtain ⟨q, hq, rfl⟩ := List.mem_map.1 hb
            simpa [allInts] using (hreg q hq).2
          total := by rw [hmem]; exact htot }
      rw [hfin, hmem]

end

/-! ### Examples -/

/-- Baselines (1, 2) and (2, 3) are redundant, (1, 3) is alone. -/
def raItems : List (RedGroups.Item Int) := [⟨101102, 10, 0⟩, ⟨101103, 20, 0⟩, ⟨102103, 11, 1⟩]

/-- An object with one integration of each of two baseline-pairs. -/
def raObj (b1 b2 : Nat) : Obj ℝ := { rows := [exMeta b1, exMeta b2], cells := [[[exCell 2 1, exCell 6 3]]], statNames := [], exact := false }

theorem ra_shaped (b1 b2 : Nat) : Shaped (raObj b1 b2) := by
  intro s p cs h
  match s, p with
  | 0, 0 => injection h with h; subst h; rfl
  | 0, p + 1 => simp [raObj] at h
  | s + 1, p => simp [raObj] at h

theorem ra_groups : RedGroups.getRedBls (2 : Int) 2 raItems = [[101102, 102103], [101103]] := by decide

theorem ra_bls : Antnums.antnumsToBl (1, 2) = 101102 ∧ Antnums.antnumsToBl (2, 3) = 102103 ∧ Antnums.antnumsToBl (1, 3) = 101103 := by
  refine ⟨?_, ?_, ?_⟩ <;> rw [Antnums.antnumsToBl_eq] <;> rfl

/-- C157 at work: the pairs ((1, 2), (2, 3)) and ((1, 2), (1, 2)) with 1 and 3 samples are averaged to `(2 + 3 · 6) / 4`. -/
example : ∃ out v c, RedGroups.getRedBlpairs (RedGroups.getRedBls (2 : Int) 2 [⟨101102, 10, 0⟩, ⟨102103, 11, 1⟩]) [((1, 2), (2, 3)), ((1, 2), (1, 2))] = .ok out ∧
    averageSpectra (fun _ => 0) id { groups := some (out.map (·.map Int.toNat)), weights := none, timeAvg := true, errorField := [], errorWeights := none, normalize := true }
      (raObj 101102102103 101102101102) = .ok v ∧ ((v.cells[0]?.bind (·[0]?)).bind (·[0]?)) = some c ∧ c.data 0 = 5 := by
  obtain ⟨e1, e2, e3⟩ := ra_bls
  have hgr : RedGroups.getRedBls (2 : Int) 2 [⟨101102, 10, 0⟩, ⟨102103, 11, 1⟩] = [[101102, 102103]] := by decide
  obtain ⟨out, ho, hs, _, hval⟩ := C157_redundant_average_partial (circ := fun _ => 0) (so := id) (fun l => List.Perm.refl l) (2 : Int) 2 (by decide) (by decide)
    [⟨101102, 10, 0⟩, ⟨102103, 11, 1⟩] (by decide)
    [((1, 2), (2, 3)), ((1, 2), (1, 2))] (by simp) (by simp [Antnums.ValidBlp, Antnums.ValidAnt]) (by decide)
    (by simp [e1, e2]) (raObj 101102102103 101102101102) (ra_shaped _ _)
    (by intro z; simp [raObj, exMeta, Antnums.antnumsToBlpair_eq]) ⟨0, 0, _, rfl⟩ [] none (by simp) (by simp)
  obtain ⟨v, hv⟩ := hs.2 (by rw [hgr]; simp [pairsIn, e1, e2])
  obtain ⟨cs', hcs', _, hc⟩ := hval v hv 0 0 _ rfl
  obtain ⟨c, hc1, hc2⟩ := hc 0 [101102, 102103] (by rw [hgr]; rfl)
  have hp : pairsIn [101102, 102103] [((1, 2), (2, 3)), ((1, 2), (1, 2))] = [((1, 2), (2, 3)), ((1, 2), (1, 2))] := by simp [pairsIn, e1, e2]
  have i1 : integrations (raObj 101102102103 101102101102) 0 0 (Antnums.antnumsToBlpair ((1, 2), (2, 3))).toNat = [exCell 2 1] := by
    rw [Antnums.antnumsToBlpair_eq]; rfl
  have i2 : integrations (raObj 101102102103 101102101102) 0 0 (Antnums.antnumsToBlpair ((1, 2), (1, 2))).toNat = [exCell 6 3] := by
    rw [Antnums.antnumsToBlpair_eq]; rfl
  have ha : allInts (raObj 101102102103 101102101102) 0 0 [((1, 2), (2, 3)), ((1, 2), (1, 2))] = [exCell 2 1, exCell 6 3] := by
    simp [allInts, i1, i2]
  refine ⟨out, v, c, ho, hv, by rw [hcs']; exact hc1, ?_⟩
  rw [hc2 0 ?_ ?_, hp, ha]
  · simp [wmean, wsum, specWeight, exCell]; norm_num
  · rw [hp]
    intro q hq
    rw [List.mem_cons, List.mem_singleton] at hq
    rcases hq with rfl | rfl
    · simp [allInts, i1, RegularCell, RegularSum, specWeight, exCell, tiny]; norm_num
    · simp [allInts, i2, RegularCell, RegularSum, specWeight, exCell, tiny]; norm_num
  · rw [hp, ha]; simp [specWeight, exCell, tiny]; norm_num

/-- C157 finding: with the pairs ((1, 2), (2, 3)) and ((1, 2), (1, 3)), the redundant group of (1, 3) contains no pair, `get_red_blpairs` returns an empty group for it, and
`average_spectra` refuses the groups. -/
theorem C157_counterexample_empty_group : ∃ out, RedGroups.getRedBlpairs (RedGroups.getRedBls (2 : Int) 2 raItems) [((1, 2), (2, 3)), ((1, 2), (1, 3))] = .ok out ∧
    averageSpectra (fun _ => 0) id { groups := some (out.map (·.map Int.toNat)), weights := none, timeAvg := true, errorField := [], errorWeights := none, normalize := true }
      (raObj 101102102103 101102101103) = .error .value := by
  obtain ⟨e1, e2, e3⟩ := ra_bls
  obtain ⟨out, ho, _, hs, _⟩ := C157_redundant_average_partial (circ := fun _ => 0) (so := id) (fun l => List.Perm.refl l) (2 : Int) 2 (by decide) (by decide) raItems (by decide)
    [((1, 2), (2, 3)), ((1, 2), (1, 3))] (by simp) (by simp [Antnums.ValidBlp, Antnums.ValidAnt]) (by decide)
    (by simp [e1, e2, e3, raItems]) (raObj 101102102103 101102101103) (ra_shaped _ _)
    (by intro z; simp [raObj, exMeta, Antnums.antnumsToBlpair_eq]) ⟨0, 0, _, rfl⟩ [] none (by simp) (by simp)
  exact ⟨out, ho, hs ⟨[101103], by rw [ra_groups]; simp, by simp [pairsIn, e1, e2, e3]⟩⟩

end HeraPspec.Average
