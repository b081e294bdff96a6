import Verif.Model.Bootstrap
import Verif.Props.Average2

/-!
C32: bootstrap resampling.
-/
namespace HeraPspec.Bootstrap
open HeraPspec.UVP (Err mapE)
open HeraPspec.Average
variable {E : Type} [AddCommGroup E] [Module ℝ E]

/-- A possible draw: `n` integers below `n`. -/
def IsDraw (n : Nat) (draw : List Nat) : Prop := draw.length = n ∧ ∀ i ∈ draw, i < n

theorem sum_counts (n : Nat) (draw : List Nat) (h : ∀ i ∈ draw, i < n) : (drawCounts n draw).sum = draw.length := by
  have := sum_by_key (M := Nat) (fun i : Nat => i) (fun _ => 1) draw (List.range n) List.nodup_range
    (fun a ha => List.mem_range.2 (h a ha))
  unfold drawCounts
  rw [show draw.length = (draw.map (fun _ => 1)).sum by simp, ← this]
  congr 1
  apply List.map_congr_left
  intro k _
  rw [List.count_eq_length_filter, List.map_const', List.sum_replicate, smul_eq_mul, mul_one]
  rfl

theorem flatten_cut (as : List (List Nat)) (w : List Nat) (h : w.length = as.flatten.length) : (cut as w).flatten = w := by
  induction as generalizing w with
  | nil => simp at h; simp [cut, h]
  | cons a as ih =>
    simp only [cut, List.flatten_cons]
    rw [ih _ (by simp at h ⊢; omega), List.take_append_drop]

theorem length_cut (as : List (List Nat)) (w : List Nat) : (cut as w).length = as.length := by
  induction as generalizing w with
  | nil => rfl
  | cons a as ih => simp [cut, ih]

/-- C32: for every group and every draw, the weights of all objects together sum to the number of available baseline-pairs;
each pair is listed with one weight, and in the order of the pairs the weights are the numbers of times each was drawn. -/
theorem C32_weights_sum_to_draws (objs : List (List Nat)) (grp draw : List Nat)
    (hd : IsDraw (objs.map (avail grp)).flatten.length draw) :
    ((sampleGroup objs grp draw).map (fun x => x.2.sum)).sum = (objs.map (avail grp)).flatten.length ∧
    (sampleGroup objs grp draw).map (·.1) = objs.map (avail grp) ∧
    ((sampleGroup objs grp draw).map (·.2)).flatten =
      (List.range (objs.map (avail grp)).flatten.length).map (fun i => draw.count i) := by
  obtain ⟨hl, hlt⟩ := hd
  unfold sampleGroup
  simp only []
  set av := objs.map (avail grp) with hav
  have hc : (drawCounts av.flatten.length draw).length = av.flatten.length := by simp [drawCounts]
  have e2 : (av.zip (cut av (drawCounts av.flatten.length draw))).map (·.2) = cut av (drawCounts av.flatten.length draw) := by
    rw [List.map_snd_zip]; rw [length_cut]
  have e1 : (av.zip (cut av (drawCounts av.flatten.length draw))).map (·.1) = av := by
    rw [List.map_fst_zip]; rw [length_cut]
  refine ⟨?_, e1, ?_⟩
  · rw [show (fun x : List Nat × List Nat => x.2.sum) = List.sum ∘ (fun x => x.2) from rfl, ← List.map_map, e2,
      ← List.sum_flatten, flatten_cut _ _ hc, sum_counts _ _ hlt, hl]
  · rw [e2, flatten_cut _ _ hc]; rfl

/-- C32: every pair of the group that is in the object is available, once, and no other. -/
theorem C32_available (grp blps : List Nat) : (avail grp blps).Nodup ∧ ∀ b, b ∈ avail grp blps ↔ b ∈ grp ∧ b ∈ blps := by
  unfold avail
  refine ⟨(Combine.uniq_nodup _).filter _, ?_⟩
  intro b
  simp [Combine.mem_uniq]

theorem mult_counts (n : Nat) (hn : 0 < n) (draw : List Nat) (hd : IsDraw n draw) :
    mult true ((drawCounts n draw).map (fun k : Nat => (k : ℝ))) = drawCounts n draw := by
  have hs : ((drawCounts n draw).map (fun k : Nat => (k : ℝ))).sum = n := by
    have := sum_counts n draw hd.2
    rw [hd.1] at this
    conv_rhs => rw [← this]
    exact (Nat.cast_list_sum (R := ℝ) _).symm
  have hn' : (n : ℝ) ≠ 0 := by exact_mod_cast hn.ne'
  apply C31_integer_weights_partial
  · rw [hs]; exact_mod_cast hn
  · rw [hs, List.map_map]
    have : ((drawCounts n draw).map (fun k : Nat => (k : ℝ))).length = n := by simp [drawCounts]
    rw [this]
    apply List.map_congr_left
    intro k _
    simp [hn']

theorem zip_range_flatMap {β : Type} (l : List Nat) (c : Nat → Nat) (G : Nat × Nat → List β) :
    (l.zip ((List.range l.length).map c)).flatMap G =
      (List.range l.length).flatMap (fun i => (l[i]?).toList.flatMap (fun b => G (b, c i))) := by
  induction l generalizing c with
  | nil => rfl
  | cons a l ih =>
    rw [List.length_cons, List.range_succ_eq_map, List.map_cons, List.zip_cons_cons, List.flatMap_cons, List.flatMap_cons,
      List.map_map, ih (c ∘ Nat.succ), List.flatMap_map]
    congr 1
    simp

theorem sum_draws (n : Nat) (draw : List Nat) (h : ∀ i ∈ draw, i < n) (f : Nat → Nat) :
    ((List.range n).map (fun i => draw.count i * f i)).sum = (draw.map f).sum := by
  rw [← sum_by_key (fun i : Nat => i) f draw (List.range n) List.nodup_range (fun a ha => List.mem_range.2 (h a ha))]
  congr 1
  apply List.map_congr_left
  intro k _
  rw [List.count_eq_length_filter]
  have : (draw.filter (fun a => decide (a = k))).map f = List.replicate (draw.filter (fun a => decide (a = k))).length (f k) := by
    rw [List.eq_replicate_iff]
    refine ⟨by simp, ?_⟩
    intro b hb
    rw [List.mem_map] at hb
    obtain ⟨x, hx, rfl⟩ := hb
    have := (List.mem_filter.1 hx).2
    simp at this; rw [this]
  rw [this, List.sum_replicate, smul_eq_mul]
  congr 2

/-- Drawing with replacement: every pair repeated as often as it was drawn is, up to order, the list of drawn pairs. -/
theorem draws_perm {β : Type} (l : List Nat) (draw : List Nat) (hd : ∀ i ∈ draw, i < l.length) (F : Nat → List β) :
    ((l.zip (drawCounts l.length draw)).flatMap (fun bm => (List.replicate bm.2 (F bm.1)).flatten)).Perm
      (draw.flatMap (fun i => (l[i]?).toList.flatMap F)) := by
  classical
  unfold drawCounts
  rw [zip_range_flatMap, List.perm_iff_count]
  intro b
  rw [List.count_flatMap, List.count_flatMap]
  have h := sum_draws l.length draw hd (fun i => ((l[i]?).toList.flatMap F).count b)
  rw [show (List.count b ∘ fun i => (l[i]?).toList.flatMap F) = fun i => ((l[i]?).toList.flatMap F).count b from rfl, ← h]
  congr 1
  apply List.map_congr_left
  intro i _
  simp only [Function.comp]
  cases l[i]? with
  | none => simp
  | some x => simp [List.count_flatten, List.sum_replicate]

/-- C32: for one object, the bootstrap average of a group is the weighted mean over the drawn baseline-pairs, with replacement:
as many draws as available pairs, a pair drawn twice counts twice. (`l` are the available pairs of the group, `draw` the
drawn positions.) -/
theorem C32_average_over_draws (ta : Bool) (u : Obj E) (s p t d : Nat) (l draw : List Nat) (hl : l ≠ [])
    (hd : IsDraw l.length draw) :
    wmean ((members ta true u s p (l, (drawCounts l.length draw).map (fun k : Nat => (k : ℝ))) t).map
      (fun m => (specWeight none m d, m.data d))) =
    wmean ((draw.flatMap (fun i => (l[i]?).toList.flatMap (fun b =>
      if ta then integrations u s p b else (integrations u s p b)[t]?.toList))).map (fun m => (specWeight none m d, m.data d))) := by
  apply C29_mean_perm
  apply List.Perm.map
  unfold members
  simp only []
  rw [mult_counts l.length (List.length_pos_iff.2 hl) draw hd]
  exact draws_perm l draw hd.2 (fun b => if ta = true then integrations u s p b else (integrations u s p b)[t]?.toList)

/-- C32: a successful call is for at most one object, and returns for it what `average_spectra` returns with the drawn weights,
one group per requested group. -/
theorem C32_call {circ : List ℝ → ℝ} {so : List Nat → List Nat} {u : Obj E} {groups : List (List Nat)} {ta : Bool}
    {draws : List (List Nat)} (hlen : groups.length = draws.length) {r : List (Obj E × List (List ℝ))}
    (h : bootstrapAverage circ so [u] groups ta draws = .ok r) :
    let ava := fun g => avail g (u.rows.map (·.blp))
    ∃ v, r = [(v, List.zipWith (fun g dr => (drawCounts (ava g).length dr).map (fun k : Nat => (k : ℝ))) groups draws)] ∧
      averageSpectra circ so (bootArgs ta (groups.map ava) (List.zipWith
        (fun g dr => (drawCounts (ava g).length dr).map (fun k : Nat => (k : ℝ))) groups draws)) u = .ok v := by
  intro ava
  have hav : ∀ g, avail g (Combine.uniq (u.rows.map (·.blp))) = ava g := by
    intro g
    show List.filter _ _ = List.filter _ _
    congr 1
    funext b
    simp [Combine.mem_uniq]
  have hs : ∀ (gs : List (List Nat)) (ds : List (List Nat)), gs.length = ds.length →
      (List.zipWith (sampleGroup [Combine.uniq (u.rows.map (·.blp))]) gs ds).filterMap (fun smp => (smp[0]?).map (·.1)) = gs.map ava ∧
      (List.zipWith (sampleGroup [Combine.uniq (u.rows.map (·.blp))]) gs ds).filterMap
        (fun smp => (smp[0]?).map (fun x => x.2.map (fun k : Nat => (k : ℝ)))) =
      List.zipWith (fun g dr => (drawCounts (ava g).length dr).map (fun k : Nat => (k : ℝ))) gs ds := by
    intro gs
    induction gs with
    | nil => intro ds _; simp
    | cons g gs ih =>
      intro ds hds
      cases ds with
      | nil => simp at hds
      | cons d ds =>
        obtain ⟨h1, h2⟩ := ih ds (by simpa using hds)
        rw [List.zipWith_cons_cons, List.filterMap_cons, List.filterMap_cons, h1, h2]
        have e : sampleGroup [Combine.uniq (u.rows.map (·.blp))] g d = [(ava g, drawCounts (ava g).length d)] := by
          unfold sampleGroup
          simp only [List.map_cons, List.map_nil, hav, List.flatten_cons, List.flatten_nil, List.append_nil, cut]
          have : (drawCounts (ava g).length d).take (ava g).length = drawCounts (ava g).length d :=
            List.take_of_length_le (by simp [drawCounts])
          rw [this]; rfl
        rw [e]
        exact ⟨rfl, rfl⟩
  obtain ⟨hs1, hs2⟩ := hs groups draws hlen
  unfold bootstrapAverage at h
  rw [if_neg (by simp)] at h
  simp only [List.map_cons, List.map_nil] at h
  split at h
  · cases h
  · have hr : (List.range [u].length).zip [u] = [(0, u)] := rfl
    rw [hr] at h
    simp only [mapE, hs1, hs2] at h
    cases hv : averageSpectra circ so (bootArgs ta (groups.map ava) (List.zipWith
        (fun g dr => (drawCounts (ava g).length dr).map (fun k : Nat => (k : ℝ))) groups draws)) u with
    | error e => rw [hv] at h; cases h
    | ok v =>
      rw [hv] at h
      simp only [Except.ok.injEq] at h
      exact ⟨v, h.symm, rfl⟩

/-- The integrations that the bootstrap averages for one group: those of the drawn pairs, with replacement (all their integrations
when averaging in time, else integration `t` of each). -/
def drawnIntegrations (ta : Bool) (u : Obj E) (s p t : Nat) (pairs draw : List Nat) : List (Cell E) :=
  draw.flatMap (fun i => (pairs[i]?).toList.flatMap (fun b =>
    if ta then integrations u s p b else (integrations u s p b)[t]?.toList))

theorem groups_prefix {so : List Nat → List Nat} {a : Args} {G : List (List Nat)} {u : Obj E} (ha : a.groups = some G)
    {gs : List (List Nat × List ℝ)} (h : groupsOf so a u = .ok gs) (hW : (weightsOf a G).length = G.length) {i : Nat}
    {g : List Nat} {w : List ℝ} (hg : G[i]? = some g) (hw : (weightsOf a G)[i]? = some w) :
    gs[i]? = some (g, w) ∧ g ≠ [] := by
  unfold groupsOf at h
  rw [ha] at h
  simp only [] at h
  have hi : i < G.length := (List.getElem?_eq_some_iff.1 hg).1
  split at h
  · cases h
  split at h
  · cases h
  rename_i c1
  have hne : g ≠ [] := by
    intro h0
    apply c1
    rw [List.any_eq_true]
    exact ⟨g, List.mem_of_getElem? hg, by rw [h0]; rfl⟩
  refine ⟨?_, hne⟩
  split at h
  · cases h
  · split at h
    · cases h
    · split at h
      · cases h
      · simp only [Except.ok.injEq] at h
        rw [← h, List.zip_append hW.symm, List.getElem?_append_left (by simp [hW, hi]), List.getElem?_zip_eq_some]
        exact ⟨hg, hw⟩

/-- C32, the result: if the call for one object succeeds, then in every window and polarization the output rows are, for every
requested group in order, the weighted means over the pairs of the group drawn with replacement (followed by blocks for
pairs in no group). -/
theorem C32_result {circ : List ℝ → ℝ} {so : List Nat → List Nat} {u : Obj E} {groups : List (List Nat)} {ta : Bool}
    {draws : List (List Nat)} (hlen : groups.length = draws.length) {r : List (Obj E × List (List ℝ))}
    (h : bootstrapAverage circ so [u] groups ta draws = .ok r) :
    ∃ v ws, r = [(v, ws)] ∧ ∀ s p cs, (u.cells[s]?.bind (·[p]?)) = some cs → ∃ blocks : List (List (Cell E)),
      (v.cells[s]?.bind (·[p]?)) = some blocks.flatten ∧
      ∀ (i : Nat) (g dr : List Nat), groups[i]? = some g → draws[i]? = some dr →
        let pairs := avail g (u.rows.map (·.blp))
        IsDraw pairs.length dr → ∃ block : List (Cell E), blocks[i]? = some block ∧ ∀ (t : Nat) (c : Cell E), block[t]? = some c → ∀ d,
          (∀ b ∈ pairs, ∀ c ∈ integrations u s p b, RegularCell none c) →
          (ta = true → ∀ b ∈ pairs, RegularSum none (integrations u s p b) d) →
          tiny ≤ ((drawnIntegrations ta u s p t pairs dr).map (fun c => specWeight none c d)).sum →
          c.data d = wmean ((drawnIntegrations ta u s p t pairs dr).map (fun m => (specWeight none m d, m.data d))) := by
  obtain ⟨v, hr, hv⟩ := C32_call hlen h
  refine ⟨v, _, hr, ?_⟩
  intro s p cs hc
  obtain ⟨gs, hgs, hres⟩ := C29_weighted_mean hv
  obtain ⟨blocks, hb, hf⟩ := hres s p cs hc
  refine ⟨blocks, hb, ?_⟩
  intro i g dr hg hdr pairs hd
  obtain ⟨hgi, hne⟩ : gs[i]? = some (pairs, (drawCounts pairs.length dr).map (fun k : Nat => (k : ℝ))) ∧ pairs ≠ [] := by
    apply groups_prefix rfl hgs
    · simp [weightsOf, bootArgs, hlen]
    · rw [List.getElem?_map, hg]; rfl
    · show (List.zipWith _ _ _)[i]? = _
      rw [List.getElem?_zipWith, hg, hdr]
  obtain ⟨block, hbl, hcell⟩ := UVP.forall₂_getElem_left hf hgi
  refine ⟨block, hbl, ?_⟩
  intro t c hct d h1 h2 h3
  have hm := C32_average_over_draws ta u s p t d pairs dr hne hd
  have hperm : (members ta true u s p (pairs, (drawCounts pairs.length dr).map (fun k : Nat => (k : ℝ))) t).Perm
      (drawnIntegrations ta u s p t pairs dr) := by
    unfold members
    simp only []
    rw [mult_counts pairs.length (List.length_pos_iff.2 hne) dr hd]
    exact draws_perm pairs dr hd.2 (fun b => if ta = true then integrations u s p b else (integrations u s p b)[t]?.toList)
  have := hcell t c hct d ⟨h1, h2, by
    refine le_of_le_of_eq h3 ?_
    exact ((hperm.map _).sum_eq).symm⟩
  rw [this]
  exact hm

/-- C32: a pair that no object holds is refused. -/
theorem C32_unknown_pair_refused (circ : List ℝ → ℝ) (so : List Nat → List Nat) (u : Obj E) (groups : List (List Nat)) (ta : Bool)
    (draws : List (List Nat)) (b : Nat) (hb : b ∈ groups.flatten) (hn : b ∉ u.rows.map (·.blp)) :
    bootstrapAverage circ so [u] groups ta draws = .error (.other .key) := by
  unfold bootstrapAverage
  rw [if_neg (by simp)]
  simp only [List.map_cons, List.map_nil, List.flatten_cons, List.flatten_nil, List.append_nil]
  rw [if_pos]
  rw [Bool.not_eq_true', List.all_eq_false]
  exact ⟨b, (Combine.mem_uniq _ _).2 hb, by simpa [Combine.mem_uniq] using hn⟩

/-- C32 finding: with two or more objects the call always raises (TypeError from `select_common(pols=True)`). -/
theorem C32_finding_two_objects_raise (circ : List ℝ → ℝ) (so : List Nat → List Nat) (us : List (Obj E)) (h : 1 < us.length)
    (groups : List (List Nat)) (ta : Bool) (draws : List (List Nat)) :
    bootstrapAverage circ so us groups ta draws = .error .typeError := by
  unfold bootstrapAverage
  rw [if_pos h]

/-- A concrete draw: of three available pairs the second is drawn twice and the first once. -/
example : sampleGroup [[7, 8, 9]] [9, 7, 8, 10] [1, 0, 1] = [([9, 7, 8], [1, 2, 0])] := by decide
example : IsDraw ([[7, 8, 9]].map (avail [9, 7, 8, 10])).flatten.length [1, 0, 1] := by unfold IsDraw; decide

end HeraPspec.Bootstrap
