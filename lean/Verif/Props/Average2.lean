import Verif.Props.Average

/-!
C79-C81: metadata rows, number of samples, covariances and window functions of `average_spectra`; and a concrete run.
-/
namespace HeraPspec.Average
open HeraPspec.UVP (Err mapE mapE_ok_iff)
variable {E : Type} [AddCommGroup E] [Module ℝ E]

/-- Every window and polarization has one cell per metadata row. -/
def Shaped (u : Obj E) : Prop := ∀ (s p : Nat) (cs : List (Cell E)), (u.cells[s]?.bind (·[p]?)) = some cs → cs.length = u.rows.length

/-! ### C79: rows and metadata -/

/-- The metadata rows of a baseline-pair. -/
def metaOf (u : Obj E) (b : Nat) : List Meta := u.rows.filter (fun m => m.blp = b)

theorem filterMap_filter_range {α : Type} (l : List α) (P : α → Bool) :
    ((List.range l.length).filter (fun i => (l[i]?.map P).getD false)).filterMap (l[·]?) = l.filter P := by
  induction l with
  | nil => rfl
  | cons a l ih =>
    rw [List.length_cons, List.range_succ_eq_map, List.filter_cons, List.filter_map]
    have ih' : (List.map Nat.succ (List.filter ((fun i => (((a :: l)[i]?).map P).getD false) ∘ Nat.succ) (List.range l.length))).filterMap
        ((a :: l)[·]?) = l.filter P := by
      rw [List.filterMap_map, ← ih]
      simp [Function.comp_def]
    by_cases hP : P a
    · simp only [List.getElem?_cons_zero, Option.map_some, Option.getD_some, hP, if_true, List.filterMap_cons, ih',
        List.filter_cons_of_pos hP]
    · simp only [List.getElem?_cons_zero, Option.map_some, Option.getD_some, hP, Bool.false_eq_true, if_false, ih',
        List.filter_cons_of_neg hP]

theorem indices_meta {u : Obj E} {b : Nat} {is : List Nat} (h : indices u b = .ok is) :
    is.filterMap (u.rows[·]?) = metaOf u b := by
  obtain ⟨rfl, _⟩ := indices_ok h
  unfold metaOf
  rw [← filterMap_filter_range u.rows (fun m => decide (m.blp = b))]
  congr 2
  funext i
  cases u.rows[i]? <;> simp

theorem length_integrations {u : Obj E} (hu : Shaped u) {s p : Nat} {cs : List (Cell E)}
    (hc : (u.cells[s]?.bind (·[p]?)) = some cs) (b : Nat) : (integrations u s p b).length = (metaOf u b).length := by
  unfold integrations metaOf
  rw [hc, List.length_map, Option.getD_some]
  have hlen := hu s p cs hc
  generalize u.rows = rows at *
  clear hu hc
  induction rows generalizing cs with
  | nil => simp
  | cons m rows ih =>
    cases cs with
    | nil => simp at hlen
    | cons c cs =>
      rw [List.zip_cons_cons, List.filter_cons, List.filter_cons]
      have := ih (cs := cs) (by simpa using hlen)
      by_cases hb : m.blp = b
      · simp [hb] at this ⊢; exact this
      · simp [hb] at this ⊢; exact this

/-- The times of `r` are the means of those of the rows `l`, and its LSTs their circular means `circ`. -/
structure MeanTimes (circ : List ℝ → ℝ) (l : List Meta) (r : Meta) : Prop where
  time1 : r.time1 = (l.map (·.time1)).sum / l.length
  time2 : r.time2 = (l.map (·.time2)).sum / l.length
  timeAvg : r.timeAvg = (l.map (·.timeAvg)).sum / l.length
  lst1 : r.lst1 = circ (l.map (·.lst1))
  lst2 : r.lst2 = circ (l.map (·.lst2))
  lstAvg : r.lstAvg = circ (l.map (·.lstAvg))

theorem meanTimes_groupMeta (circ : List ℝ → ℝ) (ms : List Meta) (b : Nat) : MeanTimes circ ms
    { blp := b, time1 := mean (ms.map (·.time1)), time2 := mean (ms.map (·.time2)),
      timeAvg := mean (ms.map (·.timeAvg)), lst1 := circ (ms.map (·.lst1)), lst2 := circ (ms.map (·.lst2)),
      lstAvg := circ (ms.map (·.lstAvg)) } :=
  ⟨by simp [mean], by simp [mean], by simp [mean], rfl, rfl, rfl⟩

/-- C79: the statistics kept by an average are exactly those named by `error_field` and `error_weights`, and all of them were in the object. -/
theorem C79_statistics_kept {circ : List ℝ → ℝ} {so : List Nat → List Nat} {a : Args} {u v : Obj E} (h : averageSpectra circ so a u = .ok v) (s : String) :
    (s ∈ v.statNames ↔ s ∈ a.errorField ∨ a.errorWeights = some s) ∧ (s ∈ v.statNames → s ∈ u.statNames) := by
  unfold averageSpectra at h
  split at h
  · cases h
  split at h
  · cases h
  rename_i hst
  split at h
  · cases h
  split at h
  · cases h
  have := Except.ok.inj h; subst this
  simp only [Bool.not_eq_true', Bool.not_eq_false, List.all_eq_true, decide_eq_true_eq] at hst
  refine ⟨?_, hst s⟩
  show s ∈ statNames a ↔ _
  unfold statNames
  split
  · rename_i he; simp [he]
  · rename_i t he
    rw [he]
    split
    · rename_i ht
      constructor
      · exact Or.inl
      · rintro (h | h)
        · exact h
        · rw [← Option.some.inj h]; exact ht
    · simp [eq_comm]

/-- C79: in a successful average the metadata rows and the data rows of every window and polarization consist of one block per
group, of equal length, provided all pairs of a group have equally many integrations or the average is over time; a block
has one row per integration (one row if averaging in time), labelled by the zeroth pair of the group, with the times of that
pair (their means if averaging in time). In particular the object stays well shaped. -/
theorem C79_rows_match_metadata {circ : List ℝ → ℝ} {so : List Nat → List Nat} {a : Args} {u v : Obj E}
    (hu : Shaped u) (h : averageSpectra circ so a u = .ok v) : ∃ gs ms, groupsOf so a u = .ok gs ∧ v.rows = ms.flatten ∧
      List.Forall₂ (fun (g : List Nat × List ℝ) (m : List Meta) => ∃ b0, g.1.head? = some b0 ∧ (∀ r ∈ m, r.blp = b0) ∧
        (if a.timeAvg then ∃ r, m = [r] ∧ MeanTimes circ (metaOf u b0) r
         else m = metaOf u b0)) gs ms ∧
      ((a.timeAvg = true ∨ ∀ g ∈ gs, ∀ b ∈ g.1, ∀ b' ∈ g.1, (metaOf u b).length = (metaOf u b').length) →
        Shaped v ∧ ∀ (s p : Nat) (cs : List (Cell E)), (u.cells[s]?.bind (·[p]?)) = some cs → ∃ blocks : List (List (Cell E)),
          (v.cells[s]?.bind (·[p]?)) = some blocks.flatten ∧
          List.Forall₂ (fun (m : List Meta) (b : List (Cell E)) => m.length = b.length) ms blocks) := by
  obtain ⟨gs, hgs, ⟨ms, hms, hmeta⟩, hlen, _, _, hpols, hcells⟩ := averageSpectra_ok h
  have hM : List.Forall₂ (fun (g : List Nat × List ℝ) (m : List Meta) => ∃ b0, g.1.head? = some b0 ∧ (∀ r ∈ m, r.blp = b0) ∧
        (if a.timeAvg then ∃ r, m = [r] ∧ MeanTimes circ (metaOf u b0) r
         else m = metaOf u b0)) gs ms := by
    apply hmeta.imp
    intro g m hm
    unfold groupMeta at hm
    cases hg1 : g.1 with
    | nil => rw [hg1] at hm; cases hm
    | cons b bs =>
      rw [hg1] at hm
      simp only [] at hm
      cases hi : indices u b with
      | error e => rw [hi] at hm; cases hm
      | ok is =>
        rw [hi] at hm
        simp only [Except.ok.injEq] at hm
        rw [indices_meta hi] at hm
        refine ⟨b, rfl, ?_, ?_⟩
        · intro r hr
          rw [← hm] at hr
          split at hr
          · simp at hr; rw [hr]
          · simp at hr; obtain ⟨x, _, rfl⟩ := hr; rfl
        · cases hta : a.timeAvg with
          | true => rw [hta] at hm; simp only [if_true] at hm ⊢; exact ⟨_, hm.symm, meanTimes_groupMeta _ _ _⟩
          | false =>
            rw [hta] at hm
            simp only [Bool.false_eq_true, if_false] at hm ⊢
            rw [← hm]
            conv_rhs => rw [← List.map_id (metaOf u b)]
            apply List.map_congr_left
            intro r hr
            unfold metaOf at hr
            have := (List.mem_filter.1 hr).2
            simp at this
            rw [← this]; rfl
  refine ⟨gs, ms, hgs, hms, hM, ?_⟩
  intro heq
  have hB : ∀ (s p : Nat) (cs : List (Cell E)), (u.cells[s]?.bind (·[p]?)) = some cs → ∃ blocks : List (List (Cell E)),
          (v.cells[s]?.bind (·[p]?)) = some blocks.flatten ∧
          List.Forall₂ (fun (m : List Meta) (b : List (Cell E)) => m.length = b.length) ms blocks := by
    intro s p cs hc
    obtain ⟨blocks, hb, hf⟩ := hcells s p cs hc
    refine ⟨blocks, hb, ?_⟩
    have key : ∀ g ∈ gs, ∀ m b, (∃ b0, g.1.head? = some b0 ∧ (∀ r ∈ m, r.blp = b0) ∧
        (if a.timeAvg then ∃ r, m = [r] ∧ MeanTimes circ (metaOf u b0) r
         else m = metaOf u b0)) → groupRows a.errorWeights a.timeAvg a.normalize u s p g = .ok b → m.length = b.length := by
      intro g hg m b hm hb
      obtain ⟨b0, hb0, _, hm⟩ := hm
      obtain ⟨_, _, n, ⟨bm, hbm, hpos⟩, hn, rfl⟩ := groupRows_ok hb
      rw [List.length_map, List.length_range, ← hn bm hbm hpos]
      unfold accs
      cases hta : a.timeAvg with
      | true =>
        rw [hta] at hm
        simp only [if_true] at hm ⊢
        obtain ⟨r, rfl, _⟩ := hm
        rfl
      | false =>
        rw [hta] at hm heq
        simp only [Bool.false_eq_true, if_false] at hm ⊢
        rw [hm, List.length_map, length_integrations hu hc]
        have h1 : b0 ∈ g.1 := List.mem_of_mem_head? (by rw [hb0]; rfl)
        exact (heq.resolve_left (by simp)) g hg b0 h1 bm.1 (List.of_mem_zip hbm).1
    clear hb hmeta hms hlen hpols hcells hgs heq
    induction hM generalizing blocks with
    | nil => cases hf; exact .nil
    | cons h1 h2 ih =>
      cases hf with
      | cons h3 h4 =>
        exact .cons (key _ List.mem_cons_self _ _ h1 h3) (ih _ h4 (fun g hg => key g (List.mem_cons_of_mem _ hg)))
  refine ⟨?_, hB⟩
  intro s p cs' hc'
  cases hvs : v.cells[s]? with
  | none => rw [hvs] at hc'; cases hc'
  | some qs =>
    have hs : s < u.cells.length := by
      rw [← hlen]; exact (List.getElem?_eq_some_iff.1 hvs).1
    obtain ⟨qs', hq1, hq2⟩ := hpols s _ (List.getElem?_eq_getElem hs)
    rw [hvs] at hq1
    cases hq1
    rw [hvs] at hc'
    simp only [Option.bind_some] at hc'
    have hp : p < (u.cells[s]).length := by rw [← hq2]; exact (List.getElem?_eq_some_iff.1 hc').1
    obtain ⟨blocks, hb, hf⟩ := hB s p (u.cells[s])[p] (by simp [List.getElem?_eq_getElem hs, List.getElem?_eq_getElem hp])
    rw [hvs] at hb
    simp only [Option.bind_some] at hb
    rw [hc'] at hb
    cases hb
    rw [hms, List.length_flatten, List.length_flatten]
    congr 1
    clear * - hf
    induction hf with
    | nil => rfl
    | cons h1 _ ih => simp [h1, ih]

/-! ### C80: number of samples -/

theorem mult_ones {α : Type} (l : List α) (nz : Bool) (hl : l ≠ []) (h : nz = true ∨ l.length = 1) :
    mult nz (l.map (fun _ => (1 : ℝ))) = l.map (fun _ => 1) := by
  have hlen : (0 : ℝ) < l.length := by
    have : 0 < l.length := List.length_pos_iff.2 hl
    exact_mod_cast this
  unfold mult
  rw [List.map_map]
  apply List.map_congr_left
  intro x _
  rw [List.map_const', List.length_replicate, List.sum_replicate, Function.comp]
  rcases h with rfl | h1
  · simp [div_self hlen.ne']
  · rw [h1]; cases nz <;> simp

theorem sum_range_getElem {M : Type} [AddCommMonoid M] {α : Type} (l : List α) (q : α → M) :
    ((List.range l.length).map (fun t => ((l[t]?).toList.map q).sum)).sum = (l.map q).sum := by
  induction l with
  | nil => rfl
  | cons a l ih =>
    rw [List.length_cons, List.range_succ_eq_map, List.map_cons, List.sum_cons, List.map_map, List.map_cons, List.sum_cons]
    congr 1
    · simp

theorem sum_comm_list {α β M : Type} [AddCommMonoid M] (l : List α) (k : List β) (f : α → β → M) :
    (l.map (fun a => (k.map (fun b => f a b)).sum)).sum = (k.map (fun b => (l.map (fun a => f a b)).sum)).sum := by
  induction l with
  | nil => simp
  | cons a l ih => simp [ih, List.sum_map_add]

theorem zip_ones {α : Type} (l : List α) : l.zip (l.map (fun _ => 1)) = l.map (fun b => (b, 1)) := by
  induction l with
  | nil => rfl
  | cons a l ih => rw [List.map_cons, List.zip_cons_cons, ih]; rfl

/-- The total number of samples in a block. -/
theorem block_nsmp {errw : Option String} {ta nz : Bool} {u : Obj E} {s p : Nat} {g : List Nat × List ℝ}
    {r : List (Cell E)} (h : groupRows errw ta nz u s p g = .ok r) (hw : mult nz g.2 = g.1.map (fun _ => 1)) :
    (r.map (·.nsmp)).sum = (g.1.map (fun b => ((integrations u s p b).map (·.nsmp)).sum)).sum := by
  obtain ⟨_, _, n, _, hn, rfl⟩ := groupRows_ok h
  have hn' : ∀ b ∈ g.1, (accs errw ta u s p b).length = n := by
    intro b hb
    exact hn (b, 1) (by rw [hw, zip_ones]; exact List.mem_map.2 ⟨b, hb, rfl⟩) Nat.one_pos
  have hacc : ∀ b, ((accs errw ta u s p b).map (·.nsmp)).sum = ((integrations u s p b).map (·.nsmp)).sum := by
    intro b
    unfold accs
    cases ta with
    | true => simp [timeMean, prep, Function.comp_def]
    | false => simp [prep, Function.comp_def]
  rw [List.map_map]
  have : ((fun x : Cell E => x.nsmp) ∘ fun t => groupMean u.exact (accMembers errw ta nz u s p g t)) =
      fun t => (g.1.map (fun b => (((accs errw ta u s p b)[t]?).toList.map (·.nsmp)).sum)).sum := by
    funext t
    simp only [Function.comp, groupMean]
    unfold accMembers
    rw [hw, zip_ones, sum_flatMap, List.map_map]
    congr 1
    apply List.map_congr_left
    intro b _
    simp
  rw [this, sum_comm_list]
  congr 1
  apply List.map_congr_left
  intro b hb
  rw [← hacc, ← sum_range_getElem (accs errw ta u s p b), hn' b hb]

theorem sum_by_key {α M : Type} [AddCommMonoid M] (key : α → Nat) (q : α → M) (l : List α) (ks : List Nat) (hks : ks.Nodup)
    (h : ∀ a ∈ l, key a ∈ ks) : (ks.map (fun k => ((l.filter (fun a => key a = k)).map q).sum)).sum = (l.map q).sum := by
  induction l with
  | nil => simp [sum_zero_of]
  | cons a l ih =>
    rw [List.map_cons, List.sum_cons, ← ih (fun b hb => h b (List.mem_cons_of_mem _ hb))]
    have hmem := h a List.mem_cons_self
    have : ∀ k, (((a :: l).filter (fun b => key b = k)).map q).sum =
        (if key a = k then q a else 0) + ((l.filter (fun b => key b = k)).map q).sum := by
      intro k
      rw [List.filter_cons]
      by_cases hk : key a = k <;> simp [hk]
    simp only [this, List.sum_map_add]
    congr 1
    clear * - hks hmem
    induction ks with
    | nil => cases hmem
    | cons k ks ih =>
      rw [List.map_cons, List.sum_cons]
      rw [List.nodup_cons] at hks
      rw [List.mem_cons] at hmem
      by_cases hk : key a = k
      · rw [if_pos hk, sum_zero_of, add_zero]
        intro k' hk'
        rw [if_neg]
        rintro rfl
        exact hks.1 (hk ▸ hk')
      · rw [if_neg hk, zero_add]
        exact ih hks.2 (hmem.resolve_left hk)

/-- C80: if no weights are given and every baseline-pair of the object is in exactly one group, the total number of samples is
conserved by the average, in every window and polarization. -/
theorem C80_nsample_conserved {circ : List ℝ → ℝ} {so : List Nat → List Nat} (hso : ∀ l, (so l).Perm l) {a : Args} {u v : Obj E}
    (hu : Shaped u) (h : averageSpectra circ so a u = .ok v) (hw : a.weights = none) (hnz : a.normalize = true)
    (hone : ∀ gs, a.groups = some gs → gs.flatten.Nodup ∧ (∀ b ∈ gs.flatten, b ∈ u.rows.map (·.blp)) ∧
      (u.exact = true → ∀ b ∈ u.rows.map (·.blp), b ∈ gs.flatten))
    (s p : Nat) (cs : List (Cell E)) (hc : (u.cells[s]?.bind (·[p]?)) = some cs) :
    ∃ cs', (v.cells[s]?.bind (·[p]?)) = some cs' ∧ (cs'.map (·.nsmp)).sum = (cs.map (·.nsmp)).sum := by
  obtain ⟨gs, hgs, hmeta, _, _, _, _, hcells⟩ := averageSpectra_ok h
  obtain ⟨hall, hgr⟩ := C29_groups hso hgs
  obtain ⟨blocks, hb, hf⟩ := hcells s p cs hc
  refine ⟨_, hb, ?_⟩
  have hnd : (gs.map (·.1)).flatten.Nodup ∧ ∀ b, b ∈ (gs.map (·.1)).flatten ↔ b ∈ u.rows.map (·.blp) := by
    cases hg : a.groups with
    | none => rw [hg] at hgr; exact ⟨hgr.1, hgr.2.2⟩
    | some given =>
      rw [hg] at hgr
      obtain ⟨extra, he, hen, hem⟩ := hgr
      obtain ⟨h1, h2, h3⟩ := hone given hg
      have hfl : (extra.map (fun b => [b])).flatten = extra := by
        clear * -
        induction extra with
        | nil => rfl
        | cons a l ih => simp [ih]
      rw [he, List.flatten_append, hfl]
      refine ⟨?_, ?_⟩
      · rw [List.nodup_append]
        refine ⟨h1, hen, ?_⟩
        rintro x hx y hy rfl
        exact ((hem x).1 hy).2.2 hx
      · intro b
        rw [List.mem_append, hem]
        constructor
        · rintro (hb | hb)
          · exact h2 b hb
          · exact hb.2.1
        · intro hb
          by_cases hbf : b ∈ given.flatten
          · exact Or.inl hbf
          · right
            refine ⟨?_, hb, hbf⟩
            cases hex : u.exact with
            | false => rfl
            | true => exact absurd (h3 hex b hb) hbf
  have hsum : ((blocks.flatten).map (·.nsmp)).sum =
      ((gs.map (·.1)).flatten.map (fun b => ((integrations u s p b).map (·.nsmp)).sum)).sum := by
    clear hgr hnd hgs hcells hb hmeta
    induction hf with
    | nil => rfl
    | @cons g b gs bs h1 h2 ih =>
      rw [List.flatten_cons, List.map_append, List.sum_append, List.map_cons, List.flatten_cons, List.map_append,
        List.sum_append, ih (fun g hg => hall g (List.mem_cons_of_mem _ hg))]
      congr 1
      obtain ⟨hne, hwt⟩ := hall g List.mem_cons_self
      rw [block_nsmp h1]
      rw [hwt hw]
      exact mult_ones _ _ hne (Or.inl hnz)
  rw [hsum]
  have hlen := hu s p cs hc
  have e : ∀ b, integrations u s p b = ((u.rows.zip cs).filter (fun x => x.1.blp = b)).map (·.2) := by
    intro b; unfold integrations; rw [hc]; rfl
  simp only [e, List.map_map]
  have hk := sum_by_key (fun x : Meta × Cell E => x.1.blp) (fun x => x.2.nsmp) (u.rows.zip cs) (gs.map (·.1)).flatten hnd.1
    (by
      intro x hx
      rw [hnd.2]
      exact List.mem_map_of_mem (List.of_mem_zip hx).1)
  simp only [Function.comp_def] at hk ⊢
  rw [hk]
  have : (u.rows.zip cs).map (fun x => x.2.nsmp) = ((u.rows.zip cs).map Prod.snd).map (·.nsmp) := by rw [List.map_map]; rfl
  rw [this, List.map_snd_zip (by omega)]

/-! ### C81: covariances and window functions -/

/-- C81: the averaged covariance between delays `d` and `e` is that of the weighted means of independent integrations,
`sum w_d w_e C_de / (sum w_d * sum w_e)`. -/
theorem C81_covariance {circ : List ℝ → ℝ} {so : List Nat → List Nat} {a : Args} {u v : Obj E}
    (h : averageSpectra circ so a u = .ok v) : ∃ gs, groupsOf so a u = .ok gs ∧
      ∀ s p cs, (u.cells[s]?.bind (·[p]?)) = some cs → ∃ blocks : List (List (Cell E)),
        (v.cells[s]?.bind (·[p]?)) = some blocks.flatten ∧
        List.Forall₂ (fun g block => ∀ t c, block[t]? = some c → ∀ d e, Regular a u s p g t d → Regular a u s p g t e →
          let ms := members a.timeAvg a.normalize u s p g t
          c.cov d e = (ms.map (fun m => specWeight a.errorWeights m d * specWeight a.errorWeights m e * m.cov d e)).sum /
            ((ms.map (fun m => specWeight a.errorWeights m d)).sum * (ms.map (fun m => specWeight a.errorWeights m e)).sum))
          gs blocks := by
  obtain ⟨gs, hgs, _, _, _, _, _, hcells⟩ := averageSpectra_ok h
  refine ⟨gs, hgs, ?_⟩
  intro s p cs hc
  obtain ⟨blocks, hb, hf⟩ := hcells s p cs hc
  refine ⟨blocks, hb, hf.imp ?_⟩
  intro g block hg t c hbt d e hd he
  obtain ⟨ht, rfl⟩ := block_cell hg hbt
  simp only [groupMean]
  rw [accMembers_w hd ht, accMembers_w he ht, clipTiny_eq hd.total, clipTiny_eq he.total, div_div]
  congr 1
  apply sum_members
  · exact ht
  · intro _ b hb c hc
    show c.cov d e * weight _ c d * weight _ c e = _
    rw [weight_eq _ c (hd.cells b hb c hc), weight_eq _ c (hd.cells b hb c hc)]; ring
  · intro hta b hb
    have hs : ((((integrations u s p b).map (prep a.errorWeights)).map
        (fun x => x.cov d e * x.w d * x.w e)).sum) = ((integrations u s p b).map
        (fun m => specWeight a.errorWeights m d * specWeight a.errorWeights m e * m.cov d e)).sum := by
      apply sum_map_prep
      intro c hc
      show c.cov d e * weight _ c d * weight _ c e = _
      rw [weight_eq _ c (hd.cells b hb c hc), weight_eq _ c (hd.cells b hb c hc)]; ring
    rw [timeMean_w _ _ (hd.cells b hb), timeMean_w _ _ (he.cells b hb)]
    have hcov : (timeMean ((integrations u s p b).map (prep a.errorWeights))).cov d e =
        ((integrations u s p b).map (fun m => specWeight a.errorWeights m d * specWeight a.errorWeights m e * m.cov d e)).sum /
          clipTiny ((integrations u s p b).map (fun c => specWeight a.errorWeights c d)).sum /
          clipTiny ((integrations u s p b).map (fun c => specWeight a.errorWeights c e)).sum := by
      unfold timeMean
      simp only []
      rw [hs, timeMean_ws _ _ (hd.cells b hb), timeMean_ws _ _ (he.cells b hb)]
    rw [hcov]
    rcases hd.pair hta b hb with h0 | h1
    · rw [sum_zero_of h0, sum_zero_of (f := fun m => specWeight a.errorWeights m d * specWeight a.errorWeights m e * m.cov d e)
        (fun c hc => by rw [h0 c hc]; ring)]
      ring
    · rcases he.pair hta b hb with h0 | h2
      · rw [sum_zero_of h0, sum_zero_of (f := fun m => specWeight a.errorWeights m d * specWeight a.errorWeights m e * m.cov d e)
          (fun c hc => by rw [h0 c hc]; ring)]
        ring
      · rw [clipTiny_eq h1, clipTiny_eq h2]
        have := lt_of_lt_of_le tiny_pos h1
        have := lt_of_lt_of_le tiny_pos h2
        field_simp

/-- C81 (partial: approximate window functions): the averaged window function is the weighted mean of the window functions. For
exact window functions the code omits the division by the total weight: `c.win` is the weighted *sum*. Missing: exact window functions, for which the claim is false of the code. -/
theorem C81_window_partial {circ : List ℝ → ℝ} {so : List Nat → List Nat} {a : Args} {u v : Obj E}
    (h : averageSpectra circ so a u = .ok v) : ∃ gs, groupsOf so a u = .ok gs ∧
      ∀ s p cs, (u.cells[s]?.bind (·[p]?)) = some cs → ∃ blocks : List (List (Cell E)),
        (v.cells[s]?.bind (·[p]?)) = some blocks.flatten ∧
        List.Forall₂ (fun g block => ∀ t c, block[t]? = some c → ∀ d, Regular a u s p g t d → ∀ e,
          let ms := members a.timeAvg a.normalize u s p g t
          (u.exact = false → c.win d e = wmean (ms.map (fun m => (specWeight a.errorWeights m d, m.win d e)))) ∧
          (u.exact = true → c.win d e = (ms.map (fun m => specWeight a.errorWeights m d * m.win d e)).sum)) gs blocks := by
  obtain ⟨gs, hgs, _, _, _, _, _, hcells⟩ := averageSpectra_ok h
  refine ⟨gs, hgs, ?_⟩
  intro s p cs hc
  obtain ⟨blocks, hb, hf⟩ := hcells s p cs hc
  refine ⟨blocks, hb, hf.imp ?_⟩
  intro g block hg t c hbt d hd e
  obtain ⟨ht, rfl⟩ := block_cell hg hbt
  have hsum : ((accMembers a.errorWeights a.timeAvg a.normalize u s p g t).map (fun x => x.win d e * x.w d)).sum =
      ((members a.timeAvg a.normalize u s p g t).map (fun m => specWeight a.errorWeights m d * m.win d e)).sum := by
    apply sum_members
    · exact ht
    · intro _ b hb c hc
      show c.win d e * weight _ c d = _
      rw [weight_eq _ c (hd.cells b hb c hc), mul_comm]
    · intro hta b hb
      exact timeMean_scalar _ _ (hd.cells b hb) d (hd.pair hta b hb) (fun x => x.win d e) (fun c => c.win d e) (fun _ _ => rfl)
  intro ms
  simp only [groupMean]
  rw [hsum, accMembers_w hd ht, clipTiny_eq hd.total]
  constructor
  · intro hx
    rw [hx]
    simp only [Bool.false_eq_true, if_false]
    unfold wmean wsum
    simp only [List.map_map, Function.comp_def, smul_eq_mul]
    rw [div_eq_inv_mul]
  · intro hx
    rw [hx]; simp only [if_true]; rfl

/-! ### A concrete run -/

/-- One integration with value `x`. -/
def exCell (x n : ℝ) : Cell ℝ :=
  { data := fun _ => x, wgts := fun _ => 1, ints := 1, nsmp := n, stat := fun _ _ => some x, cov := fun _ _ => x, win := fun _ _ => 1 }

/-- Metadata row. -/
def exMeta (b : Nat) : Meta := { blp := b, time1 := 0, time2 := 0, timeAvg := 0, lst1 := 0, lst2 := 0, lstAvg := 0 }

/-- Two baseline-pairs with one integration each. -/
def exObj (exact : Bool) : Obj ℝ :=
  { rows := [exMeta 1, exMeta 2], cells := [[[exCell 2 1, exCell 6 3]]], statNames := ["P_N"], exact := exact }

/-- Average the two pairs. -/
def exArgs : Args :=
  { groups := some [[1, 2]], weights := none, timeAvg := false, errorField := ["P_N"], errorWeights := none, normalize := true }

theorem ex_groups (x : Bool) : groupsOf id exArgs (exObj x) = .ok [([1, 2], [1, 1])] := by
  unfold groupsOf
  simp only [exArgs, exObj, exMeta, weightsOf, Combine.uniq]
  cases x <;> rfl

theorem ex_ints (x : Bool) : integrations (exObj x) 0 0 1 = [exCell 2 1] ∧ integrations (exObj x) 0 0 2 = [exCell 6 3] := by
  constructor <;> rfl

theorem ex_members (x : Bool) : members false true (exObj x) 0 0 ([1, 2], [1, 1]) 0 = [exCell 2 1, exCell 6 3] := by
  unfold members
  have : mult true [(1 : ℝ), 1] = [1, 1] := C31_equal_weights 1 one_pos 2 two_pos
  simp only [this]
  simp [(ex_ints x).1, (ex_ints x).2]

theorem ex_regular (x : Bool) (d : Nat) : Regular exArgs (exObj x) 0 0 ([1, 2], [1, 1]) 0 d where
  cells := by
    intro b hb c hc
    simp at hb
    rcases hb with rfl | rfl
    · rw [(ex_ints x).1] at hc; simp at hc; subst hc
      exact ⟨by simp [exCell], by intro s h; simp [exArgs] at h⟩
    · rw [(ex_ints x).2] at hc; simp at hc; subst hc
      exact ⟨by simp [exCell], by intro s h; simp [exArgs] at h⟩
  pair := by intro h; simp [exArgs] at h
  total := by
    show tiny ≤ ((members false true (exObj x) 0 0 ([1, 2], [1, 1]) 0).map _).sum
    rw [ex_members]
    simp only [List.map_cons, List.map_nil, List.sum_cons, List.sum_nil, specWeight, exArgs, exCell]
    unfold tiny; norm_num

theorem ex_accsOf (x : Bool) : ∀ b ∈ [1, 2], accsOf none false (exObj x) 0 0 b = .ok (accs none false (exObj x) 0 0 b) := by
  intro b hb
  simp at hb
  rcases hb with rfl | rfl <;> rfl

/-- The hypotheses are met: this call succeeds, with one row, and meets the regularity conditions. -/
theorem ex_run (x : Bool) : ∃ v c, averageSpectra (fun _ => 0) id exArgs (exObj x) = .ok v ∧ v.cells = [[[c]]] ∧
    groupRows none false true (exObj x) 0 0 ([1, 2], [1, 1]) = .ok [c] := by
  have hm : mult true [(1 : ℝ), 1] = [1, 1] := C31_equal_weights 1 one_pos 2 two_pos
  have hg : groupRows none false true (exObj x) 0 0 ([1, 2], [1, 1]) = .ok ((List.range 1).map (fun t => groupMean x
      (accMembers none false true (exObj x) 0 0 ([1, 2], [1, 1]) t))) := by
    apply groupRows_of
    · simp
    · exact ex_accsOf x
    · exact ⟨(1, 1), by simp only [hm]; simp, by simp⟩
    · intro bm hbm _
      simp only [hm] at hbm
      simp at hbm
      rcases hbm with rfl | rfl <;> rfl
  suffices h : ∃ v, averageSpectra (fun _ => 0) id exArgs (exObj x) = .ok v ∧ v.cells = [[(List.range 1).map (fun t => groupMean x
      (accMembers none false true (exObj x) 0 0 ([1, 2], [1, 1]) t)) ++ []]] by
    obtain ⟨v, h1, h2⟩ := h
    exact ⟨v, _, h1, h2, hg⟩
  · unfold averageSpectra
    rw [ex_groups]
    simp only []
    rw [if_neg (by simp [statNames, exArgs, exObj])]
    have h2 : mapE (fun s => mapE (fun p => mapE (groupRows exArgs.errorWeights exArgs.timeAvg exArgs.normalize (exObj x) s p)
        [([1, 2], [1, 1])]) (List.range (((exObj x).cells[s]?.map (·.length)).getD 0))) (List.range (exObj x).cells.length) =
        .ok [[[(List.range 1).map (fun t => groupMean x (accMembers none false true (exObj x) 0 0 ([1, 2], [1, 1]) t))]]] := by
      have : List.range (exObj x).cells.length = [0] := rfl
      rw [this]
      simp only [mapE]
      have : List.range (((exObj x).cells[0]?.map (·.length)).getD 0) = [0] := rfl
      rw [this]
      simp only [mapE]
      have : groupRows exArgs.errorWeights exArgs.timeAvg exArgs.normalize (exObj x) 0 0 ([1, 2], [1, 1]) =
        groupRows none false true (exObj x) 0 0 ([1, 2], [1, 1]) := rfl
      rw [this, hg]
    rw [h2]
    exact ⟨_, rfl, rfl⟩

/-- The average of 2 (weight 1) and 6 (weight 3) is 5. -/
example : ∃ v c, averageSpectra (fun _ => 0) id exArgs (exObj false) = .ok v ∧ v.cells = [[[c]]] ∧ c.data 0 = 5 := by
  obtain ⟨v, c, hv, hc, hg⟩ := ex_run false
  refine ⟨v, c, hv, hc, ?_⟩
  obtain ⟨gs, hgs, hall⟩ := C29_weighted_mean hv
  rw [ex_groups] at hgs
  cases hgs
  obtain ⟨blocks, hb, hf⟩ := hall 0 0 _ rfl
  rw [hc] at hb
  cases hf with
  | cons h1 h2 =>
    cases h2
    simp at hb
    subst hb
    rw [h1 0 c rfl 0 (ex_regular false 0)]
    show wmean ((members false true (exObj false) 0 0 ([1, 2], [1, 1]) 0).map _) = 5
    rw [ex_members]
    simp only [List.map_cons, List.map_nil, specWeight, exArgs, exCell, wmean, wsum, List.sum_cons, List.sum_nil, smul_eq_mul]
    norm_num

/-- C81 counterexample: with exact window functions two identical normalised windows (value 1) of total weight 4 average to 4
instead of 1. -/
theorem C81_counterexample_exact_window : ∃ v c, averageSpectra (fun _ => 0) id exArgs (exObj true) = .ok v ∧
    v.cells = [[[c]]] ∧ (exCell 2 1).win 0 0 = 1 ∧ (exCell 6 3).win 0 0 = 1 ∧ c.win 0 0 = 4 := by
  obtain ⟨v, c, hv, hc, hg⟩ := ex_run true
  refine ⟨v, c, hv, hc, rfl, rfl, ?_⟩
  obtain ⟨gs, hgs, hall⟩ := C81_window_partial hv
  rw [ex_groups] at hgs
  cases hgs
  obtain ⟨blocks, hb, hf⟩ := hall 0 0 _ rfl
  rw [hc] at hb
  cases hf with
  | cons h1 h2 =>
    cases h2
    simp at hb
    subst hb
    have := (h1 0 c rfl 0 (ex_regular true 0) 0).2 rfl
    rw [this]
    show ((members false true (exObj true) 0 0 ([1, 2], [1, 1]) 0).map _).sum = 4
    rw [ex_members]
    simp only [List.map_cons, List.map_nil, specWeight, exArgs, exCell, List.sum_cons, List.sum_nil]
    norm_num

end HeraPspec.Average
