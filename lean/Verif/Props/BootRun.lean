import Verif.Lemmas.BootRun
import Verif.Props.Container
import Verif.Props.AutoVar

/-!
C120: bootstrap errors (grouping.py L1854-1927) and C121: bootstrap runs over a container (L2017-2077).
-/
namespace HeraPspec.BootRun
open HeraPspec.UVP (Err mapE)
open HeraPspec.Average
open HeraPspec.Bootstrap
open HeraPspec.Combine (uniq mem_uniq)

/-! ### Specification -/

/-- Successive draws: `ds` are the results of calls of the generator for `ns`, starting in state `st`. -/
inductive Stream {S : Type} (rng : Rng S) : S → List ℕ → List (List ℕ) → Prop
  | nil (st : S) : Stream rng st [] []
  | cons (st : S) (n : ℕ) (ns : List ℕ) (ds : List (List ℕ)) : Stream rng (rng.randint n st).2 ns ds → Stream rng st (n :: ns) ((rng.randint n st).1 :: ds)

/-- The spectrum in window `s`, polarization `p` and row `r` of an object. -/
def cellAt (v : Obj ℂ) (s p r : ℕ) : Option (Cell ℂ) := (v.cells[s]?.bind (·[p]?)).bind (·[r]?)

/-! ### Lemmas -/

variable {S : Type}

theorem stream_append (rng : Rng S) (ns ms : List ℕ) (st : S) (ds : List (List ℕ)) (h : Stream rng (drawAll rng ns st).2 ms ds) :
    Stream rng st (ns ++ ms) ((drawAll rng ns st).1 ++ ds) := by
  induction ns generalizing st with
  | nil => exact h
  | cons n ns ih => exact .cons st n _ _ (ih _ h)

theorem boots_spec {circ : List ℝ → ℝ} {so : List ℕ → List ℕ} {rng : Rng S} {u : Obj ℂ} {groups : List (List ℕ)} {ta : Bool} {n : ℕ} {st : S}
    {bs : List (Obj ℂ × List (List ℝ))} (h : boots circ so rng u groups ta n st = .ok bs) :
    ∃ draws : List (List (List ℕ)), bs.length = n ∧ Stream rng st (List.replicate n (sizes u groups)).flatten draws.flatten ∧
      List.Forall₂ (fun d b => d.length = groups.length ∧ bootstrapAverage circ so [u] groups ta d = .ok [b]) draws bs := by
  induction n generalizing st bs with
  | zero => cases h; exact ⟨[], rfl, .nil _, .nil⟩
  | succ n ih =>
    unfold boots at h
    cases hr : (oneBoot circ so rng u groups ta st).1 with
    | error e => rw [hr] at h; cases h
    | ok r =>
      rw [hr] at h
      simp only at h
      cases hs : boots circ so rng u groups ta n (oneBoot circ so rng u groups ta st).2 with
      | error e => rw [hs] at h; cases h
      | ok rs =>
        rw [hs] at h
        cases h
        obtain ⟨draws, h1, h2, h3⟩ := ih hs
        have hlen : (drawAll rng (sizes u groups) st).1.length = groups.length := by rw [length_drawAll]; simp [sizes]
        obtain ⟨v, hv, -⟩ := C32_call hlen.symm hr
        refine ⟨(drawAll rng (sizes u groups) st).1 :: draws, ?_, ?_, ?_⟩
        · rw [hv]; simp [h1, Nat.add_comm]
        · rw [List.replicate_succ, List.flatten_cons, List.flatten_cons]
          exact stream_append rng _ _ _ _ h2
        · rw [hv]
          refine .cons ⟨hlen, ?_⟩ h3
          rw [← hv]; exact hr

theorem resampled_ok {circ : List ℝ → ℝ} {so : List ℕ → List ℕ} {biw : List ℝ → ℝ} {rng : Rng S} {o : Opts} {u : Obj ℂ}
    {groups : List (List ℕ)} {st : S} {r : Result} (h : resampledError circ so biw rng o u groups st = .ok r) :
    averageSpectra circ so (avgArgs groups o.timeAvg) u = .ok r.avg ∧
    ∃ bs, boots circ so rng u groups o.timeAvg o.n (match o.seed with
      | some k => rng.seed k
      | none => st) = .ok bs ∧ r.boots = bs.map (·.1) ∧ r.wgts = bs.map (·.2) ∧ addStats r.avg r.boots [] (tagStats biw o) = .ok r.stats := by
  unfold resampledError at h
  cases ha : averageSpectra circ so (avgArgs groups o.timeAvg) u with
  | error e => rw [ha] at h; cases h
  | ok avg =>
    rw [ha] at h
    simp only at h
    split at h
    · cases h
    · rename_i bs hb
      cases hd : addStats avg (bs.map (·.1)) [] (tagStats biw o) with
      | error e => rw [hd] at h; cases h
      | ok d =>
        rw [hd] at h
        cases h
        exact ⟨rfl, bs, hb, rfl, rfl, hd⟩

theorem indices_rows {u v : Obj ℂ} (h : u.rows = v.rows) (b : ℕ) : indices u b = indices v b := by
  unfold indices; rw [h]

theorem indices_ok {u : Obj ℂ} {b : ℕ} {is : List ℕ} (h : indices u b = .ok is) :
    is = (List.range u.rows.length).filter (fun i => (u.rows[i]?.map (·.blp)) = some b) := by
  unfold indices at h
  simp only at h
  split at h
  · cases h
  · exact (Except.ok.inj h).symm

theorem cellsOf_ok {u : Obj ℂ} {s p b : ℕ} {cs : List (Cell ℂ)} (h : cellsOf u s p b = .ok cs) :
    ∃ is, indices u b = .ok is ∧ List.Forall₂ (fun i c => cellAt u s p i = some c) is cs := by
  unfold cellsOf at h
  cases hi : indices u b with
  | error e => rw [hi] at h; cases h
  | ok is =>
    rw [hi] at h
    simp only at h
    rw [UVP.mapE_ok_iff] at h
    refine ⟨is, rfl, h.imp ?_⟩
    intro i c hc
    unfold cellAt
    split at hc
    · cases hc
    · rename_i c' hc'
      cases hc; exact hc'

/-- Value of one statistic for one key. -/
theorem keyStat_ok {F : List ℝ → ℝ} {avg : Obj ℂ} {bs : List (Obj ℂ)} {st st' : Stat} {s p b : ℕ} (hrows : ∀ v ∈ bs, v.rows = avg.rows)
    (h : keyStat F avg bs st (s, p, b) = .ok st') (s' p' i : ℕ) :
    ((s' = s ∧ p' = p ∧ (avg.rows[i]?.map (·.blp)) = some b) → ∃ cs z, List.Forall₂ (fun v c => cellAt v s p i = some c) bs cs ∧
      st' s' p' i = some z ∧ ∀ d, z d = reIm F (cs.map (fun c => c.data d))) ∧
    (¬ (s' = s ∧ p' = p ∧ (avg.rows[i]?.map (·.blp)) = some b) → st' s' p' i = st s' p' i) := by
  unfold keyStat bootData at h
  simp only at h
  cases hl : mapE (fun v => cellsOf v s p b) bs with
  | error e => rw [hl] at h; cases h
  | ok l =>
    rw [hl] at h
    simp only at h
    split at h
    · cases h
    rename_i l' hl'
    split at hl'
    · cases hl'
      rename_i hall
      cases hi : indices avg b with
      | error e => rw [hi] at h; cases h
      | ok rows =>
        rw [hi] at h
        simp only at h
        split at h
        · cases h
          have hr := indices_ok hi
          have hmem : ∀ i, i ∈ rows ↔ (avg.rows[i]?.map (·.blp)) = some b := by
            intro i
            rw [hr, List.mem_filter, List.mem_range]
            simp only [decide_eq_true_eq]
            constructor
            · exact fun h => h.2
            · intro h
              refine ⟨?_, h⟩
              by_contra hn
              rw [List.getElem?_eq_none (not_lt.1 hn)] at h
              simp at h
          constructor
          · rintro ⟨rfl, rfl, hb⟩
            have hm := (hmem i).2 hb
            unfold setStats
            rw [if_pos ⟨rfl, rfl, hm⟩]
            have hnd : rows.Nodup := by rw [hr]; exact List.nodup_range.filter _
            have hidx : rows[rows.idxOf i]? = some i := by
              rw [List.getElem?_eq_getElem (List.idxOf_lt_length_iff.2 hm), List.getElem_idxOf]
            rw [UVP.mapE_ok_iff] at hl
            have key : ∀ (bs : List (Obj ℂ)) (l : List (List (Cell ℂ))), (∀ v ∈ bs, v.rows = avg.rows) →
                List.Forall₂ (fun v r => cellsOf v s' p' b = .ok r) bs l →
                ∃ cs, List.Forall₂ (fun v c => cellAt v s' p' i = some c) bs cs ∧
                  ∀ d, l.filterMap (fun r => (r[rows.idxOf i]?).map (fun c => c.data d)) = cs.map (fun c => c.data d) := by
              intro bs l hrow hf
              induction hf with
              | nil => exact ⟨[], .nil, fun _ => rfl⟩
              | @cons v r bs l h1 h2 ih =>
                obtain ⟨cs, hc1, hc2⟩ := ih (fun v hv => hrow v (List.mem_cons_of_mem _ hv))
                obtain ⟨is, his, hfc⟩ := cellsOf_ok h1
                rw [indices_rows (hrow v List.mem_cons_self), hi] at his
                cases his
                obtain ⟨c, hc, hcell⟩ := UVP.forall₂_getElem_left hfc hidx
                refine ⟨c :: cs, .cons hcell hc1, fun d => ?_⟩
                rw [List.filterMap_cons, hc]
                simp [hc2 d]
            obtain ⟨cs, hc1, hc2⟩ := key bs l hrows hl
            exact ⟨cs, _, hc1, rfl, fun d => by rw [← hc2 d]⟩
          · intro hn
            unfold setStats
            rw [if_neg]
            rintro ⟨h1, h2, h3⟩
            exact hn ⟨h1, h2, (hmem i).1 h3⟩
        · cases h
    · cases hl'

/-- The statistic `F` of the resamples is stored for this row. -/
def Holds (F : List ℝ → ℝ) (bs : List (Obj ℂ)) (st : Stat) (s p i : ℕ) : Prop :=
  ∃ (cs : List (Cell ℂ)) (z : ℕ → ℂ), List.Forall₂ (fun v c => cellAt v s p i = some c) bs cs ∧ st s p i = some z ∧
    ∀ d, z d = ⟨F (cs.map (fun c => (c.data d).re)), F (cs.map (fun c => (c.data d).im))⟩

theorem allKeys_ok {F : List ℝ → ℝ} {avg : Obj ℂ} {bs : List (Obj ℂ)} (hrows : ∀ v ∈ bs, v.rows = avg.rows) {ks : List (ℕ × ℕ × ℕ)}
    {st st' : Stat} (h : allKeys F avg bs st ks = .ok st') (s p i b : ℕ) (hb : (avg.rows[i]?.map (·.blp)) = some b) :
    ((s, p, b) ∈ ks → Holds F bs st' s p i) ∧ ((s, p, b) ∉ ks → st' s p i = st s p i) := by
  induction ks generalizing st with
  | nil => cases h; exact ⟨by simp, fun _ => rfl⟩
  | cons k ks ih =>
    unfold allKeys at h
    obtain ⟨s1, p1, b1⟩ := k
    cases hk : keyStat F avg bs st (s1, p1, b1) with
    | error e => rw [hk] at h; cases h
    | ok st1 =>
      rw [hk] at h
      obtain ⟨i1, i2⟩ := ih h
      obtain ⟨k1, k2⟩ := keyStat_ok hrows hk s p i
      have hiff : (s, p, b) = (s1, p1, b1) ↔ (s = s1 ∧ p = p1 ∧ (avg.rows[i]?.map (·.blp)) = some b1) := by
        rw [hb]; simp
      constructor
      · intro hmem
        by_cases hin : (s, p, b) ∈ ks
        · exact i1 hin
        · have heq : (s, p, b) = (s1, p1, b1) := by
            rcases List.mem_cons.1 hmem with h | h
            · exact h
            · exact absurd h hin
          obtain ⟨cs, z, c1, c2, c3⟩ := k1 (hiff.1 heq)
          cases heq
          refine ⟨cs, z, c1, ?_, ?_⟩
          · rw [i2 hin]; exact c2
          · intro d; rw [c3 d]; simp [reIm, Function.comp_def]
      · intro hn
        rw [List.mem_cons, not_or] at hn
        rw [i2 hn.2, k2 (fun hc => hn.1 (hiff.2 hc))]

theorem addStats_ok {avg : Obj ℂ} {bs : List (Obj ℂ)} (hrows : ∀ v ∈ bs, v.rows = avg.rows) {es : List (Tag × (List ℝ → ℝ))}
    {d d' : Dict Tag Stat} (h : addStats avg bs d es = .ok d') :
    (∀ (pre post : List (Tag × (List ℝ → ℝ))) t F, es = pre ++ (t, F) :: post → t ∉ post.map (·.1) → ∃ st, d'.get t = some st ∧
      ∀ s p i b, (s, p, b) ∈ keysOf avg → (avg.rows[i]?.map (·.blp)) = some b → Holds F bs st s p i) ∧
    (∀ t, t ∉ es.map (·.1) → d'.get t = d.get t) := by
  induction es generalizing d with
  | nil => cases h; exact ⟨by intro pre post t F h; simp at h, fun _ _ => rfl⟩
  | cons e es ih =>
    unfold addStats at h
    cases hk : allKeys e.2 avg bs ((d.get e.1).getD (fun _ _ _ => none)) (keysOf avg) with
    | error e => rw [hk] at h; cases h
    | ok st =>
      rw [hk] at h
      obtain ⟨i1, i2⟩ := ih h
      constructor
      · intro pre post t F he ht
        cases pre with
        | nil =>
          rw [List.nil_append, List.cons.injEq] at he
          obtain ⟨rfl, rfl⟩ := he
          refine ⟨st, ?_, fun s p i b hk' hb => (allKeys_ok hrows hk s p i b hb).1 hk'⟩
          rw [i2 t ht, Dict.get_set, if_pos rfl]
        | cons a pre =>
          rw [List.cons_append, List.cons.injEq] at he
          exact i1 pre post t F he.2 ht
      · intro t ht
        rw [List.map_cons, List.mem_cons, not_or] at ht
        rw [i2 t ht.2, Dict.get_set, if_neg (Ne.symm ht.1)]

theorem mem_keysOf (avg : Obj ℂ) (s p i b : ℕ) (cs : List (Cell ℂ)) (hc : (avg.cells[s]?.bind (·[p]?)) = some cs)
    (hb : (avg.rows[i]?.map (·.blp)) = some b) : (s, p, b) ∈ keysOf avg := by
  cases hs : avg.cells[s]? with
  | none => rw [hs] at hc; simp at hc
  | some ps =>
    rw [hs] at hc
    simp only [Option.bind_some] at hc
    unfold keysOf
    rw [List.mem_flatMap]
    refine ⟨s, List.mem_range.2 (List.getElem?_eq_some_iff.1 hs).1, ?_⟩
    rw [List.mem_flatMap]
    refine ⟨p, List.mem_range.2 ?_, ?_⟩
    · rw [hs]; exact (List.getElem?_eq_some_iff.1 hc).1
    · rw [List.mem_map]
      refine ⟨b, (mem_uniq _ _).2 ?_, rfl⟩
      cases hr : avg.rows[i]? with
      | none => rw [hr] at hb; simp at hb
      | some m =>
        rw [hr] at hb
        simp only [Option.map_some, Option.some.injEq] at hb
        exact List.mem_map.2 ⟨m, List.mem_of_getElem? hr, hb⟩

theorem boots_rows {circ : List ℝ → ℝ} {so : List ℕ → List ℕ} {biw : List ℝ → ℝ} {rng : Rng S} {o : Opts} {u : Obj ℂ}
    {groups : List (List ℕ)} {st : S} {r : Result} (h : resampledError circ so biw rng o u groups st = .ok r) :
    ∀ v ∈ r.boots, v.rows = r.avg.rows := by
  obtain ⟨ha, bs, hb, hbs, -, -⟩ := resampled_ok h
  obtain ⟨draws, -, -, hf⟩ := boots_spec hb
  intro v hv
  rw [hbs, List.mem_map] at hv
  obtain ⟨x, hx, rfl⟩ := hv
  obtain ⟨j, hj⟩ := List.getElem?_of_mem hx
  obtain ⟨d, -, hd1, hd2⟩ := UVP.forall₂_getElem_right hf hj
  obtain ⟨v, ws, he, hrow⟩ := boot_rows hd1.symm ha hd2
  rw [List.cons.injEq] at he
  rw [he.1]; exact hrow

/-! ### C120 -/

/-- **C120** A successful call returns the uniform average over the groups, and as many resamples as asked for, with their weights; the draws
of the resamples are successive outputs of the generator, one per group and resample, starting from the seed if one is given (else from the
present state); each resample is that of `bootstrap_average_blpairs` (C32) for its draws, and has the rows (baseline-pairs, times, LSTs) of
the average. -/
theorem C120_resamples {circ : List ℝ → ℝ} {so : List ℕ → List ℕ} {biw : List ℝ → ℝ} {rng : Rng S} {o : Opts} {u : Obj ℂ}
    {groups : List (List ℕ)} {st : S} {r : Result} (h : resampledError circ so biw rng o u groups st = .ok r) :
    averageSpectra circ so { groups := some groups, weights := none, timeAvg := o.timeAvg, errorField := [], errorWeights := none, normalize := true } u = .ok r.avg ∧
    r.boots.length = o.n ∧ r.wgts.length = o.n ∧ (∀ v ∈ r.boots, v.rows = r.avg.rows) ∧
    ∃ (st0 : S) (draws : List (List (List ℕ))), (∀ k, o.seed = some k → st0 = rng.seed k) ∧ (o.seed = none → st0 = st) ∧
      Stream rng st0 (List.replicate o.n (groups.map (fun g => (avail g (u.rows.map (·.blp))).length))).flatten draws.flatten ∧
      List.Forall₂ (fun d x => d.length = groups.length ∧ bootstrapAverage circ so [u] groups o.timeAvg d = .ok [x]) draws (r.boots.zip r.wgts) := by
  obtain ⟨ha, bs, hb, hbs, hws, -⟩ := resampled_ok h
  obtain ⟨draws, h1, h2, h3⟩ := boots_spec hb
  refine ⟨ha, by rw [hbs, List.length_map, h1], by rw [hws, List.length_map, h1], boots_rows h, (match o.seed with
      | some k => rng.seed k
      | none => st), draws, ?_, ?_, ?_, ?_⟩
  · intro k hk; rw [hk]
  · intro hk; rw [hk]
  · have : sizes u groups = groups.map (fun g => (avail g (u.rows.map (·.blp))).length) := by
      unfold sizes avail
      apply List.map_congr_left
      intro g _
      congr 1
      apply List.filter_congr
      intro b _
      simp [mem_uniq]
    rw [this] at h2
    exact h2
  · have : r.boots.zip r.wgts = bs := by
      rw [hbs, hws, List.zip_map']; simp
    rw [this]; exact h3

/-- **C120** With a seed the result does not depend on what was drawn before. -/
theorem C120_reproducible (circ : List ℝ → ℝ) (so : List ℕ → List ℕ) (biw : List ℝ → ℝ) (rng : Rng S) (o : Opts) (u : Obj ℂ)
    (groups : List (List ℕ)) (st st' : S) (k : ℕ) (hk : o.seed = some k) :
    resampledError circ so biw rng o u groups st = resampledError circ so biw rng o u groups st' := by
  unfold resampledError
  rw [hk]

/-- **C120** The error bars: for every row, window and polarization of the average, `bs_std`, `bs_robust_std` and `bs_cinterval` hold the
statistic over the resamples of the real part and of the imaginary part of the bandpower of the same row, window, polarization and delay
(for confidence levels that share a name, the last one). -/
theorem C120_statistics {circ : List ℝ → ℝ} {so : List ℕ → List ℕ} {biw : List ℝ → ℝ} {rng : Rng S} {o : Opts} {u : Obj ℂ}
    {groups : List (List ℕ)} {st : S} {r : Result} (h : resampledError circ so biw rng o u groups st = .ok r) (s p i : ℕ) (cs : List (Cell ℂ))
    (hc : (r.avg.cells[s]?.bind (·[p]?)) = some cs) (hi : i < r.avg.rows.length) :
    (o.normalStd = true → ∃ x, r.stats.get .std = some x ∧ Holds std r.boots x s p i) ∧
    (o.robustStd = true → ∃ x, r.stats.get .robust = some x ∧ Holds (fun l => Real.sqrt (biw l)) r.boots x s p i) ∧
    (∀ pre c post, o.cintervals = pre ++ c :: post → (∀ c' ∈ post, round (100 * c') ≠ round (100 * c)) →
      ∃ x, r.stats.get (.cint (round (100 * c))) = some x ∧ Holds (percentile c) r.boots x s p i) ∧
    (o.normalStd = false → r.stats.get .std = none) ∧ (o.robustStd = false → r.stats.get .robust = none) ∧
    (∀ t, (∀ c ∈ o.cintervals, round (100 * c) ≠ t) → r.stats.get (.cint t) = none) := by
  obtain ⟨-, bs, -, -, -, hs⟩ := resampled_ok h
  obtain ⟨g1, g2⟩ := addStats_ok (boots_rows h) hs
  have hb : (r.avg.rows[i]?.map (·.blp)) = some (r.avg.rows[i].blp) := by rw [List.getElem?_eq_getElem hi]; rfl
  have hk := mem_keysOf r.avg s p i _ cs hc hb
  have use : ∀ pre post t F, tagStats biw o = pre ++ (t, F) :: post → t ∉ post.map (·.1) → ∃ x, r.stats.get t = some x ∧ Holds F r.boots x s p i := by
    intro pre post t F he ht
    obtain ⟨x, h1, h2⟩ := g1 pre post t F he ht
    exact ⟨x, h1, h2 s p i _ hk hb⟩
  have hcint : ∀ l : List ℝ, ∀ t : Tag, (t = .std ∨ t = .robust) → t ∉ (l.map (fun c => (ciTag c, percentile c))).map (·.1) := by
    intro l t ht hm
    rw [List.map_map, List.mem_map] at hm
    obtain ⟨c, -, hc⟩ := hm
    rcases ht with rfl | rfl <;> simp [ciTag] at hc
  have hnone : ∀ t : Tag, Dict.get ([] : Dict Tag Stat) t = none := fun _ => rfl
  refine ⟨?_, ?_, ?_, ?_, ?_, ?_⟩
  · intro hn
    apply use [] ((if o.robustStd then [(Tag.robust, fun l => Real.sqrt (biw l))] else []) ++ o.cintervals.map (fun c => (ciTag c, percentile c)))
    · unfold tagStats; rw [if_pos hn]; simp
    · rw [List.map_append, List.mem_append, not_or]
      exact ⟨by split_ifs <;> simp, hcint _ _ (Or.inl rfl)⟩
  · intro hn
    apply use (if o.normalStd then [(Tag.std, std)] else []) (o.cintervals.map (fun c => (ciTag c, percentile c)))
    · unfold tagStats; rw [if_pos hn]; simp
    · exact hcint _ _ (Or.inr rfl)
  · intro pre c post he hlast
    apply use ((if o.normalStd then [(Tag.std, std)] else []) ++ (if o.robustStd then [(Tag.robust, fun l => Real.sqrt (biw l))] else []) ++ pre.map (fun c => (ciTag c, percentile c)))
      (post.map (fun c => (ciTag c, percentile c)))
    · unfold tagStats; rw [he]; simp [ciTag]
    · rw [List.map_map, List.mem_map]
      rintro ⟨c', h1, h2⟩
      simp only [Function.comp_apply, ciTag, Tag.cint.injEq] at h2
      exact hlast c' h1 h2
  · intro hn
    rw [g2 .std, hnone]
    unfold tagStats
    rw [hn, List.map_append, List.map_append, List.mem_append, List.mem_append]
    rintro ((h | h) | h)
    · simp at h
    · split_ifs at h <;> simp at h
    · exact hcint _ _ (Or.inl rfl) h
  · intro hn
    rw [g2 .robust, hnone]
    unfold tagStats
    rw [hn, List.map_append, List.map_append, List.mem_append, List.mem_append]
    rintro ((h | h) | h)
    · split_ifs at h <;> simp at h
    · simp at h
    · exact hcint _ _ (Or.inr rfl) h
  · intro t ht
    rw [g2 (.cint t), hnone]
    unfold tagStats
    rw [List.map_append, List.map_append, List.mem_append, List.mem_append]
    rintro ((h | h) | h)
    · split_ifs at h <;> simp at h
    · split_ifs at h <;> simp at h
    · rw [List.map_map, List.mem_map] at h
      obtain ⟨c, h1, h2⟩ := h
      simp only [Function.comp_apply, ciTag, Tag.cint.injEq] at h2
      exact ht c h1 h2

/-- **C120** The standard deviation is that of the population: the root of the mean squared deviation from the mean. -/
theorem C120_std (l : List ℝ) (hl : l ≠ []) : 0 ≤ std l ∧ ∃ m, l.length * m = l.sum ∧ l.length * std l ^ 2 = (l.map (fun x => (x - m) ^ 2)).sum := by
  have hn : (0 : ℝ) < l.length := by exact_mod_cast List.length_pos_iff.2 hl
  refine ⟨Real.sqrt_nonneg _, l.sum / l.length, by field_simp, ?_⟩
  unfold std
  rw [Real.sq_sqrt]
  · field_simp
  · apply div_nonneg _ hn.le
    apply List.sum_nonneg
    intro x hx
    obtain ⟨y, -, rfl⟩ := List.mem_map.1 hx
    positivity

/-- **C120** The percentiles interpolate linearly between the sorted samples: level `q` is at position `(n-1) q/100`. -/
theorem C120_percentile (l : List ℝ) (q : ℝ) (hl : l ≠ []) (h0 : 0 ≤ q) (h1 : q ≤ 100) :
    ∃ (s : List ℝ) (k : ℕ) (θ a b : ℝ), s.Perm l ∧ s.Pairwise (· ≤ ·) ∧ 0 ≤ θ ∧ θ < 1 ∧ (k : ℝ) + θ = (l.length - 1) * (q / 100) ∧
      s[k]? = some a ∧ (θ ≠ 0 → s[k + 1]? = some b) ∧ percentile q l = (1 - θ) * a + θ * b := by
  have hperm := pySorted_perm (fun a b => open Classical in decide (a ≤ b)) l
  have hpw : (pySorted (fun a b => open Classical in decide (a ≤ b)) l).Pairwise (fun a b : ℝ => a ≤ b) := by
    have := pySorted_pairwise (le := fun a b : ℝ => open Classical in decide (a ≤ b))
      (fun a b c h1 h2 => by simp only [decide_eq_true_eq] at *; exact h1.trans h2)
      (fun a b => by simp only [Bool.or_eq_true, decide_eq_true_eq]; exact le_total a b) l
    exact this.imp (fun h => by simpa using h)
  unfold percentile
  simp only
  generalize pySorted (fun a b => open Classical in decide (a ≤ b)) l = s at *
  have hn : 0 < l.length := List.length_pos_iff.2 hl
  have hsl : s.length = l.length := hperm.length_eq
  have hc : ((l.length - 1 : ℕ) : ℝ) = (l.length : ℝ) - 1 := by rw [Nat.cast_sub hn]; simp
  set pos : ℝ := ((l.length - 1 : ℕ) : ℝ) * (q / 100) with hpos
  have hp0 : 0 ≤ pos := by positivity
  have hp1 : pos ≤ ((l.length - 1 : ℕ) : ℝ) := by
    rw [hpos]; apply mul_le_of_le_one_right (by positivity); linarith
  have hf1 := Nat.floor_le hp0
  have hf2 := Nat.lt_floor_add_one pos
  have hk : ⌊pos⌋₊ ≤ l.length - 1 := by exact_mod_cast hf1.trans hp1
  refine ⟨s, ⌊pos⌋₊, pos - ⌊pos⌋₊, s.getD ⌊pos⌋₊ 0, s.getD (min (⌊pos⌋₊ + 1) (l.length - 1)) 0, hperm, hpw, by linarith, by linarith,
    by rw [← hc, ← hpos]; ring, ?_, ?_, by ring⟩
  · rw [List.getD_eq_getElem?_getD, List.getElem?_eq_getElem (by omega)]; rfl
  · intro hθ
    have : ⌊pos⌋₊ < l.length - 1 := by
      rcases lt_or_eq_of_le hk with h | h
      · exact h
      · exfalso; apply hθ
        have : ((⌊pos⌋₊ : ℕ) : ℝ) = ((l.length - 1 : ℕ) : ℝ) := by exact_mod_cast h
        linarith
    rw [min_eq_left (by omega), List.getD_eq_getElem?_getD, List.getElem?_eq_getElem (by omega)]; rfl

/-! ### Non-vacuity for C120 -/

/-- One row of baseline-pair 7, one window and polarization. -/
def exCell : Cell ℂ := ⟨fun d => ⟨d, 1⟩, fun _ => 1, 1, 1, fun _ _ => none, fun _ _ => 0, fun _ _ => 0⟩
/-- The object with this row. -/
def exU : Obj ℂ := ⟨[⟨7, 0, 0, 0, 0, 0, 0⟩], [[[exCell]]], [], false⟩
/-- A generator that always draws the first element. -/
def exRng : Rng Unit := ⟨fun _ => (), fun n _ => (List.replicate n 0, ())⟩

theorem ex_avg (w : Option (List (List ℝ))) (hw : w = none ∨ w = some [[1]]) : ∃ c, averageSpectra (fun _ => 0) id
    { groups := some [[7]], weights := w, timeAvg := false, errorField := [], errorWeights := none, normalize := true } exU =
      .ok ⟨[⟨7, 0, 0, 0, 0, 0, 0⟩], [[[c]]], [], false⟩ := by
  have hg : ∃ c, groupRows none false true exU 0 0 ([7], [1]) = .ok [c] := by
    refine ⟨groupMean false [prep none exCell], ?_⟩
    have h1 : blpgWgts true [(1 : ℝ)] = .ok [1] := by
      unfold blpgWgts; simp
    unfold groupRows
    simp only [h1]
    have h2 : mapE (accsOf none false exU 0 0) [7] = .ok [[prep none exCell]] := rfl
    rw [h2]
    simp only [copies, List.zipWith_cons_cons, List.zipWith_nil_left, Nat.floor_one, List.replicate_one]
    rfl
  obtain ⟨c, hc⟩ := hg
  refine ⟨c, ?_⟩
  have h1 : groupsOf id { groups := some [[7]], weights := w, timeAvg := false, errorField := [], errorWeights := none, normalize := true } exU = .ok [([7], [1])] := by
    rcases hw with rfl | rfl <;> rfl
  unfold averageSpectra
  rw [h1]
  simp only [statNames, List.all_nil, Bool.not_true, Bool.false_eq_true, if_false]
  have h2 : mapE (fun s => mapE (fun p => mapE (groupRows none false true exU s p) [([7], [1])])
      (List.range ((exU.cells[s]?.map (·.length)).getD 0))) (List.range exU.cells.length) = .ok [[[[c]]]] := by
    have e1 : List.range exU.cells.length = [0] := rfl
    have e2 : List.range ((exU.cells[0]?.map (·.length)).getD 0) = [0] := rfl
    rw [e1]
    simp only [mapE]
    rw [e2]
    simp only [mapE, hc]
  rw [h2]
  rfl

/-- A call with two resamples, a standard deviation and a median succeeds. -/
example : ∃ r, resampledError (fun _ => 0) id (fun _ => 0) exRng ⟨2, some 5, false, true, false, [50]⟩ exU [[7]] () = .ok r ∧ r.boots.length = 2 ∧
    (∃ x, r.stats.get .std = some x) ∧ ∃ x, r.stats.get (.cint 5000) = some x := by
  obtain ⟨c, hc⟩ := ex_avg none (Or.inl rfl)
  obtain ⟨c', hc'⟩ := ex_avg (some [[1]]) (Or.inr rfl)
  have hb : bootstrapAverage (fun _ => 0) id [exU] [[7]] false [[0]] = .ok [(⟨[⟨7, 0, 0, 0, 0, 0, 0⟩], [[[c']]], [], false⟩, [[1]])] := by
    unfold bootstrapAverage
    rw [if_neg (by simp)]
    simp only
    rw [if_neg (by decide +kernel)]
    have e : (List.range [exU].length).zip [exU] = [(0, exU)] := rfl
    rw [e]
    have e2 : List.zipWith (sampleGroup (List.map (fun u => Combine.uniq (List.map (fun x => x.blp) u.rows)) [exU])) [[7]] [[0]] = [[([7], [1])]] := by decide +kernel
    rw [e2]
    simp only [mapE, List.filterMap_cons, List.filterMap_nil, List.getElem?_cons_zero, Option.map_some, List.map_cons, List.map_nil, Nat.cast_one]
    rw [show bootArgs false [[7]] [[(1:ℝ)]] = { groups := some [[7]], weights := some [[1]], timeAvg := false, errorField := [], errorWeights := none, normalize := true } from rfl, hc']
  have ho : ∀ st, oneBoot (fun _ => 0) id exRng exU [[7]] false st = (.ok [(⟨[⟨7, 0, 0, 0, 0, 0, 0⟩], [[[c']]], [], false⟩, [[1]])], ()) := by
    intro st
    unfold oneBoot
    have : drawAll exRng (sizes exU [[7]]) st = ([[0]], ()) := rfl
    rw [this, hb]
  have hbs : ∀ st, boots (fun _ => 0) id exRng exU [[7]] false 2 st = .ok [(⟨[⟨7, 0, 0, 0, 0, 0, 0⟩], [[[c']]], [], false⟩, [[1]]), (⟨[⟨7, 0, 0, 0, 0, 0, 0⟩], [[[c']]], [], false⟩, [[1]])] := by
    intro st
    simp only [boots, ho]
    rfl
  have h5 : round (100 * (50 : ℝ)) = 5000 := by
    rw [show (100 * (50 : ℝ)) = ((5000 : ℤ) : ℝ) by norm_num, round_intCast]
  unfold resampledError
  rw [show avgArgs [[7]] false = { groups := some [[7]], weights := none, timeAvg := false, errorField := [], errorWeights := none, normalize := true } from rfl, hc]
  simp only [hbs]
  exact ⟨_, rfl, rfl, ⟨_, rfl⟩, by simp only [ciTag, h5]; exact ⟨_, rfl⟩⟩
/-! ### `bootstrap_run`: names and writes -/

open HeraPspec.Container

theorem toList_toString (i : ℕ) : (toString i).toList = Nat.toDigits 10 i := by
  simp [Nat.repr, ToString.toString]

theorem toDigits_inj {i j : ℕ} (h : Nat.toDigits 10 i = Nat.toDigits 10 j) : i = j := by
  have h1 := Nat.ofDigitChars_toDigits (b := 10) (n := i) (by decide) (by decide)
  have h2 := Nat.ofDigitChars_toDigits (b := 10) (n := j) (by decide) (by decide)
  rw [← h1, ← h2, h]

theorem digits_tail {l l' : List Char} {c c' : Char} {d d' : List Char} (hc : c.isDigit = false) (hc' : c'.isDigit = false)
    (hd : ∀ x ∈ d, x.isDigit = true) (hd' : ∀ x ∈ d', x.isDigit = true) (h : l ++ c :: d = l' ++ c' :: d') : l ++ [c] = l' ++ [c'] ∧ d = d' := by
  have key : ∀ (l : List Char) (c : Char) (d : List Char), c.isDigit = false → (∀ x ∈ d, x.isDigit = true) →
      (l ++ c :: d).reverse.takeWhile Char.isDigit = d.reverse ∧ (l ++ c :: d).reverse.dropWhile Char.isDigit = (l ++ [c]).reverse := by
    intro l c d hc hd
    have hr : ∀ x ∈ d.reverse, x.isDigit = true := fun x hx => hd x (List.mem_reverse.1 hx)
    have e : (l ++ c :: d).reverse = d.reverse ++ (c :: l.reverse) := by simp
    rw [e, List.takeWhile_append_of_pos hr, List.dropWhile_append_of_pos hr, List.takeWhile_cons_of_neg (by simp [hc]), List.dropWhile_cons_of_neg (by simp [hc])]
    simp
  obtain ⟨a1, a2⟩ := key l c d hc hd
  obtain ⟨b1, b2⟩ := key l' c' d' hc' hd'
  rw [h] at a1 a2
  exact ⟨List.reverse_injective (a2.symm.trans b2), List.reverse_injective (a1.symm.trans b1)⟩

theorem avgName_inj {n m : String} (h : avgName n = avgName m) : n = m := by
  have := congrArg String.toList h
  simp only [avgName, String.toList_append] at this
  exact String.toList_inj.1 (List.append_cancel_right this)

theorem bsName_toList (n : String) (i : ℕ) : (bsName n i).toList = (n.toList ++ ['_', 'b']) ++ 's' :: Nat.toDigits 10 i := by
  unfold bsName
  rw [String.toList_append, String.toList_append, toList_toString, show "_bs".toList = ['_', 'b', 's'] from by decide +kernel]
  simp

theorem isDigits (i : ℕ) : ∀ x ∈ Nat.toDigits 10 i, x.isDigit = true := fun _ hx => Nat.isDigit_of_mem_toDigits (by decide) (by decide) hx

theorem bsName_inj {n m : String} {i j : ℕ} (h : bsName n i = bsName m j) : n = m ∧ i = j := by
  have := congrArg String.toList h
  rw [bsName_toList, bsName_toList] at this
  obtain ⟨h1, h2⟩ := digits_tail (by decide) (by decide) (isDigits i) (isDigits j) this
  refine ⟨?_, toDigits_inj h2⟩
  rw [List.append_assoc, List.append_assoc] at h1
  exact String.toList_inj.1 (List.append_cancel_right h1)

theorem avg_ne_bs (n m : String) (i : ℕ) : avgName n ≠ bsName m i := by
  intro h
  have := congrArg String.toList h
  rw [bsName_toList] at this
  have e : (avgName n).toList = (n.toList ++ ['_', 'a', 'v']) ++ 'g' :: [] := by
    unfold avgName
    rw [String.toList_append, show "_avg".toList = ['_', 'a', 'v', 'g'] from by decide +kernel]; simp
  rw [e] at this
  obtain ⟨h1, -⟩ := digits_tail (by decide) (by decide) (by simp) (isDigits i) this
  have := List.append_inj_right' h1 rfl
  simp at this
variable {V : Type}

theorem writeAll_spec (write : V → Bool) (g : String) (ow : Bool) (es : List (String × V)) : ∀ {f : File V}, WF f →
    WF (writeAll write .rw g ow f es).1 ∧
    (∀ g' m, (g' ≠ g ∨ m ∉ es.map (·.1)) → slot (writeAll write .rw g ow f es).1 g' m = slot f g' m) ∧
    (ow = false → ∀ g' m, slot f g' m ≠ .absent → slot (writeAll write .rw g ow f es).1 g' m = slot f g' m) ∧
    ((writeAll write .rw g ow f es).2 = .ok () → ∀ m ∈ es.map (·.1), ∃ v, (m, v) ∈ es ∧ slot (writeAll write .rw g ow f es).1 g m = .stored v) := by
  induction es with
  | nil => intro f hf; exact ⟨hf, fun _ _ _ => rfl, fun _ _ _ _ => rfl, by simp⟩
  | cons e es ih =>
    intro f hf
    obtain ⟨w1, w2, w3, -⟩ := setOne_spec write hf g e.1 e.2 ow
    unfold writeAll
    generalize hr : setOne write .rw false f g e.1 (.uvp e.2) ow = r at w1 w2 w3
    obtain ⟨f1, x⟩ := r
    simp only at w1 w2 w3
    have hfr : ∀ g' m, (g' ≠ g ∨ m ≠ e.1) → slot f1 g' m = slot f g' m := by
      intro g' m h
      rw [w2]
      unfold Store.write
      split
      · simp only [Store.put]
        rw [if_neg]
        rintro ⟨rfl, rfl⟩
        rcases h with h | h <;> exact h rfl
      · rfl
    have how : ow = false → ∀ g' m, slot f g' m ≠ .absent → slot f1 g' m = slot f g' m := by
      intro h g' m hm
      by_cases hx : g' = g ∧ m = e.1
      · obtain ⟨rfl, rfl⟩ := hx
        rw [w2]
        unfold Store.write
        rw [if_neg]
        rw [h, Bool.or_false]
        cases hs : slot f g' e.1 with
        | absent => exact absurd hs hm
        | broken => simp [Slot.free]
        | stored v => simp [Slot.free]
      · exact hfr g' m (by tauto)
    cases x with
    | error x =>
      simp only
      refine ⟨w1, ?_, how, by simp⟩
      intro g' m h
      apply hfr
      rcases h with h | h
      · exact Or.inl h
      · rw [List.map_cons, List.mem_cons, not_or] at h; exact Or.inr h.1
    | ok x =>
      cases x
      simp only
      obtain ⟨i1, i2, i3, i4⟩ := ih w1
      refine ⟨i1, ?_, ?_, ?_⟩
      · intro g' m h
        rw [List.map_cons, List.mem_cons, not_or] at h
        rw [i2 g' m (by tauto), hfr g' m (by tauto)]
      · intro h g' m hm
        rw [i3 h g' m (by rw [how h g' m hm]; exact hm), how h g' m hm]
      · intro hok m hm
        by_cases hin : m ∈ es.map (·.1)
        · obtain ⟨v, h1, h2⟩ := i4 hok m hin
          exact ⟨v, List.mem_cons_of_mem _ h1, h2⟩
        · have he : m = e.1 := by
            rw [List.map_cons, List.mem_cons] at hm
            exact hm.resolve_right hin
          subst he
          refine ⟨e.2, List.mem_cons_self, ?_⟩
          rw [i2 g e.1 (Or.inr hin), w2]
          have hw := w3.1 rfl
          unfold Store.write at hw ⊢
          split at hw
          · rename_i hc
            rw [if_pos hc]
            simp only at hw
            simp [Store.put, hw]
          · simp at hw

theorem mem_outputs {keep : Bool} {n : String} {r : V × List V} {m : String} {v : V} (h : (m, v) ∈ outputs keep n r) :
    (m = avgName n ∧ v = r.1) ∨ (keep = true ∧ ∃ i : ℕ, m = bsName n i ∧ r.2[i]? = some v) := by
  unfold outputs at h
  rw [List.mem_cons] at h
  rcases h with h | h
  · cases h; exact Or.inl ⟨rfl, rfl⟩
  · cases keep with
    | false => simp at h
    | true =>
      simp only [if_true, List.mem_map] at h
      obtain ⟨⟨i, x⟩, hx, he⟩ := h
      cases he
      obtain ⟨k, hk⟩ := List.getElem?_of_mem hx
      obtain ⟨h1, h2⟩ := List.getElem?_zip_eq_some.1 hk
      have hik : k = i := by
        have := (List.getElem?_eq_some_iff.1 h1)
        obtain ⟨_, hh⟩ := this
        simpa using hh
      subst hik
      exact Or.inr ⟨rfl, k, rfl, h2⟩

theorem outputs_mem {keep : Bool} {n : String} {r : V × List V} :
    (avgName n, r.1) ∈ outputs keep n r ∧ (keep = true → ∀ (i : ℕ) v, r.2[i]? = some v → (bsName n i, v) ∈ outputs keep n r) := by
  unfold outputs
  refine ⟨List.mem_cons_self, ?_⟩
  intro hk i v hv
  rw [hk, if_pos rfl]
  apply List.mem_cons_of_mem
  rw [List.mem_map]
  refine ⟨(i, v), ?_, rfl⟩
  apply List.mem_of_getElem? (i := i)
  have hlt := (List.getElem?_eq_some_iff.1 hv).1
  exact List.getElem?_zip_eq_some.2 ⟨List.getElem?_range hlt, hv⟩

/-- An output name belongs to one spectrum only, and to one of its results. -/
theorem outputs_unique {keep : Bool} {n n' : String} {r r' : V × List V} {m : String} {v v' : V} (h : (m, v) ∈ outputs keep n r)
    (h' : (m, v') ∈ outputs keep n' r') : n = n' ∧ (r = r' → v = v') := by
  rcases mem_outputs h with ⟨h1, h2⟩ | ⟨-, i, h1, h2⟩ <;> rcases mem_outputs h' with ⟨h3, h4⟩ | ⟨-, j, h3, h4⟩
  · exact ⟨avgName_inj (h1.symm.trans h3), fun e => by rw [h2, h4, e]⟩
  · exact absurd (h1.symm.trans h3) (avg_ne_bs _ _ _)
  · exact absurd (h3.symm.trans h1) (avg_ne_bs _ _ _)
  · obtain ⟨e1, e2⟩ := bsName_inj (h1.symm.trans h3)
    subst e2
    refine ⟨e1, fun e => ?_⟩
    subst e
    rw [h2] at h4
    exact Option.some.inj h4

/-- `m` is a name under which results for spectrum `n` are stored. -/
def IsOutput (keep : Bool) (n m : String) : Prop := m = n ++ "_avg" ∨ (keep = true ∧ ∃ i : ℕ, m = n ++ "_bs" ++ toString i)

theorem isOutput_of_mem {keep : Bool} {n : String} {r : V × List V} {m : String} (h : m ∈ (outputs keep n r).map (·.1)) : IsOutput keep n m := by
  obtain ⟨⟨m', v⟩, hv, rfl⟩ := List.mem_map.1 h
  rcases mem_outputs hv with ⟨h1, -⟩ | ⟨h1, i, h2, -⟩
  · exact Or.inl h1
  · exact Or.inr ⟨h1, i, h2⟩

theorem loop_spec (write : V → Bool) (resample : V → Except Unit (V × List V)) (keep ow : Bool) (xs : List (String × String)) :
    ∀ {f : File V}, WF f →
    WF (loop write .rw resample keep ow f xs).1 ∧
    (∀ g m, (∀ n, (g, n) ∈ xs → ¬ IsOutput keep n m) → slot (loop write .rw resample keep ow f xs).1 g m = slot f g m) ∧
    (ow = false → ∀ g m, slot f g m ≠ .absent → slot (loop write .rw resample keep ow f xs).1 g m = slot f g m) ∧
    ((loop write .rw resample keep ow f xs).2 = .ok () →
      (∀ g n m, (g, n) ∈ xs → m = n ++ "_avg" → ∃ v, slot (loop write .rw resample keep ow f xs).1 g m = .stored v) ∧
      ((∀ g n n', (g, n) ∈ xs → (g, n') ∈ xs → ¬ IsOutput keep n n') → ∀ g n, (g, n) ∈ xs → ∃ v r, slot f g n = .stored v ∧ resample v = .ok r ∧
        ∀ m w, (m, w) ∈ outputs keep n r → slot (loop write .rw resample keep ow f xs).1 g m = .stored w)) := by
  induction xs with
  | nil => intro f hf; exact ⟨hf, fun _ _ _ => rfl, fun _ _ _ _ => rfl, fun _ => ⟨by simp, by simp⟩⟩
  | cons x xs ih =>
    intro f hf
    obtain ⟨g0, n0⟩ := x
    unfold loop
    simp only
    cases hg : getOne f g0 n0 with
    | error e => exact ⟨hf, fun _ _ _ => rfl, fun _ _ _ _ => rfl, by simp⟩
    | ok v0 =>
      have hs0 := ((getOne_slot g0 n0).1 v0).1 hg
      simp only
      cases hr : resample v0 with
      | error e => exact ⟨hf, fun _ _ _ => rfl, fun _ _ _ _ => rfl, by simp⟩
      | ok r0 =>
        simp only
        obtain ⟨w1, w2, w3, w4⟩ := writeAll_spec write g0 ow (outputs keep n0 r0) hf
        generalize hw : writeAll write .rw g0 ow f (outputs keep n0 r0) = y at w1 w2 w3 w4
        obtain ⟨f1, res⟩ := y
        simp only at w1 w2 w3 w4
        have hfr : ∀ g m, (∀ n, (g, n) ∈ (g0, n0) :: xs → ¬ IsOutput keep n m) → slot f1 g m = slot f g m := by
          intro g m h
          apply w2
          by_cases hgg : g = g0
          · subst hgg
            exact Or.inr (fun hm => h n0 List.mem_cons_self (isOutput_of_mem hm))
          · exact Or.inl hgg
        cases res with
        | error e => exact ⟨w1, hfr, w3, by simp⟩
        | ok res =>
          cases res
          simp only
          obtain ⟨i1, i2, i3, i4⟩ := ih w1
          have hfr2 : ∀ g m, (∀ n, (g, n) ∈ (g0, n0) :: xs → ¬ IsOutput keep n m) → slot (loop write .rw resample keep ow f1 xs).1 g m = slot f g m :=
            fun g m h => by rw [i2 g m (fun n hn => h n (List.mem_cons_of_mem _ hn)), hfr g m h]
          refine ⟨i1, hfr2, ?_, ?_⟩
          · intro h g m hm
            rw [i3 h g m (by rw [w3 h g m hm]; exact hm), w3 h g m hm]
          · intro hok
            obtain ⟨j1, j2⟩ := i4 hok
            have hout : ∀ m w, (m, w) ∈ outputs keep n0 r0 → slot f1 g0 m = .stored w := by
              intro m w hmw
              obtain ⟨v, h1, h2⟩ := w4 rfl m (List.mem_map.2 ⟨_, hmw, rfl⟩)
              rw [h2, (outputs_unique hmw h1).2 rfl]
            have hkeep : ∀ m w, (m, w) ∈ outputs keep n0 r0 → (g0, n0) ∉ xs → slot (loop write .rw resample keep ow f1 xs).1 g0 m = .stored w := by
              intro m w hmw hn
              rw [i2 g0 m, hout m w hmw]
              intro n hnx ho
              apply hn
              have : n = n0 := by
                rcases mem_outputs hmw with ⟨h1, -⟩ | ⟨-, i, h1, -⟩ <;> rcases ho with h2 | ⟨-, j, h2⟩
                · exact avgName_inj (h2.symm.trans h1)
                · exact absurd (h1.symm.trans h2) (avg_ne_bs _ _ _)
                · exact absurd (h2.symm.trans h1) (avg_ne_bs _ _ _)
                · exact (bsName_inj (h2.symm.trans h1)).1
              rw [← this]; exact hnx
            constructor
            · intro g n m hm he
              by_cases hx : (g, n) ∈ xs
              · exact j1 g n m hx he
              · have : (g, n) = (g0, n0) := (List.mem_cons.1 hm).resolve_right hx
                cases this
                exact ⟨_, hkeep m r0.1 (by rw [he]; exact outputs_mem.1) hx⟩
            · intro hdis g n hm
              have hsame : ∀ g n, (g, n) ∈ (g0, n0) :: xs → slot f1 g n = slot f g n :=
                fun g n hn => hfr g n (fun n' hn' => hdis g n' n hn' hn)
              by_cases hx : (g, n) ∈ xs
              · obtain ⟨v, r, h1, h2, h3⟩ := j2 (fun g n n' h1 h2 => hdis g n n' (List.mem_cons_of_mem _ h1) (List.mem_cons_of_mem _ h2)) g n hx
                exact ⟨v, r, by rw [← hsame g n hm]; exact h1, h2, h3⟩
              · have : (g, n) = (g0, n0) := (List.mem_cons.1 hm).resolve_right hx
                cases this
                exact ⟨v0, r0, hs0, hr, fun m w hmw => hkeep m w hmw hx⟩

theorem mem_allSpectra {f : File V} (hf : WF f) (g n : String) : (g, n) ∈ allSpectra f ↔ g ≠ "header" ∧ ∃ v, slot f g n = .stored v := by
  unfold allSpectra
  rw [List.mem_flatMap]
  have hmem : ∀ g, g ∈ groups f ↔ g ≠ "header" ∧ g ∈ f.keys := fun g => hf.groups.mem_erase_iff
  constructor
  · rintro ⟨g', h1, h2⟩
    rw [List.mem_map] at h2
    obtain ⟨n', h3, h4⟩ := h2
    cases h4
    refine ⟨((hmem g).1 h1).1, ?_⟩
    cases hs : spectra f g with
    | error e => rw [hs] at h3; simp at h3
    | ok l => rw [hs] at h3; exact ((mem_spectra hf g l hs).2 n).1 h3
  · rintro ⟨hh, v, hv⟩
    have hk : ∃ d, f.get g = some d := by
      cases hd : f.get g with
      | some d => exact ⟨d, rfl⟩
      | none =>
        unfold slot groupOf at hv
        rw [hd] at hv
        simp [Dict.get] at hv
    obtain ⟨d, hd⟩ := hk
    refine ⟨g, (hmem g).2 ⟨hh, ?_⟩, ?_⟩
    · unfold Dict.get at hd
      rw [Option.map_eq_some_iff] at hd
      obtain ⟨e, he, -⟩ := hd
      have h1 := List.mem_of_find?_eq_some he
      have h2 := List.find?_some he
      simp only [decide_eq_true_eq, beq_iff_eq] at h2
      exact List.mem_map.2 ⟨e, h1, h2⟩
    · rw [List.mem_map]
      refine ⟨n, ?_, rfl⟩
      have hs : ∃ l, spectra f g = .ok l := by unfold spectra; rw [hd]; exact ⟨_, rfl⟩
      obtain ⟨l, hl⟩ := hs
      rw [hl]
      exact ((mem_spectra hf g l hl).2 n).2 ⟨v, hv⟩

/-! ### C121 -/

/-- The spectra a run works on: all in the container, or those of the request that are there. -/
def Wanted (f : File V) (req : Option (List (String × String))) (g n : String) : Prop :=
  g ≠ "header" ∧ (∃ v, slot f g n = .stored v) ∧ ∀ l, req = some l → (g, n) ∈ l

theorem mem_chosen {f : File V} (hf : WF f) {req : Option (List (String × String))} {xs : List (String × String)} (h : chosen f req = .ok xs) (g n : String) :
    (g, n) ∈ xs ↔ Wanted f req g n := by
  unfold Wanted
  cases req with
  | none =>
    cases h
    rw [mem_allSpectra hf]
    simp
  | some l =>
    unfold chosen at h
    simp only at h
    split at h
    · cases h
    · cases h
      rw [List.mem_filter, decide_eq_true_eq, mem_allSpectra hf]
      simp only [Option.some.injEq, forall_eq']
      tauto

/-- A run that gets to work is the loop over the wanted spectra. -/
theorem bootRun_cases (write : V → Bool) (swmr : Bool) (resample : V → Except Unit (V × List V)) (keep ow : Bool) {f : File V} (hf : WF f)
    (req : Option (List (String × String))) :
    (∃ e, bootRun write .rw swmr resample keep ow f req = (f, .error e)) ∨
    ∃ xs, bootRun write .rw swmr resample keep ow f req = loop write .rw resample keep ow f xs ∧ ∀ g n, (g, n) ∈ xs ↔ Wanted f req g n := by
  unfold bootRun
  split
  · exact Or.inl ⟨_, rfl⟩
  · split
    · exact Or.inl ⟨_, rfl⟩
    · cases hc : chosen f req with
      | error e => exact Or.inl ⟨_, rfl⟩
      | ok xs => exact Or.inr ⟨xs, rfl, mem_chosen hf hc⟩

/-- **C121** Whatever happens, only the results of the wanted spectra are written; without `overwrite` nothing that was in the container
changes; and the container stays readable. -/
theorem C121_frame (write : V → Bool) (swmr : Bool) (resample : V → Except Unit (V × List V)) (keep ow : Bool) {f : File V} (hf : WF f)
    (req : Option (List (String × String))) :
    WF (bootRun write .rw swmr resample keep ow f req).1 ∧
    (∀ g m, (∀ n, Wanted f req g n → ¬ IsOutput keep n m) → slot (bootRun write .rw swmr resample keep ow f req).1 g m = slot f g m) ∧
    (ow = false → ∀ g m, slot f g m ≠ .absent → slot (bootRun write .rw swmr resample keep ow f req).1 g m = slot f g m) := by
  rcases bootRun_cases write swmr resample keep ow hf req with ⟨e, he⟩ | ⟨xs, he, hx⟩
  · rw [he]; exact ⟨hf, fun _ _ _ => rfl, fun _ _ _ _ => rfl⟩
  · rw [he]
    obtain ⟨l1, l2, l3, -⟩ := loop_spec write resample keep ow xs hf
    exact ⟨l1, fun g m h => l2 g m (fun n hn => h n ((hx g n).1 hn)), l3⟩

/-- **C121** (partial) A successful run has stored, for every wanted spectrum, its average under `name_avg` and, if they are kept, its resamples
under `name_bs0`, `name_bs1`, ... in the same group, computed from the spectrum as it was before the run; provided no wanted spectrum has the
name of a result of another wanted one. Missing: without this condition the claim fails (`C121_finding_rerun`). -/
theorem C121_outputs_partial (write : V → Bool) (swmr : Bool) (resample : V → Except Unit (V × List V)) (keep ow : Bool) {f : File V} (hf : WF f)
    (req : Option (List (String × String))) (hok : (bootRun write .rw swmr resample keep ow f req).2 = .ok ())
    (hdis : ∀ g n n', Wanted f req g n → Wanted f req g n' → ¬ IsOutput keep n n') (g n : String) (hw : Wanted f req g n) :
    ∃ v avg bs, slot f g n = .stored v ∧ resample v = .ok (avg, bs) ∧
      slot (bootRun write .rw swmr resample keep ow f req).1 g (n ++ "_avg") = .stored avg ∧
      (keep = true → ∀ (i : ℕ) b, bs[i]? = some b → slot (bootRun write .rw swmr resample keep ow f req).1 g (n ++ "_bs" ++ toString i) = .stored b) := by
  rcases bootRun_cases write swmr resample keep ow hf req with ⟨e, he⟩ | ⟨xs, he, hx⟩
  · rw [he] at hok; cases hok
  · rw [he] at hok ⊢
    obtain ⟨-, -, -, l4⟩ := loop_spec write resample keep ow xs hf
    obtain ⟨v, r, h1, h2, h3⟩ := (l4 hok).2 (fun g n n' h1 h2 => hdis g n n' ((hx g n).1 h1) ((hx g n').1 h2)) g n ((hx g n).2 hw)
    exact ⟨v, r.1, r.2, h1, h2, h3 _ _ outputs_mem.1, fun hk i b hb => h3 _ _ (outputs_mem.2 hk i b hb)⟩

/-- **C121** A run is refused, with the container unchanged, in SWMR mode, without groups, or if none of the requested spectra is there. -/
theorem C121_refused (write : V → Bool) (mode : Mode) (swmr : Bool) (resample : V → Except Unit (V × List V)) (keep ow : Bool) {f : File V} (hf : WF f)
    (req : Option (List (String × String)))
    (h : swmr = true ∨ (∀ g, f.get g ≠ none → g = "header") ∨ (∃ l, req = some l ∧ ∀ g n, ¬ Wanted f req g n)) :
    bootRun write mode swmr resample keep ow f req = (f, .error .assertion) := by
  unfold bootRun
  split
  · rfl
  · rename_i hs
    split
    · rfl
    · rename_i hgr
      rcases h with h | h | ⟨l, rfl, h⟩
      · exact absurd h hs
      · exfalso
        apply hgr
        rw [List.length_eq_zero_iff, List.eq_nil_iff_forall_not_mem]
        intro g hg
        have hg' := (hf.groups.mem_erase_iff (a := g) (b := "header")).1 hg
        apply hg'.1
        apply h
        intro h0
        unfold Dict.get at h0
        rw [Option.map_eq_none_iff, List.find?_eq_none] at h0
        obtain ⟨e, he, rfl⟩ := List.mem_map.1 hg'.2
        exact h0 e he (by simp)
      · have : chosen f (some l) = .error .assertion := by
          unfold chosen
          simp only
          rw [if_pos]
          rw [List.length_eq_zero_iff, List.filter_eq_nil_iff]
          rintro ⟨g, n⟩ hm hd
          simp only [decide_eq_true_eq] at hd
          obtain ⟨h1, h2⟩ := (mem_allSpectra hf g n).1 hd
          exact h g n ⟨h1, h2, fun l' hl' => by cases hl'; exact hm⟩
        rw [this]

/-- **C121** finding: a second run over the whole container works on the averages stored by the first as well: after two successful runs every spectrum
has an average of its average (the example below shows that without `overwrite` the second run fails). -/
theorem C121_finding_rerun (write : V → Bool) (resample : V → Except Unit (V × List V)) (keep ow keep' ow' : Bool) {f : File V} (hf : WF f)
    (hok : (bootRun write .rw false resample keep ow f none).2 = .ok ()) (g n : String) (hw : Wanted f none g n) :
    ((bootRun write .rw false resample keep' ow' (bootRun write .rw false resample keep ow f none).1 none).2 = .ok () →
      ∃ v, slot (bootRun write .rw false resample keep' ow' (bootRun write .rw false resample keep ow f none).1 none).1 g (n ++ "_avg" ++ "_avg") = .stored v) := by
  intro hok2
  have step : ∀ (f : File V) (keep ow : Bool), WF f → (bootRun write .rw false resample keep ow f none).2 = .ok () → ∀ n, Wanted f none g n →
      ∃ v, slot (bootRun write .rw false resample keep ow f none).1 g (n ++ "_avg") = .stored v := by
    intro f keep ow hf hok n hw
    rcases bootRun_cases write false resample keep ow hf none with ⟨e, he⟩ | ⟨xs, he, hx⟩
    · rw [he] at hok; cases hok
    · rw [he] at hok ⊢
      obtain ⟨-, -, -, l4⟩ := loop_spec write resample keep ow xs hf
      exact (l4 hok).1 g n _ ((hx g n).2 hw) rfl
  have h1 := step f keep ow hf hok n hw
  exact step _ keep' ow' (C121_frame write false resample keep ow hf none).1 hok2 (n ++ "_avg") ⟨hw.1, h1, by simp⟩

/-! ### Non-vacuity for C121 -/

/-- A container with two spectra in a group. -/
def exFile : File ℕ := [("header", []), ("g", [("a", ⟨true, some 1⟩), ("b", ⟨true, some 2⟩)])]

theorem exFile_wf : WF exFile where
  groups := by decide +kernel
  names := by
    intro g
    by_cases h : g = "g"
    · subst h; decide +kernel
    · by_cases h2 : g = "header"
      · subst h2; decide +kernel
      · simp [exFile, groupOf, Dict.get, Ne.symm h, Ne.symm h2, Dict.keys]
  complete := by
    intro g n e he
    by_cases h : g = "g"
    · subst h
      have hm : e ∈ ([⟨true, some 1⟩, ⟨true, some 2⟩] : List (Entry ℕ)) := by
        simp only [exFile, groupOf, Dict.get, List.find?_cons] at he
        simp at he
        aesop
      simp at hm
      rcases hm with rfl | rfl <;> simp
    · by_cases h2 : g = "header"
      · subst h2; simp [exFile, groupOf, Dict.get] at he
      · simp [exFile, groupOf, Dict.get, Ne.symm h, Ne.symm h2] at he

/-- A run for spectrum `a` that keeps two resamples. -/
example : bootRun (fun _ => true) .rw false (fun v => .ok (10 * v, [v, v + 1])) true false exFile (some [("g", "a"), ("g", "zz")]) =
    ([("header", []), ("g", [("a", ⟨true, some 1⟩), ("b", ⟨true, some 2⟩), ("a_avg", ⟨true, some 10⟩), ("a_bs0", ⟨true, some 1⟩), ("a_bs1", ⟨true, some 2⟩)])], .ok ()) := by
  rfl

/-- Running over everything twice: the second run fails without `overwrite`, and with it produces `a_avg_avg`. -/
example : ((bootRun (fun _ => true) .rw false (fun v => .ok (10 * v, [])) false false
      (bootRun (fun _ => true) .rw false (fun v => .ok (10 * v, [])) false false exFile none).1 none).2 = .error (.cont .attribute)) ∧
    getOne (bootRun (fun _ => true) .rw false (fun v => .ok (10 * v, [])) false true
      (bootRun (fun _ => true) .rw false (fun v => .ok (10 * v, [])) false false exFile none).1 none).1 "g" "a_avg_avg" = .ok 100 := by
  constructor <;> rfl

end HeraPspec.BootRun
