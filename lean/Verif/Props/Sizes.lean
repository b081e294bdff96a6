import Verif.Model.Sizes
import Mathlib.Data.List.Nodup
import Mathlib.Data.Finset.Card
import Mathlib.Data.Finset.Dedup
import Mathlib.Data.List.Perm.Basic
import Mathlib.Tactic.Tauto

/-! C149: size attributes and the table of baselines, through any history. -/
namespace HeraPspec.Sizes
variable {T F V Z : Type} [DecidableEq T] [DecidableEq F] [DecidableEq Z]

/-! ### Specification -/

/-- The number of different things in a list. -/
def distinct {α : Type} [DecidableEq α] (l : List α) : ℕ := l.toFinset.card

/-- The size attributes (but for `Nfreqs`, `Ntpairs` and `Ntimes`) are the sizes they are documented to be, and the table of baselines lists every baseline of the rows once,
with its vector, and no other. -/
structure Right (vec : ℕ → V) (o : Obj T F V) : Prop where
  bltpairs : o.nBltpairs = o.rows.length
  blpairs : o.nBlpairs = distinct (o.rows.map (·.blp))
  spws : o.nSpws = o.wins.length
  spwdlys : o.nSpwdlys = (o.wins.map (fun w => w.dlys.length)).sum
  spwfreqs : o.nSpwfreqs = (o.wins.map (fun w => w.freqs.length)).sum
  dlys : o.nDlys = distinct (o.wins.flatMap (·.dlys))
  pols : o.nPols = o.pols.length
  nbls : o.nBls = o.bls.length
  blsOnce : (o.bls.map (·.1)).Nodup
  blsAll : ∀ b, b ∈ o.bls.map (·.1) ↔ ∃ r ∈ o.rows, b = r.blp / 1000000 ∨ b = r.blp % 1000000
  blsVec : ∀ e ∈ o.bls, e.2 = vec e.1

/-- `Ntpairs` is the number of different pairs of times and `Nfreqs` the number of different frequencies. -/
structure RightTF (o : Obj T F V) : Prop where
  tpairs : o.nTpairs = distinct (o.rows.map (fun r => (r.t1, r.t2)))
  freqs : o.nFreqs = distinct (o.wins.flatMap (·.freqs))

/-- Increasing places in a list. -/
def Places (n : ℕ) (l : List ℕ) : Prop := l.Pairwise (· < ·) ∧ ∀ x ∈ l, x < n

/-- Different pairs of times have different averages, and equal pairs equal ones. -/
def AvgTells (rows : List (Row T)) : Prop := ∀ r ∈ rows, ∀ s ∈ rows, r.ta = s.ta ↔ (r.t1, r.t2) = (s.t1, s.t2)

/-- Rounding does not identify different times. -/
def RndTells (rnd : T → Z) (rows : List (Row T)) : Prop :=
  ∀ r ∈ rows, ∀ s ∈ rows, (rnd r.t1, rnd r.t2) = (rnd s.t1, rnd s.t2) → (r.t1, r.t2) = (s.t1, s.t2)

/-- How objects come about: made by `pspec` (from different baseline-pairs, different pairs of times, windows with delays), selected, folded, averaged, combined, in any order. With
`strict`, windows are not selected and the averages and roundings used for counting tell the times apart. -/
inductive Built (mid : T → T → T) (mean : List T → T) (rnd : T → Z) (pos : F → Bool) (vec : ℕ → V) (strict : Bool) : Obj T F V → Prop
  | fresh (pairs : List ((ℕ × ℕ) × List (T × T))) (wins : List (Win F)) (pols : List ℤ) (hp : (pairs.map (·.1)).Nodup)
      (hb : ∀ p ∈ pairs, p.1.1 < 1000000 ∧ p.1.2 < 1000000) (ht : ∀ p ∈ pairs, p.2 ≠ [] ∧ p.2.Nodup) (hw : ∀ w ∈ wins, w.dlys ≠ []) :
      Built mid mean rnd pos vec strict (fresh mid vec pairs wins pols)
  | selSpws (o : Obj T F V) (keep : List ℕ) (h : Built mid mean rnd pos vec strict o) (hk : Places o.wins.length keep) (hs : strict = false) :
      Built mid mean rnd pos vec strict (selSpws pos keep o)
  | selRows (o o' : Obj T F V) (keep : List ℕ) (h : Built mid mean rnd pos vec strict o) (hk : Places o.rows.length keep) (ho : selRows keep o = .ok o')
      (hs : strict = true → AvgTells o'.rows) : Built mid mean rnd pos vec strict o'
  | selPols (o o' : Obj T F V) (keep : List ℕ) (h : Built mid mean rnd pos vec strict o) (hk : Places o.pols.length keep) (ho : selPols keep o = .ok o') :
      Built mid mean rnd pos vec strict o'
  | fold (o : Obj T F V) (h : Built mid mean rnd pos vec strict o) : Built mid mean rnd pos vec strict (fold o)
  | average (o o' : Obj T F V) (timeAvg : Bool) (groups : List ℕ) (h : Built mid mean rnd pos vec strict o) (ho : average mean rnd timeAvg groups o = .ok o')
      (hs : strict = true → RndTells rnd o'.rows) : Built mid mean rnd pos vec strict o'
  | combine (ord : List (Row T) → List (Row T)) (us : List (Obj T F V)) (wins : List (Win F)) (o' : Obj T F V) (hord : ∀ l, (ord l).Perm l)
      (h : ∀ u ∈ us, Built mid mean rnd pos vec strict u) (ho : combine ord us wins = .ok o') : Built mid mean rnd pos vec strict o'

/-! ### Proofs -/

theorem card_eq {α : Type} [DecidableEq α] (l : List α) : card l = distinct l := (List.card_toFinset l).symm

theorem distinct_nodup {α : Type} [DecidableEq α] {l : List α} (h : l.Nodup) : distinct l = l.length := List.toFinset_card_of_nodup h

/-- Two lists of pictures have equally many different members if the two maps tell the same elements apart. -/
theorem distinct_map_congr {α β γ : Type} [DecidableEq β] [DecidableEq γ] (f : α → β) (g : α → γ) (l : List α)
    (h : ∀ a ∈ l, ∀ b ∈ l, f a = f b ↔ g a = g b) : distinct (l.map f) = distinct (l.map g) := by
  classical
  unfold distinct
  have e1 : (l.map f).toFinset = l.toFinset.image f := by ext x; simp
  have e2 : (l.map g).toFinset = l.toFinset.image g := by ext x; simp
  rw [e1, e2]
  refine Finset.card_bij' (fun b hb => g (Finset.mem_image.1 hb).choose) (fun c hc => f (Finset.mem_image.1 hc).choose) ?_ ?_ ?_ ?_
  · intro b hb; exact Finset.mem_image_of_mem _ (Finset.mem_image.1 hb).choose_spec.1
  · intro b hb; exact Finset.mem_image_of_mem _ (Finset.mem_image.1 hb).choose_spec.1
  · intro b hb
    have s1 := (Finset.mem_image.1 hb).choose_spec
    have hc : g (Finset.mem_image.1 hb).choose ∈ l.toFinset.image g := Finset.mem_image_of_mem _ s1.1
    have s2 := (Finset.mem_image.1 hc).choose_spec
    have := (h _ (List.mem_toFinset.1 s2.1) _ (List.mem_toFinset.1 s1.1)).2 s2.2
    exact this.trans s1.2
  · intro c hc
    have s1 := (Finset.mem_image.1 hc).choose_spec
    have hb : f (Finset.mem_image.1 hc).choose ∈ l.toFinset.image f := Finset.mem_image_of_mem _ s1.1
    have s2 := (Finset.mem_image.1 hb).choose_spec
    have := (h _ (List.mem_toFinset.1 s2.1) _ (List.mem_toFinset.1 s1.1)).1 s2.2
    exact this.trans s1.2

theorem lookup_ok {bls : List (ℕ × V)} {l : List ℕ} {r : List (ℕ × V)} (h : lookup bls l = .ok r) : r.map (·.1) = l ∧ ∀ e ∈ r, e ∈ bls := by
  induction l generalizing r with
  | nil => simp only [lookup, Except.ok.injEq] at h; subst h; simp
  | cons b l ih =>
    simp only [lookup] at h
    split at h
    · cases h
    · rename_i e he
      split at h
      · cases h
      · rename_i r' hr'
        cases h
        have hb := List.find?_some he
        simp only [decide_eq_true_eq] at hb
        obtain ⟨i1, i2⟩ := ih hr'
        refine ⟨by simp [i1], fun x hx => ?_⟩
        rcases List.mem_cons.1 hx with rfl | hx
        · rw [← hb]; exact List.mem_of_find?_eq_some he
        · exact i2 x hx

theorem lookup_succeeds {bls : List (ℕ × V)} {l : List ℕ} (h : ∀ b ∈ l, b ∈ bls.map (·.1)) : ∃ r, lookup bls l = .ok r := by
  induction l with
  | nil => exact ⟨[], rfl⟩
  | cons b l ih =>
    obtain ⟨r, hr⟩ := ih (fun x hx => h x (List.mem_cons_of_mem _ hx))
    cases he : bls.find? (fun e => decide (e.1 = b)) with
    | none =>
      exfalso
      obtain ⟨e, he1, he2⟩ := List.mem_map.1 (h b List.mem_cons_self)
      have := List.find?_eq_none.1 he e he1
      simp [he2] at this
    | some e => exact ⟨(b, e.2) :: r, by simp only [lookup, he, hr]⟩

theorem mem_uniqRows {l : List (Row T)} : (∀ r ∈ uniqRows l, r ∈ l) ∧ (∀ r ∈ l, ∃ s ∈ uniqRows l, key s = key r) := by
  induction l with
  | nil => simp [uniqRows]
  | cons x l ih =>
    constructor
    · intro r hr
      rcases List.mem_cons.1 hr with rfl | hr
      · exact List.mem_cons_self
      · exact List.mem_cons_of_mem _ (ih.1 r (List.mem_of_mem_filter hr))
    · intro r hr
      rcases List.mem_cons.1 hr with rfl | hr
      · exact ⟨r, List.mem_cons_self, rfl⟩
      · obtain ⟨s, hs, e⟩ := ih.2 r hr
        by_cases hk : key s = key x
        · exact ⟨x, List.mem_cons_self, by rw [← hk, e]⟩
        · exact ⟨s, List.mem_cons_of_mem _ (List.mem_filter.2 ⟨hs, by simpa using hk⟩), e⟩

theorem uniqRows_nodup (l : List (Row T)) : ((uniqRows l).map key).Nodup := by
  induction l with
  | nil => simp [uniqRows]
  | cons x l ih =>
    simp only [uniqRows, List.map_cons, List.nodup_cons]
    refine ⟨?_, ?_⟩
    · intro hm
      obtain ⟨y, hy, e⟩ := List.mem_map.1 hm
      have := (List.mem_filter.1 hy).2
      simp [e] at this
    · exact ih.sublist ((List.filter_sublist).map key)

theorem flatMap_length_sum {α β : Type} (l : List α) (f : α → List β) : (l.flatMap f).length = (l.map (fun a => (f a).length)).sum := by
  rw [List.length_flatMap]

theorem pySorted_nodup' {l : List ℕ} (h : l.Nodup) : (pySorted (fun a b => decide (a ≤ b)) l).Nodup := (pySorted_perm _ l).nodup_iff.2 h

theorem fresh_right {mid : T → T → T} {vec : ℕ → V} {pairs : List ((ℕ × ℕ) × List (T × T))} {wins : List (Win F)} {pols : List ℤ}
    (hp : (pairs.map (·.1)).Nodup) (hb : ∀ p ∈ pairs, p.1.1 < 1000000 ∧ p.1.2 < 1000000) (ht : ∀ p ∈ pairs, p.2 ≠ [] ∧ p.2.Nodup) (hw : ∀ w ∈ wins, w.dlys ≠ []) :
    Right vec (fresh mid vec pairs wins pols) := by
  have hkeys : ((pairs.flatMap (fun p => p.2.map (fun t => (⟨p.1.1 * 1000000 + p.1.2, t.1, t.2, mid t.1 t.2⟩ : Row T)))).map (fun r => (r.blp, r.t1, r.t2))).Nodup := by
    rw [List.map_flatMap]
    rw [List.nodup_flatMap]
    constructor
    · intro p hpm
      rw [List.map_map]
      refine (ht p hpm).2.map ?_
      rintro ⟨a, b⟩ ⟨c, d⟩ h
      simp only [Function.comp, Prod.mk.injEq] at h ⊢
      exact ⟨h.2.1, h.2.2⟩
    · have hp' : pairs.Pairwise (fun a b => a.1 ≠ b.1) := by
        rw [List.Nodup, List.pairwise_map] at hp; exact hp
      refine List.Pairwise.imp_of_mem ?_ hp'
      intro a b ha hbm hab
      show List.Disjoint _ _
      intro x h1 h2
      simp only [List.map_map, List.mem_map, Function.comp] at h1 h2
      obtain ⟨t, _, rfl⟩ := h1
      obtain ⟨s, _, e⟩ := h2
      simp only [Prod.mk.injEq] at e
      have q1 := hb a ha
      have q2 := hb b hbm
      apply hab
      have : b.1.1 * 1000000 + b.1.2 = a.1.1 * 1000000 + a.1.2 := e.1
      ext
      · omega
      · omega
  refine ⟨?_, ?_, ?_, ?_, ?_, ?_, rfl, ?_, ?_, ?_, ?_⟩
  · show card _ = _
    rw [card_eq, distinct_nodup hkeys, List.length_map]; rfl
  · exact card_eq _
  · show (wins.filter _).length = wins.length
    rw [List.filter_eq_self.2 (fun w hwm => by simpa using hw w hwm)]
  · exact flatMap_length_sum _ _
  · exact flatMap_length_sum _ _
  · exact card_eq _
  · simp [fresh]
  · show ((List.map _ _).map _).Nodup
    rw [List.map_map]
    have : ((fun e : ℕ × V => e.1) ∘ fun b => (b, vec b)) = id := rfl
    rw [this, List.map_id]
    exact pySorted_nodup' (List.nodup_dedup _)
  · intro b
    show b ∈ (List.map _ _).map _ ↔ _
    rw [List.map_map]
    have : ((fun e : ℕ × V => e.1) ∘ fun b => (b, vec b)) = id := rfl
    rw [this, List.map_id, mem_pySorted, List.mem_dedup, List.mem_flatMap]
    constructor
    · rintro ⟨p, hpm, hbm⟩
      obtain ⟨t, l, e⟩ := List.exists_cons_of_ne_nil (ht p hpm).1
      refine ⟨⟨p.1.1 * 1000000 + p.1.2, t.1, t.2, mid t.1 t.2⟩, ?_, ?_⟩
      · show _ ∈ List.flatMap _ _
        exact List.mem_flatMap.2 ⟨p, hpm, List.mem_map.2 ⟨t, by rw [e]; exact List.mem_cons_self, rfl⟩⟩
      · have := hb p hpm
        simp only [List.mem_cons, List.not_mem_nil, or_false] at hbm
        show b = (p.1.1 * 1000000 + p.1.2) / 1000000 ∨ b = (p.1.1 * 1000000 + p.1.2) % 1000000
        omega
    · rintro ⟨r, hr, hbr⟩
      obtain ⟨p, hpm, hr⟩ := List.mem_flatMap.1 (show r ∈ List.flatMap _ _ from hr)
      obtain ⟨t, _, rfl⟩ := List.mem_map.1 hr
      have := hb p hpm
      refine ⟨p, hpm, ?_⟩
      simp only at hbr
      simp only [List.mem_cons, List.not_mem_nil, or_false]
      omega
  · intro e he
    obtain ⟨b, _, rfl⟩ := List.mem_map.1 (show e ∈ List.map _ _ from he)
    rfl

theorem blsOf_mem {b n : ℕ} : b ∈ blsOf n ↔ b = n / 1000000 ∨ b = n % 1000000 := by simp [blsOf]

theorem selRows_ok {keep : List ℕ} {o o' : Obj T F V} (h : selRows keep o = .ok o') :
    (∀ r ∈ o'.rows, r ∈ o.rows) ∧ o'.bls = o.bls.filter (fun b => decide (b.1 ∈ ((o'.rows.map (·.blp)).flatMap blsOf).dedup)) ∧
    o'.nTpairs = card (o'.rows.map (·.ta)) ∧ o'.nTimes = o'.nTpairs ∧ o'.nBlpairs = card (o'.rows.map (·.blp)) ∧ o'.nBltpairs = o'.rows.length ∧ o'.nBls = o'.bls.length ∧
    o'.wins = o.wins ∧ o'.pols = o.pols ∧ o'.nSpws = o.nSpws ∧ o'.nSpwdlys = o.nSpwdlys ∧ o'.nSpwfreqs = o.nSpwfreqs ∧ o'.nDlys = o.nDlys ∧ o'.nFreqs = o.nFreqs ∧ o'.nPols = o.nPols := by
  unfold selRows at h
  split at h
  · cases h
  · cases h
    refine ⟨?_, rfl, rfl, rfl, rfl, rfl, rfl, rfl, rfl, rfl, rfl, rfl, rfl, rfl, rfl⟩
    intro r hr
    obtain ⟨i, _, hi⟩ := List.mem_filterMap.1 (show r ∈ List.filterMap _ _ from hr)
    exact List.mem_of_getElem? hi

theorem selPols_ok {keep : List ℕ} {o o' : Obj T F V} (h : selPols keep o = .ok o') : ∃ pols, o' = { o with pols := pols, nPols := pols.length } := by
  unfold selPols at h
  split at h
  · cases h
  · cases h; exact ⟨_, rfl⟩

theorem average_ok {mean : List T → T} {rnd : T → Z} {timeAvg : Bool} {groups : List ℕ} {o o' : Obj T F V} (h : average mean rnd timeAvg groups o = .ok o') :
    (∀ b ∈ groups, b ∈ o.rows.map (·.blp)) ∧ ∃ bls n, lookup o.bls (pySorted (fun a b => decide (a ≤ b)) (groups.flatMap blsOf).dedup) = .ok bls ∧
      n = card ((groups.flatMap (groupRows mean timeAvg o)).map (fun r => (rnd r.t1, rnd r.t2))) ∧
      o' = { o with rows := groups.flatMap (groupRows mean timeAvg o), bls := bls, nBltpairs := (groups.flatMap (groupRows mean timeAvg o)).length,
                    nBlpairs := card ((groups.flatMap (groupRows mean timeAvg o)).map (·.blp)), nBls := bls.length, nTpairs := n, nTimes := n } := by
  unfold average at h
  split at h
  · rename_i hg
    simp only at h
    split at h
    · cases h
    · rename_i bls hbls
      cases h
      exact ⟨fun b hb => by simpa using List.all_eq_true.1 hg b hb, bls, _, hbls, rfl, rfl⟩
  · cases h

theorem groupRows_blp {mean : List T → T} {timeAvg : Bool} {o : Obj T F V} {b : ℕ} : ∀ r ∈ groupRows mean timeAvg o b, r.blp = b := by
  intro r hr
  unfold groupRows at hr
  simp only at hr
  split at hr
  · simp only [List.mem_cons, List.not_mem_nil, or_false] at hr; rw [hr]
  · simpa using (List.mem_filter.1 hr).2

theorem groupRows_ne {mean : List T → T} {timeAvg : Bool} {o : Obj T F V} {b : ℕ} (h : b ∈ o.rows.map (·.blp)) : ∃ r, r ∈ groupRows mean timeAvg o b := by
  unfold groupRows
  simp only
  split
  · exact ⟨_, List.mem_cons_self⟩
  · obtain ⟨r, hr, e⟩ := List.mem_map.1 h
    exact ⟨r, List.mem_filter.2 ⟨hr, by simpa using e⟩⟩

theorem combine_ok {ord : List (Row T) → List (Row T)} {us : List (Obj T F V)} {wins : List (Win F)} {o' : Obj T F V} (h : combine ord us wins = .ok o') :
    ∃ bls, lookup (us.flatMap (·.bls)) (pySorted (fun a b => decide (a ≤ b)) ((us.flatMap (·.bls)).map (·.1)).dedup) = .ok bls ∧ o'.bls = bls ∧
      o'.rows = ord (uniqRows (us.flatMap (·.rows))) ∧ o'.wins = wins ∧ o'.nTimes = o'.nTpairs ∧ o'.nTpairs = card (o'.rows.map (fun r => (r.t1, r.t2))) ∧
      o'.nBltpairs = o'.rows.length ∧ o'.nBlpairs = card (o'.rows.map (·.blp)) ∧ o'.nSpws = wins.length ∧ o'.nSpwdlys = (wins.flatMap (·.dlys)).length ∧
      o'.nSpwfreqs = (wins.flatMap (·.freqs)).length ∧ o'.nDlys = card (wins.flatMap (·.dlys)) ∧ o'.nFreqs = card (wins.flatMap (·.freqs)) ∧
      o'.nPols = o'.pols.length ∧ o'.nBls = o'.bls.length := by
  unfold combine at h
  simp only at h
  split at h
  · cases h
  · rename_i bls hbls
    cases h
    exact ⟨bls, hbls, rfl, rfl, rfl, rfl, rfl, rfl, rfl, rfl, rfl, rfl, rfl, rfl, rfl, rfl⟩

/-- **C149** (partial). After any sequence of `pspec`, `select`, `fold_spectra`, `average_spectra` and `combine_uvpspec`, the sizes are those of the arrays, and the
table of baselines holds each baseline of the rows once, with its own vector, and no other.

Missing: `Nfreqs`, `Ntpairs` (`C149_tpairs_freqs_partial`) and `Ntimes` (`C149_finding_ntimes`). -/
theorem C149_sizes_partial (mid : T → T → T) (mean : List T → T) (rnd : T → Z) (pos : F → Bool) (vec : ℕ → V) (strict : Bool) (o : Obj T F V)
    (h : Built mid mean rnd pos vec strict o) : Right vec o := by
  induction h with
  | fresh pairs wins pols hp hb ht hw => exact fresh_right hp hb ht hw
  | selSpws o keep _ hk hs ih =>
    refine ⟨ih.bltpairs, ih.blpairs, rfl, flatMap_length_sum _ _, flatMap_length_sum _ _, card_eq _, ih.pols, ih.nbls, ih.blsOnce, ih.blsAll, ih.blsVec⟩
  | selRows o o' keep _ hk ho hs ih =>
    obtain ⟨h1, h2, h3, h4, h5, h6, h7, h8, h9, h10, h11, h12, h13, h14, h15⟩ := selRows_ok ho
    refine ⟨h6, by rw [h5, card_eq], by rw [h10, h8, ih.spws], by rw [h11, h8, ih.spwdlys], by rw [h12, h8, ih.spwfreqs], by rw [h13, h8, ih.dlys], by rw [h15, h9, ih.pols], h7, ?_, ?_, ?_⟩
    · rw [h2]; exact ih.blsOnce.sublist ((List.filter_sublist).map _)
    · intro b
      have hm : b ∈ ((o'.rows.map (·.blp)).flatMap blsOf).dedup ↔ ∃ r ∈ o'.rows, b = r.blp / 1000000 ∨ b = r.blp % 1000000 := by
        rw [List.mem_dedup, List.mem_flatMap]
        constructor
        · rintro ⟨n, hn, hbn⟩
          obtain ⟨r, hr, rfl⟩ := List.mem_map.1 hn
          exact ⟨r, hr, blsOf_mem.1 hbn⟩
        · rintro ⟨r, hr, hbr⟩
          exact ⟨r.blp, List.mem_map_of_mem hr, blsOf_mem.2 hbr⟩
      rw [← hm, h2]
      constructor
      · intro hb
        obtain ⟨e, he, rfl⟩ := List.mem_map.1 hb
        simpa using (List.mem_filter.1 he).2
      · intro hb
        obtain ⟨r, hr, hbr⟩ := hm.1 hb
        obtain ⟨e, he, e1⟩ := List.mem_map.1 ((ih.blsAll b).2 ⟨r, h1 r hr, hbr⟩)
        refine List.mem_map.2 ⟨e, List.mem_filter.2 ⟨he, ?_⟩, e1⟩
        rw [decide_eq_true_eq, e1]; exact hb
    · intro e he
      rw [h2] at he
      exact ih.blsVec e (List.mem_of_mem_filter he)
  | selPols o o' keep _ hk ho ih =>
    obtain ⟨pols, rfl⟩ := selPols_ok ho
    exact ⟨ih.bltpairs, ih.blpairs, ih.spws, ih.spwdlys, ih.spwfreqs, ih.dlys, rfl, ih.nbls, ih.blsOnce, ih.blsAll, ih.blsVec⟩
  | fold o _ ih => exact ⟨ih.bltpairs, ih.blpairs, ih.spws, ih.spwdlys, ih.spwfreqs, ih.dlys, ih.pols, ih.nbls, ih.blsOnce, ih.blsAll, ih.blsVec⟩
  | average o o' timeAvg groups _ ho hs ih =>
    obtain ⟨hg, bls, n, hl, hn, rfl⟩ := average_ok ho
    obtain ⟨l1, l2⟩ := lookup_ok hl
    refine ⟨rfl, card_eq _, ih.spws, ih.spwdlys, ih.spwfreqs, ih.dlys, ih.pols, rfl, ?_, ?_, fun e he => ih.blsVec e (l2 e he)⟩
    · show (bls.map _).Nodup
      rw [l1]; exact pySorted_nodup' (List.nodup_dedup _)
    · intro b
      show b ∈ bls.map _ ↔ ∃ r ∈ groups.flatMap _, _
      rw [l1, mem_pySorted, List.mem_dedup, List.mem_flatMap]
      constructor
      · rintro ⟨g, hgm, hb⟩
        obtain ⟨r, hr⟩ := groupRows_ne (mean := mean) (timeAvg := timeAvg) (hg g hgm)
        refine ⟨r, List.mem_flatMap.2 ⟨g, hgm, hr⟩, ?_⟩
        rw [groupRows_blp r hr]; exact blsOf_mem.1 hb
      · rintro ⟨r, hr, hb⟩
        obtain ⟨g, hgm, hr⟩ := List.mem_flatMap.1 hr
        rw [groupRows_blp r hr] at hb
        exact ⟨g, hgm, blsOf_mem.2 hb⟩
  | combine ord us wins o' hord _ ho ih =>
    obtain ⟨bls, hl, e1, e2, e3, _, e5, e6, e7, e8, e9, e10, e11, _, e13, e14⟩ := combine_ok ho
    obtain ⟨l1, l2⟩ := lookup_ok hl
    refine ⟨e6, by rw [e7, card_eq], by rw [e8, e3], by rw [e9, e3, flatMap_length_sum], by rw [e10, e3, flatMap_length_sum], by rw [e11, e3, card_eq], e13, e14, ?_, ?_, ?_⟩
    · rw [e1, l1]; exact pySorted_nodup' (List.nodup_dedup _)
    · intro b
      rw [e1, l1, mem_pySorted, List.mem_dedup, e2]
      constructor
      · intro hb
        obtain ⟨e, he, rfl⟩ := List.mem_map.1 hb
        obtain ⟨u, hu, heu⟩ := List.mem_flatMap.1 he
        obtain ⟨r, hr, hbr⟩ := ((ih u hu).blsAll e.1).1 (List.mem_map_of_mem heu)
        obtain ⟨s, hs, ek⟩ := mem_uniqRows.2 r (List.mem_flatMap.2 ⟨u, hu, hr⟩)
        refine ⟨s, (hord _).mem_iff.2 hs, ?_⟩
        have : s.blp = r.blp := congrArg Prod.fst ek
        rw [this]; exact hbr
      · rintro ⟨r, hr, hbr⟩
        obtain ⟨u, hu, hru⟩ := List.mem_flatMap.1 (mem_uniqRows.1 r ((hord _).mem_iff.1 hr))
        obtain ⟨e, he, e1⟩ := List.mem_map.1 (((ih u hu).blsAll b).2 ⟨r, hru, hbr⟩)
        exact List.mem_map.2 ⟨e, List.mem_flatMap.2 ⟨u, hu, he⟩, e1⟩
    · intro e he
      rw [e1] at he
      obtain ⟨u, hu, heu⟩ := List.mem_flatMap.1 (l2 e he)
      exact (ih u hu).blsVec e heu

/-- **C149** (partial). In histories without selections of windows, in which averaged and rounded times tell the times apart wherever rows are selected or averaged, `Ntpairs` is the number of
different pairs of times and `Nfreqs` the number of different frequencies.

Missing: other histories (`C149_finding_nfreqs`, `C149_counterexample_tpairs`). -/
theorem C149_tpairs_freqs_partial (mid : T → T → T) (mean : List T → T) (rnd : T → Z) (pos : F → Bool) (vec : ℕ → V) (o : Obj T F V)
    (h : Built mid mean rnd pos vec true o) : RightTF o := by
  induction h with
  | fresh pairs wins pols hp hb ht hw => exact ⟨card_eq _, card_eq _⟩
  | selSpws o keep _ hk hs ih => cases hs
  | selRows o o' keep _ hk ho hs ih =>
    obtain ⟨h1, h2, h3, h4, h5, h6, h7, h8, h9, h10, h11, h12, h13, h14, h15⟩ := selRows_ok ho
    refine ⟨?_, by rw [h14, h8, ih.freqs]⟩
    rw [h3, card_eq]
    exact distinct_map_congr _ _ _ (fun r hr s hs' => hs rfl r hr s hs')
  | selPols o o' keep _ hk ho ih => obtain ⟨pols, rfl⟩ := selPols_ok ho; exact ⟨ih.tpairs, ih.freqs⟩
  | fold o _ ih => exact ⟨ih.tpairs, ih.freqs⟩
  | average o o' timeAvg groups _ ho hs ih =>
    obtain ⟨hg, bls, n, hl, hn, rfl⟩ := average_ok ho
    refine ⟨?_, ih.freqs⟩
    show n = _
    rw [hn, card_eq]
    refine distinct_map_congr _ _ _ (fun r hr s hs' => ⟨hs rfl r hr s hs', fun e => ?_⟩)
    simp only [Prod.mk.injEq] at e ⊢
    rw [e.1, e.2]; exact ⟨rfl, rfl⟩
  | combine ord us wins o' hord _ ho ih =>
    obtain ⟨bls, hl, e1, e2, e3, _, e5, e6, e7, e8, e9, e10, e11, e12, e13, e14⟩ := combine_ok ho
    exact ⟨by rw [e5, card_eq], by rw [e12, card_eq, e3]⟩

/-- **C149** A combination has the right `Ntpairs` and `Nfreqs` whatever the objects, and lists each row once. -/
theorem C149_combine (ord : List (Row T) → List (Row T)) (hord : ∀ l, (ord l).Perm l) (us : List (Obj T F V)) (wins : List (Win F)) :
    ∃ o, combine ord us wins = .ok o ∧ RightTF o ∧ (o.rows.map (fun r => (r.blp, r.t1, r.t2))).Nodup ∧
      (∀ k, k ∈ o.rows.map (fun r => (r.blp, r.t1, r.t2)) ↔ ∃ u ∈ us, k ∈ u.rows.map (fun r => (r.blp, r.t1, r.t2))) ∧
      (∀ p, p ∈ o.pols ↔ ∃ u ∈ us, p ∈ u.pols) ∧ o.pols.Nodup := by
  obtain ⟨bls, hbls⟩ := lookup_succeeds (bls := us.flatMap (·.bls)) (l := pySorted (fun a b => decide (a ≤ b)) ((us.flatMap (·.bls)).map (·.1)).dedup)
    (fun b hb => by simpa using hb)
  have hex : ∃ o, combine ord us wins = .ok o ∧ o.pols = (us.flatMap (·.pols)).dedup := by
    unfold combine; simp only [hbls]; exact ⟨_, rfl, rfl⟩
  obtain ⟨o, ho, hpol⟩ := hex
  obtain ⟨bls', hl, e1, e2, e3, _, e5, e6, e7, e8, e9, e10, e11, e12, e13, e14⟩ := combine_ok ho
  refine ⟨o, ho, ⟨by rw [e5, card_eq], by rw [e12, card_eq, e3]⟩, ?_, ?_, ?_, ?_⟩
  · rw [e2]
    exact ((hord _).map _).nodup_iff.2 (uniqRows_nodup _)
  · intro k
    rw [e2, ((hord _).map _).mem_iff]
    constructor
    · intro hk
      obtain ⟨r, hr, rfl⟩ := List.mem_map.1 hk
      obtain ⟨u, hu, hru⟩ := List.mem_flatMap.1 (mem_uniqRows.1 r hr)
      exact ⟨u, hu, List.mem_map.2 ⟨r, hru, rfl⟩⟩
    · rintro ⟨u, hu, hk⟩
      obtain ⟨r, hr, rfl⟩ := List.mem_map.1 hk
      obtain ⟨s, hs, e⟩ := mem_uniqRows.2 r (List.mem_flatMap.2 ⟨u, hu, hr⟩)
      exact List.mem_map.2 ⟨s, hs, e⟩
  · intro p; rw [hpol]; simp
  · rw [hpol]; exact List.nodup_dedup _

/-- **C149** Averaging never fails to find the vector of a baseline: it succeeds on every object and all groups made of its baseline-pairs. -/
theorem C149_average_succeeds (mid : T → T → T) (mean : List T → T) (rnd : T → Z) (pos : F → Bool) (vec : ℕ → V) (strict : Bool) (o : Obj T F V)
    (h : Built mid mean rnd pos vec strict o) (timeAvg : Bool) (groups : List ℕ) (hg : ∀ b ∈ groups, b ∈ o.rows.map (·.blp)) :
    ∃ o', average mean rnd timeAvg groups o = .ok o' := by
  have R := C149_sizes_partial mid mean rnd pos vec strict o h
  have hb : ∀ b ∈ pySorted (fun a b => decide (a ≤ b)) (groups.flatMap blsOf).dedup, b ∈ o.bls.map (·.1) := by
    intro b hb
    rw [mem_pySorted, List.mem_dedup, List.mem_flatMap] at hb
    obtain ⟨g, hgm, hb⟩ := hb
    obtain ⟨r, hr, rfl⟩ := List.mem_map.1 (hg g hgm)
    exact (R.blsAll b).2 ⟨r, hr, blsOf_mem.1 hb⟩
  obtain ⟨bls, hbls⟩ := lookup_succeeds hb
  unfold average
  rw [if_pos (List.all_eq_true.2 (fun b hb => by simpa using hg b hb))]
  simp only [hbls]
  exact ⟨_, rfl⟩

theorem filterMap_getElem? {α : Type} {l : List α} {keep : List ℕ} (h : ∀ x ∈ keep, x < l.length) (k : ℕ) :
    (keep.filterMap (fun i => l[i]?))[k]? = (keep[k]?).bind (fun i => l[i]?) := by
  induction keep generalizing k with
  | nil => simp
  | cons i keep ih =>
    have hi := h i List.mem_cons_self
    rw [List.filterMap_cons, List.getElem?_eq_getElem hi]
    cases k with
    | zero => simp [List.getElem?_eq_getElem hi]
    | succ k => simpa using ih (fun x hx => h x (List.mem_cons_of_mem _ hx)) k

/-- **C149** What a selection keeps: the `k`-th window, row or polarization of the result is the `k`-th chosen one; of the delays of a folded object, only the positive ones; nothing else. -/
theorem C149_selected (pos : F → Bool) (keep : List ℕ) (o : Obj T F V) :
    (Places o.wins.length keep → (selSpws pos keep o).rows = o.rows ∧ (selSpws pos keep o).pols = o.pols ∧
      ∀ k : ℕ, ((selSpws pos keep o).wins[k]?).map (·.freqs) = ((keep[k]?).bind (fun i => o.wins[i]?)).map (·.freqs) ∧
        ((selSpws pos keep o).wins[k]?).map (·.dlys) = ((keep[k]?).bind (fun i => o.wins[i]?)).map (fun w => if o.folded then w.dlys.filter pos else w.dlys)) ∧
    (Places o.rows.length keep → ∀ o', selRows keep o = .ok o' → o'.wins = o.wins ∧ o'.pols = o.pols ∧ ∀ k : ℕ, o'.rows[k]? = (keep[k]?).bind (fun i => o.rows[i]?)) ∧
    (Places o.pols.length keep → ∀ o', selPols keep o = .ok o' → o'.wins = o.wins ∧ o'.rows = o.rows ∧ ∀ k : ℕ, o'.pols[k]? = (keep[k]?).bind (fun i => o.pols[i]?)) := by
  refine ⟨fun h => ⟨rfl, rfl, fun k => ?_⟩, fun h o' ho => ?_, fun h o' ho => ?_⟩
  · simp only [selSpws, List.getElem?_map, filterMap_getElem? h.2]
    constructor
    · rw [Option.map_map]; congr 1; funext w; simp only [Function.comp]; split <;> rfl
    · rw [Option.map_map]; congr 1; funext w; simp only [Function.comp]; split <;> rfl
  · unfold selRows at ho
    split at ho
    · cases ho
    · cases ho; exact ⟨rfl, rfl, fun k => filterMap_getElem? h.2 k⟩
  · unfold selPols at ho
    split at ho
    · cases ho
    · cases ho; exact ⟨rfl, rfl, fun k => filterMap_getElem? h.2 k⟩

/-- **C149** (finding). Selecting windows never changes `Nfreqs`, whatever is selected. -/
theorem C149_finding_nfreqs (pos : F → Bool) (keep : List ℕ) (o : Obj T F V) : (selSpws pos keep o).nFreqs = o.nFreqs := rfl

/-- **C149** (finding). `Ntimes` is documented as the number of time-pairs. `pspec` stores the number of times instead: for data sets without a common time, that is the number of first
times plus the number of second times, so at least twice as much with one partner for each time; a selection that keeps all rows changes it to the number of average times. -/
theorem C149_finding_ntimes (mid : T → T → T) (vec : ℕ → V) (pairs : List ((ℕ × ℕ) × List (T × T))) (wins : List (Win F)) (pols : List ℤ)
    (hd : ∀ p ∈ pairs, ∀ q ∈ pairs, ∀ s ∈ p.2, ∀ t ∈ q.2, s.1 ≠ t.2) :
    (fresh mid vec pairs wins pols).nTimes = distinct ((fresh mid vec pairs wins pols).rows.map (·.t1)) + distinct ((fresh mid vec pairs wins pols).rows.map (·.t2)) := by
  show card _ = _
  rw [card_eq]
  unfold distinct
  rw [List.toFinset_append, Finset.card_union_of_disjoint]
  · rfl
  rw [Finset.disjoint_left]
  intro x h1 h2
  rw [List.mem_toFinset] at h1 h2
  obtain ⟨r, hr, rfl⟩ := List.mem_map.1 h1
  obtain ⟨s, hs, e⟩ := List.mem_map.1 h2
  obtain ⟨p, hp, hr⟩ := List.mem_flatMap.1 (show r ∈ List.flatMap _ _ from hr)
  obtain ⟨q, hq, hs⟩ := List.mem_flatMap.1 (show s ∈ List.flatMap _ _ from hs)
  obtain ⟨a, ha, rfl⟩ := List.mem_map.1 hr
  obtain ⟨b, hb, rfl⟩ := List.mem_map.1 hs
  exact hd p hp q hq a ha b hb e.symm

/-- **C149** `Ntimes` and `Ntpairs` agree after any selection of rows, average or combination. -/
theorem C149_ntimes (mean : List T → T) (rnd : T → Z) (o o' : Obj T F V) :
    (∀ keep, selRows keep o = .ok o' → o'.nTimes = o'.nTpairs) ∧ (∀ timeAvg groups, average mean rnd timeAvg groups o = .ok o' → o'.nTimes = o'.nTpairs) ∧
    (∀ ord us wins, combine ord us wins = .ok o' → o'.nTimes = o'.nTpairs) := by
  refine ⟨fun keep h => (selRows_ok h).2.2.2.1, fun ta g h => ?_, fun ord us wins h => ?_⟩
  · obtain ⟨_, bls, n, _, _, rfl⟩ := average_ok h; rfl
  · obtain ⟨bls, hl, e1, e2, e3, e4, _⟩ := combine_ok h; exact e4

/-! ### Non-vacuity and counterexamples -/

/-- Two data sets observed at interleaved times (in halves of a step), two baseline-pairs, two windows. -/
def ex : Obj ℕ ℕ (ℕ × ℕ) :=
  fresh (fun a b => (a + b) / 2) (fun b => (b, b)) [((101102, 101102), [(2, 4), (6, 8)]), ((101102, 101103), [(2, 4), (6, 8)])] [⟨[1, 2, 3], [0, 1]⟩, ⟨[2, 3, 4], [0, 1, 2]⟩] [1515]

theorem ex_built (strict : Bool) : Built (fun a b => (a + b) / 2) (fun l => l.sum / l.length) id (fun d => decide (0 < d)) (fun b => (b, b)) strict ex := by
  refine .fresh _ _ _ (by decide) (by decide) (by decide) ?_
  intro w hw
  simp only [List.mem_cons, List.not_mem_nil, or_false] at hw
  rcases hw with rfl | rfl <;> simp

/-- Non-vacuity: the sizes of the example; four times, two time-pairs, three baselines... -/
example : Right (fun b => (b, b)) ex ∧ RightTF ex ∧ ex.nTpairs = 2 ∧ ex.nTimes = 4 ∧ ex.nBltpairs = 4 ∧ ex.nBlpairs = 2 ∧ ex.bls = [(101102, (101102, 101102)), (101103, (101103, 101103))] ∧
    ex.nDlys = 3 ∧ ex.nSpwdlys = 5 ∧ ex.nFreqs = 4 :=
  ⟨C149_sizes_partial _ _ _ _ _ _ _ (ex_built true), C149_tpairs_freqs_partial _ _ _ _ _ _ (ex_built true), by decide +kernel, by decide +kernel, by decide +kernel, by decide +kernel, by decide +kernel,
    by decide +kernel, by decide +kernel, by decide +kernel⟩

/-- Non-vacuity of later operations: averaging the second pair over time after keeping the last three rows; the table of baselines follows. -/
example : ∃ o o', selRows [1, 2, 3] ex = .ok o ∧ average (fun l => l.sum / l.length) id true [101102101103] o = .ok o' ∧ o'.rows = [⟨101102101103, 4, 6, 5⟩] ∧ o'.nBls = 2 ∧
    Built (fun a b => (a + b) / 2) (fun l => l.sum / l.length) id (fun d => decide (0 < d)) (fun b => (b, b)) true o' := by
  refine ⟨_, _, rfl, rfl, by decide +kernel, by decide +kernel, ?_⟩
  refine .average _ _ true [101102101103] (.selRows ex _ [1, 2, 3] (ex_built true) ⟨by decide, by decide +kernel⟩ rfl (fun _ => ?_)) rfl (fun _ => ?_)
  · unfold AvgTells; decide +kernel
  · unfold RndTells; decide +kernel

/-- **C149** (counterexample). Selecting the first window of the example leaves `Nfreqs` at 4; there are 3 frequencies. -/
theorem C149_counterexample_nfreqs : Built (fun a b => (a + b) / 2) (fun l => l.sum / l.length) id (fun d => decide (0 < d)) (fun b => (b, b)) false (selSpws (fun d => decide (0 < d)) [0] ex) ∧
    (selSpws (fun d => decide (0 < d)) [0] ex).nFreqs = 4 ∧ distinct ((selSpws (fun d => decide (0 < d)) [0] ex).wins.flatMap (·.freqs)) = 3 :=
  ⟨.selSpws ex [0] (ex_built false) ⟨by decide, by decide +kernel⟩ rfl, by decide +kernel, by decide +kernel⟩

/-- **C149** (counterexample). Two time-pairs with the same average: a selection that keeps both rows counts one. -/
theorem C149_counterexample_tpairs : ∃ o o' : Obj ℕ ℕ ℕ,
    Built (fun a b => (a + b) / 2) (fun l => l.sum / l.length) (id : ℕ → ℕ) (fun d => decide (0 < d)) id true o ∧ o.nTpairs = 2 ∧ selRows [0, 1] o = .ok o' ∧ o'.rows = o.rows ∧ o'.nTpairs = 1 :=
  ⟨fresh (fun a b => (a + b) / 2) id [((101102, 101103), [(2, 8), (4, 6)])] [⟨[1], [0]⟩] [1515], _,
    .fresh _ _ _ (by decide) (by decide) (by decide) (by intro w hw; simp at hw; subst hw; simp), by decide +kernel, rfl, by decide +kernel, by decide +kernel⟩

/-- **C149** (counterexample). A baseline-pair given twice to `pspec`: twice the rows, but `Nbltpairs` counts them once. -/
theorem C149_counterexample_duplicates : (fresh (F := ℕ) (fun a b => (a + b) / 2) id [((101102, 101103), [(2, 2)]), ((101102, 101103), [(2, 2)])] [⟨[1], [0]⟩] [1515]).nBltpairs = 1 ∧
    (fresh (F := ℕ) (fun a b => (a + b) / 2) (id : ℕ → ℕ) [((101102, 101103), [(2, 2)]), ((101102, 101103), [(2, 2)])] [⟨[1], [0]⟩] [1515]).rows.length = 2 := by decide +kernel

end HeraPspec.Sizes
