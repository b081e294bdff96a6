import Verif.Lemmas.UVPSelect

/-! Lemmas on keys, `getData`, `getAllKeys`. -/
namespace HeraPspec.UVP

variable {D W α β : Type}

theorem whereTrue_single {l : List Int} (hn : l.Nodup) {p : Int} (hp : p ∈ l) :
    ∃ i, whereTrue (l.map (fun x => decide (x ∈ [p]))) = [i] ∧ l[i]? = some p := by
  obtain ⟨i, hi, rfl⟩ := List.mem_iff_getElem.1 hp
  refine ⟨i, ?_, by simp [hi]⟩
  apply sorted_ext (whereTrue_sorted _) (by simp)
  intro j
  rw [mem_whereTrue]
  simp only [List.getElem?_map, List.mem_singleton]
  constructor
  · intro h
    cases hj : l[j]? with
    | none => simp [hj] at h
    | some y =>
      simp [hj] at h
      obtain ⟨hj', e⟩ := List.getElem?_eq_some_iff.1 hj
      subst h
      exact (hn.getElem_inj_iff).1 e
  · rintro rfl
    simp [hi]

/-- Entry of a sample for polarization pair `p`. -/
def entry (pols : List Int) (p : Int) (d : List α) : Option α := (pols.zip d).lookup p

theorem lookup_zip_getElem {l : List Int} (hn : l.Nodup) {i : Nat} {p : Int} (hi : l[i]? = some p) (d : List α) :
    (l.zip d).lookup p = d[i]? := by
  induction l generalizing i d with
  | nil => simp at hi
  | cons q l ih =>
    cases d with
    | nil => simp
    | cons x d =>
      rw [List.nodup_cons] at hn
      rw [List.zip_cons_cons, List.lookup_cons]
      cases i with
      | zero => simp at hi; subst hi; simp
      | succ i =>
        simp only [List.getElem?_cons_succ] at hi ⊢
        have hmem : p ∈ l := List.mem_of_getElem? hi
        have hne : ¬ p = q := by rintro rfl; exact hn.1 hmem
        rw [show (p == q) = false by simpa using hne]
        exact ih hn.2 hi d

theorem blpairIndices_rows {u : UVP D W} {o : Obj D W} (hb : u.blpairArray = o.rows.map Meas.blpair) {b : Int}
    (hmem : ∃ m ∈ o.rows, m.blpair = b) : blpairToIndices u [b] = .ok (whereTrue (o.rows.map (fun m => decide (m.blpair = b)))) := by
  unfold blpairToIndices
  rw [if_pos]
  · rw [hb, List.map_map]; simp [Function.comp_def]
  · obtain ⟨m, hm, e⟩ := hmem
    simp only [List.all_cons, List.all_nil, Bool.and_true, decide_eq_true_eq, hb]
    exact List.mem_map.2 ⟨m, hm, e⟩

/-- `key_to_indices` on a represented object. -/
theorem keyToIndices_spec {u : UVP D W} {o : Obj D W} (hr : Represents u o) (hv : Valid o) (hn : o.pols.Nodup) {s : Nat}
    {b p : Int} (hs : s < o.nspw) (hb : ∃ m ∈ o.rows, m.blpair = b) (hp : p ∈ o.pols) :
    ∃ i, keyToIndices u s b p = .ok (s, whereTrue (o.rows.map (fun m => decide (m.blpair = b))), i) ∧ o.pols[i]? = some p := by
  obtain ⟨i, hi, hi'⟩ := whereTrue_single hn hp
  refine ⟨i, ?_, hi'⟩
  unfold keyToIndices
  have h1 : s ∈ u.spwFreqArray := by
    rw [hr.spwFreq]; obtain ⟨c, hc, e⟩ := hv.chans_all s hs; exact List.mem_map.2 ⟨c, hc, e⟩
  have h2 : s ∈ u.spwDlyArray := by
    rw [hr.spwDly]; obtain ⟨c, hc, e⟩ := hv.dlys_all s hs; exact List.mem_map.2 ⟨c, hc, e⟩
  have h3 : b ∈ u.blpairArray := by
    rw [hr.blpair]; obtain ⟨m, hm, e⟩ := hb; exact List.mem_map.2 ⟨m, hm, e⟩
  have h4 : polpairToIndices u [p] = .ok [i] := by
    unfold polpairToIndices
    rw [if_pos (by simp [hr.pols, hp]), hr.pols, hi]
  simp only [h1, h2, h3, hr.pols, hp, and_self, not_true_eq_false, ↓reduceIte, h4, bind, Except.bind,
    blpairIndices_rows hr.blpair hb]

theorem keyToIndices_error {u : UVP D W} {o : Obj D W} (hr : Represents u o) (hv : Valid o) {s : Nat}
    {b p : Int} (h : ¬ (s < o.nspw ∧ (∃ m ∈ o.rows, m.blpair = b) ∧ p ∈ o.pols)) : ∃ e, keyToIndices u s b p = .error e := by
  unfold keyToIndices
  by_cases h1 : s ∈ u.spwFreqArray ∧ s ∈ u.spwDlyArray
  · by_cases h2 : b ∈ u.blpairArray
    · by_cases h3 : p ∈ u.polpairArray
      · exfalso
        apply h
        refine ⟨?_, ?_, by rw [← hr.pols]; exact h3⟩
        · rw [hr.spwFreq] at h1
          obtain ⟨c, hc, e⟩ := List.mem_map.1 h1.1
          exact e ▸ hv.chans_lt c hc
        · rw [hr.blpair] at h2
          exact List.mem_map.1 h2
      · simp only [h1, and_self, not_true_eq_false, h2, h3, not_false_eq_true, ↓reduceIte]; exact ⟨_, rfl⟩
    · simp only [h1, and_self, not_true_eq_false, h2, not_false_eq_true, ↓reduceIte]; exact ⟨_, rfl⟩
  · simp only [h1, not_false_eq_true, ↓reduceIte]; exact ⟨_, rfl⟩

theorem getData_spec {u : UVP D W} {o : Obj D W} (hr : Represents u o) (hv : Valid o) (hn : o.pols.Nodup) {s : Nat}
    {b p : Int} (hs : s < o.nspw) (hb : ∃ m ∈ o.rows, m.blpair = b) (hp : p ∈ o.pols) (hf : o.folded = false) :
    getData u s b p = .ok ((o.rows.filter (fun m => decide (m.blpair = b))).map
      (fun m => (m.dat s).filterMap (entry o.pols p))) := by
  obtain ⟨i, hk, hi⟩ := keyToIndices_spec hr hv hn hs hb hp
  unfold getData
  simp only [hk, bind, Except.bind, hr.data, if_pos hs]
  rw [hr.folded, hf]
  simp only [Bool.false_eq_true, ↓reduceIte]
  rw [filterMap_whereTrue _ _ (by simp), mask_map_filter, List.map_map]
  congr 1
  apply List.map_congr_left
  intro m _
  simp only [Function.comp_apply]
  congr 1
  funext d
  exact (lookup_zip_getElem hn hi d).symm

theorem lookup_filter {l : List (Int × α)} (q : Int → Bool) {p : Int} (hp : q p = true) :
    (l.filter (fun x => q x.1)).lookup p = l.lookup p := by
  induction l with
  | nil => rfl
  | cons x l ih =>
    obtain ⟨k, v⟩ := x
    by_cases hq : q k
    · simp only [List.filter_cons, hq, ↓reduceIte, List.lookup_cons, ih]
    · have : (p == k) = false := by
        have : p ≠ k := by rintro rfl; exact hq hp
        simpa using this
      simp only [List.filter_cons, hq, Bool.false_eq_true, ↓reduceIte, List.lookup_cons, this, ih]

theorem zip_keepEntries (a : Args) (pols : List Int) (d : List α) (h : d.length = pols.length) :
    (pols.filter (keepPol a)).zip (keepEntries a pols d) = (pols.zip d).filter (fun x => keepPol a x.1) := by
  unfold keepEntries
  induction pols generalizing d with
  | nil => simp
  | cons q pols ih =>
    cases d with
    | nil => simp at h
    | cons x d =>
      have := ih d (by simpa using h)
      by_cases hq : keepPol a q <;> simp [List.filter_cons, hq, this]

theorem entry_keepEntries {a : Args} {pols : List Int} {p : Int} (hp : keepPol a p = true) {d : List α}
    (h : d.length = pols.length) : entry (pols.filter (keepPol a)) p (keepEntries a pols d) = entry pols p d := by
  unfold entry
  rw [zip_keepEntries a pols d h, lookup_filter _ hp]

/-- A selection keeps the object valid. -/
theorem valid_specSelect {o : Obj D W} (hv : Valid o) (a : Args) : Valid (specSelect o a) := by
  have hsort := keptSpws_sorted o.nspw a
  have hlt : ∀ j, j < (keptSpws o.nspw a).length → (keptSpws o.nspw a).getD j 0 < o.nspw := by
    intro j hj
    rw [List.getD_eq_getElem?_getD, List.getElem?_eq_getElem hj]
    exact (mem_keptSpws.1 (List.getElem_mem hj)).1
  have hent : ∀ {γ : Type} (d : List γ), d.length = o.pols.length →
      (keepEntries a o.pols d).length = (o.pols.filter (keepPol a)).length := by
    intro γ d hd
    unfold keepEntries
    generalize o.pols = P at hd
    induction P generalizing d with
    | nil => simp
    | cons q P ih =>
      cases d with
      | nil => simp at hd
      | cons x d => by_cases h : keepPol a q <;> simp [List.filter_cons, h, ih d (by simpa using hd)]
  constructor
  · intro c hc
    simp only [specSelect, List.mem_map, List.mem_filter, decide_eq_true_eq] at hc ⊢
    obtain ⟨c', ⟨_, hk⟩, rfl⟩ := hc
    exact (rank_facts hsort hk).1
  · intro c hc
    simp only [specSelect, List.mem_map, List.mem_filter, decide_eq_true_eq] at hc ⊢
    obtain ⟨c', ⟨_, hk⟩, rfl⟩ := hc
    exact (rank_facts hsort hk).1
  · intro s hs
    simp only [specSelect] at hs ⊢
    have hm := List.getElem_mem hs
    obtain ⟨c, hc, e⟩ := hv.chans_all _ (mem_keptSpws.1 hm).1
    refine ⟨(rankIn _ c.1, c.2), List.mem_map.2 ⟨c, List.mem_filter.2 ⟨hc, by simp [e, hm]⟩, rfl⟩, ?_⟩
    simp only [e, rankIn_getElem hsort s hs]
  · intro s hs
    simp only [specSelect] at hs ⊢
    have hm := List.getElem_mem hs
    obtain ⟨c, hc, e⟩ := hv.dlys_all _ (mem_keptSpws.1 hm).1
    refine ⟨(rankIn _ c.1, c.2), List.mem_map.2 ⟨c, List.mem_filter.2 ⟨hc, by simp [e, hm]⟩, rfl⟩, ?_⟩
    simp only [e, rankIn_getElem hsort s hs]
  · intro m hm
    simp only [specSelect, List.mem_map, List.mem_filter] at hm
    obtain ⟨m', ⟨h, _⟩, rfl⟩ := hm
    exact hv.bl2 m' h
  · intro m hm s hs d hd
    simp only [specSelect, List.mem_map, List.mem_filter] at hm hs
    obtain ⟨m', ⟨h, _⟩, rfl⟩ := hm
    obtain ⟨d', hd', rfl⟩ := List.mem_map.1 hd
    exact hent d' (hv.dat m' h _ (hlt s hs) d' hd')
  · intro m hm s hs
    simp only [specSelect, List.mem_map, List.mem_filter] at hm hs
    obtain ⟨m', ⟨h, _⟩, rfl⟩ := hm
    exact hent _ (hv.itg m' h _ (hlt s hs))

theorem select_error {u : UVP D W} {o : Obj D W} {a : Args} (hr : Represents u o) (hv : Valid o)
    (hf : o.folded = false ∨ a.spws = none) (ha : ¬ Accepts o a) : ∃ e, select u a = .error e := by
  unfold select
  by_cases hs : ∀ l, a.spws = some l → l ≠ [] ∧ ∀ s ∈ l, s < o.nspw
  swap
  · -- bad windows
    push Not at hs
    obtain ⟨l, hl, hbad⟩ := hs
    have : ∃ e, selectSpws u a.spws = .error e := by
      rw [hl]
      unfold selectSpws
      by_cases hne : l = []
      · subst hne; exact ⟨_, rfl⟩
      · obtain ⟨s, hsl, hge⟩ := hbad hne
        have : spwToFreqIndices u l = .error .assertion := by
          unfold spwToFreqIndices
          rw [if_neg hne, if_neg]
          intro h
          have := List.all_eq_true.1 h s hsl
          simp only [decide_eq_true_eq, hr.spwFreq, List.mem_map] at this
          obtain ⟨c, hc, rfl⟩ := this
          have := hv.chans_lt c hc
          omega
        simp only [this, bind, Except.bind]; exact ⟨_, rfl⟩
    obtain ⟨e, he⟩ := this
    rw [he]; exact ⟨e, rfl⟩
  · -- the window part succeeds; use the acceptable request with windows only
    have hacc : Accepts o { spws := a.spws } := ⟨hs, by simp, by simp, by simp, by simp, by simp⟩
    have h1 := selectSpws_ok (a := { spws := a.spws }) hr hv hacc hf
    simp only at h1
    rw [h1]
    simp only [bind, Except.bind]
    generalize hu1 : ({ u with
        spwArray := List.range (keptSpws o.nspw { spws := a.spws }).length
        spwFreqArray := (specSelect o { spws := a.spws }).chans.map (·.1)
        freqArray := (specSelect o { spws := a.spws }).chans.map (·.2)
        spwDlyArray := (specSelect o { spws := a.spws }).dlys.map (·.1)
        dlyArray := (specSelect o { spws := a.spws }).dlys.map (·.2) } : UVP D W) = u1
    have e1 : u1.blpairArray = o.rows.map Meas.blpair := by rw [← hu1]; exact hr.blpair
    have e2 : u1.timeAvg = o.rows.map (·.tAvg) := by rw [← hu1]; exact hr.timeAvg
    have e3 : u1.lstAvg = o.rows.map (·.lAvg) := by rw [← hu1]; exact hr.lstAvg
    have e4 : u1.polpairArray = o.pols := by rw [← hu1]; exact hr.pols
    by_cases hbad : a.bls = some [] ∨ a.blpairs = some [] ∨ (a.times ≠ none ∧ a.lsts ≠ none)
    · obtain ⟨e, he⟩ := rowMask_error (u := u1) hbad
      unfold rowSel
      rw [he]; exact ⟨e, rfl⟩
    · push Not at hbad
      have htl : a.times = none ∨ a.lsts = none := by
        by_cases h : a.times = none
        · exact Or.inl h
        · exact Or.inr (hbad.2.2 h)
      by_cases hrows : (a.bls = none ∧ a.blpairs = none ∧ a.times = none ∧ a.lsts = none) ∨ ∃ m ∈ o.rows, keepRow a m = true
      · have hacc2 : Accepts o { a with polpairs := none } := ⟨hs, hbad.1, hbad.2.1, htl, hrows, by simp⟩
        obtain ⟨rs, hrs, _⟩ := rowSel_ok (u := u1) (a := { a with polpairs := none }) e1 e2 e3 hv.bl2 hacc2
        have hrs' : rowSel u1 a = .ok rs := hrs
        rw [hrs']
        simp only
        have hpol : ¬ (a.polpairs = none ∨ ∃ p ∈ o.pols, keepPol a p = true) := by
          intro h; exact ha ⟨hs, hbad.1, hbad.2.1, htl, hrows, h⟩
        push Not at hpol
        have : ∃ e, polSel u1 a.polpairs = .error e := by
          unfold polSel
          cases hpp : a.polpairs with
          | none => exact absurd hpp hpol.1
          | some ps =>
            cases ps with
            | nil => exact ⟨_, rfl⟩
            | cons p0 ps' =>
              simp only
              have : whereTrue (u1.polpairArray.map (fun p => decide (p ∈ p0 :: ps'))) = [] := by
                rw [whereTrue_eq_nil]
                by_contra hc
                rw [Bool.not_eq_false, any_map_id, e4] at hc
                obtain ⟨p, hp, h⟩ := hc
                exact hpol.2 p hp (by simpa [keepPol, hpp] using h)
              rw [this]; exact ⟨_, rfl⟩
        obtain ⟨e, he⟩ := this
        rw [he]; exact ⟨e, rfl⟩
      · push Not at hrows
        have : rowSel u1 a = .error .assertion := by
          unfold rowSel
          rw [rowMask_ok e1 e2 e3 hv.bl2 hbad.1 hbad.2.1 htl]
          have hn : ¬ (a.bls = none ∧ a.blpairs = none ∧ a.times = none ∧ a.lsts = none) := by
            rintro ⟨h1, h2, h3, h4⟩; exact hrows.1 h1 h2 h3 h4
          simp only [hn, ↓reduceIte, bind, Except.bind]
          rw [if_neg]
          rw [any_map_id]
          rintro ⟨m, hm, h⟩
          exact hrows.2 m hm h
        rw [this]; exact ⟨_, rfl⟩

end HeraPspec.UVP
