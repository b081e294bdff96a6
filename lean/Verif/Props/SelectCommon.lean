import Verif.Props.UVPRead

/-! C16: `select_common`. -/
namespace HeraPspec.UVP

variable {D W α β : Type}

theorem mapE_ok {ε : Type} {f : α → Except ε β} {l : List α} {r : List β} (h : mapE f l = .ok r) :
    List.Forall₂ (fun a b => f a = .ok b) l r := by
  induction l generalizing r with
  | nil => simp [mapE] at h; subst h; exact .nil
  | cons a l ih =>
    unfold mapE at h
    split at h
    · cases h
    · rename_i b hb
      split at h
      · cases h
      · rename_i bs hbs
        cases h
        exact .cons hb (ih hbs)

theorem mem_common [DecidableEq α] {γ : Type} (us : List γ) (hne : us ≠ []) (g : γ → List α) (x : α) :
    x ∈ common (us.map g) ↔ ∀ u ∈ us, x ∈ g u := by
  obtain ⟨u, us', rfl⟩ := List.exists_cons_of_ne_nil hne
  unfold common
  simp only [List.map_cons, List.mem_filter, List.mem_dedup, List.all_eq_true, List.mem_cons, decide_eq_true_eq]
  constructor
  · rintro ⟨_, h⟩ v hv
    rcases hv with rfl | hv
    · exact h _ (Or.inl rfl)
    · exact h _ (Or.inr (List.mem_map.2 ⟨v, hv, rfl⟩))
  · intro h
    refine ⟨h u (Or.inl rfl), ?_⟩
    rintro b (rfl | hb)
    · exact h u (Or.inl rfl)
    · obtain ⟨v, hv, rfl⟩ := List.mem_map.1 hb
      exact h v (Or.inr hv)

/-- A row is shared: for each requested axis its value occurs in every object. -/
def Shared (f : Flags) (os : List (Obj D W)) (m : Meas D W) : Prop :=
  (f.blpairs = true → ∀ o ∈ os, ∃ m' ∈ o.rows, m'.blpair = m.blpair) ∧
  (f.times = true → ∀ o ∈ os, ∃ m' ∈ o.rows, m'.tAvg = m.tAvg) ∧
  (f.lsts = true → ∀ o ∈ os, ∃ m' ∈ o.rows, m'.lAvg = m.lAvg)

/-- Times (and LSTs) of different rows are either equal or further apart than the matching tolerance. -/
def Separated (os : List (Obj D W)) : Prop :=
  ∀ o ∈ os, ∀ m ∈ o.rows, ∀ o' ∈ os, ∀ m' ∈ o'.rows,
    (near m.tAvg m'.tAvg = true → m.tAvg = m'.tAvg) ∧ (near m.lAvg m'.lAvg = true → m.lAvg = m'.lAvg)

theorem near_self (x : ℚ) : near x x = true := by
  unfold near
  rw [decide_eq_true_iff, sub_self, abs_zero]; positivity

/-- The windows a request keeps: with `spws=True`, `l` holds the first window of each range that occurs in all objects. -/
def CommonWindows (us : List (UVP D W)) (u : UVP D W) (l : List Nat) : Prop :=
  ∃ rs, getSpwRanges u = .ok rs ∧
    (∀ s ∈ l, s < rs.length → ∃ r, rs[s]? = some r ∧ ∀ v ∈ us, ∃ rv, getSpwRanges v = .ok rv ∧ r ∈ rv) ∧
    (∀ s r, rs[s]? = some r → r.2.1.isSome = true → (∀ v ∈ us, ∃ rv, getSpwRanges v = .ok rv ∧ r ∈ rv) →
      (∀ s' < s, rs[s']? ≠ some r) → s ∈ l)

theorem forall₂_mem_right {R : α → β → Prop} {l : List α} {r : List β} (h : List.Forall₂ R l r) {b : β} (hb : b ∈ r) :
    ∃ a ∈ l, R a b := by
  induction h with
  | nil => cases hb
  | cons hab _ ih =>
    rcases List.mem_cons.1 hb with rfl | hb
    · exact ⟨_, by simp, hab⟩
    · obtain ⟨a, ha, h⟩ := ih hb; exact ⟨a, by simp [ha], h⟩

theorem forall₂_mem_left {R : α → β → Prop} {l : List α} {r : List β} (h : List.Forall₂ R l r) {a : α} (ha : a ∈ l) :
    ∃ b ∈ r, R a b := by
  induction h with
  | nil => cases ha
  | cons hab _ ih =>
    rcases List.mem_cons.1 ha with rfl | ha
    · exact ⟨_, by simp, hab⟩
    · obtain ⟨b, hb, h⟩ := ih ha; exact ⟨b, by simp [hb], h⟩

theorem rangeEq_iff (r r' : ℚ × Option ℚ × Nat × Nat) : rangeEq r r' = true ↔ r = r' ∧ r.2.1.isSome = true := by
  unfold rangeEq
  rw [Bool.and_eq_true, decide_eq_true_iff]
  exact And.comm

/-- What `select_common` hands to `select` for one object. -/
theorem selectCommon_args {us vs : List (UVP D W)} {f : Flags} (h : selectCommon us f = .ok vs) :
    2 ≤ us.length ∧
    (f.blpairs = true → common (us.map (·.blpairArray)) ≠ []) ∧
    (f.times = true → common (us.map (·.timeAvg)) ≠ []) ∧
    (f.lsts = true → common (us.map (·.lstAvg)) ≠ []) ∧
    (f.polpairs = true → common (us.map (·.polpairArray)) ≠ []) ∧
    List.Forall₂ (fun u v => ∃ sp : Option (List Nat),
      select u { spws := sp
                 blpairs := if f.blpairs then some (common (us.map (·.blpairArray))) else none
                 times := if f.times then some (common (us.map (·.timeAvg))) else none
                 lsts := if f.lsts then some (common (us.map (·.lstAvg))) else none
                 polpairs := none } = .ok v ∧
      (f.spws = false → sp = none) ∧
      (f.spws = true → ∃ l, sp = some l ∧ CommonWindows us u l)) us vs := by
  unfold selectCommon at h
  by_cases h2 : us.length < 2
  · rw [if_pos h2] at h; cases h
  rw [if_neg h2] at h
  simp only [bind, Except.bind] at h
  have hne : us ≠ [] := by rintro rfl; simp at h2
  cases hsp : f.spws with
  | false =>
    simp only [hsp, Bool.false_eq_true, ↓reduceIte, false_and] at h
    split at h
    · cases h
    split at h
    · cases h
    split at h
    · cases h
    split at h
    · cases h
    rename_i n1 n2 n3 n4
    refine ⟨by omega, fun hb e => n1 ⟨hb, e⟩, fun hb e => n2 ⟨hb, e⟩, fun hb e => n3 ⟨hb, e⟩, fun hb e => n4 ⟨hb, e⟩, ?_⟩
    refine (mapE_ok h).imp ?_
    intro u v huv
    exact ⟨none, huv, fun _ => rfl, fun hc => by simp at hc⟩
  | true =>
    simp only [hsp, ↓reduceIte, true_and] at h
    cases hrng : mapE getSpwRanges us with
    | error e => simp only [hrng] at h; cases h
    | ok ranges =>
      simp only [hrng] at h
      have hF := mapE_ok hrng
      split at h
      · cases h
      split at h
      · cases h
      split at h
      · cases h
      split at h
      · cases h
      split at h
      · cases h
      rename_i n0 n1 n2 n3 n4
      refine ⟨by omega, fun hb e => n1 ⟨hb, e⟩, fun hb e => n2 ⟨hb, e⟩, fun hb e => n3 ⟨hb, e⟩, fun hb e => n4 ⟨hb, e⟩, ?_⟩
      generalize hcs : (ranges.head?.getD []).filter (fun r => ranges.all (fun rs => rs.any (rangeEq r))) = cs at *
      have hcsmem : ∀ r, r ∈ cs ↔ (r.2.1.isSome = true ∧ ∀ v ∈ us, ∃ rv, getSpwRanges v = .ok rv ∧ r ∈ rv) := by
        intro r
        rw [← hcs, List.mem_filter, List.all_eq_true]
        constructor
        · rintro ⟨hmem, hall⟩
          have hsome : r.2.1.isSome = true := by
            obtain ⟨u, us', rfl⟩ := List.exists_cons_of_ne_nil hne
            cases hF with
            | cons hh ht =>
              have := hall _ List.mem_cons_self
              rw [List.any_eq_true] at this
              obtain ⟨r', _, hr'⟩ := this
              exact ((rangeEq_iff _ _).1 hr').2
          refine ⟨hsome, fun v hv => ?_⟩
          obtain ⟨rv, hrv, hv'⟩ := forall₂_mem_left hF hv
          have := hall rv hrv
          rw [List.any_eq_true] at this
          obtain ⟨r', hr'm, hr'⟩ := this
          exact ⟨rv, hv', by rw [((rangeEq_iff _ _).1 hr').1]; exact hr'm⟩
        · rintro ⟨hsome, hall⟩
          constructor
          · obtain ⟨u, us', rfl⟩ := List.exists_cons_of_ne_nil hne
            cases hF with
            | cons hh ht =>
              obtain ⟨rv, hrv, hm⟩ := hall u List.mem_cons_self
              rw [hh] at hrv; cases hrv
              simpa using hm
          · intro rs hrs
            obtain ⟨v, hv, hv'⟩ := forall₂_mem_right hF hrs
            obtain ⟨rv, hrv, hm⟩ := hall v hv
            rw [hv'] at hrv; cases hrv
            rw [List.any_eq_true]
            exact ⟨r, hm, (rangeEq_iff _ _).2 ⟨rfl, hsome⟩⟩
      refine (mapE_ok h).imp ?_
      intro u v huv
      cases hru : getSpwRanges u with
      | error e => simp only [hru] at huv; cases huv
      | ok rs =>
        simp only [hru] at huv
        refine ⟨_, huv, fun hc => by simp at hc, fun _ => ⟨_, rfl, rs, hru, ?_, ?_⟩⟩
        · intro s hs hlt
          obtain ⟨r, hr, rfl⟩ := List.mem_map.1 hs
          have hget := List.findIdx_getElem (p := rangeEq r) (w := hlt)
          rw [rangeEq_iff] at hget
          refine ⟨r, ?_, ((hcsmem r).1 hr).2⟩
          rw [List.getElem?_eq_getElem hlt, ← hget.1]
        · intro s r hsr hsome hall hfirst
          refine List.mem_map.2 ⟨r, (hcsmem r).2 ⟨hsome, hall⟩, ?_⟩
          obtain ⟨hlt, hse⟩ := List.getElem?_eq_some_iff.1 hsr
          rw [List.findIdx_eq hlt]
          refine ⟨(rangeEq_iff _ _).2 ⟨hse.symm, hsome⟩, ?_⟩
          intro j hj
          rw [Bool.eq_false_iff]
          intro hc
          refine hfirst j hj ?_
          rw [List.getElem?_eq_getElem (by omega), ← ((rangeEq_iff _ _).1 hc).1]

open Classical in
/-- **C16** (rows and windows) With times separated by more than the matching tolerance, every object `select_common`
returns holds exactly those rows of the corresponding input whose baseline-pair, time and LST (as requested) occur in all
inputs, and with `spws=True` exactly the first window of each range that occurs in all inputs. Missing: polarization
pairs, which are never restricted (see the counterexample). -/
theorem C16_select_common_partial {us vs : List (UVP D W)} {os : List (Obj D W)} (f : Flags)
    (h : List.Forall₂ (fun u o => Represents u o ∧ Valid o ∧ o.folded = false) us os) (hsep : Separated os)
    (hok : selectCommon us f = .ok vs) :
    vs.length = us.length ∧ ∀ (i : Nat) (u v : UVP D W) (o : Obj D W), us[i]? = some u → vs[i]? = some v → os[i]? = some o →
      ∃ sp, Represents v (specSelect { o with rows := o.rows.filter (fun m => decide (Shared f os m)) } { spws := sp }) ∧
        (f.spws = false → sp = none) ∧ (f.spws = true → ∃ l, sp = some l ∧ CommonWindows us u l) := by
  obtain ⟨h2, hb, ht, hl, _, hF⟩ := selectCommon_args hok
  refine ⟨hF.length_eq.symm, ?_⟩
  intro i u v o hui hvi hoi
  have hne : us ≠ [] := by rintro rfl; simp at h2
  have get₂ : ∀ {γ δ : Type} {R : γ → δ → Prop} {l : List γ} {r : List δ} (_ : List.Forall₂ R l r) (i : Nat) (a : γ) (b : δ),
      l[i]? = some a → r[i]? = some b → R a b := by
    intro γ δ R l r hh
    induction hh with
    | nil => intro i a b h; simp at h
    | cons hab _ ih =>
      intro i a b ha hb
      cases i with
      | zero => simp at ha hb; subst ha; subst hb; exact hab
      | succ i => exact ih i a b (by simpa using ha) (by simpa using hb)
  obtain ⟨hr, hv, hfold⟩ := get₂ h i u o hui hoi
  obtain ⟨sp, hsel, hs1, hs2⟩ := get₂ hF i u v hui hvi
  refine ⟨sp, ?_, hs1, hs2⟩
  set a : Args := { spws := sp
                    blpairs := if f.blpairs then some (common (us.map (·.blpairArray))) else none
                    times := if f.times then some (common (us.map (·.timeAvg))) else none
                    lsts := if f.lsts then some (common (us.map (·.lstAvg))) else none
                    polpairs := none } with ha
  have hA : Accepts o a := by
    by_contra hcon
    obtain ⟨e, he⟩ := select_error hr hv (Or.inl hfold) hcon
    rw [he] at hsel; cases hsel
  obtain ⟨w, hw, rw1, _⟩ := select_refines hr hv hA (Or.inl hfold)
  rw [hsel] at hw; cases hw
  have hom : o ∈ os := List.mem_of_getElem? hoi
  -- membership in the common lists
  have cb : ∀ x, x ∈ common (us.map (·.blpairArray)) ↔ ∀ o' ∈ os, ∃ m' ∈ o'.rows, m'.blpair = x := by
    intro x
    rw [mem_common us hne]
    constructor
    · intro hx o' ho'
      obtain ⟨u', hu', hr', _⟩ := forall₂_mem_right h ho'
      have := hx u' hu'
      rw [hr'.blpair] at this
      exact List.mem_map.1 this
    · intro hx u' hu'
      obtain ⟨o', ho', hr', _⟩ := forall₂_mem_left h hu'
      rw [hr'.blpair]
      exact List.mem_map.2 (hx o' ho')
  have ct : ∀ x, x ∈ common (us.map (·.timeAvg)) ↔ ∀ o' ∈ os, ∃ m' ∈ o'.rows, m'.tAvg = x := by
    intro x
    rw [mem_common us hne]
    constructor
    · intro hx o' ho'
      obtain ⟨u', hu', hr', _⟩ := forall₂_mem_right h ho'
      have := hx u' hu'
      rw [hr'.timeAvg] at this
      exact List.mem_map.1 this
    · intro hx u' hu'
      obtain ⟨o', ho', hr', _⟩ := forall₂_mem_left h hu'
      rw [hr'.timeAvg]
      exact List.mem_map.2 (hx o' ho')
  have cl : ∀ x, x ∈ common (us.map (·.lstAvg)) ↔ ∀ o' ∈ os, ∃ m' ∈ o'.rows, m'.lAvg = x := by
    intro x
    rw [mem_common us hne]
    constructor
    · intro hx o' ho'
      obtain ⟨u', hu', hr', _⟩ := forall₂_mem_right h ho'
      have := hx u' hu'
      rw [hr'.lstAvg] at this
      exact List.mem_map.1 this
    · intro hx u' hu'
      obtain ⟨o', ho', hr', _⟩ := forall₂_mem_left h hu'
      rw [hr'.lstAvg]
      exact List.mem_map.2 (hx o' ho')
  have hkeep : ∀ m ∈ o.rows, keepRow a m = decide (Shared f os m) := by
    intro m hm
    rw [Bool.eq_iff_iff, decide_eq_true_iff]
    unfold Shared
    have e1 : (f.times = true → (common (us.map (·.timeAvg))).any (near m.tAvg) = true) ↔
        (f.times = true → ∀ o' ∈ os, ∃ m' ∈ o'.rows, m'.tAvg = m.tAvg) := by
      refine imp_congr_right fun _ => ?_
      rw [List.any_eq_true]
      constructor
      · rintro ⟨t, ht, hn⟩
        rw [ct] at ht
        obtain ⟨m', hm', e⟩ := ht o hom
        have : m.tAvg = t := by rw [← e]; exact (hsep o hom m hm o hom m' hm').1 (by rw [e]; exact hn)
        rw [this]; exact ht
      · intro hh
        exact ⟨m.tAvg, (ct _).2 hh, near_self _⟩
    have e2 : (f.lsts = true → (common (us.map (·.lstAvg))).any (near m.lAvg) = true) ↔
        (f.lsts = true → ∀ o' ∈ os, ∃ m' ∈ o'.rows, m'.lAvg = m.lAvg) := by
      refine imp_congr_right fun _ => ?_
      rw [List.any_eq_true]
      constructor
      · rintro ⟨t, ht, hn⟩
        rw [cl] at ht
        obtain ⟨m', hm', e⟩ := ht o hom
        have : m.lAvg = t := by rw [← e]; exact (hsep o hom m hm o hom m' hm').2 (by rw [e]; exact hn)
        rw [this]; exact ht
      · intro hh
        exact ⟨m.lAvg, (cl _).2 hh, near_self _⟩
    rw [← e1, ← e2, ← cb m.blpair]
    unfold keepRow
    rw [ha]
    cases f.blpairs <;> cases f.times <;> cases f.lsts <;> simp [Bool.and_eq_true, and_assoc]
  have hrows : o.rows.filter (keepRow a) = o.rows.filter (fun m => decide (Shared f os m)) :=
    List.filter_congr hkeep
  have hspec : specSelect o a = specSelect { o with rows := o.rows.filter (fun m => decide (Shared f os m)) } { spws := sp } := by
    have hf2 : (o.rows.filter (fun m => decide (Shared f os m))).filter (keepRow { spws := sp })
        = o.rows.filter (fun m => decide (Shared f os m)) := List.filter_eq_self.2 (fun m _ => rfl)
    unfold specSelect
    simp only [hrows, hf2]
    rfl
  rw [← hspec]; exact rw1

/-- **C16** An empty intersection on a requested axis (baseline-pairs, times, LSTs, polarization pairs) raises, as does a
list of fewer than two objects. -/
theorem C16_empty_intersection_raises (us : List (UVP D W)) (f : Flags)
    (h : us.length < 2 ∨ (f.blpairs = true ∧ ∀ b, ∃ u ∈ us, b ∉ u.blpairArray) ∨
      (f.times = true ∧ ∀ t, ∃ u ∈ us, t ∉ u.timeAvg) ∨ (f.lsts = true ∧ ∀ t, ∃ u ∈ us, t ∉ u.lstAvg) ∨
      (f.polpairs = true ∧ ∀ p, ∃ u ∈ us, p ∉ u.polpairArray)) : ∃ e, selectCommon us f = .error e := by
  cases hok : selectCommon us f with
  | error e => exact ⟨e, rfl⟩
  | ok vs =>
    exfalso
    obtain ⟨h2, hb, ht, hl, hp, _⟩ := selectCommon_args hok
    have hne : us ≠ [] := by rintro rfl; simp at h2
    have key : ∀ {γ : Type} [DecidableEq γ] (g : UVP D W → List γ), common (us.map g) ≠ [] → ¬ ∀ x, ∃ u ∈ us, x ∉ g u := by
      intro γ _ g hne' hall
      obtain ⟨x, l, e⟩ := List.exists_cons_of_ne_nil hne'
      have hx : x ∈ common (us.map g) := by rw [e]; simp
      rw [mem_common us hne] at hx
      obtain ⟨u, hu, hn⟩ := hall x
      exact hn (hx u hu)
    rcases h with h | ⟨hf, h⟩ | ⟨hf, h⟩ | ⟨hf, h⟩ | ⟨hf, h⟩
    · omega
    · exact key _ (hb hf) h
    · exact key _ (ht hf) h
    · exact key _ (hl hf) h
    · exact key _ (hp hf) h

/-- **C16** counterexample: `select_common(polpairs=True)` on two objects that share only polarization pair 1515 returns
the first with both of its polarization pairs. -/
theorem C16_counterexample_polpairs_not_restricted :
    ∃ (u1 u2 : UVP Int ℚ) (vs : List (UVP Int ℚ)), u1.polpairArray = [1515, 1414] ∧ u2.polpairArray = [1515] ∧
      selectCommon [u1, u2] { spws := false, times := false } = .ok vs ∧
      vs.map (·.polpairArray) = [[1515, 1414], [1515]] := by
  refine ⟨store exObj, (select (store exObj) { polpairs := some [1515] }).toOption.getD (store exObj), _, rfl, rfl, rfl, rfl⟩

/-- Non-vacuity of the main theorem: two objects with different baseline-pairs, one shared. -/
example : ∃ u2 vs, select (store exObj) { blpairs := some [101102102103] } = .ok u2 ∧
    selectCommon [store exObj, u2] { spws := false, times := false } = .ok vs ∧
    vs.map (·.blpairArray) = [[101102102103, 101102102103], [101102102103, 101102102103]] := ⟨_, _, rfl, rfl, rfl⟩

end HeraPspec.UVP
