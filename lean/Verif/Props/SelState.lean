import Verif.Model.SelState
import Verif.Props.UVP
import Mathlib.Tactic.FinCases

/-!
C159: what a selection that raises leaves behind.

The specification (`Meas`, `Obj`, `Represents`, `Valid`, `keepRow`, `Accepts`) is in `Verif/Spec/UVP.lean`; the
predicates below split the acceptable requests of `Accepts` by axis.
-/
namespace HeraPspec.UVP

variable {D W : Type}

/-- The windows asked for exist. -/
def WindowsOk (o : Obj D W) (a : Args) : Prop := ∀ l, a.spws = some l → l ≠ [] ∧ ∀ s ∈ l, s < o.nspw

/-- Nothing was asked about rows. -/
def NoRowRequest (a : Args) : Prop := a.bls = none ∧ a.blpairs = none ∧ a.times = none ∧ a.lsts = none

/-- The row request is well formed and some row satisfies it. -/
def RowsOk (o : Obj D W) (a : Args) : Prop :=
  a.bls ≠ some [] ∧ a.blpairs ≠ some [] ∧ (a.times = none ∨ a.lsts = none) ∧
    (NoRowRequest a ∨ ∃ m ∈ o.rows, keepRow a m = true)

/-- Some polarization pair asked for is present. -/
def PolsOk (o : Obj D W) (a : Args) : Prop := a.polpairs = none ∨ ∃ p ∈ o.pols, keepPol a p = true

theorem accepts_iff {o : Obj D W} {a : Args} : Accepts o a ↔ WindowsOk o a ∧ RowsOk o a ∧ PolsOk o a :=
  ⟨fun h => ⟨h.spws, ⟨h.bls, h.blpairs, h.timesLsts, h.rows⟩, h.pols⟩,
   fun h => ⟨h.1, h.2.1.1, h.2.1.2.1, h.2.1.2.2.1, h.2.1.2.2.2, h.2.2⟩⟩

/-- The state model and the functional model of `select` (C12) describe the same calls. -/
theorem selectState_agrees (u : UVP D W) (a : Args) :
    select u a = match (selectState u a).2 with
      | some e => .error e
      | none => .ok (selectState u a).1 := by
  unfold select selectState
  cases h1 : selectSpws u a.spws with
  | error e => rfl
  | ok r =>
    obtain ⟨u1, mapping⟩ := r
    simp only [bind, Except.bind]
    cases h2 : rowSel u1 a with
    | error e => rfl
    | ok rs =>
      simp only
      have hp : polSel { u1 with
        blpairArray := rs.apply u1.blpairArray
        time1 := rs.apply u1.time1
        time2 := rs.apply u1.time2
        timeAvg := rs.apply u1.timeAvg
        lst1 := rs.apply u1.lst1
        lst2 := rs.apply u1.lst2
        lstAvg := rs.apply u1.lstAvg } a.polpairs = polSel u1 a.polpairs := by
        unfold polSel; rfl
      rw [hp]
      cases h3 : polSel u1 a.polpairs with
      | error e => rfl
      | ok ps =>
        simp only
        cases h4 : sliceDict (fun rows => (rs.apply rows).map (fun r => r.map ps.apply)) u1.data (u1.spwArray.zip mapping) with
        | error e => rfl
        | ok data =>
          simp only
          cases h5 : sliceDict (fun rows => (rs.apply rows).map ps.apply) u1.integ (u1.spwArray.zip mapping) <;> rfl

/-- **C159** With `inplace=False` the object the method is called on is the same afterwards, whatever the request and
whether or not the call raises; the returned copy (or the exception) is what `select` specifies. -/
theorem C159_copy_untouched (u : UVP D W) (a : Args) :
    (selectCall false u a).1 = u ∧ (selectCall false u a).2 = (select u a).map some := by
  refine ⟨rfl, ?_⟩
  rw [selectState_agrees]
  unfold selectCall
  simp only [Bool.false_eq_true, ↓reduceIte]
  cases (selectState u a).2 <;> rfl

/-- **C159** In place, a call that returns leaves the selected object, and a call raises exactly when `select` rejects
the request. -/
theorem C159_inplace_success (u u' : UVP D W) (a : Args) :
    (select u a = .ok u' ↔ selectCall true u a = (u', .ok none)) ∧
    (∀ e, select u a = .error e ↔ (selectCall true u a).2 = .error e) := by
  rw [selectState_agrees]
  unfold selectCall
  simp only [↓reduceIte]
  cases h : (selectState u a).2 with
  | none => simp
  | some e => simp

theorem selectSpws_keeps {u u1 : UVP D W} {l : Option (List Nat)} {m : List Nat} (h : selectSpws u l = .ok (u1, m)) :
    u1.data = u.data ∧ u1.integ = u.integ ∧ u1.folded = u.folded ∧ u1.label1 = u.label1 ∧
      u1.polpairArray = u.polpairArray ∧ u1.blpairArray = u.blpairArray ∧ u1.timeAvg = u.timeAvg ∧
      u1.lstAvg = u.lstAvg := by
  have hd : ∀ (is : List Nat) (v w : UVP D W), downConvert is v = .ok w →
      w.data = v.data ∧ w.integ = v.integ ∧ w.folded = v.folded ∧ w.label1 = v.label1 ∧
      w.polpairArray = v.polpairArray ∧ w.blpairArray = v.blpairArray ∧ w.timeAvg = v.timeAvg ∧ w.lstAvg = v.lstAvg := by
    intro is
    induction is with
    | nil => intro v w h; simp only [downConvert, Except.ok.injEq] at h; subst h; simp
    | cons i is ih =>
      intro v w h
      unfold downConvert at h
      split at h
      · exact ih _ _ h
      · split at h
        · cases h
        · have := ih _ _ h
          exact this
  cases l with
  | none => simp only [selectSpws, Except.ok.injEq, Prod.mk.injEq] at h; obtain ⟨rfl, _⟩ := h; simp
  | some l =>
    simp only [selectSpws, bind, Except.bind] at h
    split at h
    · cases h
    · split at h
      · cases h
      · split at h
        · cases h
        · split at h
          · cases h
          · rename_i hdc
            simp only [Except.ok.injEq, Prod.mk.injEq] at h
            obtain ⟨rfl, _⟩ := h
            have := hd _ _ _ hdc
            exact this

/-- **C159** A selection in place that raises has not changed the spectra: the data and integration arrays are the old
ones, whatever the object and the request. -/
theorem C159_data_untouched_on_error (u : UVP D W) (a : Args) (e : Err) (h : (selectCall true u a).2 = .error e) :
    (selectCall true u a).1.data = u.data ∧ (selectCall true u a).1.integ = u.integ ∧
    (selectCall true u a).1.folded = u.folded := by
  unfold selectCall at h ⊢
  simp only [↓reduceIte] at h ⊢
  unfold selectState at h ⊢
  cases h1 : selectSpws u a.spws with
  | error e => simp
  | ok r =>
    obtain ⟨u1, mapping⟩ := r
    have hk := selectSpws_keeps h1
    rw [h1] at h
    simp only at h ⊢
    cases h2 : rowSel u1 a with
    | error e => simp only; exact ⟨hk.1, hk.2.1, hk.2.2.1⟩
    | ok rs =>
      rw [h2] at h
      simp only at h ⊢
      split
      · exact ⟨hk.1, hk.2.1, hk.2.2.1⟩
      · rename_i ps hps
        rw [hps] at h
        simp only at h ⊢
        split
        · exact ⟨hk.1, hk.2.1, hk.2.2.1⟩
        · rename_i dat hdat
          rw [hdat] at h
          simp only at h ⊢
          split
          · exact ⟨hk.1, hk.2.1, hk.2.2.1⟩
          · rename_i itg hitg
            rw [hitg] at h
            simp at h

theorem selectSpws_windows_bad {u : UVP D W} {o : Obj D W} {a : Args} (hr : Represents u o) (hv : Valid o)
    (hs : ¬ WindowsOk o a) : ∃ e, selectSpws u a.spws = .error e := by
  unfold WindowsOk at hs
  push Not at hs
  obtain ⟨l, hl, hbad⟩ := hs
  rw [hl]
  unfold selectSpws
  by_cases hne : l = []
  · subst hne; exact ⟨_, rfl⟩
  · obtain ⟨s, hsl, hge⟩ := hbad hne
    have : spwToFreqIndices u l = .error .assertion := by
      unfold spwToFreqIndices
      rw [if_neg hne, if_neg]
      intro h
      have := List.all_eq_true.1 h s hsl
      simp only [decide_eq_true_eq, hr.spwFreq, List.mem_map] at this
      obtain ⟨c, hc, rfl⟩ := this
      have := hv.chans_lt c hc
      omega
    simp only [this, bind, Except.bind]; exact ⟨_, rfl⟩

theorem rowSel_bad {u : UVP D W} {o : Obj D W} {a : Args} (hblp : u.blpairArray = o.rows.map Meas.blpair)
    (ht : u.timeAvg = o.rows.map (·.tAvg)) (hl : u.lstAvg = o.rows.map (·.lAvg)) (hv : Valid o)
    (h : ¬ RowsOk o a) : ∃ e, rowSel u a = .error e := by
  by_cases hbad : a.bls = some [] ∨ a.blpairs = some [] ∨ (a.times ≠ none ∧ a.lsts ≠ none)
  · obtain ⟨e, he⟩ := rowMask_error (u := u) hbad
    unfold rowSel
    rw [he]; exact ⟨e, rfl⟩
  · push Not at hbad
    have htl : a.times = none ∨ a.lsts = none := by
      by_cases h : a.times = none
      · exact Or.inl h
      · exact Or.inr (hbad.2.2 h)
    have hrows : ¬ (NoRowRequest a ∨ ∃ m ∈ o.rows, keepRow a m = true) :=
      fun hc => h ⟨hbad.1, hbad.2.1, htl, hc⟩
    push Not at hrows
    unfold rowSel
    rw [rowMask_ok hblp ht hl hv.bl2 hbad.1 hbad.2.1 htl]
    simp only [bind, Except.bind]
    have hn := hrows.1
    unfold NoRowRequest at hn
    rw [if_neg hn]
    simp only
    rw [if_neg]
    · exact ⟨_, rfl⟩
    · rw [any_map_id]
      rintro ⟨m, hm, hk⟩
      exact hrows.2 m hm hk

theorem polSel_bad {u : UVP D W} {o : Obj D W} {a : Args} (hp : u.polpairArray = o.pols) (h : ¬ PolsOk o a) :
    ∃ e, polSel u a.polpairs = .error e := by
  unfold PolsOk at h
  push Not at h
  unfold polSel
  cases hpp : a.polpairs with
  | none => exact absurd hpp h.1
  | some ps =>
    cases ps with
    | nil => exact ⟨_, rfl⟩
    | cons p0 ps' =>
      simp only
      have : whereTrue (u.polpairArray.map (fun p => decide (p ∈ p0 :: ps'))) = [] := by
        rw [whereTrue_eq_nil]
        by_contra hc
        rw [Bool.not_eq_false, any_map_id, hp] at hc
        obtain ⟨p, hp', hm⟩ := hc
        exact h.2 p hp' (by simpa [keepPol, hpp] using hm)
      rw [this]; exact ⟨_, rfl⟩

theorem rowSel_none {u : UVP D W} {a : Args} (h : NoRowRequest a) : rowSel u a = .ok .all := by
  obtain ⟨h1, h2, h3, h4⟩ := h
  unfold rowSel rowMask
  rw [h1, h2, h3, h4]
  rfl

/-- **C159** (full claim: a selection in place that raises leaves the object as it was.) Proved when the request fails
on the first axis it mentions, in the order windows, rows, polarization pairs: a window that does not exist; no window
request and a row request that is malformed or matches nothing; neither window nor row request and polarization pairs
none of which is present.
Missing: a request that is acceptable on one axis and fails on a later one; `C159_finding_wrong_window` and
`C159_finding_wrong_rows` show that the object is then changed, and how. -/
theorem C159_failed_select_unchanged_partial {u : UVP D W} {o : Obj D W} (hr : Represents u o) (hv : Valid o) (a : Args)
    (h : ¬ WindowsOk o a ∨ (a.spws = none ∧ ¬ RowsOk o a) ∨ (a.spws = none ∧ NoRowRequest a ∧ ¬ PolsOk o a)) :
    (selectCall true u a).1 = u ∧ ∃ e, (selectCall true u a).2 = .error e := by
  unfold selectCall
  simp only [↓reduceIte]
  rcases h with h | ⟨hs, h⟩ | ⟨hs, hn, h⟩
  · obtain ⟨e, he⟩ := selectSpws_windows_bad hr hv h
    have hst : selectState u a = (u, some e) := by
      unfold selectState
      rw [he]
    rw [hst]
    exact ⟨rfl, e, rfl⟩
  · obtain ⟨e, he⟩ := rowSel_bad hr.blpair hr.timeAvg hr.lstAvg hv h
    have hst : selectState u a = (u, some e) := by
      unfold selectState
      rw [hs]
      simp only [selectSpws, he]
    rw [hst]
    exact ⟨rfl, e, rfl⟩
  · obtain ⟨e, he⟩ := polSel_bad hr.pols h
    have hst : selectState u a = (u, some e) := by
      unfold selectState
      rw [hs]
      simp only [selectSpws, rowSel_none hn]
      have he2 : ∀ v : UVP D W, v.polpairArray = u.polpairArray → polSel v a.polpairs = .error e := by
        intro v hv
        rw [← he]
        unfold polSel
        rw [hv]
      simp only [he2, Sel.apply]
    rw [hst]
    exact ⟨rfl, e, rfl⟩

/-- **C159** (finding) On every object with its delays unfolded: if the windows asked for exist but no row satisfies the
row request, the call in place raises, and afterwards the object claims to hold exactly the requested windows,
renumbered from 0, with their frequencies and delays - while for every window number `s` it still has, baseline-pair and
polarization pair, it returns the spectra the old window `s` had. -/
theorem C159_finding_wrong_window {u : UVP D W} {o : Obj D W} (hr : Represents u o) (hv : Valid o) (a : Args)
    (hf : o.folded = false) (hw : WindowsOk o a) (h : ¬ RowsOk o a) :
    (∃ e, (selectCall true u a).2 = .error e) ∧
    (selectCall true u a).1.spwArray = List.range (keptSpws o.nspw a).length ∧
    (selectCall true u a).1.freqArray = (o.chans.filter (fun c => decide (c.1 ∈ keptSpws o.nspw a))).map (·.2) ∧
    (selectCall true u a).1.dlyArray = (o.dlys.filter (fun c => decide (c.1 ∈ keptSpws o.nspw a))).map (·.2) ∧
    ∀ s b p, s < (keptSpws o.nspw a).length →
      getData (selectCall true u a).1 s b p = getData u s b p := by
  have hacc : Accepts o { spws := a.spws } := ⟨hw, by simp, by simp, by simp, by simp, by simp⟩
  have h1 := selectSpws_ok (a := { spws := a.spws }) hr hv hacc (Or.inl hf)
  have hkk : keptSpws o.nspw { spws := a.spws } = keptSpws o.nspw a := rfl
  simp only [hkk] at h1
  generalize hu1 : ({ u with
      spwArray := List.range (keptSpws o.nspw a).length
      spwFreqArray := (specSelect o { spws := a.spws }).chans.map (·.1)
      freqArray := (specSelect o { spws := a.spws }).chans.map (·.2)
      spwDlyArray := (specSelect o { spws := a.spws }).dlys.map (·.1)
      dlyArray := (specSelect o { spws := a.spws }).dlys.map (·.2) } : UVP D W) = u1 at h1
  have e1 : u1.blpairArray = o.rows.map Meas.blpair := by rw [← hu1]; exact hr.blpair
  have e2 : u1.timeAvg = o.rows.map (·.tAvg) := by rw [← hu1]; exact hr.timeAvg
  have e3 : u1.lstAvg = o.rows.map (·.lAvg) := by rw [← hu1]; exact hr.lstAvg
  obtain ⟨e, he⟩ := rowSel_bad e1 e2 e3 hv h
  have hst : selectState u a = (u1, some e) := by
    unfold selectState
    rw [h1]
    simp only [he]
  have hc : selectCall true u a = (u1, .error e) := by
    unfold selectCall
    rw [hst]
    rfl
  rw [hc]
  refine ⟨⟨e, rfl⟩, ?_, ?_, ?_, ?_⟩
  · rw [← hu1]
  · rw [← hu1]
    simp only [specSelect, hkk, List.map_map]
    rfl
  · rw [← hu1]
    simp only [specSelect, hkk, List.map_map]
    rfl
  · intro s b p hs
    have hsl : s < o.nspw := by
      have hle : (keptSpws o.nspw a).length ≤ o.nspw := by
        unfold keptSpws
        split
        · simp
        · exact (List.length_filter_le _ _).trans (by simp)
      omega
    have hv2 := valid_specSelect hv ({ spws := a.spws } : Args)
    have hn2 : (specSelect o ({ spws := a.spws } : Args)).nspw = (keptSpws o.nspw a).length := rfl
    have m1 : s ∈ u1.spwFreqArray := by
      rw [← hu1]
      obtain ⟨c, hc, e⟩ := hv2.chans_all s (by rw [hn2]; exact hs)
      exact List.mem_map.2 ⟨c, hc, e⟩
    have m2 : s ∈ u1.spwDlyArray := by
      rw [← hu1]
      obtain ⟨c, hc, e⟩ := hv2.dlys_all s (by rw [hn2]; exact hs)
      exact List.mem_map.2 ⟨c, hc, e⟩
    have m3 : s ∈ u.spwFreqArray := by
      rw [hr.spwFreq]
      obtain ⟨c, hc, e⟩ := hv.chans_all s hsl
      exact List.mem_map.2 ⟨c, hc, e⟩
    have m4 : s ∈ u.spwDlyArray := by
      rw [hr.spwDly]
      obtain ⟨c, hc, e⟩ := hv.dlys_all s hsl
      exact List.mem_map.2 ⟨c, hc, e⟩
    have hf1 : u1.folded = false := by rw [← hu1]; exact hr.folded.trans hf
    have hf0 : u.folded = false := hr.folded.trans hf
    have hblp : u1.blpairArray = u.blpairArray := by rw [← hu1]
    have hpol : u1.polpairArray = u.polpairArray := by rw [← hu1]
    have hdat : u1.data = u.data := by rw [← hu1]
    have hk : keyToIndices u1 s b p = keyToIndices u s b p := by
      unfold keyToIndices polpairToIndices blpairToIndices
      rw [hblp, hpol]
      simp only [m1, m2, m3, m4, and_self, not_true_eq_false, ↓reduceIte]
    unfold getData
    rw [hk, hdat, hf1, hf0]
    rfl

/-- **C159** (finding) On every object with its delays unfolded: if the row request selects some rows but none of the
polarization pairs asked for is present, the call in place raises, and afterwards the object lists only the selected
rows - while the `i`-th of them is given the spectra of the `i`-th row of the object as it was before, whatever
baseline-pair that row belonged to. -/
theorem C159_finding_wrong_rows {u : UVP D W} {o : Obj D W} (hr : Represents u o) (hv : Valid o) (hn : o.pols.Nodup)
    (a : Args) (hf : o.folded = false) (hs : a.spws = none) (hrow : RowsOk o a) (h : ¬ PolsOk o a) :
    (∃ e, (selectCall true u a).2 = .error e) ∧
    (selectCall true u a).1.blpairArray = (o.rows.filter (keepRow a)).map Meas.blpair ∧
    (selectCall true u a).1.timeAvg = (o.rows.filter (keepRow a)).map (·.tAvg) ∧
    ∀ s b p, s < o.nspw → p ∈ o.pols → (∃ m ∈ o.rows.filter (keepRow a), m.blpair = b) →
      getData (selectCall true u a).1 s b p =
        .ok ((((o.rows.filter (keepRow a)).zip o.rows).filter (fun x => decide (x.1.blpair = b))).map
          (fun x => (x.2.dat s).filterMap (entry o.pols p))) := by
  have hacc : Accepts o { a with polpairs := none } :=
    ⟨by simp [hs], hrow.1, hrow.2.1, hrow.2.2.1, hrow.2.2.2, by simp⟩
  obtain ⟨rs, hrs, hrs'⟩ := rowSel_ok (u := u) (a := { a with polpairs := none }) hr.blpair hr.timeAvg hr.lstAvg hv.bl2 hacc
  have hrs2 : rowSel u a = .ok rs := hrs
  have hkr : ∀ m : Meas D W, keepRow { a with polpairs := none } m = keepRow a m := fun _ => rfl
  generalize hu2 : ({ u with
        blpairArray := rs.apply u.blpairArray
        time1 := rs.apply u.time1
        time2 := rs.apply u.time2
        timeAvg := rs.apply u.timeAvg
        lst1 := rs.apply u.lst1
        lst2 := rs.apply u.lst2
        lstAvg := rs.apply u.lstAvg } : UVP D W) = u2
  obtain ⟨e, he⟩ := polSel_bad (u := u2) (by rw [← hu2]; exact hr.pols) h
  have hst : selectState u a = (u2, some e) := by
    unfold selectState
    rw [hs]
    simp only [selectSpws, hrs2, hu2, he]
  have hc : selectCall true u a = (u2, .error e) := by
    unfold selectCall
    rw [hst]
    rfl
  rw [hc]
  have hb : u2.blpairArray = (o.rows.filter (keepRow a)).map Meas.blpair := by
    rw [← hu2]
    show rs.apply u.blpairArray = _
    rw [hr.blpair, hrs']
    rfl
  refine ⟨⟨e, rfl⟩, hb, ?_, ?_⟩
  · rw [← hu2]
    show rs.apply u.timeAvg = _
    rw [hr.timeAvg, hrs']
    rfl
  · intro s b p hsl hp hex
    set F := o.rows.filter (keepRow a) with hF
    have hlen : F.length ≤ o.rows.length := List.length_filter_le _ _
    obtain ⟨i, hi, hi'⟩ := whereTrue_single hn hp
    have m1 : s ∈ u2.spwFreqArray := by
      rw [← hu2]
      show s ∈ u.spwFreqArray
      rw [hr.spwFreq]; obtain ⟨c, hc, e⟩ := hv.chans_all s hsl; exact List.mem_map.2 ⟨c, hc, e⟩
    have m2 : s ∈ u2.spwDlyArray := by
      rw [← hu2]
      show s ∈ u.spwDlyArray
      rw [hr.spwDly]; obtain ⟨c, hc, e⟩ := hv.dlys_all s hsl; exact List.mem_map.2 ⟨c, hc, e⟩
    have m3 : b ∈ u2.blpairArray := by
      rw [hb]; obtain ⟨m, hm, e⟩ := hex; exact List.mem_map.2 ⟨m, hm, e⟩
    have hpol : u2.polpairArray = o.pols := by rw [← hu2]; exact hr.pols
    have m4 : p ∈ u2.polpairArray := by rw [hpol]; exact hp
    have hpi : polpairToIndices u2 [p] = .ok [i] := by
      unfold polpairToIndices
      rw [if_pos (by simp [m4]), hpol, hi]
    have hbi : blpairToIndices u2 [b] = .ok (whereTrue (F.map (fun m => decide (m.blpair = b)))) := by
      unfold blpairToIndices
      rw [if_pos (by simp [m3]), hb, List.map_map]
      simp [Function.comp_def]
    have hk : keyToIndices u2 s b p = .ok (s, whereTrue (F.map (fun m => decide (m.blpair = b))), i) := by
      unfold keyToIndices
      simp only [m1, m2, m3, m4, and_self, not_true_eq_false, ↓reduceIte, hpi, hbi, bind, Except.bind]
    have hdat : Dict.get u2.data s = some (o.rows.map (·.dat s)) := by
      rw [← hu2]
      show Dict.get u.data s = _
      rw [hr.data, if_pos hsl]
    have hf2 : u2.folded = false := by rw [← hu2]; exact hr.folded.trans hf
    have hpick : (whereTrue (F.map (fun m => decide (m.blpair = b)))).filterMap (fun j => (o.rows.map (·.dat s))[j]?) =
        ((F.zip o.rows).filter (fun x => decide (x.1.blpair = b))).map (fun x => x.2.dat s) := by
      have e1 : F.map (fun m => decide (m.blpair = b)) = (F.zip o.rows).map (fun x => decide (x.1.blpair = b)) := by
        conv_lhs => rw [← List.map_fst_zip hlen]
        rw [List.map_map]
        rfl
      have e2 : ∀ j ∈ whereTrue (F.map (fun m => decide (m.blpair = b))),
          (o.rows.map (·.dat s))[j]? = ((F.zip o.rows).map (fun x => x.2.dat s))[j]? := by
        intro j hj
        rw [mem_whereTrue] at hj
        have hjl : j < F.length := by
          by_contra hc
          rw [List.getElem?_eq_none (by simpa using hc)] at hj
          cases hj
        have hjr : j < o.rows.length := by omega
        rw [List.getElem?_eq_getElem (by simpa using hjr), List.getElem?_eq_getElem (by simpa using ⟨hjl, hjr⟩)]
        simp
      rw [List.filterMap_congr e2, e1, filterMap_whereTrue _ _ (by simp), mask_map_filter]
    unfold getData
    simp only [hk, bind, Except.bind, hdat, hf2, Bool.false_eq_true, ↓reduceIte, hpick, List.map_map]
    congr 1
    apply List.map_congr_left
    intro x _
    simp only [Function.comp_apply]
    congr 1
    funext d
    exact (lookup_zip_getElem hn hi' d).symm

/-! ### Concrete calls on `exObj` (two windows, three rows, pols 1515 and 1414) -/

/-- A request for window 1 at a time the object does not have. -/
def exWin : Args := { spws := some [1], times := some [100] }

/-- A request for the row at time 5/2 with a polarization pair the object does not have. -/
def exRow : Args := { times := some [5 / 2], polpairs := some [1111] }

example : WindowsOk exObj exWin ∧ ¬ RowsOk exObj exWin := by
  constructor
  · intro l hl
    cases hl
    decide +kernel
  · rintro ⟨_, _, _, h | ⟨m, hm, hk⟩⟩
    · exact absurd h.2.2.1 (by decide)
    · revert hk
      fin_cases hm <;> decide +kernel

example : RowsOk exObj exRow ∧ ¬ PolsOk exObj exRow := by
  constructor
  · refine ⟨by decide, by decide, Or.inr rfl, Or.inr ⟨exObj.rows[1], by simp [exObj], by decide +kernel⟩⟩
  · rintro (h | ⟨p, hp, hk⟩)
    · cases h
    · revert hk
      fin_cases hp <;> decide +kernel

theorem selectCall_error {b : Bool} {u : UVP D W} {a : Args} {e : Err} (h : (selectState u a).2 = some e) :
    (selectCall b u a).2 = .error e := by
  unfold selectCall
  simp only [h]
  cases b <;> rfl

/-- **C159** (counterexample) The request for window 1 at an absent time raises `AssertionError`; afterwards the only
window of the object has the frequencies of window 1 (110, 111) and `get_data` returns the spectra of window 0. -/
theorem C159_counterexample_window :
    (selectCall true (store exObj) exWin).2 = .error .assertion ∧
    (selectCall true (store exObj) exWin).1.spwArray = [0] ∧
    (selectCall true (store exObj) exWin).1.freqArray = [110, 111] ∧
    getData (selectCall true (store exObj) exWin).1 0 103104104105 1515 = .ok [[21, 23]] ∧
    getData (store exObj) 1 103104104105 1515 = .ok [[25, 27]] :=
  ⟨selectCall_error (by decide +kernel), by decide +kernel, by decide +kernel, by decide +kernel, by decide +kernel⟩

/-- **C159** (counterexample) The request for the second row with an absent polarization pair raises `IndexError`;
afterwards the object has that row only (time 5/2) and `get_data` returns the spectrum of the first row. -/
theorem C159_counterexample_row :
    (selectCall true (store exObj) exRow).2 = .error .index ∧
    (selectCall true (store exObj) exRow).1.timeAvg = [5 / 2] ∧
    getData (selectCall true (store exObj) exRow).1 0 101102102103 1515 = .ok [[1, 3]] ∧
    getData (store exObj) 0 101102102103 1515 = .ok [[1, 3], [11, 13]] :=
  ⟨selectCall_error (by decide +kernel), by decide +kernel, by decide +kernel, by decide +kernel⟩

example : (selectCall false (store exObj) exRow).1 = store exObj ∧ (selectCall false (store exObj) exRow).2 = .error .index :=
  ⟨rfl, selectCall_error (by decide +kernel)⟩

example : (selectCall true (store exObj) { polpairs := some [1111] }).1 = store exObj :=
  (C159_failed_select_unchanged_partial (store_represents exObj) exObj_valid _
    (Or.inr (Or.inr ⟨rfl, ⟨rfl, rfl, rfl, rfl⟩, by
      rintro (h | ⟨p, hp, hk⟩)
      · cases h
      · revert hk
        fin_cases hp <;> decide +kernel⟩))).1

end HeraPspec.UVP
