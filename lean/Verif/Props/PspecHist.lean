import Verif.Lemmas.PspecHist

/-!
C154: the result of a call of `pspec` depends on the data and on the request only — not on the calls made before, and not on the
other windows and baseline-pairs asked for in the same call. This holds for the non-symmetric taper and when no filter extension is
used; with the (default) symmetric taper it is violated, because `set_filter_extension` switches the taper of all later windows and
because a leftover extension makes the next call raise.

The flag weights are assumed to be binary (`hb`), as in C55.
-/
namespace HeraPspec.PspecHist
open HeraPspec.Settings

variable {κ T P M V : Type} [DecidableEq κ] [DecidableEq T] (K : Kern κ T P M V)

/-! ### Specification -/

/-- The call `a` meets no extension left behind by an earlier call, or does not ask for the symmetric taper. -/
def NoLeftover (s : PS κ T P M V) (a : Args κ T P) : Prop := a.symm = false ∨ (s.g.fext.1 ≤ 0 ∧ s.g.fext.2 ≤ 0)

/-- No window before the `i`-th of the call has an extension on both sides, or the call does not ask for the symmetric taper. -/
def TaperKept (a : Args κ T P) (i : ℕ) : Prop := a.symm = false ∨ ∀ w ∈ a.wins.take i, w.ext.1 = 0 ∨ w.ext.2 = 0

/-- The request for one window and one pair of keys alone. -/
def only (a : Args κ T P) (w : Win) (x : κ × κ) : Args κ T P := { a with wins := [w], pairs := [x] }

/-! ### Theorems -/

/-- C154. Two objects with the same data, whatever calls they have been through (settings, parameters, stale caches, earlier calls
of `pspec`), give the same result or the same exception, provided that no extension is left over or the symmetric taper is not
asked for. Missing: the claim without the proviso is false, see `C154_second_call_raises`. -/
theorem C154_history_partial (hb : ∀ v k w, K.binary (K.yOf v k w) = true) (s1 s2 : PS κ T P M V) (a : Args κ T P)
    (hd : s1.g.data = s2.g.data) (hn : s1.g.nfreqs = s2.g.nfreqs) (h1 : NoLeftover s1 a) (h2 : NoLeftover s2 a) :
    (call K s1 a).2 = (call K s2 a).2 := by
  rw [call_spec K hb s1 a h1, call_spec K hb s2 a h2, hd, hn]

/-- C154. In particular, after any history of calls of the setters, queries and `add`, the result is that of a new object holding the
same data. Missing: calls with a symmetric taper and filter extensions, for which the claim is false of the code. -/
theorem C154_fresh_partial (hb : ∀ v k w, K.binary (K.yOf v k w) = true) (v0 : V) (n0 : ℤ) (t0 t1 : T) (ops : List (Op κ T P V))
    (a : Args κ T P) (h : NoLeftover (run K (init v0 n0 t0) ops) a) :
    (call K (run K (init v0 n0 t0) ops) a).2 =
      (call K (init (run K (init v0 n0 t0) ops).g.data (run K (init v0 n0 t0) ops).g.nfreqs t1) a).2 :=
  C154_history_partial K hb _ _ a rfl rfl h (Or.inr ⟨le_refl _, le_refl _⟩)

theorem only_spec (hb : ∀ v k w, K.binary (K.yOf v k w) = true) (v : V) (n : ℤ) (t : T) (a : Args κ T P) (w : Win) (x : κ × κ)
    (g : Geom V) (d : ℤ) (m : M × M) :
    (call K (init v n t) (only a w x)).2 = .ok [⟨g, d, [m]⟩] ↔
      winErr w = none ∧ pairVal K (winGeom v n a.symm w) a.wt a.taper a.rp x = .ok m ∧
        g = winGeom v n a.symm w ∧ d = w.nd.getD (w.hi - w.lo) := by
  rw [call_spec K hb _ _ (Or.inr ⟨le_refl _, le_refl _⟩)]
  show winsVal K v n a.wt a.taper a.rp [x] a.symm [w] = _ ↔ _
  simp only [winsVal, winVal, pairVals]
  cases winErr w with
  | some e => simp
  | none =>
    cases pairVal K (winGeom v n a.symm w) a.wt a.taper a.rp x with
    | error e => simp
    | ok m' =>
      simp only [Except.ok.injEq, List.cons.injEq, WinOut.mk.injEq, and_true, true_and]
      constructor
      · rintro ⟨h1, h2, h3⟩; exact ⟨h3, h1.symm, h2.symm⟩
      · rintro ⟨h1, h2, h3⟩; exact ⟨h2.symm, h3.symm, h1⟩

theorem winVal_iff (v : V) (n : ℤ) (symm : Bool) (wt : Wt) (t : T) (rp : κ → Option P) (xs : List (κ × κ)) (w : Win)
    (o : WinOut M V) :
    winVal K v n symm wt t rp xs w = .ok o ↔ winErr w = none ∧ o.g = winGeom v n symm w ∧ o.ndlys = w.nd.getD (w.hi - w.lo) ∧
      pairVals K (winGeom v n symm w) wt t rp xs = .ok o.mats := by
  unfold winVal
  cases winErr w with
  | some e => simp
  | none =>
    cases pairVals K (winGeom v n symm w) wt t rp xs with
    | error e => simp
    | ok ms =>
      rcases o with ⟨og, od, om⟩
      simp only [Except.ok.injEq, WinOut.mk.injEq, true_and]
      constructor
      · rintro ⟨h1, h2, h3⟩; exact ⟨h1.symm, h2.symm, h3⟩
      · rintro ⟨h1, h2, h3⟩; exact ⟨h1.symm, h2.symm, h3⟩

theorem symmAt_of (a : Args κ T P) (i : ℕ) (h : TaperKept a i) : symmAt a.symm (a.wins.take i) = a.symm := by
  rcases h with h | h
  · rw [h]; exact symmAt_false _
  · exact symmAt_keep _ _ h

/-- C154. The requests of one call do not influence each other. There is one entry for each window and in it one for each pair, in
the order asked for; and what is returned for a window and a pair — the window, extension and taper used, the number of delays, and
the R matrices — is what a new object returns when it is asked for that window and that pair alone. Missing: a window that comes after one with extensions on both sides loses the symmetric taper, see
`C154_counterexample_windows`. -/
theorem C154_request_partial (hb : ∀ v k w, K.binary (K.yOf v k w) = true) (s : PS κ T P M V) (a : Args κ T P)
    (h : NoLeftover s a) (os : List (WinOut M V)) (ho : (call K s a).2 = .ok os) :
    os.length = a.wins.length ∧ (∀ o ∈ os, o.mats.length = a.pairs.length) ∧
    ∀ (i : ℕ) (w : Win) (o : WinOut M V) (k : ℕ) (x : κ × κ) (m : M × M) (t : T), TaperKept a i →
      a.wins[i]? = some w → os[i]? = some o → a.pairs[k]? = some x → o.mats[k]? = some m →
      (call K (init s.g.data s.g.nfreqs t) (only a w x)).2 = .ok [⟨o.g, o.ndlys, [m]⟩] := by
  rw [call_spec K hb s a h, winsVal_iff] at ho
  obtain ⟨hl, hv⟩ := ho
  refine ⟨hl, ?_, ?_⟩
  · intro o hmem
    obtain ⟨i, hi, rfl⟩ := List.mem_iff_getElem.1 hmem
    have := ((winVal_iff K _ _ _ _ _ _ _ _ _).1 (hv i (hl ▸ hi) hi)).2.2.2
    exact ((pairVals_iff K _ _ _ _ _ _).1 this).1
  · intro i w o k x m t hk hw hoi hx hm
    obtain ⟨hi, rfl⟩ := List.getElem?_eq_some_iff.1 hw
    obtain ⟨hi2, rfl⟩ := List.getElem?_eq_some_iff.1 hoi
    obtain ⟨h1, h2, h3, h4⟩ := (winVal_iff K _ _ _ _ _ _ _ _ _).1 (hv i hi hi2)
    rw [symmAt_of a i hk] at h2 h4
    obtain ⟨hk1, rfl⟩ := List.getElem?_eq_some_iff.1 hx
    obtain ⟨hk2, rfl⟩ := List.getElem?_eq_some_iff.1 hm
    rw [only_spec K hb]
    exact ⟨h1, ((pairVals_iff K _ _ _ _ _ _).1 h4).2 k hk1 hk2, h2, h3⟩

/-- C154. And nothing else can make the call fail: if every window and pair can be had alone, they can be had together. Missing: the
proviso on the taper, as above. -/
theorem C154_together_partial (hb : ∀ v k w, K.binary (K.yOf v k w) = true) (s : PS κ T P M V) (a : Args κ T P) (t : T)
    (h : NoLeftover s a) (hk : TaperKept a a.wins.length) (hne : a.pairs ≠ [])
    (hall : ∀ w ∈ a.wins, ∀ x ∈ a.pairs, ∃ g d m, (call K (init s.g.data s.g.nfreqs t) (only a w x)).2 = .ok [⟨g, d, [m]⟩]) :
    ∃ os, (call K s a).2 = .ok os := by
  have hk' : ∀ i, TaperKept a i := by
    intro i
    rcases hk with hk | hk
    · exact Or.inl hk
    · refine Or.inr (fun w hw => hk w ?_)
      rw [List.take_length]; exact List.mem_of_mem_take hw
  rw [call_spec K hb s a h]
  obtain ⟨x0, hx0⟩ := List.exists_mem_of_ne_nil _ hne
  have hp : ∀ w ∈ a.wins, ∃ ms, pairVals K (winGeom s.g.data s.g.nfreqs a.symm w) a.wt a.taper a.rp a.pairs = .ok ms := by
    intro w hw
    have hx : ∀ x ∈ a.pairs, ∃ m, pairVal K (winGeom s.g.data s.g.nfreqs a.symm w) a.wt a.taper a.rp x = .ok m := by
      intro x hx
      obtain ⟨g, d, m, hm⟩ := hall w hw x hx
      exact ⟨m, ((only_spec K hb _ _ _ _ _ _ _ _ _).1 hm).2.1⟩
    generalize a.pairs = ps at hx
    induction ps with
    | nil => exact ⟨[], rfl⟩
    | cons p ps ih =>
      obtain ⟨m, hm⟩ := hx p (by simp)
      obtain ⟨ms, hms⟩ := ih (fun x h => hx x (by simp [h]))
      exact ⟨m :: ms, by simp only [pairVals, hm, hms]⟩
  have hw : ∀ w ∈ a.wins, ∃ o, winVal K s.g.data s.g.nfreqs a.symm a.wt a.taper a.rp a.pairs w = .ok o := by
    intro w hw
    obtain ⟨ms, hms⟩ := hp w hw
    obtain ⟨g, d, m, hm⟩ := hall w hw x0 hx0
    exact ⟨⟨_, _, ms⟩, (winVal_iff K _ _ _ _ _ _ _ _ _).2 ⟨((only_spec K hb _ _ _ _ _ _ _ _ _).1 hm).1, rfl, rfl, hms⟩⟩
  refine ⟨a.wins.attach.map (fun w => (hw w.1 w.2).choose), ?_⟩
  rw [winsVal_iff]
  refine ⟨by simp, ?_⟩
  intro i h1 h2
  rw [symmAt_of a i (hk' i)]
  simp only [List.getElem_map, List.getElem_attach]
  exact (hw _ (List.getElem_mem h1)).choose_spec

/-- C154 (finding, universal). Whenever a call has succeeded whose last window used a filter extension, the next call with the
symmetric taper — the default — raises `ValueError`, whatever it asks for: also when it asks for no extension. -/
theorem C154_second_call_raises (hb : ∀ v k w, K.binary (K.yOf v k w) = true) (s : PS κ T P M V) (a b : Args κ T P)
    (os : List (WinOut M V)) (ho : (call K s a).2 = .ok os) (w : Win) (hw : a.wins.getLast? = some w)
    (hx : min w.lo w.ext.1 > 0 ∨ min (s.g.nfreqs - w.hi) w.ext.2 > 0) (hs : b.symm = true) :
    (call K (call K s a).1 b).2 = .error .value := by
  have hf : (call K s a).1.g.fext = (min w.lo w.ext.1, min (s.g.nfreqs - w.hi) w.ext.2) := by
    have hkey : (setSymm { s with taper := a.taper } a.symm).2 = none := by
      cases hc : (setSymm { s with taper := a.taper } a.symm).2 with
      | none => rfl
      | some e =>
        simp only [call, hc] at ho
        cases ho
    have hg : (setSymm { s with taper := a.taper } a.symm).1.g.nfreqs = s.g.nfreqs := by
      unfold setSymm; split <;> rfl
    simp only [call, hkey] at ho ⊢
    have h2 := (winsLoop_left K hb _ _ _ _ _ ho).2.2.2 w hw
    rw [h2]
    show (_, min ((setSymm { s with taper := a.taper } a.symm).1.g.nfreqs - w.hi) w.ext.2) = _
    rw [hg]
  generalize (call K s a).1 = s' at hf
  unfold call setSymm
  have : b.symm = true ∧ (({ s' with taper := b.taper } : PS κ T P M V).g.fext.1 > 0 ∨
      ({ s' with taper := b.taper } : PS κ T P M V).g.fext.2 > 0) := ⟨hs, by rw [hf]; exact hx⟩
  rw [if_pos this]

/-- C154 (finding, universal). Hence `pspec_run` with filter extensions and its default symmetric taper stores the spectra of the
first pair of data sets and raises `ValueError` at the second. -/
theorem C154_finding_pspec_run (hb : ∀ v k w, K.binary (K.yOf v k w) = true) (s : PS κ T P M V) (a : Args κ T P)
    (ks1 ks2 : List (κ × κ)) (rest : List (List (κ × κ))) (os : List (WinOut M V))
    (ho : (call K s { a with pairs := ks1 }).2 = .ok os) (w : Win) (hw : a.wins.getLast? = some w)
    (hx : min w.lo w.ext.1 > 0 ∨ min (s.g.nfreqs - w.hi) w.ext.2 > 0) (hs : a.symm = true) :
    (runLoop K s a (ks1 :: ks2 :: rest)).2 = ([os], some .value) := by
  have h2 := C154_second_call_raises K hb s { a with pairs := ks1 } { a with pairs := ks2 } os ho w hw hx hs
  simp only [runLoop]
  rw [ho]
  simp only
  rw [h2]

/-- C154. With `symmetric_taper=False` the spectra that `pspec_run` stores for each pair of data sets are those of a new object: pairs
of data sets do not influence each other, up to the first failure, which is also that of a new object. Missing: the symmetric taper,
see `C154_finding_pspec_run`. -/
theorem C154_pspec_run_partial (hb : ∀ v k w, K.binary (K.yOf v k w) = true) (a : Args κ T P) (t : T) (hs : a.symm = false)
    (reqs : List (List (κ × κ))) :
    ∀ s : PS κ T P M V,
      ((runLoop K s a reqs).2.2 = none → (runLoop K s a reqs).2.1.length = reqs.length) ∧
      (∀ (i : ℕ) (ks : List (κ × κ)) (o : List (WinOut M V)), reqs[i]? = some ks → (runLoop K s a reqs).2.1[i]? = some o →
        (call K (init s.g.data s.g.nfreqs t) { a with pairs := ks }).2 = .ok o) ∧
      (∀ e, (runLoop K s a reqs).2.2 = some e → ∃ ks, reqs[(runLoop K s a reqs).2.1.length]? = some ks ∧
        (call K (init s.g.data s.g.nfreqs t) { a with pairs := ks }).2 = .error e) := by
  induction reqs with
  | nil => intro s; exact ⟨fun _ => rfl, fun i ks o h => by simp at h, fun e he => by simp [runLoop] at he⟩
  | cons ks reqs ih =>
    intro s
    have h0 := C154_history_partial K hb s (init s.g.data s.g.nfreqs t) { a with pairs := ks } rfl rfl (Or.inl hs) (Or.inl hs)
    have hd : ∀ o, (call K s { a with pairs := ks }).2 = .ok o →
        (call K s { a with pairs := ks }).1.g.data = s.g.data ∧ (call K s { a with pairs := ks }).1.g.nfreqs = s.g.nfreqs := by
      intro o ho
      have hkey : setSymm { s with taper := a.taper } a.symm = ({ s with taper := a.taper, g := { s.g with symm := false } }, none) := by
        unfold setSymm; rw [if_neg (by rw [hs]; simp), hs]
      unfold call at ho ⊢
      simp only [hkey] at ho ⊢
      obtain ⟨h1, h2, -⟩ := winsLoop_left K hb _ _ _ _ _ ho
      exact ⟨h1, h2⟩
    simp only [runLoop]
    cases hc : (call K s { a with pairs := ks }).2 with
    | error e =>
      simp only
      refine ⟨(fun h => by cases h), (fun i ks o _ h => by simp at h), ?_⟩
      intro e' he
      cases he
      exact ⟨ks, rfl, h0.symm.trans hc⟩
    | ok o =>
      simp only
      obtain ⟨i1, i2, i3⟩ := ih (call K s { a with pairs := ks }).1
      obtain ⟨d1, d2⟩ := hd o hc
      rw [d1, d2] at i2 i3
      refine ⟨fun h => by simp [i1 h], ?_, ?_⟩
      · intro i ks' o' h1 h2
        cases i with
        | zero =>
          simp only [List.getElem?_cons_zero, Option.some.injEq] at h1 h2
          subst h1; subst h2
          exact h0.symm.trans hc
        | succ i => exact i2 i ks' o' (by simpa using h1) (by simpa using h2)
      · intro e he
        obtain ⟨ks', h1, h2⟩ := i3 e he
        exact ⟨ks', by simpa using h1, h2⟩

/-- A request for the examples: identity weighting, one pair of keys. -/
def req (symm : Bool) (wins : List Win) : Args ℕ ℕ ℕ := ⟨0, .identity, symm, wins, [(3, 4)], fun _ => none⟩

/-- C154 (counterexample). The same window, asked for alone and after a window with extensions: in the second case the symmetric taper
that was asked for is not used. -/
theorem C154_counterexample_windows :
    ((call unitKern (init () 100 0) (req true [⟨10, 20, none, (0, 0)⟩])).2.toOption.map (·.map (·.g.symm))) = some [true] ∧
    ((call unitKern (init () 100 0) (req true [⟨30, 50, none, (2, 2)⟩, ⟨10, 20, none, (0, 0)⟩])).2.toOption.map
      (·.map (·.g.symm))) = some [false, false] := by
  decide +kernel

/-- C154 (finding, universal). The file records the taper that was asked for (L4135), not the one used: a symmetric taper asked for
together with extensions on both sides is recorded as symmetric and not used. -/
theorem C154_finding_recorded_taper (hb : ∀ v k w, K.binary (K.yOf v k w) = true) (s : PS κ T P M V) (a : Args κ T P)
    (h : NoLeftover s a) (os : List (WinOut M V)) (ho : (call K s a).2 = .ok os) (i : ℕ) (w : Win) (o : WinOut M V)
    (hw : a.wins[i]? = some w) (hoi : os[i]? = some o) (h1 : w.ext.1 ≠ 0) (h2 : w.ext.2 ≠ 0) : o.g.symm = false := by
  rw [call_spec K hb s a h, winsVal_iff] at ho
  obtain ⟨hl, hv⟩ := ho
  obtain ⟨hi, rfl⟩ := List.getElem?_eq_some_iff.1 hw
  obtain ⟨hi2, rfl⟩ := List.getElem?_eq_some_iff.1 hoi
  obtain ⟨-, h3, -⟩ := (winVal_iff K _ _ _ _ _ _ _ _ _).1 (hv i hi hi2)
  rw [h3]
  show flipSymm _ _ _ = false
  unfold flipSymm
  simp only [h1, h2, ne_eq, not_false_eq_true, decide_true, Bool.and_true]
  cases symmAt a.symm (List.take i a.wins) <;> rfl

/-- The hypotheses are met by a call with two windows after a history that left stale matrices behind; the second call of C154's
finding raises; and the loop of `pspec_run` stops after the first pair. -/
example :
    (call unitKern (run unitKern (init () 100 0) [.getR 3, .setSpw 5 9 none, .setTaper 1]) (req true
      [⟨10, 20, none, (0, 0)⟩, ⟨30, 50, some 15, (2, 2)⟩])).2 =
      .ok [⟨⟨(), 100, (10, 20), 10, (0, 0), true⟩, 10, [((20, 30), (20, 30))]⟩,
           ⟨⟨(), 100, (30, 50), 20, (2, 2), false⟩, 15, [((52, 76), (52, 76))]⟩] ∧
    (call unitKern (call unitKern (init () 100 0) (req true [⟨30, 50, none, (2, 2)⟩])).1
      (req true [⟨10, 20, none, (0, 0)⟩])).2 = .error .value ∧
    (runLoop unitKern (init () 100 0) (req true [⟨30, 50, none, (2, 2)⟩]) [[(3, 4)], [(5, 6)]]).2.2 = some .value ∧
    (runLoop unitKern (init () 100 0) (req false [⟨30, 50, none, (2, 2)⟩]) [[(3, 4)], [(5, 6)]]).2.2 = none := by
  refine ⟨rfl, rfl, rfl, rfl⟩

end HeraPspec.PspecHist
