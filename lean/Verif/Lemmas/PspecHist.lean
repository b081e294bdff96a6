import Verif.Model.PspecHist
import Verif.Props.Cache

/-! Lemmas about `PspecHist`: the result of a call is a function of the data and the arguments. -/
namespace HeraPspec.PspecHist
open HeraPspec.Settings

variable {κ T P M V : Type} [DecidableEq κ] [DecidableEq T] (K : Kern κ T P M V)

/-- The situation inside the loops. -/
structure In (g : Geom V) (rp : κ → Option P) (wt : Wt) (t : T) (s : PS κ T P M V) : Prop where
  coh : Coh K g rp s
  geom : s.g = g
  wt : s.wt = wt
  taper : s.taper = t

/-- The R matrices of one pair, from scratch. -/
def pairVal (g : Geom V) (wt : Wt) (t : T) (rp : κ → Option P) (x : κ × κ) : Except Err (M × M) :=
  if wt = .dayenu ∧ (rp x.1 = none ∨ rp x.2 = none) then .error .value
  else match fR K g wt t (rp x.1) x.1 with
    | .error e => .error e
    | .ok m1 => match fR K g wt t (rp x.2) x.2 with
      | .error e => .error e
      | .ok m2 => .ok (m1, m2)

/-- The R matrices of several pairs, from scratch. -/
def pairVals (g : Geom V) (wt : Wt) (t : T) (rp : κ → Option P) : List (κ × κ) → Except Err (List (M × M))
  | [] => .ok []
  | x :: xs => match pairVal K g wt t rp x with
    | .error e => .error e
    | .ok m => match pairVals g wt t rp xs with
      | .error e => .error e
      | .ok ms => .ok (m :: ms)

/-- The settings in force in a window. -/
def winGeom (v : V) (n : ℤ) (symm : Bool) (w : Win) : Geom V :=
  ⟨v, n, (w.lo, w.hi), w.hi - w.lo, (min w.lo w.ext.1, min (n - w.hi) w.ext.2), flipSymm symm w.ext.1 w.ext.2⟩

/-- The window is accepted by `set_spw` and `set_filter_extension`; otherwise the exception. -/
def winErr (w : Win) : Option Err :=
  if (match w.nd with | none => false | some n => decide (w.hi - w.lo < n)) then some .value
  else if w.ext.1 ≥ 0 ∧ w.ext.2 ≥ 0 then none else some .assertion

/-- The result of one window, from scratch. -/
def winVal (v : V) (n : ℤ) (symm : Bool) (wt : Wt) (t : T) (rp : κ → Option P) (pairs : List (κ × κ)) (w : Win) :
    Except Err (WinOut M V) :=
  match winErr w with
  | some e => .error e
  | none => match pairVals K (winGeom v n symm w) wt t rp pairs with
    | .error e => .error e
    | .ok ms => .ok ⟨winGeom v n symm w, w.nd.getD (w.hi - w.lo), ms⟩

/-- The result of several windows, from scratch. -/
def winsVal (v : V) (n : ℤ) (wt : Wt) (t : T) (rp : κ → Option P) (pairs : List (κ × κ)) :
    Bool → List Win → Except Err (List (WinOut M V))
  | _, [] => .ok []
  | symm, w :: ws => match winVal K v n symm wt t rp pairs w with
    | .error e => .error e
    | .ok o => match winsVal v n wt t rp pairs (flipSymm symm w.ext.1 w.ext.2) ws with
      | .error e => .error e
      | .ok os => .ok (o :: os)

theorem in_Y (hb : ∀ v k w, K.binary (K.yOf v k w) = true) {g : Geom V} {rp : κ → Option P} {wt : Wt} {t : T} {s : PS κ T P M V}
    (h : In K g rp wt t s) (k : κ) : In K g rp wt t (qY K s k).1 ∧ (qY K s k).2 = .ok (fY K g k) := by
  obtain ⟨a1, a2, a3, a4, -⟩ := qY_spec K hb h.coh h.geom k
  exact ⟨⟨a2, (qY_g K s k).trans h.geom, a3.trans h.wt, a4.trans h.taper⟩, a1⟩

theorem in_R (hb : ∀ v k w, K.binary (K.yOf v k w) = true) {g : Geom V} {rp : κ → Option P} {wt : Wt} {t : T} {s : PS κ T P M V}
    (h : In K g rp wt t s) (k : κ) (hk : wt = .dayenu → s.rparams.get (.dayenu, k) = rp k) :
    In K g rp wt t (qR K s k).1 ∧ (qR K s k).2 = fR K g wt t (rp k) k := by
  obtain ⟨a1, a2⟩ := qR_spec K hb h.coh h.geom k (fun hw => hk (h.wt.symm.trans hw))
  obtain ⟨b1, b2, -⟩ := qR_rest K s k
  refine ⟨⟨a2, (qR_g K s k).trans h.geom, b1.trans h.wt, b2.trans h.taper⟩, ?_⟩
  rw [a1, h.wt, h.taper]

theorem in_params {g : Geom V} {rp : κ → Option P} {wt : Wt} {t : T} {s : PS κ T P M V}
    (h : In K g rp wt t s) (x : κ × κ) :
    (wt = .dayenu ∧ (rp x.1 = none ∨ rp x.2 = none) ∧ (setParams s rp x).2 = some .value) ∨
    (¬ (wt = .dayenu ∧ (rp x.1 = none ∨ rp x.2 = none)) ∧ (setParams s rp x).2 = none ∧ In K g rp wt t (setParams s rp x).1 ∧
      (wt = .dayenu → (setParams s rp x).1.rparams.get (.dayenu, x.1) = rp x.1 ∧
        (setParams s rp x).1.rparams.get (.dayenu, x.2) = rp x.2)) := by
  unfold setParams
  rw [h.wt]
  by_cases hw : wt = .dayenu
  · rw [if_pos hw]
    cases h1 : rp x.1 with
    | none => exact Or.inl ⟨hw, Or.inl rfl, rfl⟩
    | some p =>
      cases h2 : rp x.2 with
      | none => exact Or.inl ⟨hw, Or.inr rfl, rfl⟩
      | some q =>
        refine Or.inr ⟨by simp, rfl, ⟨coh_congr K h.coh rfl rfl rfl rfl rfl, h.geom, h.wt, h.taper⟩, fun _ => ?_⟩
        have hwt : s.wt = .dayenu := h.wt.trans hw
        simp only [setRParam, hwt, Dict.get_set, Prod.mk.injEq, true_and]
        constructor
        · split
          · rename_i he; rw [← h1, ← h2, he]
          · simp
        · simp
  · rw [if_neg hw]
    exact Or.inr ⟨fun hc => hw hc.1, rfl, h, fun hc => absurd hc hw⟩

theorem pairStep_spec (hb : ∀ v k w, K.binary (K.yOf v k w) = true) {g : Geom V} {rp : κ → Option P} {wt : Wt} {t : T}
    {s : PS κ T P M V} (h : In K g rp wt t s) (x : κ × κ) :
    (pairStep K s rp x).2 = pairVal K g wt t rp x ∧
    (∀ m, (pairStep K s rp x).2 = .ok m → In K g rp wt t (pairStep K s rp x).1) := by
  unfold pairStep
  obtain ⟨h1, e1⟩ := in_Y K hb h x.1
  obtain ⟨h2, e2⟩ := in_Y K hb h1 x.2
  simp only [e1, e2]
  unfold pairVal
  rcases in_params K h2 x with ⟨hw, hn, he⟩ | ⟨hn, he, h3, hr⟩
  · rw [he, if_pos ⟨hw, hn⟩]
    exact ⟨rfl, fun m hm => by cases hm⟩
  · rw [he, if_neg hn]
    obtain ⟨h4, e4⟩ := in_R K hb h3 x.1 (fun hw => (hr hw).1)
    simp only [e4]
    cases e5 : fR K g wt t (rp x.1) x.1 with
    | error e => exact ⟨rfl, fun m hm => by cases hm⟩
    | ok m1 =>
      obtain ⟨h6, e6⟩ := in_R K hb h4 x.2 (fun hw => by rw [(qR_rest K _ _).2.2]; exact (hr hw).2)
      simp only [e6]
      cases e7 : fR K g wt t (rp x.2) x.2 with
      | error e => exact ⟨rfl, fun m hm => by cases hm⟩
      | ok m2 => exact ⟨rfl, fun m hm => h6⟩

theorem pairsLoop_spec (hb : ∀ v k w, K.binary (K.yOf v k w) = true) {g : Geom V} {rp : κ → Option P} {wt : Wt} {t : T}
    (xs : List (κ × κ)) : ∀ {s : PS κ T P M V}, In K g rp wt t s →
    (pairsLoop K s rp xs).2 = pairVals K g wt t rp xs ∧
    (∀ m, (pairsLoop K s rp xs).2 = .ok m → In K g rp wt t (pairsLoop K s rp xs).1) := by
  induction xs with
  | nil => intro s h; exact ⟨rfl, fun _ _ => h⟩
  | cons x xs ih =>
    intro s h
    obtain ⟨e1, h1⟩ := pairStep_spec K hb h x
    simp only [pairsLoop, pairVals]
    rw [e1] at h1 ⊢
    cases e2 : pairVal K g wt t rp x with
    | error e => exact ⟨rfl, fun m hm => by cases hm⟩
    | ok m =>
      obtain ⟨e3, h3⟩ := ih (h1 m e2)
      simp only
      rw [e3] at h3 ⊢
      cases e4 : pairVals K g wt t rp xs with
      | error e => exact ⟨rfl, fun m hm => by cases hm⟩
      | ok ms => exact ⟨rfl, fun _ _ => h3 ms e4⟩

theorem winStep_spec (hb : ∀ v k w, K.binary (K.yOf v k w) = true) (s : PS κ T P M V) (rp : κ → Option P) (xs : List (κ × κ))
    (w : Win) :
    (winStep K s rp xs w).2 = winVal K s.g.data s.g.nfreqs s.g.symm s.wt s.taper rp xs w ∧
    (∀ o, (winStep K s rp xs w).2 = .ok o →
      In K (winGeom s.g.data s.g.nfreqs s.g.symm w) rp s.wt s.taper (winStep K s rp xs w).1) := by
  have key : ∀ s3 : PS κ T P M V, s3.g = winGeom s.g.data s.g.nfreqs s.g.symm w → s3.wt = s.wt → s3.taper = s.taper →
      (pairsLoop K (clearCache s3) rp xs).2 = pairVals K (winGeom s.g.data s.g.nfreqs s.g.symm w) s.wt s.taper rp xs ∧
      (∀ m, (pairsLoop K (clearCache s3) rp xs).2 = .ok m →
        In K (winGeom s.g.data s.g.nfreqs s.g.symm w) rp s.wt s.taper (pairsLoop K (clearCache s3) rp xs).1) :=
    fun s3 h1 h2 h3 => pairsLoop_spec K hb xs ⟨coh_clear K _ _ _, h1, h2, h3⟩
  unfold winStep winVal winErr setSpw setNdlys
  cases hn : w.nd with
  | none =>
    simp only [Bool.false_eq_true, if_false]
    unfold setExt
    by_cases hx : w.ext.1 ≥ 0 ∧ w.ext.2 ≥ 0
    · simp only [if_pos hx]
      obtain ⟨k1, k2⟩ := key { s with ndlys := w.hi - w.lo, g := winGeom s.g.data s.g.nfreqs s.g.symm w } rfl rfl rfl
      unfold winGeom at k1 k2 ⊢
      rw [k1] at k2 ⊢
      generalize pairVals K _ _ _ _ _ = pv at k2 ⊢
      cases pv with
      | error e => exact ⟨rfl, fun o ho => by cases ho⟩
      | ok m => exact ⟨rfl, fun _ _ => k2 m rfl⟩
    · simp only [if_neg hx]
      exact ⟨trivial, fun o ho => by cases ho⟩
  | some n =>
    by_cases hlt : w.hi - w.lo < n
    · simp only [hlt, if_true, decide_true]
      exact ⟨trivial, fun o ho => by cases ho⟩
    · simp only [hlt, if_false, decide_false, Bool.false_eq_true]
      unfold setExt
      by_cases hx : w.ext.1 ≥ 0 ∧ w.ext.2 ≥ 0
      · simp only [if_pos hx]
        obtain ⟨k1, k2⟩ := key { s with ndlys := n, g := winGeom s.g.data s.g.nfreqs s.g.symm w } rfl rfl rfl
        unfold winGeom at k1 k2 ⊢
        rw [k1] at k2 ⊢
        generalize pairVals K _ _ _ _ _ = pv at k2 ⊢
        cases pv with
        | error e => exact ⟨rfl, fun o ho => by cases ho⟩
        | ok m => exact ⟨rfl, fun _ _ => k2 m rfl⟩
      · simp only [if_neg hx]
        exact ⟨trivial, fun o ho => by cases ho⟩

theorem winsLoop_spec (hb : ∀ v k w, K.binary (K.yOf v k w) = true) (rp : κ → Option P) (xs : List (κ × κ)) (ws : List Win) :
    ∀ s : PS κ T P M V,
    (winsLoop K s rp xs ws).2 = winsVal K s.g.data s.g.nfreqs s.wt s.taper rp xs s.g.symm ws := by
  induction ws with
  | nil => intro s; rfl
  | cons w ws ih =>
    intro s
    obtain ⟨e1, h1⟩ := winStep_spec K hb s rp xs w
    simp only [winsLoop, winsVal]
    rw [e1] at h1 ⊢
    cases e2 : winVal K s.g.data s.g.nfreqs s.g.symm s.wt s.taper rp xs w with
    | error e => rfl
    | ok o =>
      have hi := h1 o e2
      simp only
      rw [ih, hi.geom, hi.wt, hi.taper]
      unfold winGeom
      dsimp only
      split <;> rename_i h <;> simp only [h]

/-- The settings left behind by the loop over windows are those of its last window. -/
theorem winsLoop_left (hb : ∀ v k w, K.binary (K.yOf v k w) = true) (rp : κ → Option P) (xs : List (κ × κ)) (ws : List Win) :
    ∀ (s : PS κ T P M V) (os : List (WinOut M V)), (winsLoop K s rp xs ws).2 = .ok os →
    (winsLoop K s rp xs ws).1.g.data = s.g.data ∧ (winsLoop K s rp xs ws).1.g.nfreqs = s.g.nfreqs ∧
    (ws = [] → (winsLoop K s rp xs ws).1 = s) ∧
    (∀ w ∈ ws.getLast?, (winsLoop K s rp xs ws).1.g.fext = (min w.lo w.ext.1, min (s.g.nfreqs - w.hi) w.ext.2)) := by
  induction ws with
  | nil => intro s os _; exact ⟨rfl, rfl, fun _ => rfl, fun w hw => by simp at hw⟩
  | cons w ws ih =>
    intro s os ho
    obtain ⟨e1, h1⟩ := winStep_spec K hb s rp xs w
    simp only [winsLoop] at ho ⊢
    cases e2 : (winStep K s rp xs w).2 with
    | error e => rw [e2] at ho; cases ho
    | ok o =>
      rw [e2] at ho
      have hi := h1 o e2
      simp only at ho ⊢
      cases e3 : (winsLoop K (winStep K s rp xs w).1 rp xs ws).2 with
      | error e => rw [e3] at ho; cases ho
      | ok os' =>
        simp only
        obtain ⟨a1, a2, a3, a4⟩ := ih _ _ e3
        rw [hi.geom] at a1 a2 a4
        refine ⟨a1, a2, (fun h => absurd h (List.cons_ne_nil _ _)), ?_⟩
        intro u hu
        cases ws with
        | nil =>
          simp only [List.getLast?_singleton, Option.mem_def, Option.some.injEq] at hu
          subst hu
          rw [a3 rfl, hi.geom]; rfl
        | cons y ys =>
          rw [List.getLast?_cons_cons] at hu
          exact a4 u hu

theorem pairVals_iff (g : Geom V) (wt : Wt) (t : T) (rp : κ → Option P) (xs : List (κ × κ)) :
    ∀ ms, pairVals K g wt t rp xs = .ok ms ↔
      ms.length = xs.length ∧ ∀ (i : ℕ) (h1 : i < xs.length) (h2 : i < ms.length), pairVal K g wt t rp xs[i] = .ok ms[i] := by
  induction xs with
  | nil =>
    intro ms
    cases ms with
    | nil => simp [pairVals]
    | cons m ms => simp [pairVals]
  | cons x xs ih =>
    intro ms
    cases ms with
    | nil =>
      simp only [pairVals]
      constructor
      · intro h
        split at h
        · cases h
        · split at h <;> cases h
      · rintro ⟨h, -⟩; simp at h
    | cons m ms =>
      simp only [pairVals]
      constructor
      · intro h
        split at h
        · cases h
        · rename_i m' hm'
          split at h
          · cases h
          · rename_i ms' hms'
            cases h
            obtain ⟨l, a⟩ := (ih ms).1 hms'
            refine ⟨by simp [l], ?_⟩
            intro i h1 h2
            cases i with
            | zero => exact hm'
            | succ i => exact a i (by simpa using h1) (by simpa using h2)
      · rintro ⟨l, a⟩
        have h0 := a 0 (by simp) (by simp)
        have hs := (ih ms).2 ⟨by simpa using l, fun i h1 h2 => a (i + 1) (by simpa using h1) (by simpa using h2)⟩
        simp only [List.getElem_cons_zero] at h0
        rw [h0, hs]

/-- The kind of taper in force before window `i`. -/
def symmAt (symm : Bool) : List Win → Bool := fun ws => ws.foldl (fun b w => flipSymm b w.ext.1 w.ext.2) symm

theorem winsVal_iff (v : V) (n : ℤ) (wt : Wt) (t : T) (rp : κ → Option P) (xs : List (κ × κ)) (ws : List Win) :
    ∀ (symm : Bool) (os : List (WinOut M V)), winsVal K v n wt t rp xs symm ws = .ok os ↔
      os.length = ws.length ∧ ∀ (i : ℕ) (h1 : i < ws.length) (h2 : i < os.length),
        winVal K v n (symmAt symm (ws.take i)) wt t rp xs ws[i] = .ok os[i] := by
  induction ws with
  | nil =>
    intro symm os
    cases os with
    | nil => simp [winsVal]
    | cons m ms => simp [winsVal]
  | cons x xs' ih =>
    intro symm ms
    cases ms with
    | nil =>
      simp only [winsVal]
      constructor
      · intro h
        split at h
        · cases h
        · split at h <;> cases h
      · rintro ⟨h, -⟩; simp at h
    | cons m ms =>
      simp only [winsVal]
      constructor
      · intro h
        split at h
        · cases h
        · rename_i m' hm'
          split at h
          · cases h
          · rename_i ms' hms'
            cases h
            obtain ⟨l, a⟩ := (ih _ ms).1 hms'
            refine ⟨by simp [l], ?_⟩
            intro i h1 h2
            cases i with
            | zero => exact hm'
            | succ i => exact a i (by simpa using h1) (by simpa using h2)
      · rintro ⟨l, a⟩
        have h0 := a 0 (by simp) (by simp)
        have hs := (ih (flipSymm symm x.ext.1 x.ext.2) ms).2
          ⟨by simpa using l, fun i h1 h2 => a (i + 1) (by simpa using h1) (by simpa using h2)⟩
        simp only [List.getElem_cons_zero, List.take_zero] at h0
        have h0' : winVal K v n symm wt t rp xs x = .ok m := h0
        rw [h0', hs]

theorem symmAt_false (ws : List Win) : symmAt false ws = false := by
  induction ws with
  | nil => rfl
  | cons w ws ih => exact ih

theorem symmAt_keep (symm : Bool) (ws : List Win) (h : ∀ w ∈ ws, w.ext.1 = 0 ∨ w.ext.2 = 0) : symmAt symm ws = symm := by
  induction ws generalizing symm with
  | nil => rfl
  | cons w ws ih =>
    have h1 : flipSymm symm w.ext.1 w.ext.2 = symm := by
      unfold flipSymm
      rcases h w (by simp) with h0 | h0 <;> simp [h0]
    show symmAt (flipSymm symm w.ext.1 w.ext.2) ws = symm
    rw [h1]
    exact ih symm (fun u hu => h u (by simp [hu]))

/-- The result of an accepted call. -/
theorem call_spec (hb : ∀ v k w, K.binary (K.yOf v k w) = true) (s : PS κ T P M V) (a : Args κ T P)
    (h : a.symm = false ∨ (s.g.fext.1 ≤ 0 ∧ s.g.fext.2 ≤ 0)) :
    (call K s a).2 = winsVal K s.g.data s.g.nfreqs a.wt a.taper a.rp a.pairs a.symm a.wins := by
  unfold call setSymm
  have hc : ¬ (a.symm = true ∧ (({ s with taper := a.taper } : PS κ T P M V).g.fext.1 > 0 ∨
      ({ s with taper := a.taper } : PS κ T P M V).g.fext.2 > 0)) := by
    rintro ⟨h1, h2⟩
    rcases h with h | h
    · rw [h] at h1; cases h1
    · rcases h2 with h2 | h2
      · exact absurd h.1 (not_le.2 h2)
      · exact absurd h.2 (not_le.2 h2)
  rw [if_neg hc]
  simp only
  rw [winsLoop_spec K hb]

end HeraPspec.PspecHist
