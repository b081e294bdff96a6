import Verif.Lemmas.UVP

/-! Refinement proof: `select` on the arrays implements `specSelect` on the content. -/
namespace HeraPspec.UVP

variable {D W α β : Type}

theorem mask_eq_zip (pols : List Int) (p : Int → Bool) (d : List α) :
    mask (pols.map p) d = ((pols.zip d).filter (fun x => p x.1)).map (·.2) := by
  induction pols generalizing d with
  | nil => simp [mask]
  | cons q pols ih =>
    cases d with
    | nil => simp [mask]
    | cons x d => by_cases h : p q <;> simp [mask, h, ih]

theorem zipWith_map_map {γ δ ε : Type} (R : List α) (g : α → γ) (h : α → δ) (f : γ → δ → ε) :
    List.zipWith f (R.map g) (R.map h) = R.map (fun m => f (g m) (h m)) := by
  induction R with
  | nil => rfl
  | cons a R ih => simp [ih]

theorem any_map_id (R : List α) (p : α → Bool) : (R.map p).any id = true ↔ ∃ m ∈ R, p m = true := by simp

/-- Row mask in terms of the content. -/
theorem rowMask_ok {u : UVP D W} {o : Obj D W} {a : Args} (hblp : u.blpairArray = o.rows.map Meas.blpair)
    (ht : u.timeAvg = o.rows.map (·.tAvg)) (hl : u.lstAvg = o.rows.map (·.lAvg))
    (hv : ∀ m ∈ o.rows, 0 ≤ m.bl2 ∧ m.bl2 < 1000000)
    (hb : a.bls ≠ some []) (hbp : a.blpairs ≠ some []) (htl : a.times = none ∨ a.lsts = none) :
    rowMask u a = .ok (if a.bls = none ∧ a.blpairs = none ∧ a.times = none ∧ a.lsts = none then none
      else some (o.rows.map (keepRow a))) := by
  obtain ⟨spws, bls, only, blpairs, times, lsts, polpairs⟩ := a
  have hd : ∀ m ∈ o.rows, m.blpair / 1000000 = m.bl1 ∧ m.blpair % 1000000 = m.bl2 := by
    intro m hm
    have := hv m hm
    unfold Meas.blpair
    omega
  have hmask : ∀ bls, blsMask u bls only = o.rows.map (fun m => if only then decide (m.bl1 ∈ bls ∧ m.bl2 ∈ bls) else
      decide (m.bl1 ∈ bls ∨ m.bl2 ∈ bls)) := by
    intro bls
    unfold blsMask
    rw [hblp, List.map_map]
    apply List.map_congr_left
    intro m hm
    simp only [Function.comp_apply, (hd m hm).1, (hd m hm).2, Bool.decide_and, Bool.decide_or]
  have hnear : isclose (1 / 10000000000000000) = near := rfl
  simp only at hb hbp htl
  unfold rowMask
  match bls, blpairs, times, lsts, hb, hbp, htl with
  | none, none, none, none, _, _, _ => rfl
  | none, none, some ts, none, _, _, _ =>
    simp only [bind, Except.bind, hmask, hblp, ht, hl, hnear, List.map_map, zipWith_map_map, Option.getD, Function.comp_def, reduceCtorEq, false_and, and_false, and_self, true_and, ne_eq, not_true_eq_false, ↓reduceIte]
    first | rfl | (congr 2; apply List.map_congr_left; intro m _; simp [keepRow])
  | none, none, none, some ls, _, _, _ =>
    simp only [bind, Except.bind, hmask, hblp, ht, hl, hnear, List.map_map, zipWith_map_map, Option.getD, Function.comp_def, reduceCtorEq, false_and, and_false, and_self, true_and, ne_eq, not_true_eq_false, ↓reduceIte]
    first | rfl | (congr 2; apply List.map_congr_left; intro m _; simp [keepRow])
  | some (b :: bs), none, none, none, _, _, _ =>
    simp only [bind, Except.bind, hmask, hblp, ht, hl, hnear, List.map_map, zipWith_map_map, Option.getD, Function.comp_def, reduceCtorEq, false_and, and_false, and_self, true_and, ne_eq, not_true_eq_false, ↓reduceIte]
    first | rfl | (congr 2; apply List.map_congr_left; intro m _; simp [keepRow])
  | some (b :: bs), none, some ts, none, _, _, _ =>
    simp only [bind, Except.bind, hmask, hblp, ht, hl, hnear, List.map_map, zipWith_map_map, Option.getD, Function.comp_def, reduceCtorEq, false_and, and_false, and_self, true_and, ne_eq, not_true_eq_false, ↓reduceIte]
    first | rfl | (congr 2; apply List.map_congr_left; intro m _; simp [keepRow])
  | some (b :: bs), none, none, some ls, _, _, _ =>
    simp only [bind, Except.bind, hmask, hblp, ht, hl, hnear, List.map_map, zipWith_map_map, Option.getD, Function.comp_def, reduceCtorEq, false_and, and_false, and_self, true_and, ne_eq, not_true_eq_false, ↓reduceIte]
    first | rfl | (congr 2; apply List.map_congr_left; intro m _; simp [keepRow])
  | none, some (b :: bs), none, none, _, _, _ =>
    simp only [bind, Except.bind, hmask, hblp, ht, hl, hnear, List.map_map, zipWith_map_map, Option.getD, Function.comp_def, reduceCtorEq, false_and, and_false, and_self, true_and, ne_eq, not_true_eq_false, ↓reduceIte]
    first | rfl | (congr 2; apply List.map_congr_left; intro m _; simp [keepRow])
  | none, some (b :: bs), some ts, none, _, _, _ =>
    simp only [bind, Except.bind, hmask, hblp, ht, hl, hnear, List.map_map, zipWith_map_map, Option.getD, Function.comp_def, reduceCtorEq, false_and, and_false, and_self, true_and, ne_eq, not_true_eq_false, ↓reduceIte]
    first | rfl | (congr 2; apply List.map_congr_left; intro m _; simp [keepRow])
  | none, some (b :: bs), none, some ls, _, _, _ =>
    simp only [bind, Except.bind, hmask, hblp, ht, hl, hnear, List.map_map, zipWith_map_map, Option.getD, Function.comp_def, reduceCtorEq, false_and, and_false, and_self, true_and, ne_eq, not_true_eq_false, ↓reduceIte]
    first | rfl | (congr 2; apply List.map_congr_left; intro m _; simp [keepRow])
  | some (c :: cs), some (b :: bs), none, none, _, _, _ =>
    simp only [bind, Except.bind, hmask, hblp, ht, hl, hnear, List.map_map, zipWith_map_map, Option.getD, Function.comp_def, reduceCtorEq, false_and, and_false, and_self, true_and, ne_eq, not_true_eq_false, ↓reduceIte]
    first | rfl | (congr 2; apply List.map_congr_left; intro m _; simp [keepRow])
  | some (c :: cs), some (b :: bs), some ts, none, _, _, _ =>
    simp only [bind, Except.bind, hmask, hblp, ht, hl, hnear, List.map_map, zipWith_map_map, Option.getD, Function.comp_def, reduceCtorEq, false_and, and_false, and_self, true_and, ne_eq, not_true_eq_false, ↓reduceIte]
    first | rfl | (congr 2; apply List.map_congr_left; intro m _; simp [keepRow])
  | some (c :: cs), some (b :: bs), none, some ls, _, _, _ =>
    simp only [bind, Except.bind, hmask, hblp, ht, hl, hnear, List.map_map, zipWith_map_map, Option.getD, Function.comp_def, reduceCtorEq, false_and, and_false, and_self, true_and, ne_eq, not_true_eq_false, ↓reduceIte]
    first | rfl | (congr 2; apply List.map_congr_left; intro m _; simp [keepRow])

theorem rowMask_error {u : UVP D W} {a : Args} (h : a.bls = some [] ∨ a.blpairs = some [] ∨ (a.times ≠ none ∧ a.lsts ≠ none)) :
    ∃ e, rowMask u a = .error e := by
  obtain ⟨spws, bls, only, blpairs, times, lsts, polpairs⟩ := a
  unfold rowMask
  simp only at h ⊢
  match bls, blpairs, times, lsts, h with
  | some [], _, _, _, _ => exact ⟨_, rfl⟩
  | some (b :: bs), some [], _, _, _ => exact ⟨_, rfl⟩
  | none, some [], _, _, _ => exact ⟨_, rfl⟩
  | some (b :: bs), some (c :: cs), some _, some _, _ => exact ⟨_, rfl⟩
  | none, some (c :: cs), some _, some _, _ => exact ⟨_, rfl⟩
  | some (b :: bs), none, some _, some _, _ => exact ⟨_, rfl⟩
  | none, none, some _, some _, _ => exact ⟨_, rfl⟩

/-- The effect of a row selection on any row-aligned array. -/
theorem rowSel_ok {u : UVP D W} {o : Obj D W} {a : Args} (hblp : u.blpairArray = o.rows.map Meas.blpair)
    (ht : u.timeAvg = o.rows.map (·.tAvg)) (hl : u.lstAvg = o.rows.map (·.lAvg))
    (hv : ∀ m ∈ o.rows, 0 ≤ m.bl2 ∧ m.bl2 < 1000000) (ha : Accepts o a) :
    ∃ s, rowSel u a = .ok s ∧ ∀ (β : Type) (f : Meas D W → β), s.apply (o.rows.map f) = (o.rows.filter (keepRow a)).map f := by
  unfold rowSel
  rw [rowMask_ok hblp ht hl hv ha.bls ha.blpairs ha.timesLsts]
  simp only [bind, Except.bind]
  by_cases hn : a.bls = none ∧ a.blpairs = none ∧ a.times = none ∧ a.lsts = none
  · simp only [hn, and_self, ↓reduceIte]
    refine ⟨_, rfl, ?_⟩
    intro β f
    obtain ⟨h1, h2, h3, h4⟩ := hn
    have : ∀ m : Meas D W, keepRow a m = true := by intro m; simp [keepRow, h1, h2, h3, h4]
    simp [Sel.apply, List.filter_eq_self.2 (fun m _ => this m)]
  · have hany := ha.rows.resolve_left hn
    simp only [hn, ↓reduceIte]
    rw [if_pos ((any_map_id _ _).2 hany)]
    obtain ⟨s, hs⟩ := toSel_ok (bs := o.rows.map (keepRow a)) ((any_map_id _ _).2 hany)
    refine ⟨s, hs, ?_⟩
    intro β f
    rw [toSel_apply hs _ (by simp), mask_map_filter]

theorem polSel_ok {u : UVP D W} {o : Obj D W} {a : Args} (hp : u.polpairArray = o.pols) (ha : Accepts o a) :
    ∃ s, polSel u a.polpairs = .ok s ∧ s.apply o.pols = o.pols.filter (keepPol a) ∧
      ∀ (β : Type) (d : List β), d.length = o.pols.length → s.apply d = keepEntries a o.pols d := by
  unfold polSel keepEntries
  cases hpp : a.polpairs with
  | none =>
    refine ⟨_, rfl, ?_, ?_⟩
    · have : ∀ p, keepPol a p = true := by intro p; simp [keepPol, hpp]
      simp [Sel.apply, List.filter_eq_self.2 (fun p _ => this p)]
    · intro β d hd
      simp only [Sel.apply, keepPol, hpp, List.filter_true]
      rw [List.map_snd_zip (by omega)]
  | some ps =>
    have hany := ha.pols.resolve_left (by simp [hpp])
    have hk : ∀ p, keepPol a p = decide (p ∈ ps) := by intro p; simp [keepPol, hpp]
    have hne : ps ≠ [] := by
      rintro rfl
      obtain ⟨p, _, h⟩ := hany
      simp [hk] at h
    obtain ⟨p0, ps', rfl⟩ := List.exists_cons_of_ne_nil hne
    have hany' : (o.pols.map (fun p => decide (p ∈ p0 :: ps'))).any id = true := by
      rw [any_map_id]; simpa [hk] using hany
    obtain ⟨s, hs⟩ := toSel_ok hany'
    refine ⟨s, by simpa [hp] using hs, ?_, ?_⟩
    · have := toSel_apply hs o.pols (by simp)
      have h2 := mask_map_filter o.pols (fun p => decide (p ∈ p0 :: ps')) id
      rw [List.map_id] at h2
      rw [this, h2, List.map_id]
      exact List.filter_congr (fun p _ => (hk p).symm)
    · intro β d hd
      rw [toSel_apply hs d (by simp [hd]), mask_eq_zip]
      simp only [hk]

theorem get_sliceDict {f : List α → List β} {d : Dict Nat (List α)} {pairs : List (Nat × Nat)} {r : Dict Nat (List β)}
    (h : sliceDict f d pairs = .ok r) (hn : (pairs.map (·.1)).Nodup) (s : Nat) :
    (∀ old, (s, old) ∈ pairs → Dict.get r s = (Dict.get d old).map f) ∧
    (s ∉ pairs.map (·.1) → Dict.get r s = none) := by
  induction pairs generalizing r with
  | nil => simp [sliceDict] at h; subst h; simp
  | cons p rest ih =>
    obtain ⟨s', old'⟩ := p
    simp only [List.map_cons, List.nodup_cons] at hn
    unfold sliceDict at h
    split at h
    · simp at h
    · rename_i a ha
      split at h
      · simp at h
      · rename_i r' hr'
        cases h
        have := ih hr' hn.2
        rw [Dict.get_cons]
        simp only
        constructor
        · intro old ho
          rcases List.mem_cons.1 ho with e | e
          · cases e; simp [ha]
          · have hne : s' ≠ s := by
              rintro rfl; exact hn.1 (List.mem_map.2 ⟨_, e, rfl⟩)
            rw [if_neg hne]; exact this.1 old e
        · intro hs
          simp only [List.map_cons, List.mem_cons, not_or] at hs
          rw [if_neg (fun e => hs.1 e.symm)]; exact this.2 hs.2

theorem sliceDict_ok {f : List α → List β} {d : Dict Nat (List α)} {pairs : List (Nat × Nat)}
    (h : ∀ p ∈ pairs, ∃ a, Dict.get d p.2 = some a) : ∃ r, sliceDict f d pairs = .ok r := by
  induction pairs with
  | nil => exact ⟨_, rfl⟩
  | cons p rest ih =>
    obtain ⟨s', old'⟩ := p
    obtain ⟨a, ha⟩ := h (s', old') (by simp)
    obtain ⟨r, hr⟩ := ih (fun p hp => h p (by simp [hp]))
    unfold sliceDict
    simp only at ha
    rw [ha, hr]
    exact ⟨_, rfl⟩

theorem keptSpws_sorted (n : Nat) (a : Args) : (keptSpws n a).Pairwise (· < ·) := by
  unfold keptSpws
  split
  · exact List.pairwise_lt_range
  · exact List.Pairwise.filter _ List.pairwise_lt_range

theorem mem_keptSpws {n : Nat} {a : Args} {s : Nat} : s ∈ keptSpws n a ↔ s < n ∧ ∀ l, a.spws = some l → s ∈ l := by
  unfold keptSpws
  cases h : a.spws with
  | none => simp
  | some l => simp

theorem rankIn_range {n k : Nat} (h : k < n) : rankIn (List.range n) k = k := by
  have := rankIn_getElem (K := List.range n) List.pairwise_lt_range k (by simpa using h)
  simpa using this

/-- The window part of a selection. -/
theorem selectSpws_ok {u : UVP D W} {o : Obj D W} {a : Args} (hr : Represents u o) (hv : Valid o) (ha : Accepts o a)
    (hf : o.folded = false ∨ a.spws = none) :
    selectSpws u a.spws = .ok ({ u with
      spwArray := List.range (keptSpws o.nspw a).length
      spwFreqArray := (specSelect o a).chans.map (·.1)
      freqArray := (specSelect o a).chans.map (·.2)
      spwDlyArray := (specSelect o a).dlys.map (·.1)
      dlyArray := (specSelect o a).dlys.map (·.2) }, keptSpws o.nspw a) := by
  cases hs : a.spws with
  | none =>
    have hK : keptSpws o.nspw a = List.range o.nspw := by simp [keptSpws, hs]
    have hch : ∀ L : List (Nat × ℚ), (∀ c ∈ L, c.1 < o.nspw) →
        (L.filter (fun c => decide (c.1 ∈ keptSpws o.nspw a))).map (fun c => (rankIn (keptSpws o.nspw a) c.1, c.2)) = L := by
      intro L hL
      rw [hK, List.filter_eq_self.2 (by intro c hc; simp [hL c hc])]
      conv_rhs => rw [← List.map_id L]
      apply List.map_congr_left
      intro c hc
      simp [rankIn_range (hL c hc)]
    simp only [selectSpws, specSelect]
    rw [hch _ hv.chans_lt, hch _ hv.dlys_lt, hK, ← hr.spwFreq, ← hr.freq, ← hr.spwDly, ← hr.dly]
    rw [List.length_range, ← hr.spw]
  | some l =>
    have hfold : o.folded = false := hf.resolve_right (by simp [hs])
    obtain ⟨hne, hlt⟩ := ha.spws l hs
    set K := keptSpws o.nspw a with hKdef
    have hmemK : ∀ s, s ∈ K ↔ s < o.nspw ∧ s ∈ l := by
      intro s; rw [hKdef, mem_keptSpws]; simp [hs]
    have hKeq : K = (List.range o.nspw).filter (fun s => decide (s ∈ l)) := by rw [hKdef]; simp [keptSpws, hs]
    have hsort := keptSpws_sorted o.nspw a
    rw [← hKdef] at hsort
    have hf1 : spwToFreqIndices u l = .ok (whereTrue (o.chans.map (fun c => decide (c.1 ∈ l)))) := by
      unfold spwToFreqIndices
      rw [if_neg hne, if_pos]
      · rw [hr.spwFreq, List.map_map]; rfl
      · rw [List.all_eq_true]; intro s hsl
        obtain ⟨c, hc, e⟩ := hv.chans_all s (hlt s hsl)
        rw [decide_eq_true_iff, hr.spwFreq, List.mem_map]; exact ⟨c, hc, e⟩
    have hf2 : spwToDlyIndices u l = .ok (whereTrue (o.dlys.map (fun c => decide (c.1 ∈ l)))) := by
      unfold spwToDlyIndices
      rw [if_neg hne, if_pos]
      · rw [hr.spwDly, hr.dly, hr.folded, hfold, List.zip_map', List.map_map]
        simp [Function.comp_def]
      · rw [List.all_eq_true]; intro s hsl
        obtain ⟨c, hc, e⟩ := hv.dlys_all s (hlt s hsl)
        rw [decide_eq_true_iff, hr.spwDly, List.mem_map]; exact ⟨c, hc, e⟩
    have hf3 : spwIndices u l = .ok (whereTrue ((List.range o.nspw).map (fun c => decide (c ∈ l)))) := by
      unfold spwIndices
      rw [if_neg hne, if_pos]
      · rw [hr.spw]
      · rw [List.all_eq_true]; intro s hsl
        rw [decide_eq_true_iff, hr.spw, List.mem_range]; exact hlt s hsl
    have hmk : (whereTrue ((List.range o.nspw).map (fun c => decide (c ∈ l)))).filterMap (fun i => u.spwArray[i]?) = K := by
      rw [filterMap_whereTrue _ _ (by simp [hr.spw]), hr.spw]
      have := mask_map_filter (List.range o.nspw) (fun c => decide (c ∈ l)) id
      rw [List.map_id] at this
      rw [this, List.map_id, hKeq]
    have hch : ∀ (L : List (Nat × ℚ)) (γ : Type) (f : Nat × ℚ → γ), (whereTrue (L.map (fun c => decide (c.1 ∈ l)))).filterMap
        (fun i => (L.map f)[i]?) = (L.filter (fun c => decide (c.1 ∈ l))).map f := by
      intro L γ f
      rw [filterMap_whereTrue _ _ (by simp), mask_map_filter]
    have hfilt : ∀ (L : List (Nat × ℚ)), (∀ c ∈ L, c.1 < o.nspw) →
        L.filter (fun c => decide (c.1 ∈ l)) = L.filter (fun c => decide (c.1 ∈ K)) := by
      intro L hL
      apply List.filter_congr
      intro c hc
      simp [hmemK, hL c hc]
    simp only [selectSpws, hf1, hf2, hf3, bind, Except.bind]
    rw [hmk]
    have hnd : K.Nodup := hsort.imp (by intro a b h; omega)
    rw [hnd.dedup, hr.spwFreq, hr.freq, hr.spwDly, hr.dly, hch, hch, hch, hch, hfilt _ hv.chans_lt,
      hfilt _ hv.dlys_lt]
    rw [downConvert_spec hsort]
    · simp only [specSelect, ← hKdef, List.map_map]; rfl
    · rfl
    · intro x hx
      simp only [List.mem_map, List.mem_filter, decide_eq_true_eq] at hx
      obtain ⟨c, ⟨_, h⟩, rfl⟩ := hx; exact h
    · intro x hx
      simp only [List.mem_map, List.mem_filter, decide_eq_true_eq] at hx
      obtain ⟨c, ⟨_, h⟩, rfl⟩ := hx; exact h

/-- `select` refines `specSelect`. -/
theorem select_refines {u : UVP D W} {o : Obj D W} {a : Args} (hr : Represents u o) (hv : Valid o) (ha : Accepts o a)
    (hf : o.folded = false ∨ a.spws = none) : ∃ u', select u a = .ok u' ∧ Represents u' (specSelect o a) ∧ u'.label1 = u.label1 := by
  have h1 := selectSpws_ok hr hv ha hf
  have hsort := keptSpws_sorted o.nspw a
  have hmem := fun s => mem_keptSpws (n := o.nspw) (a := a) (s := s)
  generalize hK : keptSpws o.nspw a = K at *
  set u1 : UVP D W := { u with
      spwArray := List.range K.length
      spwFreqArray := (specSelect o a).chans.map (·.1)
      freqArray := (specSelect o a).chans.map (·.2)
      spwDlyArray := (specSelect o a).dlys.map (·.1)
      dlyArray := (specSelect o a).dlys.map (·.2) } with hu1
  obtain ⟨rs, hrs, hrs'⟩ := rowSel_ok (u := u1) (o := o) (a := a) hr.blpair hr.timeAvg hr.lstAvg hv.bl2 ha
  obtain ⟨ps, hps, hps1, hps2⟩ := polSel_ok (u := u1) (o := o) (a := a) hr.pols ha
  have hpairs1 : ((List.range K.length).zip K).map (·.1) = List.range K.length := by
    rw [List.map_fst_zip]; simp
  have hpairs2 : ∀ p ∈ (List.range K.length).zip K, p.2 < o.nspw := by
    intro p hp
    exact ((hmem p.2).1 (List.of_mem_zip hp).2).1
  have hget : ∀ j, j < K.length → (j, K.getD j 0) ∈ (List.range K.length).zip K := by
    intro j hj
    rw [List.mem_iff_getElem]
    refine ⟨j, by simpa using hj, ?_⟩
    simp [List.getElem_zip, List.getElem?_eq_getElem hj]
  obtain ⟨data, hdata⟩ := sliceDict_ok (f := fun rows => (rs.apply rows).map (fun r => r.map ps.apply)) (d := u1.data)
    (pairs := (List.range K.length).zip K) (by
      intro p hp; rw [show u1.data = u.data from rfl, hr.data, if_pos (hpairs2 p hp)]; exact ⟨_, rfl⟩)
  obtain ⟨integ, hinteg⟩ := sliceDict_ok (f := fun rows => (rs.apply rows).map ps.apply) (d := u1.integ)
    (pairs := (List.range K.length).zip K) (by
      intro p hp; rw [show u1.integ = u.integ from rfl, hr.integ, if_pos (hpairs2 p hp)]; exact ⟨_, rfl⟩)
  have hgd := get_sliceDict hdata (by rw [hpairs1]; exact List.nodup_range)
  have hgi := get_sliceDict hinteg (by rw [hpairs1]; exact List.nodup_range)
  unfold select
  simp only [h1, hrs, hps, bind, Except.bind]
  rw [show u1.spwArray = List.range K.length from rfl, hdata]
  simp only
  rw [hinteg]
  simp only
  refine ⟨_, rfl, ?_, rfl⟩
  have hns : (specSelect o a).nspw = K.length := by simp [specSelect, hK]
  constructor <;> simp only
  · rw [hns]
  · rfl
  · rfl
  · rfl
  · rfl
  · exact hr.folded
  · show rs.apply u.blpairArray = _
    rw [hr.blpair, hrs', specSelect, List.map_map]; rfl
  · show rs.apply u.time1 = _
    rw [hr.time1, hrs', specSelect, List.map_map]; rfl
  · show rs.apply u.time2 = _
    rw [hr.time2, hrs', specSelect, List.map_map]; rfl
  · show rs.apply u.timeAvg = _
    rw [hr.timeAvg, hrs', specSelect, List.map_map]; rfl
  · show rs.apply u.lst1 = _
    rw [hr.lst1, hrs', specSelect, List.map_map]; rfl
  · show rs.apply u.lst2 = _
    rw [hr.lst2, hrs', specSelect, List.map_map]; rfl
  · show rs.apply u.lstAvg = _
    rw [hr.lstAvg, hrs', specSelect, List.map_map]; rfl
  · show ps.apply u.polpairArray = _
    rw [hr.pols, hps1]; rfl
  · intro s
    rw [hns]
    by_cases h : s < K.length
    · have hlt : K.getD s 0 < o.nspw := hpairs2 _ (hget s h)
      rw [if_pos h, (hgd s).1 _ (hget s h), show u1.data = u.data from rfl, hr.data, if_pos hlt]
      simp only [Option.map_some, hrs', specSelect, hK, List.map_map]
      congr 1
      apply List.map_congr_left
      intro m hm
      simp only [Function.comp_apply]
      apply List.map_congr_left
      intro d hd
      exact hps2 _ d (hv.dat m (List.mem_of_mem_filter hm) _ hlt d hd)
    · rw [if_neg h]
      exact (hgd s).2 (by rw [hpairs1]; simpa using h)
  · intro s
    rw [hns]
    by_cases h : s < K.length
    · have hlt : K.getD s 0 < o.nspw := hpairs2 _ (hget s h)
      rw [if_pos h, (hgi s).1 _ (hget s h), show u1.integ = u.integ from rfl, hr.integ, if_pos hlt]
      simp only [Option.map_some, hrs', specSelect, hK, List.map_map]
      congr 1
      apply List.map_congr_left
      intro m hm
      simp only [Function.comp_apply]
      exact hps2 _ _ (hv.itg m (List.mem_of_mem_filter hm) _ hlt)
    · rw [if_neg h]
      exact (hgi s).2 (by rw [hpairs1]; simpa using h)

end HeraPspec.UVP
