import Verif.Lemmas.PspecCall
import Verif.Props.PspecValue
import Verif.Props.Access
import Verif.Props.Seps

/-! C145, C146: what a call of `pspec` means, and reading its result back. -/
namespace HeraPspec.PspecCall
open HeraPspec.UVP
open HeraPspec.Access (getIntegrations C94_omit_flags integOf getDlys_unfolded delaysOf)
open HeraPspec.Validate (Item Pol)

variable {D W : Type}

/-! ### C145 -/

/-- Two calls do the same whatever the data are. -/
def SameEffect (D W : Type) (c c' : Call) : Prop := ∀ w : World D W, pspec w c = pspec w c'

/-- **C145** A single window, folding extension or number of delays means the list of that one. -/
theorem C145_single_window (c : Call) (a e : ℕ × ℕ) (k : Option ℕ) :
    SameEffect D W { c with spws := .one a } { c with spws := .many [a] } ∧
    SameEffect D W { c with exts := .one e } { c with exts := .many [e] } ∧
    SameEffect D W { c with ndlys := .one k } { c with ndlys := .many [k] } :=
  ⟨fun _ => rfl, fun _ => rfl, fun _ => rfl⟩

/-- **C145** No window means the whole band; no extension means `(0, 0)` and no number of delays means `None` for every window. -/
theorem C145_defaults (w : World D W) (c : Call) (l : List (ℕ × ℕ)) :
    pspec w { c with spws := .none } = pspec w { c with spws := .many [(0, w.nfreqs)] } ∧
    pspec w { c with spws := .many l, exts := .none } = pspec w { c with spws := .many l, exts := .many (List.replicate l.length (0, 0)) } ∧
    pspec w { c with spws := .many l, ndlys := .none } = pspec w { c with spws := .many l, ndlys := .many (List.replicate l.length none) } := by
  refine ⟨rfl, ?_, ?_⟩
  · rw [← List.map_const']; rfl
  · rw [← List.map_const']; rfl

/-- **C145** One polarization means the list of that one; a string means the pair of it with itself; a known string may be replaced by its number. -/
theorem C145_polarizations (w : World D W) (c : Call) (s : String) (n : ℤ) (q : Pol) (l : List PolArg) (x : PolArg) :
    pspec w { c with pols := .one x } = pspec w { c with pols := .many [x] } ∧
    pspec w { c with pols := .many (.str s :: l) } = pspec w { c with pols := .many (.pair (.str s) (.str s) :: l) } ∧
    (w.polnum s = some n → pspec w { c with pols := .many (.pair (.str s) q :: l) } = pspec w { c with pols := .many (.pair (.int n) q :: l) } ∧
      pspec w { c with pols := .many (.pair q (.str s) :: l) } = pspec w { c with pols := .many (.pair q (.int n) :: l) }) := by
  have key : ∀ a b : PolArg, polPair w.polnum a = polPair w.polnum b → ∀ l, pspec w { c with pols := .many (a :: l) } = pspec w { c with pols := .many (b :: l) } := by
    intro a b hab l
    have : polPairs w.polnum (.many (a :: l)) = polPairs w.polnum (.many (b :: l)) := by simp only [polPairs, mapE, hab]
    simp only [pspec, normalise, this]
  refine ⟨rfl, ?_, fun hs => ⟨?_, ?_⟩⟩
  · apply key
    simp only [polPair, polInt]
    cases w.polnum s <;> rfl
  · apply key; simp only [polPair, polInt, hs]
  · apply key; simp only [polPair, polInt, hs]

/-- **C145** A pair of groups of one baseline each means the pair of those baselines, at any place in the lists. -/
theorem C145_singleton_groups (w : World D W) (c : Call) (x y x' y' : List BlArg) (hl : x.length = y.length) (a b : Bl) :
    pspec w { c with bls1 := x ++ .many [a] :: x', bls2 := y ++ .many [b] :: y' } =
      pspec w { c with bls1 := x ++ .one a :: x', bls2 := y ++ .one b :: y' } := by
  have hm : ∀ z z' : List (BlArg × BlArg), mapE (fun x => pairUp x.1 x.2) (z ++ (.many [a], .many [b]) :: z') =
      mapE (fun x => pairUp x.1 x.2) (z ++ (.one a, .one b) :: z') := by
    intro z z'
    induction z with
    | nil => rfl
    | cons v z ih => simp only [List.cons_append, mapE, ih]
  have : blPairs (x ++ .many [a] :: x') (y ++ .many [b] :: y') = blPairs (x ++ .one a :: x') (y ++ .one b :: y') := by
    unfold blPairs
    rw [List.zip_append hl, List.zip_append hl, List.zip_cons_cons, List.zip_cons_cons, hm]
    simp only [List.length_append, List.length_cons, ne_eq, List.append_eq_nil_iff, List.cons_ne_nil, and_false, not_false_eq_true, and_true]
  simp only [pspec, normalise, this]

/-- **C145** A negative dataset number counts from the end. -/
theorem C145_negative_dset (w : World D W) (c : Call) (k : ℕ) (hk : k < w.labels.length) (j : ℤ) (out : Out D W) :
    pspec w { c with dsets := [.int (k - w.labels.length), .int j] } = .ok out →
      ∃ out', pspec w { c with dsets := [.int k, .int j] } = .ok out' ∧ out'.labels = out.labels ∧ out'.label1 = out.label1 ∧ out'.label2 = out.label2 := by
  intro h
  have hg : pyGet w.labels (k - w.labels.length) = pyGet w.labels k := by
    unfold pyGet
    rw [if_neg (by omega), if_pos (by omega), if_pos (by omega)]
    have : ((w.labels.length : ℤ) + (k - w.labels.length)).toNat = k := by omega
    rw [this]; rfl
  obtain ⟨n, blps, r, data, h1, h2, h3, h4, h5, h6, rfl⟩ := pspec_iff.1 h
  have h1' : normalise w.polnum w.labels w.nfreqs w.posOk { c with dsets := [.int k, .int j] } = .ok { n with d1 := k } := by
    rw [normalise_iff] at h1 ⊢
    obtain ⟨e1, e2, e3, e4⟩ := h1
    rw [dsetPair_iff] at e1
    simp only [List.cons.injEq, DsetArg.int.injEq, and_true] at e1
    refine ⟨dsetPair_iff.2 ?_, ?_, e3, e4⟩
    · simp only [e1.2]
    · rw [← hg, e1.1]; exact e2
  exact ⟨outOf w { c with dsets := [.int k, .int j] } { n with d1 := k } r data, pspec_iff.2 ⟨_, blps, r, data, h1', h2, h3, h4, h5, h6, rfl⟩, rfl, rfl, rfl⟩

/-- **C145** A call is carried out exactly if it is well formed, asks for at least one window, and every requested spectrum can be computed; here for
requests whose first polarization pair the data have, and data with integrations for every baseline-pair. -/
theorem C145_accepted_iff (w : World D W) (c : Call) (m : Meaning) (ha : Asks w c m) (hp : ∃ p, m.pols.head? = some p ∧ w.polOk p = true)
    (hr : Regular w m.spws.length m.blps) :
    (∃ out, pspec w c = .ok out) ↔ m.spws ≠ [] ∧ ∀ i < m.spws.length, ∀ p ∈ m.available w, ∀ b ∈ m.blps, ∃ l, w.val i p b = .ok l := by
  obtain ⟨n, hn, h1, h2, h3, h4, h5⟩ := asks_iff.1 ha
  have hb := onlyPairs_iff.2 h1
  rw [← h4] at hr ⊢
  rw [← h5] at hp
  unfold Meaning.available
  rw [← h5]
  constructor
  · rintro ⟨out, h⟩
    obtain ⟨n', b', r, data, e1, e2, e3, -⟩ := pspec_iff.1 h
    rw [hn] at e1; cases e1
    exact ⟨e3, (pspec_content h hn hb hp hr).1⟩
  · rintro ⟨hne, hv⟩
    have hlen : n.spws.length ≠ 0 := by simpa using hne
    obtain ⟨p, hp1, hp2⟩ := hp
    obtain ⟨ps, hps⟩ : ∃ ps, n.pols = p :: ps := by
      cases hh : n.pols with
      | nil => rw [hh] at hp1; cases hp1
      | cons a l => rw [hh] at hp1; cases hp1; exact ⟨l, rfl⟩
    obtain ⟨r, hr4⟩ := (PspecLoop.C57_succeeds_iff w.polOk (timesOf w) m.blps (mkOf w) n.pols n.spws.length hlen).2 ⟨p, by rw [hps]; exact List.mem_cons_self, hp2⟩
    have hr4' := hr4
    rw [hps] at hr4'
    obtain ⟨q1, q2, q3⟩ := PspecLoop.C57_rows_match_partial w.polOk (timesOf w) m.blps (mkOf w) p ps hp2 _ hlen r hr4'
    rw [← hps] at q1
    refine ⟨_, pspec_iff.2 ⟨n, m.blps, r, (List.range n.spws.length).map (winOf w (n.pols.filter w.polOk) m.blps), hn, hb, hne, hr4, ?_, ?_, rfl⟩⟩
    · rw [q3, mapE_map]
      apply mapE_ok_map
      intro i hi
      have hi := List.mem_range.1 hi
      rw [mapE_map, q1]
      unfold winOf
      apply mapE_ok_map
      intro q hq
      rw [q2, rows_ok hr hi (hv i hi q hq), mapE_map]
      have := mapE_ok_map (ε := Err) (f := fun a : Entry D W => id (Except.ok a)) (l := m.blps.flatMap (table w i q)) (g := id) (fun _ _ => rfl)
      simpa using this
    · rw [List.all_eq_true]
      intro x hx
      obtain ⟨i, hi, rfl⟩ := List.mem_map.1 hx
      exact rect_win hr (List.mem_range.1 hi) (hv i (List.mem_range.1 hi))

/-- **C145** A call that is not well formed raises. -/
theorem C145_ill_formed (w : World D W) (c : Call) (h : ∀ m, ¬ Asks w c m) : ∃ e, pspec w c = .error e := by
  cases hp : pspec w c with
  | error e => exact ⟨e, rfl⟩
  | ok out =>
    obtain ⟨n, blps, r, data, h1, h2, h3, -⟩ := pspec_iff.1 hp
    exact absurd (asks_iff.2 ⟨n, h1, onlyPairs_iff.1 h2, rfl, rfl, rfl, rfl⟩) (h ⟨n.label1, n.label2, blps, n.spws, n.pols⟩)

/-- **C145** What a call asks for is determined by the call. -/
theorem C145_meaning_unique (w : World D W) (c : Call) (m m' : Meaning) (h : Asks w c m) (h' : Asks w c m') : m = m' := by
  obtain ⟨n, hn, h1, h2, h3, h4, h5⟩ := asks_iff.1 h
  obtain ⟨n', hn', e1, e2, e3, e4, e5⟩ := asks_iff.1 h'
  rw [hn] at hn'; cases hn'
  have hb : m.blps = m'.blps := List.map_injective_iff.2 (fun a b hab => by cases hab; rfl) (h1.symm.trans e1)
  cases m; cases m'
  simp only at *
  subst h2 h3 h4 h5 e2 e3 e4 e5 hb
  rfl

/-- **C145** The labels of the result are the labels of the two datasets, sorted and without repetition; and the number stored for every window, row and
polarization in `label_1_array` (`label_2_array`) is the place of the label of the first (second) dataset. -/
theorem C145_labels (w : World D W) (c : Call) (m : Meaning) (ha : Asks w c m) (out : Out D W) (h : pspec w c = .ok out) :
    out.labels.Nodup ∧ out.labels.Pairwise (· ≤ ·) ∧ (∀ x, x ∈ out.labels ↔ x = m.label1 ∨ x = m.label2) ∧
    (∀ a ∈ out.label1, ∀ r ∈ a, ∀ k ∈ r, out.labels[k]? = some m.label1) ∧
    (∀ a ∈ out.label2, ∀ r ∈ a, ∀ k ∈ r, out.labels[k]? = some m.label2) := by
  obtain ⟨n, hn, h1, h2, h3, h4, h5⟩ := asks_iff.1 ha
  obtain ⟨n', b', r, data, e1, e2, e3, -, -, -, rfl⟩ := pspec_iff.1 h
  rw [hn] at e1; cases e1
  rw [← h2, ← h3]
  have hperm : (outLabels n.label1 n.label2).Perm [n.label1, n.label2].dedup := pySorted_perm _ _
  have hmem : ∀ x, x ∈ outLabels n.label1 n.label2 ↔ x = n.label1 ∨ x = n.label2 := by
    intro x; rw [hperm.mem_iff, List.mem_dedup]; simp
  have hget : ∀ x ∈ outLabels n.label1 n.label2, (outLabels n.label1 n.label2)[(outLabels n.label1 n.label2).idxOf x]? = some x := by
    intro x hx
    rw [List.getElem?_eq_getElem (List.idxOf_lt_length_of_mem hx), List.getElem_idxOf]
  have harr : ∀ a b cc k : ℕ, ∀ x ∈ labelArray a b cc k, ∀ r ∈ x, ∀ j ∈ r, j = k := by
    intro a b cc k x hx r hr j hj
    rw [labelArray] at hx
    rw [(List.mem_replicate.1 hx).2] at hr
    rw [(List.mem_replicate.1 hr).2] at hj
    exact (List.mem_replicate.1 hj).2
  refine ⟨?_, ?_, hmem, ?_, ?_⟩
  · exact hperm.nodup_iff.2 (List.nodup_dedup _)
  · have := pySorted_pairwise (le := fun a b : String => decide (a ≤ b)) (fun a b c h1 h2 => by simp only [decide_eq_true_eq] at *; exact String.le_trans h1 h2)
      (fun a b => by simpa using String.le_total a b) [n.label1, n.label2].dedup
    simpa [outOf, outLabels] using this
  · intro a hxa r' hr' k hk
    rw [harr _ _ _ _ a hxa r' hr' k hk]
    exact hget _ ((hmem _).2 (.inl rfl))
  · intro a hxa r' hr' k hk
    rw [harr _ _ _ _ a hxa r' hr' k hk]
    exact hget _ ((hmem _).2 (.inr rfl))

/-- **C145** The covariance is kept if it is asked for and not only its diagonal; the error bars of the diagonal are kept, under the name of the covariance
model, if the diagonal is asked for; window functions are kept if asked for or exact; the units and the normalization are recorded. -/
theorem C145_options (w : World D W) (c : Call) (out : Out D W) (h : pspec w c = .ok out) :
    (out.hasCov = true ↔ c.storeCov = true ∧ c.storeDiag = false) ∧
    (out.stats = if c.storeDiag then some [w.covModel ++ "_diag"] else none) ∧
    (out.hasWindow = true ↔ c.storeWindow = true ∨ c.exactWindows = true) ∧
    out.visUnits = w.visUnits ∧
    (out.normUnits = if w.beam then (if c.littleH then "h^-3 Mpc^3" else "Mpc^3") else "Hz str [beam normalization not specified]") ∧
    (c.returnQ = true → out.norm = "Unnormalized") ∧ (c.returnQ = false → out.norm = c.norm) := by
  obtain ⟨n, b', r, data, e1, e2, e3, -, -, -, rfl⟩ := pspec_iff.1 h
  obtain ⟨-, -, -, -, -, -, -, -, -, -, -, q1, q2, q3⟩ := normalise_iff.1 e1
  refine ⟨?_, ?_, ?_, rfl, ?_, ?_, ?_⟩
  · simp only [outOf, q1]; cases c.storeCov <;> cases c.storeDiag <;> decide
  · simp only [outOf, q2]
  · simp only [outOf, q3]; cases c.storeWindow <;> cases c.exactWindows <;> decide
  · simp only [outOf, units]
    cases w.beam <;> cases c.littleH <;> rfl
  · intro hq; simp only [outOf, hq, if_true]
  · intro hq; simp only [outOf, hq, Bool.false_eq_true, if_false]

/-- **C145** (finding). Groups of baselines, "List of baseline groups, each group being a list of ant-pair tuples", are documented, but any group of two or
more baselines makes the call raise. -/
theorem C145_finding_groups (w : World D W) (c : Call) (i : ℕ) (l k : List Bl) (h1 : c.bls1[i]? = some (.many l)) (h2 : c.bls2[i]? = some (.many k))
    (hl : 2 ≤ l.length) : ∃ e, pspec w c = .error e := by
  apply C145_ill_formed
  intro m ha
  have hi : i < m.blps.length := by rw [← ha.len1]; exact (List.getElem?_eq_some_iff.1 h1).1
  have hp := ha.pairs i _ _ _ h1 h2 (List.getElem?_eq_getElem hi)
  rcases l with _ | ⟨a, _ | ⟨b, l⟩⟩
  · simp at hl
  · simp at hl
  · unfold PairFor at hp; exact hp

/-- **C145** (finding). The argument `history`, documented as "history string to attach to UVPSpec object", has no effect. -/
theorem C145_finding_history (c : Call) (s : String) : SameEffect D W { c with history := s } c := fun _ => rfl

/-- **C145** (finding). Dataset labels, which the rest of the class accepts in place of numbers, are refused. -/
theorem C145_finding_dset_labels (w : World D W) (c : Call) (s : String) (hs : DsetArg.label s ∈ c.dsets) : ∃ e, pspec w c = .error e := by
  apply C145_ill_formed
  intro m ha
  obtain ⟨a, b, h, -⟩ := ha.dsets
  rw [h] at hs
  simp at hs

/-! ### C146 -/

theorem filter_rows {w : World D W} {blps : List Blp} (hd : blps.Nodup) {b : Blp} (hb : b ∈ blps) :
    (rowsOf w blps).filter (fun m => decide (m.1 = b)) = (w.obs b).zipIdx.map (fun o => (b, o.1, o.2)) := by
  unfold rowsOf
  induction blps with
  | nil => cases hb
  | cons a l ih =>
    rw [List.nodup_cons] at hd
    rw [List.flatMap_cons, List.filter_append]
    by_cases hab : a = b
    · subst hab
      have e1 : ((w.obs a).zipIdx.map (fun o => (a, o.1, o.2))).filter (fun m => decide (m.1 = a)) = (w.obs a).zipIdx.map (fun o => (a, o.1, o.2)) := by
        apply List.filter_eq_self.2; intro x hx; obtain ⟨o, _, rfl⟩ := List.mem_map.1 hx; simp
      have e2 : (l.flatMap (fun b => (w.obs b).zipIdx.map (fun o => (b, o.1, o.2)))).filter (fun m => decide (m.1 = a)) = [] := by
        apply List.filter_eq_nil_iff.2
        intro x hx
        obtain ⟨b, hbm, hx⟩ := List.mem_flatMap.1 hx
        obtain ⟨o, _, rfl⟩ := List.mem_map.1 hx
        simp only [decide_eq_true_eq]
        rintro rfl; exact hd.1 hbm
      rw [e1, e2, List.append_nil]
    · have e1 : ((w.obs a).zipIdx.map (fun o => (a, o.1, o.2))).filter (fun m => decide (m.1 = b)) = [] := by
        apply List.filter_eq_nil_iff.2; intro x hx; obtain ⟨o, _, rfl⟩ := List.mem_map.1 hx; simpa using hab
      rw [e1, List.nil_append]
      exact ih hd.2 (by rcases List.mem_cons.1 hb with rfl | h; · exact absurd rfl hab
                        · exact h)

theorem code_inj {a b : Blp} (ha : GoodAnt a.1.1 ∧ GoodAnt a.1.2 ∧ GoodAnt a.2.1 ∧ GoodAnt a.2.2) (hb : GoodAnt b.1.1 ∧ GoodAnt b.1.2 ∧ GoodAnt b.2.1 ∧ GoodAnt b.2.2)
    (h : blCode a.1 * 1000000 + blCode a.2 = blCode b.1 * 1000000 + blCode b.2) : a = b := by
  obtain ⟨⟨a1, a2⟩, a3, a4⟩ := a
  obtain ⟨⟨b1, b2⟩, b3, b4⟩ := b
  simp only [GoodAnt, blCode, Prod.mk.injEq] at *
  omega

theorem pol_inj {p q : ℤ × ℤ} (hp : Polpair.ValidPol p.1 ∧ Polpair.ValidPol p.2) (hq : Polpair.ValidPol q.1 ∧ Polpair.ValidPol q.2)
    (h : (20 + p.1) * 100 + (20 + p.2) = (20 + q.1) * 100 + (20 + q.2)) : p = q := by
  obtain ⟨p1, p2⟩ := p
  obtain ⟨q1, q2⟩ := q
  simp only [Polpair.ValidPol, Prod.mk.injEq] at *
  omega

/-- What the English property assumes of a request: distinct baseline-pairs, distinct polarization pairs in the range of polarization numbers, of which the
data have the first one. -/
structure Proper (w : World D W) (m : Meaning) : Prop where
  blps : m.blps.Nodup
  pols : m.pols.Nodup
  range : ∀ p ∈ m.pols, Polpair.ValidPol p.1 ∧ Polpair.ValidPol p.2
  first : ∃ p, m.pols.head? = some p ∧ w.polOk p = true

theorem filter_content {w : World D W} {nspw : ℕ} {pols : List (ℤ × ℤ)} {blps : List Blp} (hr : Regular w nspw blps) (hd : blps.Nodup) {b : Blp} (hb : b ∈ blps) :
    (content w nspw pols blps).rows.filter (fun m => decide (m.blpair = Antnums.antnumsToBlpair b)) =
      ((content { w with obs := w.obs } nspw pols [b]).rows) := by
  have hbl : ∀ m : Blp, Antnums.antnumsToBlpair m = blCode m.1 * 1000000 + blCode m.2 := by
    intro m; rw [Antnums.antnumsToBlpair_eq]; unfold blCode; ring
  have e : rowsOf w [b] = (w.obs b).zipIdx.map (fun o => (b, o.1, o.2)) := by simp [rowsOf]
  simp only [content]
  rw [List.filter_map, e, ← filter_rows hd hb]
  congr 1
  apply List.filter_congr
  intro x hx
  simp only [Function.comp_apply, Meas.blpair, hbl, decide_eq_decide]
  constructor
  · intro h; exact code_inj (hr.ants _ (rowsOf_mem hx)) (hr.ants _ hb) h
  · rintro rfl; rfl

theorem filterMap_get {α β : Type} {g : α → Option β} {ps : List α} (hg : ∀ q ∈ ps, ∃ x, g q = some x) (k : ℕ) : (ps.filterMap g)[k]? = (ps[k]?).bind g := by
  induction ps generalizing k with
  | nil => rfl
  | cons a ps ih =>
    obtain ⟨x, hx⟩ := hg a List.mem_cons_self
    rw [List.filterMap_cons_some hx]
    cases k with
    | zero => simp [hx]
    | succ k =>
      simp only [List.getElem?_cons_succ]
      exact ih (fun q hq => hg q (List.mem_cons_of_mem _ hq)) k

theorem range_filterMap {α : Type} {l : List α} {n : ℕ} (hn : l.length = n) {f : ℕ → Option α} (h : ∀ d < n, f d = l[d]?) : (List.range n).filterMap f = l := by
  apply List.ext_getElem?
  intro k
  rw [filterMap_get]
  · by_cases hk : k < n
    · rw [List.getElem?_range hk, Option.bind_some, h k hk]
    · rw [List.getElem?_eq_none (by simpa using hk), List.getElem?_eq_none (by omega)]; rfl
  · intro q hq
    have hq := List.mem_range.1 hq
    exact ⟨l[q], by rw [h q hq, List.getElem?_eq_getElem]⟩

/-- **C146** For every accepted call, `get_data` of a requested window, baseline-pair and available polarization pair returns exactly the spectra computed for
that window, polarization pair and baseline-pair, one for each integration in order. -/
theorem C146_read_back (w : World D W) (c : Call) (m : Meaning) (ha : Asks w c m) (hm : Proper w m) (hr : Regular w m.spws.length m.blps) (out : Out D W)
    (h : pspec w c = .ok out) (i : ℕ) (hi : i < m.spws.length) (p : ℤ × ℤ) (hp : p ∈ m.available w) (b : Blp) (hb : b ∈ m.blps) :
    ∃ l, w.val i p b = .ok l ∧ getData out.u i (Antnums.antnumsToBlpair b) (Polpair.tuple2int p) = .ok (l.map (·.spec)) := by
  obtain ⟨n, hn, h1, h2, h3, h4, h5⟩ := asks_iff.1 ha
  have hob := onlyPairs_iff.2 h1
  have hfirst := hm.first
  rw [← h4] at hr hi
  rw [← h5] at hfirst
  unfold Meaning.available at hp
  rw [← h5] at hp
  obtain ⟨hv, hrep, hval, -⟩ := pspec_content h hn hob hfirst hr
  obtain ⟨l, hl⟩ := hv i hi p hp b hb
  refine ⟨l, hl, ?_⟩
  have hnod : (content w n.spws.length (n.pols.filter w.polOk) m.blps).pols.Nodup := by
    simp only [content]
    apply List.Nodup.map_on
    · intro x hx y hy hxy
      exact pol_inj (hm.range _ (by rw [← h5]; exact List.mem_of_mem_filter hx)) (hm.range _ (by rw [← h5]; exact List.mem_of_mem_filter hy)) hxy
    · rw [h5]; exact hm.pols.filter _
  have hbl : ∀ m : Blp, Antnums.antnumsToBlpair m = blCode m.1 * 1000000 + blCode m.2 := by
    intro m; rw [Antnums.antnumsToBlpair_eq]; unfold blCode; ring
  obtain ⟨o, l0, h0⟩ := List.exists_cons_of_ne_nil (hr.obs b hb)
  have hmem : (b, o, 0) ∈ rowsOf w m.blps := by
    refine List.mem_flatMap.2 ⟨b, hb, List.mem_map.2 ⟨(o, 0), ?_, rfl⟩⟩
    rw [h0]; simp [List.zipIdx_cons]
  rw [show Polpair.tuple2int p = (20 + p.1) * 100 + (20 + p.2) from rfl, getData_spec hrep hval hnod hi ⟨_, List.mem_map.2 ⟨_, hmem, rfl⟩, by rw [hbl]; rfl⟩ (List.mem_map.2 ⟨p, hp, rfl⟩) rfl]
  congr 1
  rw [filter_content hr hm.blps hb]
  simp only [content, List.map_map, rowsOf, List.flatMap_cons, List.flatMap_nil, List.append_nil]
  have hlen := (hr.len i hi p b hb l hl)
  apply List.ext_getElem?
  intro j
  simp only [List.getElem?_map, List.getElem?_zipIdx]
  by_cases hj : j < l.length
  · rw [List.getElem?_eq_getElem hj, List.getElem?_eq_getElem (by omega)]
    simp only [Option.map_some, Function.comp_apply, Option.some.injEq, Nat.zero_add]
    have hspec := hlen.2 _ (List.getElem_mem hj)
    rw [List.filterMap_map]
    have key : ∀ d < (w.dlys i).length, (entry ((n.pols.filter w.polOk).map (fun p => (20 + p.1) * 100 + (20 + p.2))) ((20 + p.1) * 100 + (20 + p.2)) ∘
        fun d => (n.pols.filter w.polOk).filterMap (fun p => ((table w i p b)[j]?).bind (fun e => e.spec[d]?))) d = (l[j].spec)[d]? := by
      intro d hd
      simp only [Function.comp_apply]
      have hfull : ∀ q ∈ n.pols.filter w.polOk, ∃ x, ((table w i q b)[j]?).bind (fun e => e.spec[d]?) = some x := by
        intro q hq
        obtain ⟨l', hl'⟩ := hv i hi q hq b hb
        have := hr.len i hi q b hb l' hl'
        rw [table_ok hl', List.getElem?_eq_getElem (by omega), Option.bind_some, List.getElem?_eq_getElem (by rw [this.2 _ (List.getElem_mem _)]; exact hd)]
        exact ⟨_, rfl⟩
      obtain ⟨k, hk⟩ := List.mem_iff_getElem?.1 hp
      unfold entry
      have hnod' : ((n.pols.filter w.polOk).map (fun p => (20 + p.1) * 100 + (20 + p.2))).Nodup := hnod
      rw [lookup_zip_getElem hnod' (i := k) (by simp only [List.getElem?_map, hk]; rfl)]
      rw [filterMap_get hfull k, hk, Option.bind_some, table_ok hl, List.getElem?_eq_getElem hj, Option.bind_some]
    exact range_filterMap hspec key
  · rw [List.getElem?_eq_none (by omega), List.getElem?_eq_none (by omega)]; rfl

/-- The rows of the arrays that belong to one baseline-pair. -/
def atRows {α : Type} (u : UVP D W) (b : ℤ) (f : UVP D W → List α) : Except UVP.Err (List α) :=
  (blpairToIndices u [b]).map (fun is => is.filterMap (fun i => (f u)[i]?))

/-- **C146** The rows of a requested baseline-pair have the times and LSTs of its own integrations, in order, and the mean of the two times. -/
theorem C146_times (w : World D W) (c : Call) (m : Meaning) (ha : Asks w c m) (hm : Proper w m) (hr : Regular w m.spws.length m.blps) (out : Out D W)
    (h : pspec w c = .ok out) (b : Blp) (hb : b ∈ m.blps) :
    atRows out.u (Antnums.antnumsToBlpair b) (·.time1) = .ok ((w.obs b).map (·.t1)) ∧
    atRows out.u (Antnums.antnumsToBlpair b) (·.time2) = .ok ((w.obs b).map (·.t2)) ∧
    atRows out.u (Antnums.antnumsToBlpair b) (·.lst1) = .ok ((w.obs b).map (·.l1)) ∧
    atRows out.u (Antnums.antnumsToBlpair b) (·.lst2) = .ok ((w.obs b).map (·.l2)) ∧
    atRows out.u (Antnums.antnumsToBlpair b) (·.timeAvg) = .ok ((w.obs b).map (fun o => (o.t1 + o.t2) / 2)) ∧
    atRows out.u (Antnums.antnumsToBlpair b) (·.lstAvg) = .ok ((w.obs b).map (fun o => w.circ o.l1 o.l2)) := by
  obtain ⟨n, hn, h1, h2, h3, h4, h5⟩ := asks_iff.1 ha
  have hob := onlyPairs_iff.2 h1
  have hfirst := hm.first
  rw [← h4] at hr
  rw [← h5] at hfirst
  obtain ⟨-, hrep, hval, -⟩ := pspec_content h hn hob hfirst hr
  have hbl : ∀ m : Blp, Antnums.antnumsToBlpair m = blCode m.1 * 1000000 + blCode m.2 := by
    intro m; rw [Antnums.antnumsToBlpair_eq]; unfold blCode; ring
  obtain ⟨o, l0, h0⟩ := List.exists_cons_of_ne_nil (hr.obs b hb)
  have hmem : Antnums.antnumsToBlpair b ∈ out.u.blpairArray := by
    rw [hrep.blpair]
    refine List.mem_map.2 ⟨_, List.mem_map.2 ⟨(b, o, 0), List.mem_flatMap.2 ⟨b, hb, List.mem_map.2 ⟨(o, 0), ?_, rfl⟩⟩, rfl⟩, by rw [hbl]; rfl⟩
    rw [h0]; simp [List.zipIdx_cons]
  have key : ∀ {α : Type} (f : UVP D W → List α) (g : Meas D W → α),
      f out.u = (content w n.spws.length (n.pols.filter w.polOk) m.blps).rows.map g →
      atRows out.u (Antnums.antnumsToBlpair b) f = .ok ((content w n.spws.length (n.pols.filter w.polOk) [b]).rows.map g) := by
    intro α f g hf
    unfold atRows blpairToIndices
    rw [if_pos (by simpa using hmem)]
    simp only [Except.map, List.mem_singleton]
    rw [hf, hrep.blpair, List.map_map, filterMap_whereTrue _ _ (by simp), mask_map_filter]
    congr 2
    exact filter_content hr hm.blps hb
  have hz : ∀ {α : Type} (g : Obs → α), ((w.obs b).zipIdx.map (fun o => g o.1)) = (w.obs b).map g := by
    intro α g
    apply List.ext_getElem?
    intro j
    simp only [List.getElem?_map, List.getElem?_zipIdx, Option.map_map]
    cases (w.obs b)[j]? <;> rfl
  refine ⟨?_, ?_, ?_, ?_, ?_, ?_⟩
  · rw [key _ _ hrep.time1]; simp only [content, rowsOf, List.flatMap_cons, List.flatMap_nil, List.append_nil, List.map_map, Function.comp_def]; rw [hz (·.t1)]
  · rw [key _ _ hrep.time2]; simp only [content, rowsOf, List.flatMap_cons, List.flatMap_nil, List.append_nil, List.map_map, Function.comp_def]; rw [hz (·.t2)]
  · rw [key _ _ hrep.lst1]; simp only [content, rowsOf, List.flatMap_cons, List.flatMap_nil, List.append_nil, List.map_map, Function.comp_def]; rw [hz (·.l1)]
  · rw [key _ _ hrep.lst2]; simp only [content, rowsOf, List.flatMap_cons, List.flatMap_nil, List.append_nil, List.map_map, Function.comp_def]; rw [hz (·.l2)]
  · rw [key _ _ hrep.timeAvg]; simp only [content, rowsOf, List.flatMap_cons, List.flatMap_nil, List.append_nil, List.map_map, Function.comp_def]; rw [hz (fun o => (o.t1 + o.t2) / 2)]
  · rw [key _ _ hrep.lstAvg]; simp only [content, rowsOf, List.flatMap_cons, List.flatMap_nil, List.append_nil, List.map_map, Function.comp_def]; rw [hz (fun o => w.circ o.l1 o.l2)]

/-- **C146** `get_integrations` returns the integration times computed for that window, polarization pair and baseline-pair, and `get_dlys` the delays of the
window. -/
theorem C146_integrations_delays (w : World D ℚ) (c : Call) (m : Meaning) (ha : Asks w c m) (hm : Proper w m) (hr : Regular w m.spws.length m.blps) (out : Out D ℚ)
    (h : pspec w c = .ok out) (i : ℕ) (hi : i < m.spws.length) (p : ℤ × ℤ) (hp : p ∈ m.available w) (b : Blp) (hb : b ∈ m.blps) :
    getDlys out.u i = .ok (w.dlys i) ∧
    ∃ l, w.val i p b = .ok l ∧ getIntegrations out.u i (Antnums.antnumsToBlpair b) (Polpair.tuple2int p) false = .ok (l.map (·.integ)) := by
  obtain ⟨n, hn, h1, h2, h3, h4, h5⟩ := asks_iff.1 ha
  have hob := onlyPairs_iff.2 h1
  have hfirst := hm.first
  rw [← h4] at hr hi
  rw [← h5] at hfirst
  unfold Meaning.available at hp
  rw [← h5] at hp
  obtain ⟨hv, hrep, hval, -⟩ := pspec_content h hn hob hfirst hr
  obtain ⟨l, hl⟩ := hv i hi p hp b hb
  constructor
  · rw [getDlys_unfolded hrep hval rfl hi]
    congr 1
    unfold delaysOf
    simp only [content]
    rw [List.filter_flatMap, List.map_flatMap]
    have e : ∀ k ∈ List.range n.spws.length, (((w.dlys k).map (fun t => (k, t))).filter (fun c => decide (c.1 = i))).map (·.2) = if k = i then w.dlys k else [] := by
      intro k _
      by_cases hk : k = i
      · subst hk
        rw [if_pos rfl, List.filter_eq_self.2 (by intro x hx; obtain ⟨t, _, rfl⟩ := List.mem_map.1 hx; simp), List.map_map]
        simp [Function.comp_def]
      · rw [if_neg hk, List.filter_eq_nil_iff.2 (by intro x hx; obtain ⟨t, _, rfl⟩ := List.mem_map.1 hx; simpa using hk)]
        rfl
    rw [List.flatMap_congr e]
    obtain ⟨k, hk⟩ : ∃ k, n.spws.length = i + 1 + k := ⟨n.spws.length - (i + 1), by omega⟩
    rw [hk, List.range_add, List.range_succ, List.flatMap_append, List.flatMap_append, List.flatMap_cons, List.flatMap_nil, if_pos rfl]
    rw [List.flatMap_eq_nil_iff.2 (by intro x hx; have := List.mem_range.1 hx; rw [if_neg (by omega)]),
      List.flatMap_eq_nil_iff.2 (by intro x hx; obtain ⟨y, hy, rfl⟩ := List.mem_map.1 hx; rw [if_neg (by omega)])]
    simp
  refine ⟨l, hl, ?_⟩
  have hnod : (content w n.spws.length (n.pols.filter w.polOk) m.blps).pols.Nodup := by
    simp only [content]
    apply List.Nodup.map_on
    · intro x hx y hy hxy
      exact pol_inj (hm.range _ (by rw [← h5]; exact List.mem_of_mem_filter hx)) (hm.range _ (by rw [← h5]; exact List.mem_of_mem_filter hy)) hxy
    · rw [h5]; exact hm.pols.filter _
  have hbl : ∀ m : Blp, Antnums.antnumsToBlpair m = blCode m.1 * 1000000 + blCode m.2 := by
    intro m; rw [Antnums.antnumsToBlpair_eq]; unfold blCode; ring
  obtain ⟨o, l0, h0⟩ := List.exists_cons_of_ne_nil (hr.obs b hb)
  have hmem : (b, o, 0) ∈ rowsOf w m.blps := by
    refine List.mem_flatMap.2 ⟨b, hb, List.mem_map.2 ⟨(o, 0), ?_, rfl⟩⟩
    rw [h0]; simp [List.zipIdx_cons]
  have hC := (C94_omit_flags hrep hval hnod rfl i (Antnums.antnumsToBlpair b) ((20 + p.1) * 100 + (20 + p.2)) hi ⟨_, List.mem_map.2 ⟨_, hmem, rfl⟩, by rw [hbl]; rfl⟩
    (List.mem_map.2 ⟨p, hp, rfl⟩) false).2
  rw [show Polpair.tuple2int p = (20 + p.1) * 100 + (20 + p.2) from rfl, hC]
  congr 1
  have hrows : Access.rowsOf (content w n.spws.length (n.pols.filter w.polOk) m.blps) i (Antnums.antnumsToBlpair b) ((20 + p.1) * 100 + (20 + p.2)) false =
      (content w n.spws.length (n.pols.filter w.polOk) [b]).rows := by
    rw [← filter_content hr hm.blps hb]
    unfold Access.rowsOf
    apply List.filter_congr
    intro x _
    simp
  rw [hrows]
  simp only [content, List.filterMap_map, rowsOf, List.flatMap_cons, List.flatMap_nil, List.append_nil]
  have hlen := (hr.len i hi p b hb l hl).1
  obtain ⟨k, hk⟩ := List.mem_iff_getElem?.1 hp
  have hone : ∀ j (hj : j < l.length), integOf (content w n.spws.length (n.pols.filter w.polOk) [b]) i ((20 + p.1) * 100 + (20 + p.2))
      { bl1 := blCode b.1, bl2 := blCode b.2, t1 := 0, t2 := 0, tAvg := 0, l1 := 0, l2 := 0, lAvg := 0, dat := fun _ => [],
        itg := fun i => (n.pols.filter w.polOk).filterMap (fun p => ((table w i p b)[j]?).map (·.integ)) } = some (l[j]).integ := by
    intro j hj
    unfold integOf
    have hnod' : (content w n.spws.length (n.pols.filter w.polOk) [b]).pols.Nodup := hnod
    rw [lookup_zip_getElem hnod' (i := k) (by simp only [content, List.getElem?_map, hk]; rfl)]
    simp only
    rw [filterMap_get _ k, hk, Option.bind_some, table_ok hl, List.getElem?_eq_getElem hj]; rfl
    intro q hq
    obtain ⟨l', hl'⟩ := hv i hi q hq b hb
    have := hr.len i hi q b hb l' hl'
    rw [table_ok hl', List.getElem?_eq_getElem (by omega)]
    exact ⟨_, rfl⟩
  apply List.ext_getElem?
  intro j
  rw [filterMap_get]
  · simp only [List.getElem?_map, List.getElem?_zipIdx]
    by_cases hj : j < l.length
    · rw [List.getElem?_eq_getElem hj, List.getElem?_eq_getElem (by omega), Option.map_some, Option.bind_some, Option.map_some, ← hone j hj]
      simp [integOf, content]
    · rw [List.getElem?_eq_none (by omega), List.getElem?_eq_none (by omega)]; rfl
  · intro q hq
    obtain ⟨x, j⟩ := q
    have hj : j < (w.obs b).length := by simpa using (List.mem_zipIdx hq).2.1
    exact ⟨_, by rw [← hone j (by omega)]; simp [integOf, content]⟩

theorem whereTrue_length (bs : List Bool) : (whereTrue bs).length = bs.count true := by
  unfold whereTrue
  rw [List.length_map, ← List.countP_eq_length_filter]
  have h : ∀ (l : List Bool) (k : ℕ), (l.zipIdx k).countP (·.1) = l.count true := by
    intro l
    induction l with
    | nil => intro k; rfl
    | cons a l ih => intro k; rw [List.zipIdx_cons, List.countP_cons, ih, List.count_cons]; cases a <;> rfl
  exact h bs 0

/-- **C146** (finding). If a polarization pair is requested twice, the call succeeds but `get_data` of that pair raises for every window and baseline-pair. -/
theorem C146_finding_repeated_pol (w : World D W) (c : Call) (m : Meaning) (ha : Asks w c m) (hfirst : ∃ p, m.pols.head? = some p ∧ w.polOk p = true)
    (hr : Regular w m.spws.length m.blps) (out : Out D W) (h : pspec w c = .ok out) (i : ℕ) (p : ℤ × ℤ) (hp : w.polOk p = true) (h2 : 2 ≤ m.pols.count p) (b : ℤ) :
    ∃ e, getData out.u i b (Polpair.tuple2int p) = .error e := by
  obtain ⟨n, hn, h1, -, -, h4, h5⟩ := asks_iff.1 ha
  have hob := onlyPairs_iff.2 h1
  rw [← h4] at hr
  rw [← h5] at hfirst h2
  obtain ⟨-, hrep, -, -⟩ := pspec_content h hn hob hfirst hr
  have hcount : 2 ≤ (out.u.polpairArray.map (fun x => decide (x ∈ [Polpair.tuple2int p]))).count true := by
    rw [hrep.pols]
    simp only [content, List.map_map, List.count, List.countP_map]
    refine le_trans h2 ?_
    rw [List.count, List.countP_filter]
    apply List.countP_mono_left
    intro x _ hx
    have hx : x = p := by simpa using hx
    subst hx
    simp [hp, Polpair.tuple2int]
  have hk : ∃ e, keyToIndices out.u i b (Polpair.tuple2int p) = .error e := by
    unfold keyToIndices
    split
    · exact ⟨_, rfl⟩
    · split
      · exact ⟨_, rfl⟩
      · split
        · exact ⟨_, rfl⟩
        · unfold polpairToIndices
          rename_i hmem
          simp only [not_not] at hmem
          rw [if_pos (by simpa using hmem)]
          have hl := whereTrue_length (out.u.polpairArray.map (fun x => decide (x ∈ [Polpair.tuple2int p])))
          generalize whereTrue (out.u.polpairArray.map (fun x => decide (x ∈ [Polpair.tuple2int p]))) = z at hl
          simp only [bind, Except.bind]
          rcases z with _ | ⟨a, _ | ⟨a', z⟩⟩
          · exact ⟨_, rfl⟩
          · rw [← hl] at hcount; simp at hcount
          · exact ⟨_, rfl⟩
  obtain ⟨e, he⟩ := hk
  refine ⟨e, ?_⟩
  unfold getData
  rw [he]; rfl

/-- The value read at integration `t` and delay `a`. -/
def readAt (g : List (List ℂ)) (t a : ℕ) : ℂ := ((g[t]?).bind (fun r => r[a]?)).getD 0

/-- The entries that the estimator (`PspecValue.blpair`) gives for one baseline-pair. -/
def entriesOf {nd nt : ℕ} (row : PspecValue.Row nd nt) (integ : Fin nt → ℚ) : List (Entry ℂ ℚ) :=
  List.ofFn (fun t => { spec := List.ofFn (fun a => row.data t a), integ := integ t })

/-- **C146** The whole chain, for identity weighting with any flags and the normalisation 'I': if for every realisation `r` of sky and noise the spectra of a
window, polarization pair and baseline-pair are those of the estimator, then what `get_data` returns from the results of the calls is on average
`scalar * Ndlys / Nfreqs * (mean square of the taper) * (window function applied to the bandpowers)`. -/
theorem C146_mean_of_what_is_read {Ω : Type} (S : Finset Ω) (P : Ω → ℂ) {nf nd nt : ℕ} (o : PspecValue.Opts) (hq : o.returnQ = false) (hI : o.norm = .I)
    (norm : Oqe.Norm nf) (hn : norm.exact = false) (scal : String → ℝ) (taper : Option (Fin nf → ℝ))
    (pinv : Matrix (Fin nd) (Fin nd) ℂ → Matrix (Fin nd) (Fin nd) ℂ) (eig : Option (Oqe.Eig nd))
    (E : Ω → Fin nd → Matrix (Fin (nf + (0 + 0))) (Fin (nf + (0 + 0))) ℂ) (kind : AnCov.Kind) (inp : Ω → ℕ → AnCov.Inp (Fin (nf + (0 + 0))))
    (w1 w2 : Fin nf → ℝ) (h1 : ∀ i, 0 ≤ w1 i) (h2 : ∀ i, 0 ≤ w2 i) (i0 : Fin nf) (hi0 : w1 i0 * w2 i0 ≠ 0)
    (x1 x2 : Ω → Matrix (Fin (nf + (0 + 0))) (Fin nt) ℂ) (row : Ω → PspecValue.Row nd nt) (integ : Fin nt → ℚ)
    (w : Ω → World ℂ ℚ) (c : Call) (m : Meaning) (ha : ∀ r ∈ S, Asks (w r) c m) (hm : ∀ r ∈ S, Proper (w r) m)
    (hr : ∀ r ∈ S, Regular (w r) m.spws.length m.blps) (out : Ω → Out ℂ ℚ) (h : ∀ r ∈ S, pspec (w r) c = .ok (out r))
    (i : ℕ) (hi : i < m.spws.length) (p : ℤ × ℤ) (hp : ∀ r ∈ S, p ∈ m.available (w r)) (b : Blp) (hb : b ∈ m.blps)
    (hval : ∀ r ∈ S, (w r).val i p b = .ok (entriesOf (row r) integ))
    (hrow : ∀ r ∈ S, PspecValue.blpair (left := 0) (right := 0) o norm scal p.1 p.2 taper pinv eig (E r) kind (inp r) (DelayAdj.diagR w1) (DelayAdj.diagR w2)
      (x1 r) (x2 r) = .ok (row r))
    (P' : Fin nd → ℝ) (t : Fin nt)
    (hcov : ∀ i j, Oqe.ensemble S P (fun r => star (x1 r i t) * x2 r j t) = Oqe.signalCov o.sampling (nf + (0 + 0)) 0 (fun b => (P' b : ℂ)) i j)
    (r0 : Ω) (h0 : r0 ∈ S) (wf : Fin nt → Matrix (Fin nd) (Fin nd) ℝ) (hw : (row r0).window = some wf) :
    ∃ g : Ω → List (List ℂ), (∀ r ∈ S, getData (out r).u i (Antnums.antnumsToBlpair b) (Polpair.tuple2int p) = .ok (g r)) ∧
      ∀ a : Fin nd, (Oqe.ensemble S P (fun r => readAt (g r) t a)).re =
        (row r0).scalar * ((nd : ℝ) / nf * DelayAdj.taperPower taper) * ∑ k, wf t a k * P' k := by
  refine ⟨fun r => (entriesOf (row r) integ).map (·.spec), ?_, ?_⟩
  · intro r hrS
    obtain ⟨l, hl, hg⟩ := C146_read_back (w r) c m (ha r hrS) (hm r hrS) (hr r hrS) (out r) (h r hrS) i hi p (hp r hrS) b hb
    rw [hval r hrS] at hl; cases hl
    exact hg
  · intro a
    rw [← PspecValue.C141_identity S P o hq hI norm hn scal p.1 p.2 taper pinv eig E kind inp w1 w2 h1 h2 i0 hi0 x1 x2 row hrow P' t hcov r0 h0 wf hw a]
    congr 2
    funext r
    simp [readAt, entriesOf]

/-! ### A concrete call -/

/-- Two datasets, two channels, three antennas; the value of a spectrum encodes where it belongs. -/
def exW : World ℚ ℚ where
  polnum := fun s => if s = "xx" then some (-5) else if s = "yy" then some (-6) else none
  labels := ["even", "odd"]
  nfreqs := 2
  posOk := fun _ => true
  polOk := fun p => decide (p.1 = p.2)
  obs := fun _ => [⟨1, 2, 10, 20⟩, ⟨3, 4, 30, 40⟩]
  freqs := fun i => if i = 0 then [100, 101] else [101]
  dlys := fun i => if i = 0 then [-1, 0] else [0]
  val := fun i p b => .ok [⟨if i = 0 then [p.1, b.1.1] else [b.2.2], 5⟩, ⟨if i = 0 then [p.1 + 100, b.1.1 + 100] else [b.2.2 + 100], 6⟩]
  circ := fun a b => (a + b) / 2
  histories := "h"
  visUnits := "Jy"
  beam := true
  covModel := "empirical"

/-- Second dataset times first, a group of one baseline and a plain one, a pair and a string as polarizations, two windows. -/
def exC : Call where
  dsets := [.int 1, .int (-2)]
  bls1 := [.many [(0, 1)], .one (1, 2)]
  bls2 := [.many [(1, 2)], .one (1, 2)]
  pols := .many [.str "xx", .pair (.str "xx") (.int (-6)), .pair (.int (-6)) (.str "yy")]
  spws := .many [(0, 2), (1, 2)]
  exts := .none
  ndlys := .none
  storeCov := true
  storeDiag := false
  storeWindow := false
  exactWindows := true
  returnQ := false
  norm := "I"
  littleH := true
  history := "ignored"

/-- What `exC` asks for. -/
def exM : Meaning where
  label1 := "odd"
  label2 := "even"
  blps := [((0, 1), (1, 2)), ((1, 2), (1, 2))]
  spws := [(0, 2), (1, 2)]
  pols := [(-5, -5), (-5, -6), (-6, -6)]

/-- Non-vacuity: the call asks for `exM`, the hypotheses of C145 and C146 hold, and it is carried out. -/
theorem ex_asks : Asks exW exC exM := by
  refine ⟨⟨1, -2, rfl, ⟨1, rfl, .inl rfl⟩, ⟨0, rfl, .inr rfl⟩⟩, by simp [exC], rfl, rfl, ?_, rfl, .inr (.inr rfl), ⟨_, .inl ⟨rfl, rfl⟩, rfl⟩, ⟨_, .inl ⟨rfl, rfl⟩, rfl⟩, ?_⟩
  · intro i a b p h1 h2 h3
    match i, h1, h2, h3 with
    | 0, h1, h2, h3 => cases h1; cases h2; cases h3; rfl
    | 1, h1, h2, h3 => cases h1; cases h2; cases h3; rfl
    | i + 2, h1, _, _ => simp [exC] at h1
  · refine .cons ⟨rfl, rfl⟩ (.cons ⟨rfl, rfl⟩ (.cons ⟨rfl, rfl⟩ .nil))

theorem ex_proper : Proper exW exM := by
  refine ⟨by decide, by decide, ?_, ⟨_, rfl, rfl⟩⟩
  intro p hp
  simp only [exM, List.mem_cons, List.not_mem_nil, or_false] at hp
  rcases hp with rfl | rfl | rfl <;> simp [Polpair.ValidPol]

theorem ex_regular : Regular exW exM.spws.length exM.blps := by
  refine ⟨by simp [exW], ?_, ?_, ?_, ?_⟩
  · intro i _ p b _ l hl
    simp only [exW, Except.ok.injEq] at hl
    subst hl
    refine ⟨rfl, ?_⟩
    intro e he
    simp only [List.mem_cons, List.not_mem_nil, or_false] at he
    rcases he with rfl | rfl <;> by_cases h : i = 0 <;> simp [exW, h]
  · intro i _; by_cases h : i = 0 <;> simp [exW, h]
  · intro i _; by_cases h : i = 0 <;> simp [exW, h]
  · intro b hb
    simp only [exM, List.mem_cons, List.not_mem_nil, or_false] at hb
    rcases hb with rfl | rfl <;> simp [GoodAnt]

example : ∃ out, pspec exW exC = .ok out ∧ out.labels = ["even", "odd"] ∧ (∀ a ∈ out.label1, ∀ r ∈ a, ∀ k ∈ r, k = 1) ∧ out.hasCov = true ∧ out.hasWindow = true ∧
    out.normUnits = "h^-3 Mpc^3" ∧ out.u.polpairArray = [1515, 1414] ∧
    getData out.u 0 (Antnums.antnumsToBlpair ((0, 1), (1, 2))) 1414 = .ok [[-6, 0], [94, 100]] ∧
    getData out.u 1 (Antnums.antnumsToBlpair ((1, 2), (1, 2))) 1515 = .ok [[2], [102]] := by
  obtain ⟨out, h⟩ := (C145_accepted_iff exW exC exM ex_asks ex_proper.first ex_regular).2 ⟨by simp [exM], fun i _ p _ b _ => ⟨_, rfl⟩⟩
  obtain ⟨h1, h2, h3, h4, h5⟩ := C145_labels exW exC exM ex_asks out h
  have hl : out.labels = ["even", "odd"] := by
    obtain ⟨n, hn, -, e2, e3, -⟩ := asks_iff.1 ex_asks
    obtain ⟨n', b', r, data, e1, -, -, -, -, -, rfl⟩ := pspec_iff.1 h
    rw [hn] at e1; cases e1
    simp only [outOf, e2, e3]
    decide +kernel
  refine ⟨out, h, hl, ?_, (C145_options _ _ _ h).1.2 ⟨rfl, rfl⟩, (C145_options _ _ _ h).2.2.1.2 (.inr rfl), (C145_options _ _ _ h).2.2.2.2.1, ?_, ?_, ?_⟩
  · intro a ha r hr k hk
    have := h4 a ha r hr k hk
    rw [hl] at this
    match k, this with
    | 0, this => simp [exM] at this
    | 1, _ => rfl
    | k + 2, this => simp at this
  · obtain ⟨n, hn, e1, -, -, e4, e5⟩ := asks_iff.1 ex_asks
    have := (pspec_content h hn (onlyPairs_iff.2 e1) (by rw [e5]; exact ex_proper.first) (by have := ex_regular; rw [e4]; exact this)).2.1.pols
    rw [this, e5]; rfl
  · obtain ⟨l, hl, hg⟩ := C146_read_back exW exC exM ex_asks ex_proper ex_regular out h 0 (by simp [exM]) (-6, -6) (by decide) ((0, 1), (1, 2)) (by simp [exM])
    cases hl
    rw [show (1414 : ℤ) = Polpair.tuple2int (-6, -6) from rfl, hg]
    norm_num
  · obtain ⟨l, hl, hg⟩ := C146_read_back exW exC exM ex_asks ex_proper ex_regular out h 1 (by simp [exM]) (-5, -5) (by decide) ((1, 2), (1, 2)) (by simp [exM])
    cases hl
    rw [show (1515 : ℤ) = Polpair.tuple2int (-5, -5) from rfl, hg]
    norm_num

/-- Non-vacuity of `C146_finding_repeated_pol`: `pols=['xx', 'xx']`. -/
example : Asks exW { exC with pols := .many [.str "xx", .str "xx"] } { exM with pols := [(-5, -5), (-5, -5)] } ∧
    (∃ out, pspec exW { exC with pols := .many [.str "xx", .str "xx"] } = .ok out) ∧ 2 ≤ [((-5 : ℤ), (-5 : ℤ)), (-5, -5)].count (-5, -5) := by
  have ha : Asks exW { exC with pols := .many [.str "xx", .str "xx"] } { exM with pols := [(-5, -5), (-5, -5)] } :=
    { ex_asks with pols := .cons ⟨rfl, rfl⟩ (.cons ⟨rfl, rfl⟩ .nil) }
  exact ⟨ha, (C145_accepted_iff exW _ _ ha ⟨_, rfl, rfl⟩ ex_regular).2 ⟨by simp [exM], fun i _ p _ b _ => ⟨_, rfl⟩⟩, by decide⟩

end HeraPspec.PspecCall
