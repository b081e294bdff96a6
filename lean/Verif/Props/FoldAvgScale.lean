import Verif.Props.FoldScale

/-!
Property C171: converting, averaging and folding.
-/
namespace HeraPspec.FoldScale
open HeraPspec.UVP (Err mapE)
open HeraPspec.Average
open HeraPspec.FoldAvg
open HeraPspec.AvgScale (rescale scaleCell Scaled C169_rows cell_rescale)
variable {E : Type} [AddCommGroup E] [Module ℝ E]

theorem relE_lift {α β : Type} {R : α → α → Prop} {A' A : Except Err (List α)} (h : RelE (List.Forall₂ R) A' A) (g f : α → β) (k : β → β)
    (hk : ∀ z' z, R z' z → g z' = k (f z)) : A'.map (fun cs => cs.map g) = (A.map (fun cs => cs.map f)).map (List.map k) := by
  cases A' <;> cases A <;> simp only [RelE] at h
  · rw [h]; rfl
  · simp only [Except.map, Except.ok.injEq]
    induction h with
    | nil => rfl
    | cons h1 _ ih => simp only [List.map_cons, ih, hk _ _ h1]

theorem scaled_unfolded (c : Nat → Nat → Nat → ℝ) {x : DObj E} (hu : Unfolded x) : Unfolded (scaled c x) :=
  ⟨hu.flag, hu.stored, by simpa [scaled, rescale] using hu.windows, hu.three, hu.approx⟩

theorem scaled_sane (c : Nat → Nat → Nat → ℝ) {x : DObj E} (hs : Sane x) : Sane (scaled c x) := by
  intro ps hps cs hcs z hz
  obtain ⟨s, hs1⟩ := List.mem_iff_getElem?.1 hps
  simp only [scaled, rescale, List.getElem?_mapIdx, Option.map_eq_some_iff] at hs1
  obtain ⟨ps0, h0, rfl⟩ := hs1
  obtain ⟨cs0, h1, rfl⟩ := List.mem_map.1 hcs
  obtain ⟨i, hi⟩ := List.mem_iff_getElem?.1 hz
  simp only [List.getElem?_mapIdx, Option.map_eq_some_iff] at hi
  obtain ⟨z0, h2, rfl⟩ := hi
  have := hs ps0 (List.mem_of_getElem? h0) cs0 h1 z0 (List.mem_of_getElem? h2)
  unfold AvgScale.scaleRow
  split
  · exact this
  · exact this

theorem fold_ok (nan : E) {x : DObj E} (h : x.folded = false) : ∃ y, foldSpectra nan x = .ok y ∧ y.u.rows = x.u.rows ∧ y.folded = true ∧ y.ndly = x.ndly ∧ y.stored = x.stored := by
  obtain ⟨y, hy⟩ : ∃ y, foldSpectra nan x = .ok y := ⟨_, by unfold foldSpectra; rw [if_neg (by simp [h])]⟩
  refine ⟨y, hy, ?_⟩
  unfold foldSpectra at hy
  rw [if_neg (by simp [h])] at hy
  cases hy
  exact ⟨rfl, rfl, rfl, rfl⟩

/-- **C171** Multiplying by factors that agree at opposite delays and between the baseline-pairs averaged together, averaging (with or without averaging in time, any groups and
weights of baseline-pairs) and folding. If the object averages, then in both orders, multiply - average - fold and multiply - fold - average, everything succeeds and reads the same;
and what is read is that of averaging and folding alone: the data multiplied by the factors of the positive delays of the baseline-pair, the covariance by the factors of both delays,
everything else unchanged. (`b` is the baseline-pair a row of the result is labelled with.) -/
theorem C171_convert_average_fold (nan : E) {circ : List ℝ → ℝ} {so : List Nat → List Nat} {a : Args} {x z y : DObj E} (hu : Unfolded x) (hs : Sane x)
    (ha : a.errorWeights = none) (c : Nat → Nat → Nat → ℝ) (hev : EvenFactors c x)
    (hc : ∀ gs, groupsOf so a x.u = .ok gs → ∀ g ∈ gs, ∀ b ∈ g.1, ∀ b' ∈ g.1, ∀ s, c s b = c s b') (hsh : Shaped x.u)
    (heq : a.timeAvg = true ∨ ∀ gs, groupsOf so a x.u = .ok gs → ∀ g ∈ gs, ∀ b ∈ g.1, ∀ b' ∈ g.1, (metaOf x.u b).length = (metaOf x.u b').length)
    (hz : average circ so a x = .ok z) (hy : foldSpectra nan z = .ok y) :
    ∃ y1 y2, (average circ so a (scaled c x)).bind (foldSpectra nan) = .ok y1 ∧ (foldSpectra nan (scaled c x)).bind (average circ so a) = .ok y2 ∧ SameReads y2 y1 ∧
      y1.u.rows = y.u.rows ∧ y1.folded = y.folded ∧ y1.ndly = y.ndly ∧
      ∀ (s p n : Nat) cs, (x.u.cells[s]?.bind (·[p]?)) = some cs → x.ndly[s]? = some n → ∀ b,
        getData y1 s p b = (getData y s p b).map (List.map (timesRow (· • ·) (fun i => c s b (n / 2 + 1 + i)))) ∧
        getCov y1 s p b = (getCov y s p b).map (List.map (timesBlock (fun i => c s b (n / 2 + 1 + i)))) ∧
        getWin y1 s p b = getWin y s p b ∧ getIntegrations y1 s p b = getIntegrations y s p b ∧ getNsamples y1 s p b = getNsamples y s p b := by
  have hzu := average_unfolded hu circ so a ha hz
  obtain ⟨v, hv, zu, zn⟩ : ∃ v, averageSpectra circ so a x.u = .ok v ∧ z.u = v ∧ z.ndly = x.ndly := by
    unfold average at hz
    rw [readObj_unfolded hu.flag] at hz
    cases h : averageSpectra circ so a x.u with
    | error e => rw [h] at hz; cases hz
    | ok v => rw [h] at hz; cases hz; exact ⟨v, rfl, rfl, rfl⟩
  obtain ⟨v', hv', q1, q2, q3, q4⟩ := C169_rows ha c hc hsh heq hv
  have hus := scaled_unfolded c hu
  obtain ⟨z', hz', zu', zn'⟩ : ∃ z', average circ so a (scaled c x) = .ok z' ∧ z'.u = v' ∧ z'.ndly = x.ndly := by
    unfold average
    rw [readObj_unfolded hus.flag]
    simp only [scaled, hv']
    exact ⟨_, rfl, rfl, rfl⟩
  have hzu' := average_unfolded hus circ so a ha hz'
  obtain ⟨y1, hy1, y1r, y1f, y1n, y1s⟩ := fold_ok nan hzu'.flag
  obtain ⟨y0, hy0, yr, yf, yn, ys⟩ := fold_ok nan hzu.flag
  rw [hy] at hy0; cases hy0
  have hA : averages circ so [a] (scaled c x) = .ok z' := by simp only [averages, hz']
  have H := C143_fold_anywhere nan circ so [] [a] (by simpa using ha) hus (scaled_sane c hs)
  simp only [averages, List.nil_append, Except.bind, hz', hy1] at H
  obtain ⟨x0, hx0, _⟩ := fold_ok nan hus.flag
  rw [hx0] at H
  rcases H with ⟨y2, y1', e1, e2, hsame⟩ | ⟨k, _, e2⟩
  swap
  · cases e2
  cases e2
  have hy2 : average circ so a x0 = .ok y2 := by
    simp only at e1
    cases h : average circ so a x0 with
    | error e => rw [h] at e1; cases e1
    | ok w => rw [h] at e1; cases e1; rfl
  refine ⟨y1, y2, by rw [hz']; exact hy1, by rw [hx0]; exact hy2, hsame, by rw [y1r, yr, zu, zu', q1], by rw [y1f, yf], by rw [y1n, yn, zn, zn'], ?_⟩
  intro s p n cs hcs hn b
  have hn3 := hu.three n (List.mem_of_getElem? hn)
  have key : RelE (List.Forall₂ (Scaled (c s b))) (cellsOf z'.u s p b) (cellsOf z.u s p b) := by
    rw [zu, zu']
    unfold cellsOf
    have hi : indices v' b = indices v b := by unfold indices; rw [q1]
    rw [hi]
    cases h : indices v b with
    | error e => rfl
    | ok is =>
      refine mapE_rel is (fun i hm => ?_)
      rw [(indices_ok h).1, List.mem_filter] at hm
      have := hm.2
      simp only [decide_eq_true_eq, Option.map_eq_some_iff] at this
      obtain ⟨m, hm1, hm2⟩ := this
      obtain ⟨w', w, g1, g2, g3⟩ := q4 s p i cs hcs m hm1
      rw [g1, g2]
      rw [hm2] at g3
      exact g3
  have ax : axis y s = npos n ∧ axis y1 s = npos n := by
    unfold axis readLen
    rw [y1f, yf, y1n, yn, y1s, ys, hzu.stored, hzu'.stored, zn, zn']
    simp only [List.getD_eq_getElem?_getD, hn, Option.getD_some, true_and, ne_eq, npos_pos hn3, not_false_eq_true, if_true]
    unfold npos; omega
  have hk : offset true n n = n / 2 + 1 := by
    unfold offset
    rw [if_pos ⟨rfl, npos_pos hn3⟩]; unfold npos; omega
  have r := cellsOf_fold nan hy s p b
  have r' := cellsOf_fold nan hy1 s p b
  simp only [hzu.stored, zn, List.getD_eq_getElem?_getD, hn, Option.getD_some, hk] at r
  simp only [hzu'.stored, zn', List.getD_eq_getElem?_getD, hn, Option.getD_some, hk] at r'
  rw [show z'.u.statNames = z.u.statNames by rw [zu, zu', q2], show z'.u.exact = z.u.exact by rw [zu, zu', q3]] at r'
  have sym : ∀ i, i < npos n → c s b (2 * (n / 2) - (i + (n / 2 + 1))) = c s b (n / 2 + 1 + i) := by
    intro i hi
    have := hev s n hn b (i + 1) (by unfold npos at hi; omega)
    rw [show 2 * (n / 2) - (i + (n / 2 + 1)) = n / 2 - (i + 1) by omega, this]
    congr 1; omega
  have lift : ∀ {β : Type} (f g : Cell E → β) (k : β → β),
      (∀ w' w : Cell E, Scaled (c s b) w' w → g (shiftCell (n / 2 + 1) (foldCell nan (!z.u.statNames.isEmpty) z.u.exact n w')) =
        k (f (shiftCell (n / 2 + 1) (foldCell nan (!z.u.statNames.isEmpty) z.u.exact n w)))) →
      (cellsOf (readObj y1) s p b).map (fun cs => cs.map g) = ((cellsOf (readObj y) s p b).map (fun cs => cs.map f)).map (List.map k) := by
    intro β f g k hk
    rw [r, r']
    have := relE_lift key (fun w => g (shiftCell (n / 2 + 1) (foldCell nan (!z.u.statNames.isEmpty) z.u.exact n w)))
      (fun w => f (shiftCell (n / 2 + 1) (foldCell nan (!z.u.statNames.isEmpty) z.u.exact n w))) k hk
    cases h1 : cellsOf z'.u s p b <;> cases h2 : cellsOf z.u s p b <;> rw [h1, h2] at this <;> simpa [Except.map, List.map_map, Function.comp_def] using this
  have same : ∀ {β : Type} (e : Except Err (List β)), e.map (List.map id) = e := by
    intro β e; cases e <;> simp [Except.map]
  have rowEq : ∀ {α : Type} (mul : ℝ → α → α) (f g : Nat → α), (∀ i, i < npos n → g i = mul (c s b (n / 2 + 1 + i)) (f i)) →
      (List.range (axis y1 s)).map g = timesRow mul (fun i => c s b (n / 2 + 1 + i)) ((List.range (axis y s)).map f) := by
    intro α mul f g hfg
    rw [ax.1, ax.2]
    apply List.ext_getElem?
    intro i
    simp only [timesRow, List.getElem?_mapIdx, List.getElem?_map]
    by_cases hi : i < npos n
    · rw [List.getElem?_range hi]
      simp only [Option.map_some, Option.some.injEq]
      exact hfg i hi
    · rw [List.getElem?_eq_none (by simpa using hi)]; rfl
  refine ⟨lift _ _ _ fun w' w hw => ?_, lift _ _ _ fun w' w hw => ?_, ?_, (lift _ _ id fun w' w hw => ?_).trans (same _), (lift _ _ id fun w' w hw => ?_).trans (same _)⟩
  · refine rowEq _ _ _ (fun i hi => ?_)
    simp only [shiftCell, foldCell]
    rw [if_neg (by omega), if_neg (by omega), if_neg (by omega), if_neg (by omega), hw.data, hw.data, sym i hi, show i + (n / 2 + 1) = n / 2 + 1 + i by omega, ← smul_add, smul_comm]
  · have := rowEq (α := List ℝ) (fun k l => timesRow (fun k' v => k * v * k') (fun j => c s b (n / 2 + 1 + j)) l)
      (fun d => (List.range (axis y s)).map ((shiftCell (n / 2 + 1) (foldCell nan (!z.u.statNames.isEmpty) z.u.exact n w)).cov d))
      (fun d => (List.range (axis y1 s)).map ((shiftCell (n / 2 + 1) (foldCell nan (!z.u.statNames.isEmpty) z.u.exact n w')).cov d)) ?_
    · exact this
    intro i hi
    refine rowEq _ _ _ (fun j hj => ?_)
    simp only [shiftCell, foldCell, foldBlock]
    rw [if_neg (by omega), if_pos (by omega), if_neg (by omega), if_pos (by omega)]
    simp only [hw.cov]
    rw [sym i hi, sym j hj, show i + (n / 2 + 1) = n / 2 + 1 + i by omega, show j + (n / 2 + 1) = n / 2 + 1 + j by omega]
    ring
  · unfold getWin
    rw [ax.1, ax.2]
    refine (lift _ _ id fun w' w hw => ?_).trans (same _)
    simp only [shiftCell, foldCell, hw.win, id]
  · exact hw.ints
  · show w'.nsmp * 2 = w.nsmp * 2
    rw [hw.nsmp]

/-- **C171** In particular the conversion to `Delta^2`, for groups of baseline-pairs of one transverse wavenumber and wavenumbers that are opposite at opposite delays. -/
theorem C171_deltasq (nan : E) {circ : List ℝ → ℝ} {so : List Nat → List Nat} {a : Args} {x z y : DObj E} (hu : Unfolded x) (hs : Sane x)
    (ha : a.errorWeights = none) (kperp kpara : Nat → Nat → ℝ)
    (hk : ∀ (s n : Nat), x.ndly[s]? = some n → ∀ m, n / 2 + m < n → kpara s (n / 2 - m) = -kpara s (n / 2 + m))
    (hc : ∀ gs, groupsOf so a x.u = .ok gs → ∀ g ∈ gs, ∀ b ∈ g.1, ∀ b' ∈ g.1, ∀ s, kperp s b = kperp s b') (hsh : Shaped x.u)
    (heq : a.timeAvg = true ∨ ∀ gs, groupsOf so a x.u = .ok gs → ∀ g ∈ gs, ∀ b ∈ g.1, ∀ b' ∈ g.1, (metaOf x.u b).length = (metaOf x.u b').length)
    (hz : average circ so a x = .ok z) (hy : foldSpectra nan z = .ok y) :
    ∃ y1 y2, (average circ so a (toDeltaSq kperp kpara x)).bind (foldSpectra nan) = .ok y1 ∧ (foldSpectra nan (toDeltaSq kperp kpara x)).bind (average circ so a) = .ok y2 ∧
      SameReads y2 y1 ∧ y1.u.rows = y.u.rows ∧ y1.ndly = y.ndly ∧
      ∀ (s p n : Nat) cs, (x.u.cells[s]?.bind (·[p]?)) = some cs → x.ndly[s]? = some n → ∀ b, ∀ k : Nat → ℝ,
        (∀ i, k i = Real.sqrt (kperp s b ^ 2 + kpara s (n / 2 + 1 + i) ^ 2) ^ 3 / (2 * Real.pi ^ 2)) →
        getData y1 s p b = (getData y s p b).map (List.map (timesRow (· • ·) k)) ∧ getCov y1 s p b = (getCov y s p b).map (List.map (timesBlock k)) ∧
        getWin y1 s p b = getWin y s p b ∧ getIntegrations y1 s p b = getIntegrations y s p b ∧ getNsamples y1 s p b = getNsamples y s p b := by
  obtain ⟨y1, y2, h1, h2, h3, h4, _, h5, h6⟩ := C171_convert_average_fold nan hu hs ha (AvgScale.deltaFactor kperp kpara)
    (fun s n hn b m hm => by simp only [AvgScale.deltaFactor, hk s n hn m hm, neg_sq])
    (fun gs hgs g hg b hb b' hb' s => by funext d; simp only [AvgScale.deltaFactor, hc gs hgs g hg b hb b' hb' s]) hsh heq hz hy
  refine ⟨y1, y2, h1, h2, h3, h4, h5, ?_⟩
  intro s p n cs hcs hn b k hkk
  rw [show k = fun i => AvgScale.deltaFactor kperp kpara s b (n / 2 + 1 + i) by funext i; rw [hkk]; rfl]
  exact h6 s p n cs hcs hn b

/-! ### A concrete case -/

/-- The hypotheses of `C171_deltasq` are met: one baseline-pair with two integrations and three delays with wavenumbers `-1, 0, 1`, averaged in time. -/
example : ∃ z y : DObj ℝ, Unfolded FoldAvg.exObj ∧ Sane FoldAvg.exObj ∧ Shaped FoldAvg.exObj.u ∧ FoldAvg.exArgs.errorWeights = none ∧ FoldAvg.exArgs.timeAvg = true ∧
    average (fun _ => 0) id FoldAvg.exArgs FoldAvg.exObj = .ok z ∧ foldSpectra 0 z = .ok y ∧
    (∀ (s n : Nat), FoldAvg.exObj.ndly[s]? = some n → ∀ m, n / 2 + m < n →
      (fun (_ : Nat) (d : Nat) => ((d : ℝ) - 1)) s (n / 2 - m) = -(fun (_ : Nat) (d : Nat) => ((d : ℝ) - 1)) s (n / 2 + m)) ∧
    ∀ gs, groupsOf id FoldAvg.exArgs FoldAvg.exObj.u = .ok gs → ∀ g ∈ gs, ∀ b ∈ g.1, ∀ b' ∈ g.1, ∀ s, (fun (_ : Nat) (b : Nat) => (b : ℝ)) s b = (fun (_ : Nat) (b : Nat) => (b : ℝ)) s b' := by
  have hu : Unfolded FoldAvg.exObj := ⟨rfl, rfl, rfl, by simp [FoldAvg.exObj], rfl⟩
  have h1 : ∀ (m m' : Meta) (c c' : Cell ℝ), m.blp = 5 → m'.blp = 5 → ∃ r d, averageSpectra (fun _ => 0) id FoldAvg.exArgs ⟨[m, m'], [[[c, c']]], [], false⟩ =
      .ok (⟨[r], [[[d]]], [], false⟩ : Obj ℝ) := by
    intro m m' c c' hm hm'
    simp [averageSpectra, groupsOf, FoldAvg.exArgs, (by decide : Combine.uniq [5, 5] = [5]), (by decide : Combine.uniq [5] = [5]), hm, hm', UVP.mapE, groupRows, blpgWgts, accsOf, cellsOf, indices, List.range_succ, statNames,
      sumCopies, copies, groupMeta, (by norm_num : ¬ ((1 : ℝ) ≤ 0))]
  obtain ⟨z, hz⟩ : ∃ z, average (fun _ => 0) id FoldAvg.exArgs FoldAvg.exObj = .ok z := by
    obtain ⟨r, d, e⟩ := h1 ⟨5, 0, 0, 0, 0, 0, 0⟩ ⟨5, 1, 1, 1, 1, 1, 1⟩ FoldAvg.exCell FoldAvg.exCell rfl rfl
    unfold average
    rw [readObj_unfolded rfl]
    unfold FoldAvg.exObj
    simp only
    rw [e]
    exact ⟨_, rfl⟩
  obtain ⟨y, hy, _⟩ := fold_ok (0 : ℝ) (average_unfolded hu _ _ _ rfl hz).flag
  refine ⟨z, y, hu, ?_, ?_, rfl, rfl, hz, hy, ?_, ?_⟩
  · intro ps hps cs hcs c hc
    simp only [FoldAvg.exObj, List.mem_singleton] at hps
    subst hps
    simp only [List.mem_singleton] at hcs
    subst hcs
    simp only [List.mem_cons, List.not_mem_nil, or_false, or_self] at hc
    subst hc
    norm_num [SaneCell, FoldAvg.exCell]
  · intro s p cs h
    match s, p with
    | 0, 0 => injection h with h; subst h; rfl
    | 0, p + 1 => simp [FoldAvg.exObj] at h
    | s + 1, p => simp [FoldAvg.exObj] at h
  · intro s n hn m hm
    have : n = 3 := by simpa [FoldAvg.exObj] using List.mem_of_getElem? hn
    subst this
    have : m = 0 ∨ m = 1 := by omega
    rcases this with rfl | rfl <;> norm_num
  · intro gs hgs g hg b hb b' hb' s
    have : gs = [([5], [1])] := by
      simp [groupsOf, FoldAvg.exArgs, FoldAvg.exObj, (by decide : Combine.uniq [5, 5] = [5]), UVP.mapE] at hgs
      exact hgs.symm
    subst this
    rw [List.mem_singleton] at hg
    subst hg
    rw [List.mem_singleton] at hb hb'
    rw [hb, hb']

end HeraPspec.FoldScale
