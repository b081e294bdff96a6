import Verif.Model.FoldScale
import Verif.Props.AvgScale

/-!
Property C170: folding commutes with converting the spectra beforehand.
-/
namespace HeraPspec.FoldScale
open HeraPspec.UVP (Err mapE)
open HeraPspec.Average
open HeraPspec.FoldAvg
open HeraPspec.AvgScale (rescale scaleCell cellsOf_scaled)
variable {E : Type} [AddCommGroup E] [Module ℝ E]

/-! ### Specification -/

/-- A row of numbers (or spectra) multiplied element by element by factors. -/
def timesRow {α : Type} (mul : ℝ → α → α) (k : Nat → ℝ) (r : List α) : List α := r.mapIdx (fun i z => mul (k i) z)

/-- A matrix multiplied by the factors of its rows and of its columns. -/
def timesBlock (k : Nat → ℝ) (r : List (List ℝ)) : List (List ℝ) := r.mapIdx (fun i l => l.mapIdx (fun j z => k i * z * k j))

/-- The factors are the same at opposite delays of each window (the delay 0 has index `n / 2`, and `n / 2 - m` is opposite to `n / 2 + m`). -/
def EvenFactors (c : Nat → Nat → Nat → ℝ) (x : DObj E) : Prop :=
  ∀ (s n : Nat), x.ndly[s]? = some n → ∀ b m, n / 2 + m < n → c s b (n / 2 - m) = c s b (n / 2 + m)

/-! ### Proofs -/

theorem relE_map {α β : Type} {f : β → α} {a : Except Err (List α)} {b : Except Err (List β)} (h : RelE (List.Forall₂ (fun x' x => x' = f x)) a b) :
    a = b.map (List.map f) := by
  cases a <;> cases b <;> simp only [RelE] at h
  · rw [h]; rfl
  · simp only [Except.map, Except.ok.injEq]
    induction h with
    | nil => rfl
    | cons h1 _ ih => rw [List.map_cons, ← ih, h1]

theorem cellsOf_map (g : Nat → Cell E → Cell E) (u : Obj E) (s p b : Nat) :
    cellsOf { u with cells := u.cells.mapIdx (fun s ps => ps.map (fun cs => cs.map (g s))) } s p b = (cellsOf u s p b).map (List.map (g s)) := by
  refine relE_map (cellsOf_rel (R := fun s x' x => x' = g s x) (u' := u) (by rfl) ?_ s p b)
  refine ⟨by simp, ?_⟩
  intro s ps ps' e1 e2
  simp only [List.getElem?_mapIdx, e2, Option.map_some, Option.some.injEq] at e1
  subst e1
  rw [List.forall₂_map_left_iff, List.forall₂_same]
  intro cs _
  rw [List.forall₂_map_left_iff, List.forall₂_same]
  exact fun _ _ => rfl

theorem cellsOf_fold {x y : DObj E} (nan : E) (h : foldSpectra nan x = .ok y) (s p b : Nat) :
    cellsOf (readObj y) s p b = (cellsOf x.u s p b).map (List.map (fun c =>
      shiftCell (offset true (x.ndly.getD s 0) (x.stored.getD s 0)) (foldCell nan (!x.u.statNames.isEmpty) x.u.exact (x.stored.getD s 0) c))) := by
  unfold foldSpectra at h
  split at h
  · cases h
  · cases h
    unfold readObj
    rw [cellsOf_map (fun s => shiftCell (offset true (x.ndly.getD s 0) (x.stored.getD s 0)))]
    simp only []
    rw [cellsOf_map (fun s => foldCell nan (!x.u.statNames.isEmpty) x.u.exact (x.stored.getD s 0))]
    cases cellsOf x.u s p b with
    | error e => rfl
    | ok l => simp only [Except.map, List.map_map, Function.comp_def]

theorem foldStat2_scale (k : ℝ) (hk : 0 ≤ k) (a b : Option ℝ) : foldStat2 (a.map (k * ·)) (b.map (k * ·)) = (foldStat2 a b).map (k * ·) := by
  cases a <;> cases b
  · rfl
  · simp [foldStat2, abs_mul, abs_of_nonneg hk]
  · simp [foldStat2, abs_mul, abs_of_nonneg hk]
  · rename_i a b
    simp only [foldStat2, Option.map_some]
    rcases hk.eq_or_lt with rfl | hk'
    · simp only [zero_mul, true_or, if_true]; split <;> simp
    · simp only [mul_eq_zero, hk'.ne', false_or]
      split
      · simp
      · rename_i hab
        push Not at hab
        simp only [Option.map_some, Option.some.injEq]
        have e : 1 / (k * a) ^ 2 + 1 / (k * b) ^ 2 = (1 / k ^ 2) * (1 / a ^ 2 + 1 / b ^ 2) := by
          have := hab.1; have := hab.2; have := hk'.ne'
          field_simp
        rw [e, Real.mul_rpow (by positivity) (by positivity), one_div, Real.inv_rpow (by positivity), ← Real.rpow_neg (by positivity), ← Real.rpow_natCast, ← Real.rpow_mul hk]
        norm_num

/-- **C170** Multiplying by factors that are the same at opposite delays, and folding: the object read after both is the object read after folding alone, multiplied by the factors
of the positive delays (the data once, the covariance with the factors of both delays, error bars of a baseline-pair once if its factors are not negative); window functions,
integration times, samples, baseline-pair-times and the delay axes are those of folding alone. It folds whenever the original does. -/
theorem C170_fold_scaled (nan : E) (c : Nat → Nat → Nat → ℝ) {x y : DObj E} (hst : x.stored = x.ndly) (h3 : ∀ n ∈ x.ndly, 3 ≤ n) (hc : EvenFactors c x)
    (h : foldSpectra nan x = .ok y) :
    ∃ y', foldSpectra nan (scaled c x) = .ok y' ∧ y'.u.rows = y.u.rows ∧ y'.folded = y.folded ∧ y'.ndly = y.ndly ∧ y'.stored = y.stored ∧ y'.u.statNames = y.u.statNames ∧
      ∀ (s n : Nat), x.ndly[s]? = some n → ∀ p b,
        getData y' s p b = (getData y s p b).map (List.map (timesRow (· • ·) (fun i => c s b (n / 2 + 1 + i)))) ∧
        getCov y' s p b = (getCov y s p b).map (List.map (timesBlock (fun i => c s b (n / 2 + 1 + i)))) ∧
        ((∀ d, 0 ≤ c s b d) → ∀ name, getStats y' name s p b = (getStats y name s p b).map (List.map (timesRow (fun k z => z.map (k * ·)) (fun i => c s b (n / 2 + 1 + i))))) ∧
        getWin y' s p b = getWin y s p b ∧ getIntegrations y' s p b = getIntegrations y s p b ∧ getNsamples y' s p b = getNsamples y s p b := by
  have hfl : x.folded = false := by
    unfold foldSpectra at h
    split at h
    · cases h
    · simpa using ‹¬ x.folded = true›
  obtain ⟨y', h'⟩ : ∃ y', foldSpectra nan (scaled c x) = .ok y' := ⟨_, by unfold foldSpectra; rw [if_neg (by simp [scaled, hfl])]⟩
  have r : y'.u.rows = y.u.rows ∧ y'.folded = y.folded ∧ y'.ndly = y.ndly ∧ y'.stored = y.stored ∧ y'.u.statNames = y.u.statNames ∧
      y.folded = true ∧ y.ndly = x.ndly ∧ y.stored = x.ndly := by
    unfold foldSpectra at h h'
    rw [if_neg (by simp [hfl])] at h
    rw [if_neg (by simp [scaled, hfl])] at h'
    cases h; cases h'
    exact ⟨rfl, rfl, rfl, rfl, rfl, rfl, rfl, hst⟩
  obtain ⟨r1, r2, r3, r4, r5, r6, r7, r8⟩ := r
  refine ⟨y', h', r1, r2, r3, r4, r5, ?_⟩
  intro s n hn p b
  have hn3 := h3 n (List.mem_of_getElem? hn)
  have ax : axis y s = npos n ∧ axis y' s = npos n := by
    unfold axis readLen
    rw [r2, r3, r4, r6, r7, r8]
    simp only [List.getD_eq_getElem?_getD, hn, Option.getD_some, true_and, ne_eq, npos_pos hn3, not_false_eq_true, if_true]
    unfold npos; omega
  have hk : offset true n n = n / 2 + 1 := by
    unfold offset
    rw [if_pos ⟨rfl, npos_pos hn3⟩]; unfold npos; omega
  have q := cellsOf_fold nan h s p b
  have q' := cellsOf_fold nan h' s p b
  have q'' := relE_map (cellsOf_scaled c x.u s p b)
  simp only [hst, List.getD_eq_getElem?_getD, hn, Option.getD_some, hk] at q
  simp only [scaled, hst, List.getD_eq_getElem?_getD, hn, Option.getD_some, hk, q''] at q'
  have sym : ∀ i, i < npos n → c s b (2 * (n / 2) - (i + (n / 2 + 1))) = c s b (i + (n / 2 + 1)) := by
    intro i hi
    have := hc s n hn b (i + 1) (by unfold npos at hi; omega)
    rw [show 2 * (n / 2) - (i + (n / 2 + 1)) = n / 2 - (i + 1) by omega, this]
    congr 1; omega
  have lift : ∀ {β : Type} (f g : Cell E → β) (k : β → β),
      (∀ z : Cell E, g (shiftCell (n / 2 + 1) (foldCell nan (!x.u.statNames.isEmpty) x.u.exact n (scaleCell (c s b) z))) =
        k (f (shiftCell (n / 2 + 1) (foldCell nan (!x.u.statNames.isEmpty) x.u.exact n z)))) →
      (cellsOf (readObj y') s p b).map (fun cs => cs.map g) = ((cellsOf (readObj y) s p b).map (fun cs => cs.map f)).map (List.map k) := by
    intro β f g k hk
    rw [q, q']
    cases cellsOf x.u s p b with
    | error e => rfl
    | ok l =>
      simp only [Except.map, List.map_map, Except.ok.injEq]
      exact List.map_congr_left (fun z _ => hk z)
  have lift1 : ∀ {β : Type} (f : Cell E → β),
      (∀ z : Cell E, f (shiftCell (n / 2 + 1) (foldCell nan (!x.u.statNames.isEmpty) x.u.exact n (scaleCell (c s b) z))) =
        f (shiftCell (n / 2 + 1) (foldCell nan (!x.u.statNames.isEmpty) x.u.exact n z))) →
      (cellsOf (readObj y') s p b).map (fun cs => cs.map f) = (cellsOf (readObj y) s p b).map (fun cs => cs.map f) := by
    intro β f hk
    rw [lift f f id hk]
    cases cellsOf (readObj y) s p b <;> simp [Except.map]
  have rowEq : ∀ {α : Type} (mul : ℝ → α → α) (f g : Nat → α), (∀ i, i < npos n → g i = mul (c s b (n / 2 + 1 + i)) (f i)) →
      (List.range (axis y' s)).map g = timesRow mul (fun i => c s b (n / 2 + 1 + i)) ((List.range (axis y s)).map f) := by
    intro α mul f g hfg
    rw [ax.1, ax.2]
    apply List.ext_getElem?
    intro i
    simp only [timesRow, List.getElem?_mapIdx, List.getElem?_map]
    by_cases hi : i < npos n
    · rw [List.getElem?_range hi]
      simp only [Option.map_some, Option.some.injEq]
      exact hfg i hi
    · rw [List.getElem?_eq_none (by simpa using hi)]; rfl
  refine ⟨lift _ _ _ fun z => ?_, lift _ _ _ fun z => ?_, fun hpos name => lift _ _ _ fun z => ?_, ?_, lift1 _ fun z => rfl, lift1 _ fun z => rfl⟩
  · refine rowEq _ _ _ (fun i hi => ?_)
    simp only [shiftCell, foldCell, scaleCell]
    rw [if_neg (by omega), if_neg (by omega), if_neg (by omega), if_neg (by omega), sym i hi, ← smul_add, smul_comm, show i + (n / 2 + 1) = n / 2 + 1 + i by omega]
  · have := rowEq (α := List ℝ) (fun k l => timesRow (fun k' z => k * z * k') (fun j => c s b (n / 2 + 1 + j)) l)
      (fun d => (List.range (axis y s)).map ((shiftCell (n / 2 + 1) (foldCell nan (!x.u.statNames.isEmpty) x.u.exact n z)).cov d))
      (fun d => (List.range (axis y' s)).map ((shiftCell (n / 2 + 1) (foldCell nan (!x.u.statNames.isEmpty) x.u.exact n (scaleCell (c s b) z))).cov d)) ?_
    · exact this
    intro i hi
    refine rowEq _ _ _ (fun j hj => ?_)
    simp only [shiftCell, foldCell, scaleCell, foldBlock]
    rw [if_neg (by omega), if_pos (by omega), if_neg (by omega), if_pos (by omega), sym i hi, sym j hj, show i + (n / 2 + 1) = n / 2 + 1 + i by omega,
      show j + (n / 2 + 1) = n / 2 + 1 + j by omega]
    ring
  · refine rowEq _ _ _ (fun i hi => ?_)
    simp only [shiftCell, foldCell, scaleCell]
    rw [if_neg (by omega), if_neg (by omega), sym i hi, foldStat2_scale _ (hpos _), show i + (n / 2 + 1) = n / 2 + 1 + i by omega]
  · unfold getWin
    rw [ax.1, ax.2]
    exact lift1 _ fun z => rfl

/-- **C170** In particular the conversion to `Delta^2`, with parallel wavenumbers that are opposite at opposite delays: at every positive delay what is read after converting and
folding is `k^3 / (2 pi^2)` times what is read after folding alone. -/
theorem C170_deltasq (nan : E) (kperp kpara : Nat → Nat → ℝ) {x y : DObj E} (hst : x.stored = x.ndly) (h3 : ∀ n ∈ x.ndly, 3 ≤ n)
    (hk : ∀ (s n : Nat), x.ndly[s]? = some n → ∀ m, n / 2 + m < n → kpara s (n / 2 - m) = -kpara s (n / 2 + m)) (h : foldSpectra nan x = .ok y) :
    ∃ y', foldSpectra nan (toDeltaSq kperp kpara x) = .ok y' ∧ y'.u.rows = y.u.rows ∧ y'.folded = y.folded ∧ y'.ndly = y.ndly ∧ y'.stored = y.stored ∧
      ∀ (s n : Nat), x.ndly[s]? = some n → ∀ p b, ∀ k : Nat → ℝ,
        (∀ i, k i = Real.sqrt (kperp s b ^ 2 + kpara s (n / 2 + 1 + i) ^ 2) ^ 3 / (2 * Real.pi ^ 2)) →
        getData y' s p b = (getData y s p b).map (List.map (timesRow (· • ·) k)) ∧ getCov y' s p b = (getCov y s p b).map (List.map (timesBlock k)) ∧
        (∀ name, getStats y' name s p b = (getStats y name s p b).map (List.map (timesRow (fun k z => z.map (k * ·)) k))) ∧
        getWin y' s p b = getWin y s p b ∧ getIntegrations y' s p b = getIntegrations y s p b ∧ getNsamples y' s p b = getNsamples y s p b := by
  have hc : EvenFactors (AvgScale.deltaFactor kperp kpara) x := by
    intro s n hn b m hm
    simp only [AvgScale.deltaFactor, hk s n hn m hm, neg_sq]
  obtain ⟨y', h', r1, r2, r3, r4, _, r5⟩ := C170_fold_scaled nan (AvgScale.deltaFactor kperp kpara) hst h3 hc h
  refine ⟨y', h', r1, r2, r3, r4, ?_⟩
  intro s n hn p b k hkk
  have e : k = fun i => AvgScale.deltaFactor kperp kpara s b (n / 2 + 1 + i) := by funext i; rw [hkk]; rfl
  obtain ⟨a1, a2, a3, a4⟩ := r5 s n hn p b
  rw [e]
  exact ⟨a1, a2, a3 (fun d => by unfold AvgScale.deltaFactor; positivity), a4⟩

theorem cellsOf_read (c : Nat → Nat → Nat → ℝ) (y : DObj E) (s p b : Nat) :
    cellsOf (readObj (scaled c y)) s p b = (cellsOf y.u s p b).map (List.map (fun z =>
      shiftCell (offset y.folded (y.ndly.getD s 0) (y.stored.getD s 0)) (scaleCell (c s b) z))) := by
  unfold readObj
  rw [cellsOf_map (fun s => shiftCell (offset (scaled c y).folded ((scaled c y).ndly.getD s 0) ((scaled c y).stored.getD s 0)))]
  simp only [scaled]
  rw [relE_map (cellsOf_scaled c y.u s p b)]
  cases cellsOf y.u s p b with
  | error e => rfl
  | ok l => simp only [Except.map, List.map_map, Function.comp_def]

theorem cellsOf_read' (y : DObj E) (s p b : Nat) :
    cellsOf (readObj y) s p b = (cellsOf y.u s p b).map (List.map (shiftCell (offset y.folded (y.ndly.getD s 0) (y.stored.getD s 0)))) := by
  unfold readObj
  rw [cellsOf_map (fun s => shiftCell (offset y.folded (y.ndly.getD s 0) (y.stored.getD s 0)))]

/-- **C170** A bias factor per window can be corrected before or after folding: every reading method returns the same both ways (error bars if the factor is not negative). -/
theorem C170_bias (nan : E) (bias : Nat → ℝ) {x y : DObj E} (hst : x.stored = x.ndly) (h3 : ∀ n ∈ x.ndly, 3 ≤ n) (h : foldSpectra nan x = .ok y) :
    ∃ y', foldSpectra nan (totalBias bias x) = .ok y' ∧ y'.u.rows = (totalBias bias y).u.rows ∧ y'.folded = (totalBias bias y).folded ∧ y'.ndly = (totalBias bias y).ndly ∧
      ∀ s, s < x.ndly.length → ∀ p b,
        getData y' s p b = getData (totalBias bias y) s p b ∧ getCov y' s p b = getCov (totalBias bias y) s p b ∧
        (0 ≤ bias s → ∀ name, getStats y' name s p b = getStats (totalBias bias y) name s p b) ∧ getWin y' s p b = getWin (totalBias bias y) s p b ∧
        getIntegrations y' s p b = getIntegrations (totalBias bias y) s p b ∧ getNsamples y' s p b = getNsamples (totalBias bias y) s p b := by
  have hc : EvenFactors (fun s _ _ => bias s) x := fun _ _ _ _ _ _ => rfl
  obtain ⟨y', h', r1, r2, r3, r4, _, r5⟩ := C170_fold_scaled nan (fun s _ _ => bias s) hst h3 hc h
  refine ⟨y', h', r1, r2, r3, ?_⟩
  intro s hs p b
  obtain ⟨a1, a2, a3, a4, a5, a6⟩ := r5 s _ (List.getElem?_eq_getElem hs) p b
  have q := cellsOf_read (fun s _ _ => bias s) y s p b
  have q' := cellsOf_read' y s p b
  have lift : ∀ {β : Type} (f : Cell E → β) (k : β → β),
      (∀ (m : Nat) (z : Cell E), f (shiftCell m (scaleCell (fun _ => bias s) z)) = k (f (shiftCell m z))) →
      (cellsOf (readObj (totalBias bias y)) s p b).map (fun cs => cs.map f) = ((cellsOf (readObj y) s p b).map (fun cs => cs.map f)).map (List.map k) := by
    intro β f k hk
    rw [show totalBias bias y = scaled (fun s _ _ => bias s) y from rfl, q, q']
    cases cellsOf y.u s p b with
    | error e => rfl
    | ok l =>
      simp only [Except.map, List.map_map, Except.ok.injEq]
      exact List.map_congr_left (fun z _ => hk _ z)
  have row : ∀ {α : Type} (mul : ℝ → α → α) (g : Nat → α) (n : Nat),
      (List.range n).map (fun d => mul (bias s) (g d)) = timesRow mul (fun _ => bias s) ((List.range n).map g) := by
    intro α mul g n
    unfold timesRow
    apply List.ext_getElem?
    intro i
    simp only [List.getElem?_mapIdx, List.getElem?_map, Option.map_map, Function.comp_def]
  have same : ∀ {β : Type} (e : Except Err (List β)), e = e.map (List.map id) := by
    intro β e; cases e <;> simp [Except.map]
  refine ⟨?_, ?_, fun hb name => ?_, ?_, ?_, ?_⟩
  · rw [a1]
    exact (lift _ _ (fun m z => row (· • ·) _ _)).symm
  · rw [a2]
    refine (lift _ _ (fun m z => ?_)).symm
    have := row (α := List ℝ) (fun k l => timesRow (fun k' w => k * w * k') (fun _ => bias s) l) (fun d => (List.range (axis y s)).map ((shiftCell m z).cov d)) (axis y s)
    refine Eq.trans ?_ this
    refine List.map_congr_left (fun d _ => ?_)
    exact row (fun k' w => bias s * w * k') ((shiftCell m z).cov d) (axis y s)
  · rw [a3 (fun _ => hb) name]
    exact (lift _ _ (fun m z => row (fun (k : ℝ) (w : Option ℝ) => w.map (k * ·)) _ _)).symm
  · rw [a4]; exact (same _).trans (lift _ id (fun m z => rfl)).symm
  · rw [a5]; exact (same _).trans (lift _ id (fun m z => rfl)).symm
  · rw [a6]; exact (same _).trans (lift _ id (fun m z => rfl)).symm

/-! ### Concrete cases -/

/-- The hypotheses of `C170_deltasq` are met by an object with a window of three delays, with wavenumbers `-1, 0, 1`. -/
example : FoldAvg.exObj.stored = FoldAvg.exObj.ndly ∧ (∀ n ∈ FoldAvg.exObj.ndly, 3 ≤ n) ∧ (∃ y, foldSpectra 0 FoldAvg.exObj = .ok y) ∧
    ∀ (s n : Nat), FoldAvg.exObj.ndly[s]? = some n → ∀ m, n / 2 + m < n →
      (fun (_ : Nat) (d : Nat) => ((d : ℝ) - 1)) s (n / 2 - m) = -(fun (_ : Nat) (d : Nat) => ((d : ℝ) - 1)) s (n / 2 + m) := by
  refine ⟨rfl, by simp [FoldAvg.exObj], ⟨_, rfl⟩, ?_⟩
  intro s n hn m hm
  have : n = 3 := by simpa [FoldAvg.exObj] using List.mem_of_getElem? hn
  subst this
  have : m = 0 ∨ m = 1 := by omega
  rcases this with rfl | rfl <;> norm_num

/-- **C170** counterexample: factors that differ at opposite delays. Three delays with data `1, 1, 1` fold to `1` at the positive delay; multiplied by `1, 1, 2` before they fold to
`3 / 2`, not to `2`. -/
theorem C170_counterexample_uneven : ∃ x y y' : DObj ℝ, x.stored = x.ndly ∧ foldSpectra 0 x = .ok y ∧ foldSpectra 0 (scaled (fun _ _ d => if d = 2 then 2 else 1) x) = .ok y' ∧
    getData y 0 0 5 = .ok [[1]] ∧ getData y' 0 0 5 = .ok [[3 / 2]] := by
  let cell : Cell ℝ := { FoldAvg.exCell with data := fun _ => 1 }
  refine ⟨{ FoldAvg.exObj with u := { rows := [⟨5, 0, 0, 0, 0, 0, 0⟩], cells := [[[cell]]], statNames := [], exact := false } }, _, _, rfl, rfl, rfl, ?_, ?_⟩
  · simp [getData, axis, readLen, npos, cellsOf, readObj, indices, FoldAvg.exObj, UVP.mapE, offset, shiftCell, foldCell, Except.map, cell, List.range_succ]
    norm_num
  · simp [getData, axis, readLen, npos, cellsOf, readObj, indices, FoldAvg.exObj, UVP.mapE, offset, shiftCell, foldCell, Except.map, cell, List.range_succ, scaled, rescale, AvgScale.scaleRow, scaleCell]
    norm_num

/-- **C170** counterexample: with a negative factor the error bars differ: folding makes them positive. -/
theorem C170_counterexample_negative : foldStat2 ((some (1 : ℝ)).map (-1 * ·)) none = some 1 ∧ (foldStat2 (some (1 : ℝ)) none).map (-1 * ·) = some (-1) := by
  constructor <;> simp [foldStat2]

end HeraPspec.FoldScale
