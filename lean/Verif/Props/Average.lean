import Verif.Lemmas.Average2
import Mathlib.Algebra.BigOperators.Group.List.Lemmas

/-!
C29-C31: `average_spectra`.
-/
namespace HeraPspec.Average
open HeraPspec.UVP (Err mapE mapE_ok_iff)
variable {E : Type} [AddCommGroup E] [Module ℝ E]

/-! ### Facts about weighted means and errors -/

theorem wsum_perm {M : Type} {l l' : List (ℝ × M)} (h : l.Perm l') : wsum l = wsum l' :=
  (h.map _).sum_eq

/-- C29: a weighted mean does not depend on the order of the samples. -/
theorem C29_mean_perm {l l' : List (ℝ × E)} (h : l.Perm l') : wmean l = wmean l' := by
  unfold wmean
  rw [wsum_perm h, (h.map _).sum_eq]

/-- C29: samples of weight zero are ignored. -/
theorem C29_mean_ignores_zero_weight (l : List (ℝ × E)) : wmean (l.filter (fun x => decide (x.1 ≠ 0))) = wmean l := by
  have key : ∀ {M : Type} [AddCommMonoid M] (f : ℝ × E → M), (∀ x, x.1 = 0 → f x = 0) →
      ((l.filter (fun x => decide (x.1 ≠ 0))).map f).sum = (l.map f).sum := by
    intro M _ f hf
    induction l with
    | nil => rfl
    | cons a l ih =>
      by_cases ha : a.1 = 0
      · simp [ha, hf a ha]; simpa using ih
      · simp [ha]; simpa using congrArg (f a + ·) ih
  unfold wmean wsum
  rw [key _ (fun x hx => hx), key _ (fun x hx => by rw [hx, zero_smul])]

/-- C29: equal values average to that value. -/
theorem C29_mean_const (l : List (ℝ × E)) (x : E) (h : ∀ y ∈ l, y.2 = x) (hs : wsum l ≠ 0) : wmean l = x := by
  have : (l.map (fun y => y.1 • y.2)).sum = wsum l • x := by
    unfold wsum
    rw [List.map_congr_left (g := fun y => y.1 • x) (fun y hy => by rw [h y hy])]
    clear h hs
    induction l with
    | nil => simp
    | cons a l ih => simp [ih, add_smul]
  unfold wmean
  rw [this, smul_smul, inv_mul_cancel₀ hs, one_smul]

theorem sum_nonneg_of {α : Type} {l : List α} {f : α → ℝ} (h : ∀ a ∈ l, 0 ≤ f a) : 0 ≤ (l.map f).sum := by
  induction l with
  | nil => simp
  | cons a l ih =>
    rw [List.map_cons, List.sum_cons]
    exact add_nonneg (h a List.mem_cons_self) (ih (fun b hb => h b (List.mem_cons_of_mem _ hb)))

theorem sum_le_of {α : Type} {l : List α} {f g : α → ℝ} (h : ∀ a ∈ l, f a ≤ g a) : (l.map f).sum ≤ (l.map g).sum := by
  induction l with
  | nil => simp
  | cons a l ih =>
    rw [List.map_cons, List.sum_cons, List.map_cons, List.sum_cons]
    exact add_le_add (h a List.mem_cons_self) (ih (fun b hb => h b (List.mem_cons_of_mem _ hb)))

theorem map_wmean (φ : E →ₗ[ℝ] ℝ) (l : List (ℝ × E)) : φ (wmean l) = (l.map (fun y => y.1 * φ y.2)).sum / wsum l := by
  unfold wmean
  rw [map_smul, map_list_sum, List.map_map, smul_eq_mul, div_eq_inv_mul]
  congr 3
  funext y
  simp

/-- C29: with non-negative weights, any real component (real part, imaginary part, ...) of the mean lies between the smallest
and the largest of the samples. -/
theorem C29_mean_between (φ : E →ₗ[ℝ] ℝ) (l : List (ℝ × E)) (a b : ℝ) (hw : ∀ y ∈ l, 0 ≤ y.1)
    (h : ∀ y ∈ l, a ≤ φ y.2 ∧ φ y.2 ≤ b) (hs : 0 < wsum l) : a ≤ φ (wmean l) ∧ φ (wmean l) ≤ b := by
  rw [map_wmean, le_div_iff₀ hs, div_le_iff₀ hs]
  unfold wsum
  rw [← List.sum_map_mul_left, ← List.sum_map_mul_left]
  constructor
  · apply sum_le_of
    intro y hy
    nlinarith [hw y hy, h y hy]
  · apply sum_le_of
    intro y hy
    nlinarith [hw y hy, h y hy]

/-- C30: the error of the mean never exceeds the largest error of the samples. -/
theorem C30_error_le_max (l : List (ℝ × ℝ)) (b : ℝ) (hw : ∀ y ∈ l, 0 ≤ y.1) (h : ∀ y ∈ l, 0 ≤ y.2 ∧ y.2 ≤ b)
    (hb : 0 ≤ b) (hs : 0 < wsum l) : werror l ≤ b := by
  unfold werror
  rw [div_le_iff₀ hs, Real.sqrt_le_left (by positivity)]
  have h1 : (l.map (fun x => x.1 ^ 2 * x.2 ^ 2)).sum ≤ b ^ 2 * (l.map (fun x => x.1 ^ 2)).sum := by
    rw [← List.sum_map_mul_left]
    apply sum_le_of
    intro y hy
    have : y.2 ^ 2 ≤ b ^ 2 := by have := h y hy; gcongr <;> tauto
    nlinarith [sq_nonneg y.1]
  have h2 : (l.map (fun x => x.1 ^ 2)).sum ≤ (wsum l) ^ 2 := by
    unfold wsum
    clear h1 h hs
    induction l with
    | nil => simp
    | cons a l ih =>
      rw [List.map_cons, List.sum_cons, List.map_cons, List.sum_cons]
      have ih := ih (fun y hy => hw y (List.mem_cons_of_mem _ hy))
      have : 0 ≤ (l.map (fun x => x.1)).sum := sum_nonneg_of (fun y hy => hw y (List.mem_cons_of_mem _ hy))
      nlinarith [hw a List.mem_cons_self]
  rw [mul_pow]
  nlinarith [sq_nonneg b]

/-- C30: `n` samples of equal positive weight and equal error `s` have error `s / sqrt n`. -/
theorem C30_error_equal (n : Nat) (hn : 0 < n) (w s : ℝ) (hw : 0 < w) (hs : 0 ≤ s) :
    werror (List.replicate n (w, s)) = s / Real.sqrt n := by
  unfold werror wsum
  simp only [List.map_replicate, List.sum_replicate, nsmul_eq_mul]
  have hn' : (0 : ℝ) < n := by exact_mod_cast hn
  rw [show (n : ℝ) * (w ^ 2 * s ^ 2) = n * (w * s) ^ 2 by ring, Real.sqrt_mul hn'.le, Real.sqrt_sq (by positivity)]
  have := Real.sq_sqrt hn'.le
  have hsq : 0 < Real.sqrt n := Real.sqrt_pos.2 hn'
  rw [div_eq_div_iff (by positivity) (by positivity)]
  linear_combination (w * s) * this

/-! ### C29 -/

/-- C29: which pairs are averaged together. Without `blpair_groups` every baseline-pair of the object is a group of its own;
with it the groups are the given ones, followed (unless exact window functions are stored) by the pairs of the object that
occur in none of them, each as its own group of weight one. -/
theorem C29_groups {so : List Nat → List Nat} (hso : ∀ l, (so l).Perm l) {a : Args} {u : Obj E} {gs : List (List Nat × List ℝ)}
    (h : groupsOf so a u = .ok gs) :
    (∀ g ∈ gs, g.1 ≠ [] ∧ (a.weights = none → g.2 = g.1.map (fun _ => 1))) ∧
    match a.groups with
    | none => (gs.map (·.1)).flatten.Nodup ∧ (∀ g ∈ gs, g.1.length = 1) ∧
        ∀ b, b ∈ (gs.map (·.1)).flatten ↔ b ∈ u.rows.map (·.blp)
    | some given => ∃ extra : List Nat, gs.map (·.1) = given ++ extra.map (fun b => [b]) ∧ extra.Nodup ∧
        ∀ b, b ∈ extra ↔ (u.exact = false ∧ b ∈ u.rows.map (·.blp) ∧ b ∉ given.flatten) := by
  unfold groupsOf at h
  cases hg : a.groups with
  | none =>
    rw [hg] at h
    simp only [] at h
    cases hw : a.weights with
    | some w => rw [hw] at h; cases h
    | none =>
      rw [hw] at h
      cases h
      have e : (List.map (fun x => x.1) (List.map (fun b => ([b], [(1 : ℝ)])) (Combine.uniq (List.map (fun x => x.blp) u.rows)))).flatten
          = Combine.uniq (List.map (fun x => x.blp) u.rows) := by
        generalize Combine.uniq (List.map (fun x => x.blp) u.rows) = l
        induction l with
        | nil => rfl
        | cons a l ih => simp at ih ⊢; exact ih
      refine ⟨?_, ?_, ?_, ?_⟩
      · intro g hg
        rw [List.mem_map] at hg
        obtain ⟨b, _, rfl⟩ := hg
        simp
      · rw [e]; exact Combine.uniq_nodup _
      · intro g hg
        rw [List.mem_map] at hg
        obtain ⟨b, _, rfl⟩ := hg
        rfl
      · intro b
        rw [e, Combine.mem_uniq]
  | some given =>
    rw [hg] at h
    simp only [] at h
    split at h
    · cases h
    split at h
    · cases h
    rename_i hne
    split at h
    · cases h
    split at h
    · cases h
    rename_i hwne
    split at h
    · cases h
    rename_i hlen
    cases h
    generalize hwss : weightsOf a given = wss at *
    have hle : given.length ≤ wss.length := by
      by_contra hn
      push Not at hn
      apply hlen
      simp only [Bool.not_eq_true', List.all_eq_false]
      refine ⟨wss.length, by simpa using hn, ?_⟩
      simp [hn]
    set extra := (if u.exact = true then [] else so ((Combine.uniq (List.map (fun x => x.blp) u.rows)).filter
      (fun b => decide (b ∉ given.flatten)))) with hextra
    have hmap : (List.zip (given ++ extra.map (fun b => [b])) (wss ++ extra.map (fun _ => [(1 : ℝ)]))).map (·.1) =
        given ++ extra.map (fun b => [b]) := by
      rw [List.map_fst_zip]
      simp; omega
    refine ⟨?_, extra, hmap, ?_, ?_⟩
    · intro g hg
      constructor
      · have : g.1 ∈ given ++ extra.map (fun b => [b]) := by
          rw [← hmap]; exact List.mem_map_of_mem hg
        rw [List.mem_append] at this
        rcases this with h1 | h1
        · intro h0
          apply hne
          rw [List.any_eq_true]
          exact ⟨g.1, h1, by rw [h0]; rfl⟩
        · rw [List.mem_map] at h1
          obtain ⟨b, _, hb⟩ := h1
          rw [← hb]; simp
      · intro hw
        unfold weightsOf at hwss
        rw [hw] at hwss
        simp only [] at hwss
        rw [← hwss] at hg
        have : (given.map (fun g => g.map (fun _ => (1 : ℝ))) ++ extra.map (fun _ => [(1 : ℝ)])) =
            (given ++ extra.map (fun b => [b])).map (fun g => g.map (fun _ => (1 : ℝ))) := by
          rw [List.map_append, List.map_map]; rfl
        rw [this, List.zip_map_right, List.mem_map] at hg
        obtain ⟨x, hx, rfl⟩ := hg
        have : x.1 = x.2 := by
          generalize (given ++ extra.map (fun b => [b])) = l at hx
          clear * - hx
          induction l with
          | nil => cases hx
          | cons a l ih =>
            rw [List.zip_cons_cons, List.mem_cons] at hx
            rcases hx with rfl | hx
            · rfl
            · exact ih hx
        simp [this]
    · rw [hextra]
      split
      · exact List.nodup_nil
      · exact (hso _).nodup_iff.2 ((Combine.uniq_nodup _).filter _)
    · intro b
      rw [hextra]
      cases u.exact with
      | true => simp
      | false => simp [(hso _).mem_iff, Combine.mem_uniq]

/-- What C29 assumes about the numbers: non-negative nsample, errors used as weights not below `1e-20`, and no total weight
in the open interval from 0 to `1e-40` (the guards against division by zero). -/
structure Regular (a : Args) (u : Obj E) (s p : Nat) (g : List Nat × List ℝ) (t d : Nat) : Prop where
  cells : ∀ b ∈ g.1, ∀ c ∈ integrations u s p b, RegularCell a.errorWeights c
  pair : a.timeAvg = true → ∀ b ∈ g.1, RegularSum a.errorWeights (integrations u s p b) d
  total : tiny ≤ ((members a.timeAvg a.normalize u s p g t).map (fun c => specWeight a.errorWeights c d)).sum

theorem accMembers_w {a : Args} {u : Obj E} {s p : Nat} {g : List Nat × List ℝ} {t d : Nat} (h : Regular a u s p g t d)
    (ht : a.timeAvg = true → t = 0) :
    ((accMembers a.errorWeights a.timeAvg a.normalize u s p g t).map (fun x => x.w d)).sum =
      ((members a.timeAvg a.normalize u s p g t).map (fun c => specWeight a.errorWeights c d)).sum := by
  apply sum_members
  · exact ht
  · intro _ b hb c hc
    exact weight_eq _ c (h.cells b hb c hc) d
  · intro _ b hb
    exact timeMean_w _ _ (h.cells b hb) d

/-- One output row of a group: the weighted mean of its integrations. -/
theorem row_mean {a : Args} {u : Obj E} {s p : Nat} {g : List Nat × List ℝ} {block : List (Cell E)}
    (hg : groupRows a.errorWeights a.timeAvg a.normalize u s p g = .ok block) {t : Nat} {c : Cell E} (hbt : block[t]? = some c) {d : Nat}
    (hreg : Regular a u s p g t d) :
    c.data d = wmean ((members a.timeAvg a.normalize u s p g t).map (fun m => (specWeight a.errorWeights m d, m.data d))) := by
  obtain ⟨ht, rfl⟩ := block_cell hg hbt
  have hw := accMembers_w hreg ht
  unfold groupMean wmean wsum
  simp only [List.map_map, Function.comp_def]
  rw [hw, clipTiny_eq hreg.total]
  congr 1
  apply sum_members
  · exact ht
  · intro _ b hb c hc
    show weight _ c d • c.data d = _
    rw [weight_eq _ c (hreg.cells b hb c hc) d]
  · intro hta b hb
    exact timeMean_data _ _ (hreg.cells b hb) d (hreg.pair hta b hb)

/-- C29: whenever `average_spectra` succeeds, in every window and polarization the output rows are, group after group, the
weighted means of the integrations of the group (all of them, or those of the same time index), counted with the
multiplicities of `blpair_weights`. -/
theorem C29_weighted_mean {circ : List ℝ → ℝ} {so : List Nat → List Nat} {a : Args} {u v : Obj E}
    (h : averageSpectra circ so a u = .ok v) : ∃ gs, groupsOf so a u = .ok gs ∧
      ∀ s p cs, (u.cells[s]?.bind (·[p]?)) = some cs → ∃ blocks : List (List (Cell E)),
        (v.cells[s]?.bind (·[p]?)) = some blocks.flatten ∧
        List.Forall₂ (fun g block => ∀ t c, block[t]? = some c → ∀ d, Regular a u s p g t d →
          c.data d = wmean ((members a.timeAvg a.normalize u s p g t).map
            (fun m => (specWeight a.errorWeights m d, m.data d)))) gs blocks := by
  obtain ⟨gs, hgs, _, _, _, _, _, hcells⟩ := averageSpectra_ok h
  refine ⟨gs, hgs, ?_⟩
  intro s p cs hc
  obtain ⟨blocks, hb, hf⟩ := hcells s p cs hc
  exact ⟨blocks, hb, hf.imp fun g block hg t c hbt d hreg => row_mean hg hbt hreg⟩

/-- C29: permuting the baseline-pairs of a group (with their weights) does not change the average. -/
theorem C29_group_order {errw : Option String} {ta nz : Bool} {u : Obj E} {s p : Nat} {g g' : List Nat × List ℝ}
    (hl : g.1.length = g.2.length) (hl' : g'.1.length = g'.2.length) (hp : (g.1.zip g.2).Perm (g'.1.zip g'.2))
    {r : List (Cell E)} (h : groupRows errw ta nz u s p g = .ok r) : groupRows errw ta nz u s p g' = .ok r := by
  have hp1 : g.1.Perm g'.1 := by
    have := hp.map Prod.fst
    rwa [List.map_fst_zip (by omega), List.map_fst_zip (by omega)] at this
  have hp2 : g.2.Perm g'.2 := by
    have := hp.map Prod.snd
    rwa [List.map_snd_zip (by omega), List.map_snd_zip (by omega)] at this
  have hpm : (g.1.zip (mult nz g.2)).Perm (g'.1.zip (mult nz g'.2)) := by
    unfold mult
    rw [hp2.length_eq, hp2.sum_eq, List.zip_map_right, List.zip_map_right]
    exact hp.map _
  obtain ⟨h1, h2, n, hex, hn, rfl⟩ := groupRows_ok h
  have := groupRows_of (errw := errw) (ta := ta) (nz := nz) (u := u) (s := s) (p := p) (g := g') (n := n)
    (by rw [← hp2.sum_eq]; exact h1) (fun b hb => h2 b (hp1.mem_iff.2 hb))
    (by obtain ⟨bm, hbm, hpos⟩ := hex; exact ⟨bm, hpm.mem_iff.1 hbm, hpos⟩)
    (fun bm hbm hpos => hn bm (hpm.mem_iff.2 hbm) hpos)
  rw [this]
  congr 1
  apply List.map_congr_left
  intro t _
  have hpa : (accMembers errw ta nz u s p g t).Perm (accMembers errw ta nz u s p g' t) := by
    unfold accMembers
    exact hpm.flatMap_right _
  unfold groupMean
  congr 1
  all_goals first
    | (funext d e; simp only [(hpa.map _).sum_eq])
    | (funext d; simp only [(hpa.map _).sum_eq])
    | simp only [(hpa.map _).sum_eq]

/-! ### C30 -/

/-- The error of an integration at one delay (0 where it is infinite). -/
noncomputable def sigma (st : String) (c : Cell E) (d : Nat) : ℝ := (c.stat st d).getD 0

/-- Sum of the weighted variances. -/
noncomputable def wvar (errw : Option String) (st : String) (d : Nat) (l : List (Cell E)) : ℝ :=
  (l.map (fun c => specWeight errw c d ^ 2 * sigma st c d ^ 2)).sum

/-- What C30 assumes about the error bars `st`: integrations with non-zero weight have finite errors (at most `1e20`), and the
averaged variances (of every pair when averaging in time, and of the group) are above `1e-8`, the tolerance of `np.isclose`. -/
structure RegularErr (st : String) (a : Args) (u : Obj E) (s p : Nat) (g : List Nat × List ℝ) (t d : Nat) : Prop where
  cells : ∀ b ∈ g.1, ∀ c ∈ integrations u s p b, specWeight a.errorWeights c d = 0 ∨
    ∃ x, c.stat st d = some x ∧ x ^ 2 ≤ 10 ^ 40
  pair : a.timeAvg = true → ∀ b ∈ g.1, (∀ c ∈ integrations u s p b, specWeight a.errorWeights c d = 0) ∨
    (1 / 10 ^ 8 < wvar a.errorWeights st d (integrations u s p b) /
        ((integrations u s p b).map (fun c => specWeight a.errorWeights c d)).sum ^ 2 ∧
      wvar a.errorWeights st d (integrations u s p b) /
        ((integrations u s p b).map (fun c => specWeight a.errorWeights c d)).sum ^ 2 ≤ 10 ^ 40)

theorem prep_var (errw : Option String) (st : String) (d : Nat) (c : Cell E) (hr : RegularCell errw c)
    (h : specWeight errw c d = 0 ∨ ∃ x, c.stat st d = some x ∧ x ^ 2 ≤ 10 ^ 40) :
    clipVar ((prep errw c).var st d) * (prep errw c).w d ^ 2 = specWeight errw c d ^ 2 * sigma st c d ^ 2 := by
  show clipVar ((c.stat st d).map (· ^ 2)) * weight errw c d ^ 2 = _
  rw [weight_eq errw c hr]
  rcases h with h0 | ⟨x, hx, hle⟩
  · rw [h0]; simp
  · unfold sigma
    rw [hx]
    simp only [Option.map_some, clipVar, Option.getD_some]
    rw [max_eq_left (sq_nonneg x), min_eq_left hle, mul_comm]

theorem accMembers_var {st : String} {a : Args} {u : Obj E} {s p : Nat} {g : List Nat × List ℝ} {t d : Nat}
    (h : Regular a u s p g t d) (he : RegularErr st a u s p g t d) (ht : a.timeAvg = true → t = 0) :
    ((accMembers a.errorWeights a.timeAvg a.normalize u s p g t).map (fun x => clipVar (x.var st d) * x.w d ^ 2)).sum =
      wvar a.errorWeights st d (members a.timeAvg a.normalize u s p g t) := by
  unfold wvar
  apply sum_members
  · exact ht
  · intro _ b hb c hc
    exact prep_var _ st d c (h.cells b hb c hc) (he.cells b hb c hc)
  · intro hta b hb
    rw [timeMean_w _ _ (h.cells b hb) d]
    have hcov : ((((integrations u s p b).map (prep a.errorWeights)).map
        (fun x => clipVar (x.var st d) * x.w d ^ 2)).sum) = wvar a.errorWeights st d (integrations u s p b) :=
      sum_map_prep _ _ _ _ (fun c hc => prep_var _ st d c (h.cells b hb c hc) (he.cells b hb c hc))
    have hvar : (timeMean ((integrations u s p b).map (prep a.errorWeights))).var st d =
        nearZeroInf (wvar a.errorWeights st d (integrations u s p b) /
          clipTiny ((integrations u s p b).map (fun c => specWeight a.errorWeights c d)).sum ^ 2) := by
      unfold timeMean
      simp only []
      rw [hcov, timeMean_ws _ _ (h.cells b hb) d]
    rw [hvar]
    have hz : (∀ c ∈ integrations u s p b, specWeight a.errorWeights c d = 0) →
        clipVar (nearZeroInf (wvar a.errorWeights st d (integrations u s p b) /
          clipTiny ((integrations u s p b).map (fun c => specWeight a.errorWeights c d)).sum ^ 2)) *
        ((integrations u s p b).map (fun c => specWeight a.errorWeights c d)).sum ^ 2 =
        ((integrations u s p b).map (fun c => specWeight a.errorWeights c d ^ 2 * sigma st c d ^ 2)).sum := by
      intro h0
      rw [sum_zero_of h0, sum_zero_of (f := fun c => specWeight a.errorWeights c d ^ 2 * sigma st c d ^ 2)
        (fun c hc => by rw [h0 c hc]; ring)]
      ring
    rcases he.pair hta b hb with h0 | ⟨h1, h2⟩
    · exact hz h0
    · rcases h.pair hta b hb with h0 | htiny
      · exact hz h0
      · rw [clipTiny_eq htiny]
        have hpos := lt_of_lt_of_le tiny_pos htiny
        generalize hX : wvar a.errorWeights st d (integrations u s p b) /
          ((integrations u s p b).map (fun c => specWeight a.errorWeights c d)).sum ^ 2 = X at h1 h2 ⊢
        have hX0 : 0 < X := lt_trans (by positivity) h1
        unfold nearZeroInf
        rw [if_neg (by rw [abs_of_pos hX0]; exact not_le.2 h1)]
        simp only [clipVar]
        rw [max_eq_left hX0.le, min_eq_left h2, ← hX, div_mul_cancel₀ _ (by positivity)]
        rfl

/-- C30: in the result the error bar of every statistic is the quadrature error of the weighted mean,
`sqrt(sum w^2 sigma^2) / sum w` over the same integrations, provided the averaged variance exceeds `1e-8` (where it does not,
see the finding). Missing: averaged variances up to `1e-8`, which the code replaces by an infinite error. -/
theorem C30_quadrature_partial {circ : List ℝ → ℝ} {so : List Nat → List Nat} {a : Args} {u v : Obj E}
    (h : averageSpectra circ so a u = .ok v) : ∃ gs, groupsOf so a u = .ok gs ∧
      ∀ s p cs, (u.cells[s]?.bind (·[p]?)) = some cs → ∃ blocks : List (List (Cell E)),
        (v.cells[s]?.bind (·[p]?)) = some blocks.flatten ∧
        List.Forall₂ (fun g block => ∀ t c, block[t]? = some c → ∀ d, Regular a u s p g t d →
          ∀ st, RegularErr st a u s p g t d →
          let e := werror ((members a.timeAvg a.normalize u s p g t).map
            (fun m => (specWeight a.errorWeights m d, sigma st m d)))
          (1 / 10 ^ 8 < e ^ 2 → c.stat st d = some e) ∧ (e ^ 2 ≤ 1 / 10 ^ 8 → c.stat st d = none)) gs blocks := by
  obtain ⟨gs, hgs, _, _, _, _, _, hcells⟩ := averageSpectra_ok h
  refine ⟨gs, hgs, ?_⟩
  intro s p cs hc
  obtain ⟨blocks, hb, hf⟩ := hcells s p cs hc
  refine ⟨blocks, hb, hf.imp ?_⟩
  intro g block hg t c hbt d hreg st herr
  obtain ⟨ht, rfl⟩ := block_cell hg hbt
  have hw := accMembers_w hreg ht
  have hv := accMembers_var hreg herr ht
  intro e
  set S := ((members a.timeAvg a.normalize u s p g t).map (fun c => specWeight a.errorWeights c d)).sum with hS
  set V := wvar a.errorWeights st d (members a.timeAvg a.normalize u s p g t) with hV
  have hSpos : 0 < S := lt_of_lt_of_le tiny_pos hreg.total
  have hVnn : 0 ≤ V := sum_nonneg_of (fun c _ => by positivity)
  have he : e = Real.sqrt V / S := by
    show werror _ = _
    unfold werror wsum
    rw [hS, hV]
    unfold wvar
    simp only [List.map_map, Function.comp_def]
  have he2 : e ^ 2 = V / S ^ 2 := by rw [he, div_pow, Real.sq_sqrt hVnn]
  have hst : (groupMean u.exact (accMembers a.errorWeights a.timeAvg a.normalize u s p g t)).stat st d =
      (nearZeroInf (V / S ^ 2)).map Real.sqrt := by
    unfold groupMean
    simp only []
    rw [hw, clipTiny_eq hreg.total, hv]
  rw [hst, ← he2]
  have henn : 0 ≤ e := by rw [he]; positivity
  unfold nearZeroInf
  rw [abs_of_nonneg (sq_nonneg e)]
  constructor
  · intro h1
    rw [if_neg (not_le.2 h1), Option.map_some, Real.sqrt_sq henn]
  · intro h1
    rw [if_pos h1]; rfl

/-! ### C31 -/

/-- C31 (partial: weights that are integers after normalisation): if the weights, normalised to sum to the number of pairs,
are natural numbers `m`, then pair `k` of the group enters with multiplicity exactly `m k`, so proportionally to its
weight. Missing: weights that are not integers after normalisation; the code truncates them, so the claim is false there. -/
theorem C31_integer_weights_partial (ws : List ℝ) (m : List Nat) (hs : 0 < ws.sum)
    (h : ws.map (fun w => w * ws.length / ws.sum) = m.map (fun k : Nat => (k : ℝ))) : mult true ws = m := by
  unfold mult
  simp only [if_true]
  have := congrArg (List.map (⌊·⌋₊)) h
  simpa [List.map_map, Function.comp_def] using this

/-- C31: equal weights are natural after normalisation: every pair counts once. -/
theorem C31_equal_weights (w : ℝ) (hw : 0 < w) (n : Nat) (hn : 0 < n) :
    mult true (List.replicate n w) = List.replicate n 1 := by
  have hn' : (0 : ℝ) < n := by exact_mod_cast hn
  unfold mult
  simp only [if_true, List.map_replicate, List.length_replicate, List.sum_replicate, nsmul_eq_mul]
  rw [show w * n / (n * w) = 1 by field_simp, Nat.floor_one]

/-- C31 finding: weights 3 and 1 do not give shares 3/4 and 1/4; the second pair is dropped. -/
theorem C31_finding_truncation : mult true [3, 1] = [1, 0] := by
  unfold mult
  norm_num [Nat.floor_eq_iff]

/-- C31 counterexample, for the whole group average: with weights 3 and 1 the average is that of the first pair alone, whatever
the second pair holds. -/
theorem C31_counterexample {errw : Option String} {ta : Bool} {u : Obj E} {s p b1 b2 : Nat} {r : List (Cell E)}
    (h : groupRows errw ta true u s p ([b1, b2], [3, 1]) = .ok r) : groupRows errw ta true u s p ([b1], [1]) = .ok r := by
  obtain ⟨_, h2, n, _, hn, rfl⟩ := groupRows_ok h
  have e1 : mult true [1] = [1] := by simpa using C31_equal_weights 1 one_pos 1 one_pos
  rw [groupRows_of (n := n) (by simp) (fun b hb => h2 b (by simp at hb; simp [hb])) ⟨(b1, 1), by rw [e1]; simp, by simp⟩
    (fun bm hbm _ => hn (b1, 1) (by simp only [C31_finding_truncation]; simp) (by simp) ▸ by
      rw [e1] at hbm; simp at hbm; rw [hbm])]
  congr 1
  apply List.map_congr_left
  intro t _
  unfold accMembers
  simp only [e1, C31_finding_truncation]
  simp

/-- C31 finding: with `normalize_weights=False` the weights are still multiplied by the size of the group: unit weights count
every pair `n` times, so the reported number of samples is `n` times too large. -/
theorem C31_finding_unnormalised (n : Nat) : mult false (List.replicate n 1) = List.replicate n n := by
  unfold mult
  simp

end HeraPspec.Average
