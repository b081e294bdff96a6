import Verif.Props.Average2

/-!
C156: averaging in steps. Averaging every baseline-pair in time first and the pairs afterwards gives the spectra, error bars and samples of a single call, if nothing
but the weights of the integrations counts.
-/
namespace HeraPspec.Average
open HeraPspec.UVP (Err mapE mapE_ok_iff)
variable {E : Type} [AddCommGroup E] [Module ℝ E]

/-! ### Specification -/

/-- The arguments of a call that averages every baseline-pair in time. -/
def timeOnly (F : List String) (e : Option String) (nz : Bool) : Args :=
  { groups := none, weights := none, timeAvg := true, errorField := F, errorWeights := e, normalize := nz }

/-- When the total weight of the integrations `l` of a pair at delay `d` survives being stored: either none of them counts, or the total weight is not tiny and,
if the weights are errors, the averaged error is above `1e-4` (its square above the tolerance of `np.isclose`), if the weights are integration times, these
are all the same. -/
def Steady (e : Option String) (l : List (Cell E)) (d : Nat) : Prop :=
  (∀ c ∈ l, RegularCell e c) ∧ (∀ st, e = some st → ∀ c ∈ l, ∀ x, c.stat st d = some x → x ≤ 10 ^ 20) ∧
  ((∀ c ∈ l, specWeight e c d = 0) ∨
    (tiny ≤ (l.map (fun c => specWeight e c d)).sum ∧
      (∀ st, e = some st → (l.map (fun c => specWeight e c d)).sum < 10 ^ 8) ∧
      (e = none → ∃ t, ∀ c ∈ l, c.ints = t)))

/-! ### Proofs -/

theorem uniq_of_nodup {α : Type} [DecidableEq α] (l : List α) (h : l.Nodup) : Combine.uniq l = l := by
  have : ∀ (l acc : List α), (acc ++ l).Nodup → l.foldl (fun acc x => if x ∈ acc then acc else acc ++ [x]) acc = acc ++ l := by
    intro l
    induction l with
    | nil => intro acc _; simp
    | cons a l ih =>
      intro acc hn
      have ha : a ∉ acc := by
        intro hc
        rw [List.nodup_append] at hn
        exact hn.2.2 a hc a List.mem_cons_self rfl
      simp only [List.foldl_cons, ha, if_false]
      rw [ih (acc ++ [a]) (by simpa using hn)]
      simp
  simpa [Combine.uniq] using this l [] (by simpa using h)

/-- The time average of one pair as it is stored. -/
noncomputable def one (e : Option String) (u : Obj E) (s p b : Nat) : Cell E := groupMean u.exact [timeMean ((integrations u s p b).map (prep e))]

theorem mult_single (nz : Bool) : mult nz [(1 : ℝ)] = [1] := by
  unfold mult
  cases nz <;> simp

theorem row_single {e : Option String} {nz : Bool} {u : Obj E} {s p b : Nat} {r : List (Cell E)} (h : groupRows e true nz u s p ([b], [1]) = .ok r) :
    r = [one e u s p b] ∧ accsOf e true u s p b = .ok (accs e true u s p b) := by
  obtain ⟨_, h2, n, ⟨bm, hbm, _⟩, hn, rfl⟩ := groupRows_ok h
  simp only [mult_single, List.zip_cons_cons, List.zip_nil_right, List.mem_singleton] at hbm hn
  have hl := hn (b, 1) rfl one_pos
  have : n = 1 := by rw [← hl]; rfl
  subst this
  refine ⟨?_, h2 b (by simp)⟩
  simp [accMembers, mult_single, accs, one]

theorem groups_single {so : List Nat → List Nat} {F : List String} {e : Option String} {nz : Bool} {u : Obj E} :
    groupsOf so (timeOnly F e nz) u = .ok ((Combine.uniq (u.rows.map (·.blp))).map (fun b => ([b], [1]))) := rfl

theorem meta_single {circ : List ℝ → ℝ} {u : Obj E} {b : Nat} {m : List Meta} (hm : groupMeta circ true u ([b], [1]) = .ok m) :
    ∃ x : Meta, m = [x] ∧ x.blp = b := by
  unfold groupMeta at hm
  simp only [if_true] at hm
  cases hi : indices u b with
  | error e => rw [hi] at hm; cases hm
  | ok is =>
    rw [hi] at hm
    simp only at hm
    injection hm with hm
    exact ⟨_, hm.symm, rfl⟩

theorem metas_single {circ : List ℝ → ℝ} {u : Obj E} {bs : List Nat} {ms : List (List Meta)} (hnd : bs.Nodup)
    (hf : List.Forall₂ (fun b m => groupMeta circ true u ([b], [1]) = .ok m) bs ms) :
    ∃ f : Nat → Meta, ms = bs.map (fun b => [f b]) ∧ (∀ b ∈ bs, (f b).blp = b ∧ groupMeta circ true u ([b], [1]) = .ok [f b]) := by
  induction hf with
  | nil => exact ⟨fun _ => ⟨0, 0, 0, 0, 0, 0, 0⟩, rfl, by simp⟩
  | @cons b m bs ms h1 h2 ih =>
    obtain ⟨f, hfm, hfb⟩ := ih (List.nodup_cons.1 hnd).2
    obtain ⟨x, rfl, hx⟩ := meta_single h1
    have hb : b ∉ bs := (List.nodup_cons.1 hnd).1
    refine ⟨fun b' => if b' = b then x else f b', ?_, ?_⟩
    · simp only [List.map_cons, if_true]
      congr 1
      rw [hfm]
      apply List.map_congr_left
      intro b' hb'
      rw [if_neg (fun hc : b' = b => hb (hc ▸ hb'))]
    · intro b' hb'
      rcases List.mem_cons.1 hb' with rfl | hb'
      · simp only [if_true]; exact ⟨hx, h1⟩
      · show (if b' = b then x else f b').blp = b' ∧ groupMeta circ true u ([b'], [1]) = .ok [if b' = b then x else f b']
        rw [if_neg (fun hc : b' = b => hb (hc ▸ hb'))]
        exact hfb b' hb'

theorem flatten_singles {α β : Type} (f : α → β) (bs : List α) : (bs.map (fun b => [f b])).flatten = bs.map f := by
  induction bs with
  | nil => rfl
  | cons b bs ih => simp only [List.map_cons, List.flatten_cons, ih]; rfl

theorem filter_single {bs : List Nat} (hnd : bs.Nodup) {f : Nat → Meta} (hfb : ∀ b ∈ bs, (f b).blp = b) {b : Nat} (hb' : b ∈ bs) :
    (bs.map f).filter (fun m => m.blp = b) = [f b] := by
  induction bs with
  | nil => cases hb'
  | cons a bs ih =>
    rw [List.nodup_cons] at hnd
    rw [List.map_cons, List.filter_cons]
    have ha := (hfb a List.mem_cons_self)
    rcases List.mem_cons.1 hb' with rfl | hb'
    · rw [if_pos (by simpa using ha)]
      congr 1
      rw [List.filter_eq_nil_iff]
      intro m hm
      rw [List.mem_map] at hm
      obtain ⟨c, hc, rfl⟩ := hm
      have := (hfb c (List.mem_cons_of_mem _ hc))
      simp only [this, decide_eq_true_eq]
      rintro rfl
      exact hnd.1 hc
    · rw [if_neg (by simp only [ha, decide_eq_true_eq]; rintro rfl; exact hnd.1 hb')]
      exact ih hnd.2 (fun c hc => hfb c (List.mem_cons_of_mem _ hc)) hb'

/-- What the first step stores. -/
theorem first_step {circ : List ℝ → ℝ} {so : List Nat → List Nat} {F : List String} {e : Option String} {nz : Bool} {u v : Obj E}
    (h : averageSpectra circ so (timeOnly F e nz) u = .ok v) :
    v.rows.map (·.blp) = Combine.uniq (u.rows.map (·.blp)) ∧ v.exact = u.exact ∧ v.statNames = statNames (timeOnly F e nz) ∧ v.cells.length = u.cells.length ∧
    (∀ (s : Nat) (ps : List (List (Cell E))), u.cells[s]? = some ps → ∃ qs : List (List (Cell E)), v.cells[s]? = some qs ∧ qs.length = ps.length) ∧
    (∀ s p cs, (u.cells[s]?.bind (·[p]?)) = some cs →
      (v.cells[s]?.bind (·[p]?)) = some ((Combine.uniq (u.rows.map (·.blp))).map (one e u s p))) ∧
    ∀ b ∈ u.rows.map (·.blp), ∃ m, v.rows.filter (fun m => m.blp = b) = [m] ∧ groupMeta circ true u ([b], [1]) = .ok [m] := by
  obtain ⟨gs, hgs, ⟨ms, hms, hf⟩, hlen, hex, hst, hl, hcells⟩ := averageSpectra_ok h
  rw [groups_single] at hgs
  injection hgs with hgs
  subst hgs
  have hnd : (Combine.uniq (u.rows.map (·.blp))).Nodup := Combine.uniq_nodup _
  rw [List.forall₂_map_left_iff] at hf
  obtain ⟨f, rfl, hfb⟩ := metas_single hnd hf
  rw [flatten_singles] at hms
  refine ⟨?_, hex, hst, hlen, hl, ?_, ?_⟩
  · rw [hms, List.map_map]
    conv_rhs => rw [← List.map_id (Combine.uniq (u.rows.map (·.blp)))]
    exact List.map_congr_left (fun b hb => (hfb b hb).1)
  · intro s p cs hc
    obtain ⟨blocks, hb, hf2⟩ := hcells s p cs hc
    rw [hb]
    congr 1
    rw [List.forall₂_map_left_iff] at hf2
    have : blocks = (Combine.uniq (u.rows.map (·.blp))).map (fun b => [one e u s p b]) := forall₂_map (hf2.imp (fun b r hr => (row_single hr).1))
    rw [this, flatten_singles]
  · intro b hb
    have hb' : b ∈ Combine.uniq (u.rows.map (·.blp)) := (Combine.mem_uniq _ b).2 hb
    refine ⟨f b, ?_, (hfb b hb').2⟩
    rw [hms]
    exact filter_single hnd (fun b hb => (hfb b hb).1) hb'

/-- The integrations of a pair after the first step: one. -/
theorem first_integrations {circ : List ℝ → ℝ} {so : List Nat → List Nat} {F : List String} {e : Option String} {nz : Bool} {u v : Obj E}
    (h : averageSpectra circ so (timeOnly F e nz) u = .ok v) {s p b : Nat} {cs : List (Cell E)} (hc : (u.cells[s]?.bind (·[p]?)) = some cs)
    (hb : b ∈ u.rows.map (·.blp)) : integrations v s p b = [one e u s p b] := by
  obtain ⟨h1, _, _, _, _, h6, _⟩ := first_step h
  unfold integrations
  rw [h6 s p cs hc]
  simp only [Option.getD_some]
  have hb' : b ∈ Combine.uniq (u.rows.map (·.blp)) := (Combine.mem_uniq _ b).2 hb
  have hnd := Combine.uniq_nodup (u.rows.map (·.blp))
  rw [← h1] at hb' hnd ⊢
  clear * - hb' hnd
  generalize v.rows = rows at *
  induction rows with
  | nil => cases hb'
  | cons m rows ih =>
    simp only [List.map_cons, List.zip_cons_cons, List.nodup_cons] at hnd ⊢
    rw [List.filter_cons]
    rcases List.mem_cons.1 hb' with rfl | hb'
    · rw [if_pos (by simp)]
      simp only [List.map_cons]
      congr 1
      rw [List.map_eq_nil_iff, List.filter_eq_nil_iff]
      intro x hx
      have := (List.of_mem_zip hx).1
      simp only [decide_eq_true_eq]
      intro hc
      exact hnd.1 (hc ▸ List.mem_map_of_mem this)
    · have hne : m.blp ≠ b := fun hc => hnd.1 (hc ▸ hb')
      rw [if_neg (by simpa using hne)]
      exact ih hb' hnd.2

/-- `x` counts in an average exactly as `a` does, at delay `d`. -/
structure Keeps (ex : Bool) (d : Nat) (x a : Acc E) : Prop where
  w : x.w d = a.w d
  data : x.w d • x.data d = a.w d • a.data d
  var : ∀ st, clipVar (x.var st d) * x.w d ^ 2 = clipVar (a.var st d) * a.w d ^ 2
  win : ex = false → ∀ j, x.win d j * x.w d = a.win d j * a.w d
  nsmp : x.nsmp = a.nsmp
  ints : d = 0 → x.ints 0 * x.w 0 = a.ints 0 * a.w 0
  wgts : d = 0 → ∀ f, x.wgts f * x.w 0 = a.wgts f * a.w 0

theorem clipVar_nonneg (o : Option ℝ) : 0 ≤ clipVar o := by
  cases o with
  | none => unfold clipVar; positivity
  | some v => unfold clipVar; exact le_min (le_max_right _ _) (by positivity)

theorem clipVar_le (o : Option ℝ) : clipVar o ≤ 10 ^ 40 := by
  cases o with
  | none => exact le_refl _
  | some v => exact min_le_right _ _

theorem clipVar_of {v : ℝ} (h0 : 0 ≤ v) (h1 : v ≤ 10 ^ 40) : clipVar (some v) = v := by
  show min (max v 0) (10 ^ 40) = v
  rw [max_eq_left h0, min_eq_left h1]

theorem nearZeroInf_of {v : ℝ} (h : 1 / 10 ^ 8 < v) : nearZeroInf v = some v := by
  unfold nearZeroInf
  rw [if_neg]
  rw [not_le]
  exact lt_of_lt_of_le h (le_abs_self v)

theorem clip_near {v : ℝ} (h0 : 0 ≤ v) : 1 / 10 ^ 8 < clipVar (nearZeroInf v) := by
  unfold nearZeroInf
  split
  · unfold clipVar; norm_num
  · rename_i h
    rw [not_le, abs_of_nonneg h0] at h
    unfold clipVar
    exact lt_min (lt_of_lt_of_le h (le_max_left _ _)) (by norm_num)

theorem div_self_sq {v W : ℝ} (hW : W ≠ 0) : v * W ^ 2 / W ^ 2 = v := mul_div_cancel_right₀ _ (pow_ne_zero 2 hW)

theorem mean_var_nonneg (l : List (Acc E)) (st : String) (d : Nat) :
    0 ≤ (l.map (fun a => clipVar (a.var st d) * a.w d ^ 2)).sum / (clipTiny (l.map (·.w d)).sum) ^ 2 := by
  apply div_nonneg _ (sq_nonneg _)
  apply sum_nonneg_of
  intro a _
  exact mul_nonneg (clipVar_nonneg _) (sq_nonneg _)

/-- The error stored for a single average with a weight: the square root of its clipped variance. -/
theorem stat_single (ex : Bool) (l : List (Acc E)) (st : String) (d : Nat) (hw : tiny ≤ (timeMean l).w d) :
    (groupMean ex [timeMean l]).stat st d = some (Real.sqrt (clipVar ((timeMean l).var st d))) := by
  have hne : (timeMean l).w d ≠ 0 := (lt_of_lt_of_le tiny_pos hw).ne'
  simp only [groupMean, List.map_cons, List.map_nil, List.sum_cons, List.sum_nil, add_zero]
  rw [clipTiny_eq hw, div_self_sq hne, nearZeroInf_of]
  · rfl
  · exact clip_near (mean_var_nonneg l st d)

theorem stat_zero (ex : Bool) (a : Acc E) (st : String) (d : Nat) (hw : a.w d = 0) : (groupMean ex [a]).stat st d = none := by
  simp only [groupMean, List.map_cons, List.map_nil, List.sum_cons, List.sum_nil, add_zero]
  rw [hw]
  simp [nearZeroInf]

/-- Storing the time average of a pair and reading it back keeps its weight. -/
theorem weight_one (e : Option String) (ex : Bool) (l : List (Cell E)) (d : Nat) (hs : Steady e l d) :
    weight e (groupMean ex [timeMean (l.map (prep e))]) d = (timeMean (l.map (prep e))).w d := by
  obtain ⟨hreg, hbig, hcase⟩ := hs
  have hw := timeMean_w e l hreg d
  cases e with
  | some st =>
    rcases hcase with h0 | ⟨ht, hlt, _⟩
    · rw [sum_zero_of h0] at hw
      rw [hw]
      unfold weight
      simp only [stat_zero ex _ st d hw]
    · have ht' := ht
      rw [← hw] at ht
      unfold weight
      simp only [stat_single ex _ st d ht]
      rw [Real.sq_sqrt (clipVar_nonneg _)]
      have hsum : ((l.map (prep (some st))).map (fun a => clipVar (a.var st d) * a.w d ^ 2)).sum = (l.map (fun c => specWeight (some st) c d)).sum := by
        apply sum_map_prep
        intro c hc
        show clipVar ((c.stat st d).map (· ^ 2)) * weight (some st) c d ^ 2 = _
        rw [weight_eq _ c (hreg c hc)]
        cases hx : c.stat st d with
        | none => simp [specWeight, hx]
        | some x =>
          have h1 := (hreg c hc).2 st rfl d x hx
          have h2 := hbig st rfl c hc x hx
          have hpos : 0 < x := lt_of_lt_of_le (by norm_num) h1
          simp only [Option.map_some, specWeight, hx]
          rw [clipVar_of (by positivity) (by
            calc x ^ 2 ≤ (10 ^ 20) ^ 2 := by gcongr
              _ = 10 ^ 40 := by norm_num)]
          field_simp
      have hvar : clipVar ((timeMean (l.map (prep (some st)))).var st d) = 1 / (l.map (fun c => specWeight (some st) c d)).sum := by
        simp only [timeMean]
        rw [hsum, timeMean_ws _ l hreg, clipTiny_eq ht']
        generalize (l.map (fun c => specWeight (some st) c d)).sum = W at *
        have hW : 0 < W := lt_of_lt_of_le tiny_pos ht'
        have hlt' := hlt st rfl
        rw [show W / W ^ 2 = 1 / W by field_simp, nearZeroInf_of, clipVar_of (by positivity)]
        · rw [div_le_iff₀ hW]
          unfold tiny at ht'
          rw [div_le_iff₀ (by positivity)] at ht'
          linarith
        · rw [div_lt_div_iff₀ (by positivity) hW]
          linarith
      rw [hvar, hw]
      have hW : 0 < (l.map (fun c => specWeight (some st) c d)).sum := lt_of_lt_of_le tiny_pos ht'
      rw [clipTiny_eq, one_div_one_div]
      have hlt' := hlt st rfl
      rw [le_div_iff₀ hW]
      unfold tiny
      rw [div_mul_eq_mul_div, div_le_iff₀ (by positivity)]
      linarith
  | none =>
    have hw0 := timeMean_w none l hreg 0
    have hd : (l.map (fun c => specWeight none c d)) = l.map (fun c => specWeight none c 0) := rfl
    have hnn : 0 ≤ (l.map (·.nsmp)).sum := sum_nonneg_of (fun c hc => (hreg c hc).1)
    have hnsmp : (groupMean ex [timeMean (l.map (prep none))]).nsmp = (l.map (·.nsmp)).sum := by
      simp [groupMean, timeMean, prep, Function.comp_def]
    unfold weight
    simp only [hnsmp]
    rw [mul_pow, Real.sq_sqrt hnn, hw, hd]
    rcases hcase with h0 | ⟨ht, _, ht0⟩
    · have hz : (timeMean (l.map (prep none))).w 0 = 0 := by rw [hw0]; exact sum_zero_of (fun c hc => h0 c hc)
      have hi : (groupMean ex [timeMean (l.map (prep none))]).ints = 0 := by
        simp only [groupMean, List.map_cons, List.map_nil, List.sum_cons, List.sum_nil, add_zero, hz]
        simp
      rw [hi, sum_zero_of (f := fun c => specWeight none c 0) (fun c hc => h0 c hc)]
      simp
    · obtain ⟨t, hti⟩ := ht0 rfl
      have hz : tiny ≤ (timeMean (l.map (prep none))).w 0 := by rw [hw0]; exact ht
      have hi : (groupMean ex [timeMean (l.map (prep none))]).ints = t := by
        simp only [groupMean, List.map_cons, List.map_nil, List.sum_cons, List.sum_nil, add_zero]
        rw [clipTiny_eq hz, mul_div_cancel_right₀ _ (lt_of_lt_of_le tiny_pos hz).ne']
        have hRS : RegularSum none l 0 := Or.inr ht
        have := timeMean_scalar none l hreg 0 hRS (fun a => a.ints 0) (fun c => c.ints) (fun c _ => rfl)
        have e1 : (l.map (fun c => specWeight none c 0 * c.ints)).sum = t * (timeMean (l.map (prep none))).w 0 := by
          rw [hw0, ← List.sum_map_mul_left]
          congr 1
          apply List.map_congr_left
          intro c hc
          rw [hti c hc, mul_comm]
        rw [e1] at this
        exact mul_right_cancel₀ (lt_of_lt_of_le tiny_pos hz).ne' this
      rw [hi, ← List.sum_map_mul_left]
      congr 1
      apply List.map_congr_left
      intro c hc
      show t ^ 2 * c.nsmp = c.ints ^ 2 * c.nsmp
      rw [hti c hc]

theorem keeps_one (e : Option String) (ex : Bool) (l : List (Cell E)) (d : Nat) (hs : Steady e l d) :
    Keeps ex d (prep e (groupMean ex [timeMean (l.map (prep e))])) (timeMean (l.map (prep e))) := by
  have hw := weight_one e ex l d hs
  have hw' : (prep e (groupMean ex [timeMean (l.map (prep e))])).w d = (timeMean (l.map (prep e))).w d := hw
  have hW := timeMean_w e l hs.1 d
  have hcase : (timeMean (l.map (prep e))).w d = 0 ∨ tiny ≤ (timeMean (l.map (prep e))).w d := by
    rw [hW]
    exact hs.2.2.imp (fun h0 => sum_zero_of h0) (fun h => h.1)
  generalize hA : timeMean (l.map (prep e)) = A at *
  refine ⟨hw', ?_, ?_, ?_, ?_, ?_, ?_⟩
  · rw [hw']
    rcases hcase with h0 | ht
    · rw [h0, zero_smul, zero_smul]
    · show A.w d • (groupMean ex [A]).data d = _
      simp only [groupMean, List.map_cons, List.map_nil, List.sum_cons, List.sum_nil, add_zero]
      rw [clipTiny_eq ht, smul_smul (A.w d)⁻¹, inv_mul_cancel₀ (lt_of_lt_of_le tiny_pos ht).ne', one_smul]
  · intro st
    rw [hw']
    rcases hcase with h0 | ht
    · rw [h0]; simp
    · show clipVar (((groupMean ex [A]).stat st d).map (· ^ 2)) * _ = _
      have := stat_single ex (l.map (prep e)) st d (by rw [hA]; exact ht)
      rw [hA] at this
      rw [this, Option.map_some, Real.sq_sqrt (clipVar_nonneg _), clipVar_of (clipVar_nonneg _) (clipVar_le _)]
  · rintro rfl j
    rw [hw']
    rcases hcase with h0 | ht
    · rw [h0]; simp
    · show (groupMean false [A]).win d j * _ = _
      simp only [groupMean, List.map_cons, List.map_nil, List.sum_cons, List.sum_nil, add_zero, Bool.false_eq_true, if_false]
      rw [clipTiny_eq ht, mul_div_cancel_right₀ _ (lt_of_lt_of_le tiny_pos ht).ne']
  · simp [prep, groupMean]
  · rintro rfl
    rw [hw']
    rcases hcase with h0 | ht
    · rw [h0]; simp
    · show (groupMean ex [A]).ints * _ = _
      simp only [groupMean, List.map_cons, List.map_nil, List.sum_cons, List.sum_nil, add_zero]
      rw [clipTiny_eq ht, mul_div_cancel_right₀ _ (lt_of_lt_of_le tiny_pos ht).ne']
  · rintro rfl f
    rw [hw']
    rcases hcase with h0 | ht
    · rw [h0]; simp
    · show (groupMean ex [A]).wgts f * _ = _
      simp only [groupMean, List.map_cons, List.map_nil, List.sum_cons, List.sum_nil, add_zero]
      rw [clipTiny_eq ht, mul_div_cancel_right₀ _ (lt_of_lt_of_le tiny_pos ht).ne']

theorem keeps_mean (ex : Bool) (d : Nat) (x : Acc E) (hw : x.w d = 0 ∨ tiny ≤ x.w d)
    (hv : x.w d ≠ 0 → ∀ st, 1 / 10 ^ 8 < clipVar (x.var st d)) : Keeps ex d (timeMean [x]) x := by
  have hw' : (timeMean [x]).w d = x.w d := by simp [timeMean]
  refine ⟨hw', ?_, ?_, ?_, ?_, ?_, ?_⟩
  · rw [hw']
    rcases hw with h0 | ht
    · rw [h0, zero_smul, zero_smul]
    · simp only [timeMean, List.map_cons, List.map_nil, List.sum_cons, List.sum_nil, add_zero]
      rw [clipTiny_eq ht, smul_smul (x.w d)⁻¹, inv_mul_cancel₀ (lt_of_lt_of_le tiny_pos ht).ne', one_smul]
  · intro st
    rw [hw']
    rcases hw with h0 | ht
    · rw [h0]; simp
    · have hne := (lt_of_lt_of_le tiny_pos ht).ne'
      simp only [timeMean, List.map_cons, List.map_nil, List.sum_cons, List.sum_nil, add_zero]
      rw [clipTiny_eq ht, div_self_sq hne, nearZeroInf_of (hv hne st), clipVar_of (clipVar_nonneg _) (clipVar_le _)]
  · rintro _ j
    rw [hw']
    rcases hw with h0 | ht
    · rw [h0]; simp
    · simp only [timeMean, List.map_cons, List.map_nil, List.sum_cons, List.sum_nil, add_zero]
      rw [clipTiny_eq ht, mul_div_cancel_right₀ _ (lt_of_lt_of_le tiny_pos ht).ne']
  · simp [timeMean]
  · rintro rfl
    rw [hw']
    rcases hw with h0 | ht
    · rw [h0]; simp
    · simp only [timeMean, List.map_cons, List.map_nil, List.sum_cons, List.sum_nil, add_zero]
      rw [clipTiny_eq ht, mul_div_cancel_right₀ _ (lt_of_lt_of_le tiny_pos ht).ne']
  · rintro rfl f
    rw [hw']
    rcases hw with h0 | ht
    · rw [h0]; simp
    · simp only [timeMean, List.map_cons, List.map_nil, List.sum_cons, List.sum_nil, add_zero]
      rw [clipTiny_eq ht, mul_div_cancel_right₀ _ (lt_of_lt_of_le tiny_pos ht).ne']

theorem Keeps.trans {ex : Bool} {d : Nat} {x y z : Acc E} (h1 : Keeps ex d x y) (h2 : Keeps ex d y z) : Keeps ex d x z :=
  ⟨h1.w.trans h2.w, h1.data.trans h2.data, fun st => (h1.var st).trans (h2.var st), fun h j => (h1.win h j).trans (h2.win h j),
    h1.nsmp.trans h2.nsmp, fun h => (h1.ints h).trans (h2.ints h), fun h f => (h1.wgts h f).trans (h2.wgts h f)⟩

/-- What the second call reads of a pair. -/
theorem keeps_again (e : Option String) (ta ex : Bool) (l : List (Cell E)) (d : Nat) (hs : Steady e l d) (x : Acc E)
    (hx : x = if ta then timeMean [prep e (groupMean ex [timeMean (l.map (prep e))])] else prep e (groupMean ex [timeMean (l.map (prep e))])) :
    Keeps ex d x (timeMean (l.map (prep e))) := by
  have h1 := keeps_one e ex l d hs
  cases ta with
  | false => rw [hx]; exact h1
  | true =>
    rw [hx]
    refine Keeps.trans (keeps_mean ex d _ ?_ ?_) h1
    · rw [h1.w, timeMean_w e l hs.1 d]
      exact hs.2.2.imp (fun h0 => sum_zero_of h0) (fun h => h.1)
    · intro hne st
      have ht : tiny ≤ (timeMean (l.map (prep e))).w d := by
        rw [h1.w] at hne
        rw [timeMean_w e l hs.1 d] at hne ⊢
        rcases hs.2.2 with h0 | h
        · exact absurd (sum_zero_of h0) hne
        · exact h.1
      show _ < clipVar (((groupMean ex [_]).stat st d).map (· ^ 2))
      rw [stat_single ex _ st d ht, Option.map_some, Real.sq_sqrt (clipVar_nonneg _), clipVar_of (clipVar_nonneg _) (clipVar_le _)]
      exact clip_near (mean_var_nonneg _ st d)

theorem sums_again {M : Type} [AddCommMonoid M] (nz : Bool) (g : List Nat × List ℝ) (X A : Nat → Acc E) (q : Acc E → M)
    (h : ∀ b ∈ g.1, q (X b) = q (A b)) :
    (((g.1.zip (mult nz g.2)).flatMap (fun bm => (List.replicate bm.2 ([X bm.1][0]?).toList).flatten)).map q).sum =
      (((g.1.zip (mult nz g.2)).flatMap (fun bm => (List.replicate bm.2 ([A bm.1][0]?).toList).flatten)).map q).sum := by
  rw [sum_flatMap, sum_flatMap]
  congr 1
  apply List.map_congr_left
  intro bm hbm
  rw [sum_replicate_flatten, sum_replicate_flatten]
  simp [h bm.1 (List.of_mem_zip hbm).1]

/-- The two groups of copies average to the same. -/
theorem mean_again (ex nz : Bool) (g : List Nat × List ℝ) (X A : Nat → Acc E) {c2 c : Cell E}
    (hc2 : c2 = groupMean ex ((g.1.zip (mult nz g.2)).flatMap (fun bm => (List.replicate bm.2 ([X bm.1][0]?).toList).flatten)))
    (hc : c = groupMean ex ((g.1.zip (mult nz g.2)).flatMap (fun bm => (List.replicate bm.2 ([A bm.1][0]?).toList).flatten))) :
    (∀ d, (∀ b ∈ g.1, Keeps ex d (X b) (A b)) → c2.data d = c.data d ∧ (∀ st, c2.stat st d = c.stat st d) ∧ c2.nsmp = c.nsmp ∧
      (ex = false → ∀ j, c2.win d j = c.win d j)) ∧
    ((∀ b ∈ g.1, Keeps ex 0 (X b) (A b)) → c2.ints = c.ints ∧ c2.wgts = c.wgts) := by
  subst hc2 hc
  refine ⟨fun d hk => ⟨?_, fun st => ?_, ?_, fun hex j => ?_⟩, fun hk => ⟨?_, ?_⟩⟩
  · simp only [groupMean]
    rw [sums_again nz g X A (fun a => a.w d) (fun b hb => (hk b hb).w),
      sums_again nz g X A (fun a => a.w d • a.data d) (fun b hb => (hk b hb).data)]
  · simp only [groupMean]
    rw [sums_again nz g X A (fun a => a.w d) (fun b hb => (hk b hb).w),
      sums_again nz g X A (fun a => clipVar (a.var st d) * a.w d ^ 2) (fun b hb => (hk b hb).var st)]
  · simp only [groupMean]
    rw [sums_again nz g X A (fun a => a.nsmp) (fun b hb => (hk b hb).nsmp)]
  · subst hex
    simp only [groupMean, Bool.false_eq_true, if_false]
    rw [sums_again nz g X A (fun a => a.w d) (fun b hb => (hk b hb).w),
      sums_again nz g X A (fun a => a.win d j * a.w d) (fun b hb => (hk b hb).win rfl j)]
  · simp only [groupMean]
    rw [sums_again nz g X A (fun a => a.w 0) (fun b hb => (hk b hb).w),
      sums_again nz g X A (fun a => a.ints 0 * a.w 0) (fun b hb => (hk b hb).ints rfl)]
  · funext f
    simp only [groupMean]
    rw [sums_again nz g X A (fun a => a.w 0) (fun b hb => (hk b hb).w),
      sums_again nz g X A (fun a => a.wgts f * a.w 0) (fun b hb => (hk b hb).wgts rfl f)]

theorem groups_again {so : List Nat → List Nat} {a : Args} {u v : Obj E} (h : v.rows.map (·.blp) = Combine.uniq (u.rows.map (·.blp)))
    (hex : v.exact = u.exact) (ta : Bool) : groupsOf so { a with timeAvg := ta } v = groupsOf so { a with timeAvg := true } u := by
  have hu : Combine.uniq (v.rows.map (·.blp)) = Combine.uniq (u.rows.map (·.blp)) := by rw [h]; exact uniq_of_nodup _ (Combine.uniq_nodup _)
  have hm : ∀ b, b ∈ v.rows.map (·.blp) ↔ b ∈ u.rows.map (·.blp) := by intro b; rw [h]; exact Combine.mem_uniq _ b
  unfold groupsOf weightsOf
  simp only [hu, hex, hm]

/-- What the second call reads of a pair. -/
noncomputable def again (e : Option String) (ta : Bool) (u : Obj E) (s p b : Nat) : Acc E :=
  if ta then timeMean [prep e (one e u s p b)] else prep e (one e u s p b)

/-- The copies of the pairs of a group, each read as one integration `X b`. -/
noncomputable def spread (nz : Bool) (g : List Nat × List ℝ) (X : Nat → Acc E) : List (Acc E) :=
  (g.1.zip (mult nz g.2)).flatMap (fun bm => (List.replicate bm.2 ([X bm.1][0]?).toList).flatten)

theorem two_cells {circ : List ℝ → ℝ} {so : List Nat → List Nat} {F : List String} {nz ta : Bool} {a : Args} {u v1 v2 v : Obj E}
    (h1 : averageSpectra circ so (timeOnly F a.errorWeights nz) u = .ok v1)
    (h2 : averageSpectra circ so { a with timeAvg := ta } v1 = .ok v2)
    (h : averageSpectra circ so { a with timeAvg := true } u = .ok v) :
    ∃ gs : List (List Nat × List ℝ), groupsOf so { a with timeAvg := true } u = .ok gs ∧ (ta = false → v2.rows = v.rows) ∧
      ∀ s p cs, (u.cells[s]?.bind (·[p]?)) = some cs →
        (v2.cells[s]?.bind (·[p]?)) = some (gs.map (fun g => groupMean u.exact (spread a.normalize g (again a.errorWeights ta u s p)))) ∧
        (v.cells[s]?.bind (·[p]?)) = some (gs.map (fun g => groupMean u.exact (spread a.normalize g
          (fun b => timeMean ((integrations u s p b).map (prep a.errorWeights)))))) := by
  obtain ⟨hr, hex, _, _, _, hcells1, hmeta1⟩ := first_step h1
  obtain ⟨gs, hgs, ⟨ms, hms, hf⟩, _, _, _, _, hcells⟩ := averageSpectra_ok h
  obtain ⟨gs2, hgs2, ⟨ms2, hms2, hf2⟩, _, _, _, _, hcells2⟩ := averageSpectra_ok h2
  rw [groups_again hr hex ta] at hgs2
  rw [hgs] at hgs2
  injection hgs2 with hgs2
  subst hgs2
  refine ⟨gs, hgs, ?_, ?_⟩
  · rintro rfl
    rw [hms2, hms]
    congr 1
    have : ∀ g m m2, groupMeta circ true u g = .ok m → groupMeta circ false v1 g = .ok m2 → m2 = m := by
      intro g m m2 hm hm2
      unfold groupMeta at hm hm2
      cases hg : g.1 with
      | nil => rw [hg] at hm; cases hm
      | cons b bs =>
        rw [hg] at hm hm2
        simp only at hm hm2
        cases hi : indices u b with
        | error e => rw [hi] at hm; cases hm
        | ok is =>
          cases hi2 : indices v1 b with
          | error e => rw [hi2] at hm2; cases hm2
          | ok is2 =>
            have hb : b ∈ u.rows.map (·.blp) := by
              obtain ⟨hl, hne⟩ := indices_ok hi
              obtain ⟨j, hj⟩ := List.exists_mem_of_ne_nil _ hne
              rw [hl, List.mem_filter] at hj
              have hj2 := hj.2
              simp only [decide_eq_true_eq, Option.map_eq_some_iff] at hj2
              obtain ⟨m, hm1, hm2⟩ := hj2
              exact List.mem_map.2 ⟨m, List.mem_of_getElem? hm1, hm2⟩
            obtain ⟨x, hx1, hx2⟩ := hmeta1 b hb
            rw [hi2] at hm2
            simp only [Bool.false_eq_true, if_false] at hm2
            injection hm2 with hm2
            rw [indices_meta hi2] at hm2
            unfold metaOf at hm2
            rw [hx1] at hm2
            have hmb : groupMeta circ true u ([b], [1]) = .ok m := by
              unfold groupMeta
              simp only [hi]
              rw [hi] at hm
              simpa using hm
            rw [hmb] at hx2
            injection hx2 with hx2
            rw [hx2, ← hm2]
            have hxb : x.blp = b := by
              have : x ∈ v1.rows.filter (fun m => m.blp = b) := by rw [hx1]; exact List.mem_singleton_self x
              simpa using (List.mem_filter.1 this).2
            rw [List.map_singleton, ← hxb]
    clear * - hf hf2 this
    induction hf generalizing ms2 with
    | nil => cases hf2; rfl
    | cons ha _ ih =>
      cases hf2 with
      | cons hb hf2 => rw [this _ _ _ ha hb, ih _ hf2]
  · intro s p cs hc
    obtain ⟨bl, hb, hbf⟩ := hcells s p cs hc
    obtain ⟨bl2, hb2, hbf2⟩ := hcells2 s p _ (hcells1 s p cs hc)
    have hone : ∀ g r, groupRows a.errorWeights true a.normalize u s p g = .ok r →
        r = [groupMean u.exact (accMembers a.errorWeights true a.normalize u s p g 0)] := by
      intro g r hg
      obtain ⟨_, _, n, ⟨bm, hbm, hp⟩, hn, rfl⟩ := groupRows_ok hg
      have := hn bm hbm hp
      have : n = 1 := by rw [← this]; simp [accs]
      subst this
      rfl
    have hmem : ∀ g r, groupRows a.errorWeights true a.normalize u s p g = .ok r → ∀ b ∈ g.1, b ∈ u.rows.map (·.blp) := by
      intro g r hg b hb
      have := (groupRows_ok hg).2.1 b hb
      unfold accsOf cellsOf at this
      cases hi : indices u b with
      | error e => rw [hi] at this; cases this
      | ok is =>
        obtain ⟨hl, hne⟩ := indices_ok hi
        obtain ⟨j, hj⟩ := List.exists_mem_of_ne_nil _ hne
        rw [hl, List.mem_filter] at hj
        have hj2 := hj.2
        simp only [decide_eq_true_eq, Option.map_eq_some_iff] at hj2
        obtain ⟨m, hm1, hm2⟩ := hj2
        exact List.mem_map.2 ⟨m, List.mem_of_getElem? hm1, hm2⟩
    have haccs : ∀ b ∈ u.rows.map (·.blp), accs a.errorWeights ta v1 s p b =
        [if ta then timeMean [prep a.errorWeights (one a.errorWeights u s p b)] else prep a.errorWeights (one a.errorWeights u s p b)] := by
      intro b hb
      unfold accs
      rw [first_integrations h1 hc hb]
      cases ta <;> rfl
    have htwo : ∀ g r, (∀ b ∈ g.1, b ∈ u.rows.map (·.blp)) → groupRows a.errorWeights ta a.normalize v1 s p g = .ok r →
        r = [groupMean u.exact (accMembers a.errorWeights ta a.normalize v1 s p g 0)] := by
      intro g r hgm hg
      obtain ⟨_, _, n, ⟨bm, hbm, hp⟩, hn, rfl⟩ := groupRows_ok hg
      have := hn bm hbm hp
      rw [haccs bm.1 (hgm _ (List.of_mem_zip hbm).1)] at this
      have : n = 1 := by rw [← this]; rfl
      subst this
      rw [hex]; rfl
    have hbl : bl.flatten = gs.map (fun g => groupMean u.exact (accMembers a.errorWeights true a.normalize u s p g 0)) := by
      have : bl = gs.map (fun g => [groupMean u.exact (accMembers a.errorWeights true a.normalize u s p g 0)]) :=
        forall₂_map (hbf.imp (fun g r hg => hone g r hg))
      rw [this, flatten_singles]
    have hgm : ∀ g ∈ gs, ∀ b ∈ g.1, b ∈ u.rows.map (·.blp) := by
      intro g hg
      have : ∀ (gs : List (List Nat × List ℝ)) (bl : List (List (Cell E))), List.Forall₂ (fun g b => groupRows a.errorWeights true a.normalize u s p g = .ok b) gs bl →
          ∀ g ∈ gs, ∃ r, groupRows a.errorWeights true a.normalize u s p g = .ok r := by
        intro gs bl hf
        induction hf with
        | nil => intro g hg; cases hg
        | cons h1 _ ih =>
          intro g hg
          rcases List.mem_cons.1 hg with rfl | hg
          · exact ⟨_, h1⟩
          · exact ih g hg
      obtain ⟨r, hr⟩ := this gs bl hbf g hg
      exact hmem g r hr
    have hbl2 : bl2.flatten = gs.map (fun g => groupMean u.exact (accMembers a.errorWeights ta a.normalize v1 s p g 0)) := by
      have : bl2 = gs.map (fun g => [groupMean u.exact (accMembers a.errorWeights ta a.normalize v1 s p g 0)]) := by
        clear * - hbf2 hgm htwo
        simp only at hbf2
        induction hbf2 with
        | nil => rfl
        | cons hx _ ih =>
          rw [List.map_cons, htwo _ _ (hgm _ List.mem_cons_self) hx, ih (fun g hg => hgm g (List.mem_cons_of_mem _ hg))]
      rw [this, flatten_singles]
    rw [hb2, hb, hbl2, hbl]
    refine ⟨?_, rfl⟩
    congr 1
    apply List.map_congr_left
    intro g hg
    have hgb := hgm g hg
    congr 1
    unfold accMembers spread
    rw [List.flatMap_def, List.flatMap_def]
    congr 1
    apply List.map_congr_left
    intro bm hbm
    rw [haccs bm.1 (hgb _ (List.of_mem_zip hbm).1)]
    rfl

/-- C156: averaging every baseline-pair in time and then the pairs (with or without asking again for an average in time) gives, with the same choice of weights,
the groups, the rows per group, the spectra, the error bars and numbers of samples, the integration times and the weights, and the approximate window
functions of a single call, at every delay at which the total weight of the integrations of every pair survives being stored (`Steady`). Without asking again for
an average in time the metadata are the same as well.
Missing: with integration-time weights the integrations of a pair must all have the same integration time, and with error weights the averaged error of a pair
must exceed `1e-4` (`C156_counterexample_times`, `C156_counterexample_precise`); exact window functions are excluded. -/
theorem C156_two_steps_partial {circ : List ℝ → ℝ} {so : List Nat → List Nat} {F : List String} {nz ta : Bool} {a : Args} {u v1 v2 v : Obj E}
    (h1 : averageSpectra circ so (timeOnly F a.errorWeights nz) u = .ok v1)
    (h2 : averageSpectra circ so { a with timeAvg := ta } v1 = .ok v2)
    (h : averageSpectra circ so { a with timeAvg := true } u = .ok v) :
    ∃ gs : List (List Nat × List ℝ), groupsOf so { a with timeAvg := true } u = .ok gs ∧ (ta = false → v2.rows = v.rows) ∧
      ∀ s p cs, (u.cells[s]?.bind (·[p]?)) = some cs →
        ∃ cs2 cs1 : List (Cell E), (v2.cells[s]?.bind (·[p]?)) = some cs2 ∧ (v.cells[s]?.bind (·[p]?)) = some cs1 ∧
          cs2.length = gs.length ∧ cs1.length = gs.length ∧
          ∀ (i : Nat) (g : List Nat × List ℝ) (c2 c : Cell E), gs[i]? = some g → cs2[i]? = some c2 → cs1[i]? = some c →
            (∀ d, (∀ b ∈ g.1, Steady a.errorWeights (integrations u s p b) d) →
              c2.data d = c.data d ∧ (∀ st, c2.stat st d = c.stat st d) ∧ c2.nsmp = c.nsmp ∧ (u.exact = false → ∀ j, c2.win d j = c.win d j)) ∧
            ((∀ b ∈ g.1, Steady a.errorWeights (integrations u s p b) 0) → c2.ints = c.ints ∧ c2.wgts = c.wgts) := by
  obtain ⟨gs, hgs, hrows, hcells⟩ := two_cells h1 h2 h
  refine ⟨gs, hgs, hrows, ?_⟩
  intro s p cs hc
  obtain ⟨hb2, hb⟩ := hcells s p cs hc
  refine ⟨_, _, hb2, hb, by rw [List.length_map], by rw [List.length_map], ?_⟩
  intro i g c2 c hg hc2 hc1
  rw [List.getElem?_map, hg] at hc2 hc1
  injection hc2 with hc2
  injection hc1 with hc1
  have key := mean_again u.exact a.normalize g (again a.errorWeights ta u s p)
    (fun b => timeMean ((integrations u s p b).map (prep a.errorWeights))) (c2 := c2) (c := c) hc2.symm hc1.symm
  exact ⟨fun d hs => key.1 d (fun b hb => keeps_again a.errorWeights ta u.exact _ d (hs b hb) _ rfl),
    fun hs => key.2 (fun b hb => keeps_again a.errorWeights ta u.exact _ 0 (hs b hb) _ rfl)⟩

/-! ### Covariances -/

theorem cov_again {d e : Nat} {y z : Acc E} (hd : z.w d = 0 ∨ tiny ≤ z.w d) (he : z.w e = 0 ∨ tiny ≤ z.w e)
    (hwd : y.w d = z.w d) (hwe : y.w e = z.w e) (hc : z.w d ≠ 0 → z.w e ≠ 0 → y.cov d e = z.cov d e * z.w d * z.w e / clipTiny (z.w d) / clipTiny (z.w e)) :
    y.cov d e * y.w d * y.w e = z.cov d e * z.w d * z.w e := by
  rw [hwd, hwe]
  rcases hd with h0 | ht
  · rw [h0]; simp
  · rcases he with h0 | ht2
    · rw [h0]; simp
    · have n1 := (lt_of_lt_of_le tiny_pos ht).ne'
      have n2 := (lt_of_lt_of_le tiny_pos ht2).ne'
      rw [hc n1 n2, clipTiny_eq ht, clipTiny_eq ht2]
      field_simp

/-- What the second call reads of the covariance of a pair. -/
theorem keeps_cov (e : Option String) (ta ex : Bool) (l : List (Cell E)) (d d' : Nat) (hs : Steady e l d) (hs' : Steady e l d') (x : Acc E)
    (hx : x = if ta then timeMean [prep e (groupMean ex [timeMean (l.map (prep e))])] else prep e (groupMean ex [timeMean (l.map (prep e))])) :
    x.cov d d' * x.w d * x.w d' = (timeMean (l.map (prep e))).cov d d' * (timeMean (l.map (prep e))).w d * (timeMean (l.map (prep e))).w d' := by
  have k := keeps_one e ex l d hs
  have k' := keeps_one e ex l d' hs'
  have big : ∀ d, Steady e l d → (timeMean (l.map (prep e))).w d = 0 ∨ tiny ≤ (timeMean (l.map (prep e))).w d := by
    intro d hs
    rw [timeMean_w e l hs.1 d]
    exact hs.2.2.imp (fun h0 => sum_zero_of h0) (fun h => h.1)
  have h1 : (prep e (groupMean ex [timeMean (l.map (prep e))])).cov d d' * (prep e (groupMean ex [timeMean (l.map (prep e))])).w d * (prep e (groupMean ex [timeMean (l.map (prep e))])).w d'
      = (timeMean (l.map (prep e))).cov d d' * (timeMean (l.map (prep e))).w d * (timeMean (l.map (prep e))).w d' := by
    apply cov_again (big d hs) (big d' hs') k.w k'.w
    intro _ _
    show (groupMean ex [timeMean (l.map (prep e))]).cov d d' = _
    simp only [groupMean, List.map_cons, List.map_nil, List.sum_cons, List.sum_nil, add_zero]
  cases ta with
  | false => rw [hx]; exact h1
  | true =>
    rw [hx, if_pos rfl, ← h1]
    apply cov_again
    · rw [k.w]; exact big d hs
    · rw [k'.w]; exact big d' hs'
    · simp [timeMean]
    · simp [timeMean]
    · intro _ _
      simp only [timeMean, List.map_cons, List.map_nil, List.sum_cons, List.sum_nil, add_zero]

/-- C156: also the covariances of the averaged spectra are the same in two steps as in one, between every two delays at which the total weights of the integrations of
every pair survive being stored (`Steady`).
Missing: as in `C156_two_steps_partial`, pairs whose integration times differ (with integration-time weights) or with averaged errors below `1e-4` (with error weights). -/
theorem C156_two_steps_covariance_partial {circ : List ℝ → ℝ} {so : List Nat → List Nat} {F : List String} {nz ta : Bool} {a : Args} {u v1 v2 v : Obj E}
    (h1 : averageSpectra circ so (timeOnly F a.errorWeights nz) u = .ok v1)
    (h2 : averageSpectra circ so { a with timeAvg := ta } v1 = .ok v2)
    (h : averageSpectra circ so { a with timeAvg := true } u = .ok v) :
    ∃ gs : List (List Nat × List ℝ), groupsOf so { a with timeAvg := true } u = .ok gs ∧
      ∀ s p cs, (u.cells[s]?.bind (·[p]?)) = some cs →
        ∃ cs2 cs1 : List (Cell E), (v2.cells[s]?.bind (·[p]?)) = some cs2 ∧ (v.cells[s]?.bind (·[p]?)) = some cs1 ∧
          cs2.length = gs.length ∧ cs1.length = gs.length ∧
          ∀ (i : Nat) (g : List Nat × List ℝ) (c2 c : Cell E), gs[i]? = some g → cs2[i]? = some c2 → cs1[i]? = some c →
            ∀ d d', (∀ b ∈ g.1, Steady a.errorWeights (integrations u s p b) d ∧ Steady a.errorWeights (integrations u s p b) d') → c2.cov d d' = c.cov d d' := by
  obtain ⟨gs, hgs, _, hcells⟩ := two_cells h1 h2 h
  refine ⟨gs, hgs, ?_⟩
  intro s p cs hc
  obtain ⟨hb2, hb⟩ := hcells s p cs hc
  refine ⟨_, _, hb2, hb, by rw [List.length_map], by rw [List.length_map], ?_⟩
  intro i g c2 c hg hc2 hc1 d d' hs
  rw [List.getElem?_map, hg] at hc2 hc1
  injection hc2 with hc2
  injection hc1 with hc1
  rw [← hc2, ← hc1]
  have kd : ∀ b ∈ g.1, Keeps u.exact d (again a.errorWeights ta u s p b) (timeMean ((integrations u s p b).map (prep a.errorWeights))) :=
    fun b hb => keeps_again a.errorWeights ta u.exact _ d (hs b hb).1 _ rfl
  have kd' : ∀ b ∈ g.1, Keeps u.exact d' (again a.errorWeights ta u s p b) (timeMean ((integrations u s p b).map (prep a.errorWeights))) :=
    fun b hb => keeps_again a.errorWeights ta u.exact _ d' (hs b hb).2 _ rfl
  simp only [groupMean, spread]
  rw [sums_again a.normalize g _ _ (fun a => a.w d) (fun b hb => (kd b hb).w), sums_again a.normalize g _ _ (fun a => a.w d') (fun b hb => (kd' b hb).w),
    sums_again a.normalize g (again a.errorWeights ta u s p) _ (fun a => a.cov d d' * a.w d * a.w d') (fun b hb => keeps_cov a.errorWeights ta u.exact _ d d' (hs b hb).1 (hs b hb).2 _ rfl)]

/-! ### Exact window functions -/

theorem win_again (e : Option String) (ta : Bool) (l : List (Cell E)) (d : Nat) (hs : Steady e l d) (x : Acc E)
    (hx : x = if ta then timeMean [prep e (groupMean true [timeMean (l.map (prep e))])] else prep e (groupMean true [timeMean (l.map (prep e))])) (j : Nat) :
    x.win d j * x.w d = (timeMean (l.map (prep e))).win d j * (timeMean (l.map (prep e))).w d ^ 2 := by
  have k := (keeps_one e true l d hs).w
  have big : (timeMean (l.map (prep e))).w d = 0 ∨ tiny ≤ (timeMean (l.map (prep e))).w d := by
    rw [timeMean_w e l hs.1 d]
    exact hs.2.2.imp (fun h0 => sum_zero_of h0) (fun h => h.1)
  have h1 : (prep e (groupMean true [timeMean (l.map (prep e))])).win d j * (prep e (groupMean true [timeMean (l.map (prep e))])).w d
      = (timeMean (l.map (prep e))).win d j * (timeMean (l.map (prep e))).w d ^ 2 := by
    rw [k]
    show (groupMean true [timeMean (l.map (prep e))]).win d j * _ = _
    simp only [groupMean, List.map_cons, List.map_nil, List.sum_cons, List.sum_nil, add_zero, if_true]
    ring
  cases ta with
  | false => rw [hx]; exact h1
  | true =>
    rw [hx, if_pos rfl, ← h1]
    have hw' : ∀ x : Acc E, (timeMean [x]).w d = x.w d := fun x => by simp [timeMean]
    rw [hw', k]
    rcases big with h0 | ht
    · rw [h0]; simp
    · simp only [timeMean, List.map_cons, List.map_nil, List.sum_cons, List.sum_nil, add_zero]
      simp only [timeMean] at k ht
      rw [k, clipTiny_eq ht, mul_div_cancel_right₀ _ (lt_of_lt_of_le tiny_pos ht).ne']

/-- C156 finding: with exact window functions, which averaging does not divide by the weights, averaging in steps multiplies the window of every pair with the weight of the
pair once more than averaging at once: the windows are `Σ m_b W_b² w_b` instead of `Σ m_b W_b w_b`, with `m_b` the number of copies of pair `b`, `W_b` its total weight and
`w_b` its mean window over time. -/
theorem C156_finding_exact_windows {circ : List ℝ → ℝ} {so : List Nat → List Nat} {F : List String} {nz ta : Bool} {a : Args} {u v1 v2 v : Obj E}
    (hex : u.exact = true) (h1 : averageSpectra circ so (timeOnly F a.errorWeights nz) u = .ok v1)
    (h2 : averageSpectra circ so { a with timeAvg := ta } v1 = .ok v2)
    (h : averageSpectra circ so { a with timeAvg := true } u = .ok v) :
    ∃ gs : List (List Nat × List ℝ), groupsOf so { a with timeAvg := true } u = .ok gs ∧
      ∀ s p cs, (u.cells[s]?.bind (·[p]?)) = some cs →
        ∃ cs2 cs1 : List (Cell E), (v2.cells[s]?.bind (·[p]?)) = some cs2 ∧ (v.cells[s]?.bind (·[p]?)) = some cs1 ∧
          cs2.length = gs.length ∧ cs1.length = gs.length ∧
          ∀ (i : Nat) (g : List Nat × List ℝ) (c2 c : Cell E), gs[i]? = some g → cs2[i]? = some c2 → cs1[i]? = some c →
            ∀ d, (∀ b ∈ g.1, Steady a.errorWeights (integrations u s p b) d) → ∀ j,
              let W := fun b => ((integrations u s p b).map (fun c => specWeight a.errorWeights c d)).sum
              let w := fun b => (timeMean ((integrations u s p b).map (prep a.errorWeights))).win d j
              c2.win d j = ((g.1.zip (mult a.normalize g.2)).map (fun bm => bm.2 • (w bm.1 * W bm.1 ^ 2))).sum ∧
              c.win d j = ((g.1.zip (mult a.normalize g.2)).map (fun bm => bm.2 • (w bm.1 * W bm.1))).sum := by
  obtain ⟨gs, hgs, _, hcells⟩ := two_cells h1 h2 h
  refine ⟨gs, hgs, ?_⟩
  intro s p cs hc
  obtain ⟨hb2, hb⟩ := hcells s p cs hc
  refine ⟨_, _, hb2, hb, by rw [List.length_map], by rw [List.length_map], ?_⟩
  intro i g c2 c hg hc2 hc1 d hs j
  rw [List.getElem?_map, hg] at hc2 hc1
  injection hc2 with hc2
  injection hc1 with hc1
  rw [← hc2, ← hc1]
  rw [hex]
  simp only [groupMean, spread, if_true]
  rw [sum_flatMap, sum_flatMap]
  constructor
  · congr 1
    apply List.map_congr_left
    intro bm hbm
    have hb := (List.of_mem_zip hbm).1
    rw [sum_replicate_flatten]
    have := win_again a.errorWeights ta (integrations u s p bm.1) d (hs _ hb) (again a.errorWeights ta u s p bm.1) (by unfold again one; rw [hex]) j
    rw [← timeMean_w a.errorWeights _ (hs _ hb).1 d]
    simp [this]
  · congr 1
    apply List.map_congr_left
    intro bm hbm
    have hb := (List.of_mem_zip hbm).1
    rw [sum_replicate_flatten]
    rw [← timeMean_w a.errorWeights _ (hs _ hb).1 d]
    simp

/-! ### The calls succeed -/

theorem averageSpectra_of {circ : List ℝ → ℝ} {so : List Nat → List Nat} {a : Args} {u : Obj E} {gs : List (List Nat × List ℝ)}
    (hg : groupsOf so a u = .ok gs) (hs : ∀ x ∈ statNames a, x ∈ u.statNames)
    (hrow : ∀ s p cs, (u.cells[s]?.bind (·[p]?)) = some cs → ∀ g ∈ gs, ∃ r, groupRows a.errorWeights a.timeAvg a.normalize u s p g = .ok r)
    (hmeta : ∀ g ∈ gs, ∃ m, groupMeta circ a.timeAvg u g = .ok m) : ∃ v, averageSpectra circ so a u = .ok v := by
  have mk : ∀ {α β : Type} (f : α → Except Err β) (l : List α), (∀ x ∈ l, ∃ y, f x = .ok y) → ∃ ys, mapE f l = .ok ys := by
    intro α β f l
    induction l with
    | nil => intro _; exact ⟨[], rfl⟩
    | cons x l ih =>
      intro hx
      obtain ⟨y, hy⟩ := hx x List.mem_cons_self
      obtain ⟨ys, hys⟩ := ih (fun z hz => hx z (List.mem_cons_of_mem _ hz))
      exact ⟨y :: ys, by simp [mapE, hy, hys]⟩
  unfold averageSpectra
  rw [hg]
  simp only
  rw [if_neg (by simpa using hs)]
  obtain ⟨bl, hbl⟩ := mk (fun s => mapE (fun p => mapE (groupRows a.errorWeights a.timeAvg a.normalize u s p) gs)
        (List.range ((u.cells[s]?.map (·.length)).getD 0))) (List.range u.cells.length) (by
    intro s hs'
    apply mk
    intro p hp
    apply mk
    rw [List.mem_range] at hs' hp
    rw [List.getElem?_eq_getElem hs', Option.map_some, Option.getD_some] at hp
    exact hrow s p (u.cells[s])[p] (by rw [List.getElem?_eq_getElem hs', Option.bind_some, List.getElem?_eq_getElem hp]))
  rw [hbl]
  obtain ⟨ms, hms⟩ := mk (groupMeta circ a.timeAvg u) gs hmeta
  simp only [hms]
  exact ⟨_, rfl⟩

theorem indices_of {u : Obj E} {b : Nat} (hb : b ∈ u.rows.map (·.blp)) : ∃ is, indices u b = .ok is := by
  unfold indices
  simp only
  rw [if_neg]
  · exact ⟨_, rfl⟩
  · rw [List.isEmpty_iff, ← ne_eq, ← List.length_pos_iff, List.length_pos_iff_exists_mem]
    obtain ⟨m, hm, rfl⟩ := List.mem_map.1 hb
    obtain ⟨i, hi, rfl⟩ := List.mem_iff_getElem.1 hm
    exact ⟨i, by simp [hi]⟩

theorem accsOf_of {u : Obj E} (hu : Shaped u) {s p : Nat} {cs : List (Cell E)} (hc : (u.cells[s]?.bind (·[p]?)) = some cs) {b : Nat}
    (hb : b ∈ u.rows.map (·.blp)) (e : Option String) (ta : Bool) : ∃ l, accsOf e ta u s p b = .ok l := by
  obtain ⟨is, his⟩ := indices_of hb
  have hlt : ∀ i ∈ is, i < u.rows.length := by
    intro i hi
    rw [(indices_ok his).1, List.mem_filter] at hi
    exact List.mem_range.1 hi.1
  have hl := hu s p cs hc
  have hm : ∃ r, cellsOf u s p b = .ok r := by
    unfold cellsOf
    rw [his, hc]
    simp only [Option.bind_some]
    clear his
    show ∃ r, mapE (fun i => match cs[i]? with | none => (Except.error Err.index : Except Err (Cell E)) | some c => .ok c) is = .ok r
    induction is with
    | nil => exact ⟨[], rfl⟩
    | cons i is ih =>
      obtain ⟨r, hr⟩ := ih (fun j hj => hlt j (List.mem_cons_of_mem _ hj))
      have hi := hlt i List.mem_cons_self
      rw [← hl] at hi
      exact ⟨cs[i] :: r, by simp only [mapE, List.getElem?_eq_getElem hi, hr]⟩
  obtain ⟨r, hr⟩ := hm
  unfold accsOf
  rw [hr]
  exact ⟨_, rfl⟩

theorem groupMeta_of (circ : List ℝ → ℝ) (ta : Bool) {u : Obj E} {g : List Nat × List ℝ} {b : Nat} {bs : List Nat} (hg : g.1 = b :: bs)
    (hb : b ∈ u.rows.map (·.blp)) : ∃ m, groupMeta circ ta u g = .ok m := by
  obtain ⟨is, his⟩ := indices_of hb
  unfold groupMeta
  rw [hg]
  simp only [his]
  exact ⟨_, rfl⟩

/-- C156: whenever the single call succeeds on an object whose arrays have one entry per row, both steps succeed, if the first step keeps the errors named by the
second and names only errors of the object. -/
theorem C156_steps_succeed {circ : List ℝ → ℝ} {so : List Nat → List Nat} {F : List String} {nz ta : Bool} {a : Args} {u v : Obj E} (hu : Shaped u)
    (hF : ∀ x ∈ a.errorField, x ∈ F) (hF' : ∀ x ∈ F, x ∈ u.statNames)
    (h : averageSpectra circ so { a with timeAvg := true } u = .ok v) :
    ∃ v1 v2, averageSpectra circ so (timeOnly F a.errorWeights nz) u = .ok v1 ∧ averageSpectra circ so { a with timeAvg := ta } v1 = .ok v2 := by
  have hst : ∀ (a' : Args) x, x ∈ statNames a' ↔ x ∈ a'.errorField ∨ a'.errorWeights = some x := by
    intro a' x
    unfold statNames
    split
    · rename_i he; simp [he]
    · rename_i t he
      rw [he]
      split
      · rename_i ht
        constructor
        · exact Or.inl
        · rintro (h | h)
          · exact h
          · rw [← Option.some.inj h]; exact ht
      · simp [eq_comm]
  have hkept := C79_statistics_kept h
  obtain ⟨v1, h1⟩ : ∃ v1, averageSpectra circ so (timeOnly F a.errorWeights nz) u = .ok v1 := by
    refine averageSpectra_of groups_single ?_ ?_ ?_
    · intro x hx
      rw [hst] at hx
      rcases hx with hx | hx
      · exact hF' x hx
      · exact (hkept x).2 ((hkept x).1.2 (Or.inr hx))
    · intro s p cs hc g hg
      obtain ⟨b, hb, rfl⟩ := List.mem_map.1 hg
      have hb' := (Combine.mem_uniq _ b).1 hb
      refine ⟨_, groupRows_of (n := 1) (by show (0 : ℝ) < if nz = true then ([(1 : ℝ)]).sum else 1; cases nz <;> simp) ?_ ?_ ?_⟩
      · intro b2 hb2
        rw [List.mem_singleton] at hb2
        subst hb2
        obtain ⟨l, hl⟩ := accsOf_of hu hc hb' a.errorWeights true
        have := accsOf_ok hl
        show accsOf a.errorWeights true u s p b2 = .ok (accs a.errorWeights true u s p b2)
        rw [← this]
        exact hl
      · exact ⟨(b, 1), by simp [mult_single], Nat.one_pos⟩
      · intro bm _ _
        simp [accs, timeOnly]
    · intro g hg
      obtain ⟨b, hb, rfl⟩ := List.mem_map.1 hg
      exact groupMeta_of circ _ rfl ((Combine.mem_uniq _ b).1 hb)
  obtain ⟨hr, hex, hsn, hlen, hlp, hcells1, _⟩ := first_step h1
  obtain ⟨gs, hgs, ⟨ms, hms, hf⟩, _, _, _, _, hcells⟩ := averageSpectra_ok h
  have hmem1 : ∀ b, b ∈ v1.rows.map (·.blp) ↔ b ∈ u.rows.map (·.blp) := by intro b; rw [hr]; exact Combine.mem_uniq _ b
  have hSh : Shaped v1 := by
    obtain ⟨gs1, ms1, _, _, _, hx⟩ := C79_rows_match_metadata hu h1
    exact (hx (Or.inl rfl)).1
  have hall : ∀ {α β : Type} {R : α → β → Prop} {l : List α} {r : List β}, List.Forall₂ R l r → ∀ x ∈ l, ∃ y, R x y := by
    intro α β R l r hf
    induction hf with
    | nil => intro g hg; cases hg
    | cons h1 _ ih =>
      intro g hg
      rcases List.mem_cons.1 hg with rfl | hg
      · exact ⟨_, h1⟩
      · exact ih g hg
  have hind : ∀ {b is}, indices u b = .ok is → b ∈ u.rows.map (·.blp) := by
    intro b is hi
    obtain ⟨hl, hne⟩ := indices_ok hi
    obtain ⟨j, hj⟩ := List.exists_mem_of_ne_nil _ hne
    rw [hl, List.mem_filter] at hj
    have hj2 := hj.2
    simp only [decide_eq_true_eq, Option.map_eq_some_iff] at hj2
    obtain ⟨m, hm1, hm2⟩ := hj2
    exact List.mem_map.2 ⟨m, List.mem_of_getElem? hm1, hm2⟩
  have h2 : ∃ v2, averageSpectra circ so { a with timeAvg := ta } v1 = .ok v2 := by
    refine averageSpectra_of (gs := gs) (by rw [groups_again hr hex ta]; exact hgs) ?_ ?_ ?_
    · intro x hx
      rw [hst] at hx
      rw [hsn, hst]
      exact hx.imp (hF x) id
    · intro s p cs hc g hg
      have hc' : ∃ cs', (u.cells[s]?.bind (·[p]?)) = some cs' := by
        cases hv : v1.cells[s]? with
        | none => rw [hv] at hc; cases hc
        | some qs =>
          rw [hv, Option.bind_some] at hc
          have hs : s < u.cells.length := by rw [← hlen]; exact (List.getElem?_eq_some_iff.1 hv).1
          obtain ⟨qs', hq1, hq2⟩ := hlp s _ (List.getElem?_eq_getElem hs)
          rw [hv] at hq1
          injection hq1 with hq1
          subst hq1
          have hp : p < (u.cells[s]).length := by rw [← hq2]; exact (List.getElem?_eq_some_iff.1 hc).1
          exact ⟨_, by rw [List.getElem?_eq_getElem hs, Option.bind_some, List.getElem?_eq_getElem hp]⟩
      obtain ⟨cs', hc'⟩ := hc'
      obtain ⟨bl, hb, hbf⟩ := hcells s p cs' hc'
      obtain ⟨r, hr'⟩ := hall hbf g hg
      obtain ⟨hn, hacc, n, hpos, _, _⟩ := groupRows_ok hr'
      have hgb : ∀ b ∈ g.1, b ∈ u.rows.map (·.blp) := by
        intro b hb
        have := hacc b hb
        unfold accsOf cellsOf at this
        cases hi : indices u b with
        | error e => rw [hi] at this; cases this
        | ok is => exact hind hi
      refine ⟨_, groupRows_of (n := 1) hn ?_ hpos ?_⟩
      · intro b hb
        obtain ⟨l, hl⟩ := accsOf_of hSh hc ((hmem1 b).2 (hgb b hb)) a.errorWeights ta
        have := accsOf_ok hl
        show accsOf a.errorWeights ta v1 s p b = .ok (accs a.errorWeights ta v1 s p b)
        rw [← this]
        exact hl
      · intro bm hbm _
        unfold accs
        rw [first_integrations h1 hc' (hgb _ (List.of_mem_zip hbm).1)]
        cases ta <;> rfl
    · intro g hg
      obtain ⟨m, hm⟩ := hall hf g hg
      unfold groupMeta at hm
      cases hg1 : g.1 with
      | nil => rw [hg1] at hm; cases hm
      | cons b bs =>
        rw [hg1] at hm
        simp only at hm
        cases hi : indices u b with
        | error e => rw [hi] at hm; cases hm
        | ok is => exact groupMeta_of circ _ hg1 ((hmem1 b).2 (hind hi))
  obtain ⟨v2, h2⟩ := h2
  exact ⟨v1, v2, h1, h2⟩

/-! ### A concrete run, and what goes wrong -/

/-- One integration with value `x`, integration time `t` and error `σ`. -/
def stCell (x t σ : ℝ) : Cell ℝ :=
  { data := fun _ => x, wgts := fun _ => 1, ints := t, nsmp := 1, stat := fun _ _ => some σ, cov := fun _ _ => x, win := fun _ _ => 1 }

/-- Pair 1 with two integrations, pair 2 with one. -/
def stObj (c1 c2 c3 : Cell ℝ) : Obj ℝ :=
  { rows := [exMeta 1, exMeta 1, exMeta 2], cells := [[[c1, c2, c3]]], statNames := ["P_N"], exact := false }

/-- Average the two pairs. -/
def stArgs (e : Option String) : Args :=
  { groups := some [[1, 2]], weights := none, timeAvg := false, errorField := ["P_N"], errorWeights := e, normalize := true }

theorem st_groups (e : Option String) (ta : Bool) (c1 c2 c3 : Cell ℝ) : groupsOf id { stArgs e with timeAvg := ta } (stObj c1 c2 c3) = .ok [([1, 2], [1, 1])] := by
  unfold groupsOf
  simp only [stArgs, stObj, exMeta, weightsOf, Combine.uniq]
  rfl

theorem st_shaped (c1 c2 c3 : Cell ℝ) : Shaped (stObj c1 c2 c3) := by
  intro s p cs h
  match s, p with
  | 0, 0 => injection h with h; subst h; rfl
  | 0, p + 1 => simp [stObj] at h
  | s + 1, p => simp [stObj] at h

theorem st_run (e : Option String) (he : e = none ∨ e = some "P_N") (c1 c2 c3 : Cell ℝ) :
    ∃ v, averageSpectra (fun _ => 0) id { stArgs e with timeAvg := true } (stObj c1 c2 c3) = .ok v := by
  have hm : mult true [(1 : ℝ), 1] = [1, 1] := C31_equal_weights 1 one_pos 2 two_pos
  refine averageSpectra_of (st_groups e true c1 c2 c3) ?_ ?_ ?_
  · rcases he with rfl | rfl <;> simp [statNames, stArgs, stObj]
  · intro s p cs hc g hg
    rw [List.mem_singleton] at hg
    subst hg
    refine ⟨_, groupRows_of (n := 1) (by simp [stArgs]) ?_ ⟨(1, 1), by simp only [stArgs, hm]; simp, Nat.one_pos⟩ ?_⟩
    · intro b hb
      obtain ⟨l, hl⟩ := accsOf_of (st_shaped c1 c2 c3) hc (b := b) (by simpa [stObj, exMeta] using hb) e true
      have := accsOf_ok hl
      show accsOf e true (stObj c1 c2 c3) s p b = .ok (accs e true (stObj c1 c2 c3) s p b)
      rw [← this]
      exact hl
    · intro bm _ _
      simp [accs]
  · intro g hg
    rw [List.mem_singleton] at hg
    subst hg
    exact groupMeta_of _ _ rfl (by simp [stObj, exMeta])

theorem st_spread (X : Nat → Acc ℝ) : spread true ([1, 2], [(1 : ℝ), 1]) X = [X 1, X 2] := by
  have hm : mult true [(1 : ℝ), 1] = [1, 1] := C31_equal_weights 1 one_pos 2 two_pos
  unfold spread
  simp only [hm]
  simp

/-- Both ways of averaging succeed, with one spectrum each. -/
theorem st_both (e : Option String) (he : e = none ∨ e = some "P_N") (c1 c2 c3 : Cell ℝ) : ∃ v1 v2 v,
    averageSpectra (fun _ => 0) id (timeOnly ["P_N"] e true) (stObj c1 c2 c3) = .ok v1 ∧ averageSpectra (fun _ => 0) id (stArgs e) v1 = .ok v2 ∧
    averageSpectra (fun _ => 0) id { stArgs e with timeAvg := true } (stObj c1 c2 c3) = .ok v ∧
    (v2.cells[0]?.bind (·[0]?)) = some [groupMean false [again e false (stObj c1 c2 c3) 0 0 1, again e false (stObj c1 c2 c3) 0 0 2]] ∧
    (v.cells[0]?.bind (·[0]?)) = some [groupMean false [timeMean [prep e c1, prep e c2], timeMean [prep e c3]]] := by
  obtain ⟨v, h⟩ := st_run e he c1 c2 c3
  obtain ⟨v1, v2, h1, h2⟩ := C156_steps_succeed (F := ["P_N"]) (nz := true) (ta := false) (st_shaped c1 c2 c3) (by simp [stArgs]) (by simp [stObj]) h
  obtain ⟨gs, hgs, _, hcells⟩ := two_cells h1 h2 h
  rw [st_groups] at hgs
  injection hgs with hgs
  subst hgs
  obtain ⟨e1, e2⟩ := hcells 0 0 [c1, c2, c3] rfl
  refine ⟨v1, v2, v, h1, h2, h, ?_, ?_⟩
  · rw [e1]
    have := st_spread (again e false (stObj c1 c2 c3) 0 0)
    simp only [List.map_cons, List.map_nil]
    exact congrArg (fun x => some [groupMean false x]) this
  · rw [e2]
    have := st_spread (fun b => timeMean ((integrations (stObj c1 c2 c3) 0 0 b).map (prep e)))
    simp only [List.map_cons, List.map_nil]
    exact congrArg (fun x => some [groupMean false x]) this

/-- The hypotheses are met: equal integration times, or errors that are not tiny. -/
example : (∀ b ∈ [1, 2], Steady none (integrations (stObj (stCell 0 1 1) (stCell 4 1 2) (stCell 1 1 1)) 0 0 b) 0) ∧
    (∀ b ∈ [1, 2], Steady (some "P_N") (integrations (stObj (stCell 0 1 1) (stCell 4 3 2) (stCell 1 1 1)) 0 0 b) 0) := by
  have hi : ∀ c1 c2 c3 : Cell ℝ, integrations (stObj c1 c2 c3) 0 0 1 = [c1, c2] ∧ integrations (stObj c1 c2 c3) 0 0 2 = [c3] := fun _ _ _ => ⟨rfl, rfl⟩
  constructor
  · intro b hb
    rw [List.mem_cons, List.mem_singleton] at hb
    rcases hb with rfl | rfl
    · rw [(hi _ _ _).1]
      refine ⟨?_, by simp, Or.inr ⟨?_, by simp, fun _ => ⟨1, by simp [stCell]⟩⟩⟩
      · intro c hc
        simp at hc
        rcases hc with rfl | rfl <;> exact ⟨by simp [stCell], by simp⟩
      · simp [specWeight, stCell, tiny]; norm_num
    · rw [(hi _ _ _).2]
      refine ⟨?_, by simp, Or.inr ⟨?_, by simp, fun _ => ⟨1, by simp [stCell]⟩⟩⟩
      · intro c hc
        simp at hc
        subst hc
        exact ⟨by simp [stCell], by simp⟩
      · simp [specWeight, stCell, tiny]; norm_num
  · intro b hb
    rw [List.mem_cons, List.mem_singleton] at hb
    rcases hb with rfl | rfl
    · rw [(hi _ _ _).1]
      refine ⟨?_, ?_, Or.inr ⟨?_, ?_, by simp⟩⟩
      · intro c hc
        simp at hc
        rcases hc with rfl | rfl <;> refine ⟨by simp [stCell], ?_⟩ <;> intro s _ d x hx <;> simp only [stCell, Option.some.injEq] at hx <;> rw [← hx] <;> norm_num
      · intro st hst c hc x hx
        simp at hc
        rcases hc with rfl | rfl <;> simp only [stCell, Option.some.injEq] at hx <;> rw [← hx] <;> norm_num
      · simp [specWeight, stCell, tiny]; norm_num
      · intro st _; simp [specWeight, stCell]; norm_num
    · rw [(hi _ _ _).2]
      refine ⟨?_, ?_, Or.inr ⟨?_, ?_, by simp⟩⟩
      · intro c hc
        simp at hc
        subst hc
        refine ⟨by simp [stCell], ?_⟩; intro s _ d x hx; simp only [stCell, Option.some.injEq] at hx; rw [← hx]; norm_num
      · intro st hst c hc x hx
        simp at hc
        subst hc
        simp only [stCell, Option.some.injEq] at hx; rw [← hx]; norm_num
      · simp [specWeight, stCell, tiny]; norm_num
      · intro st _; simp [specWeight, stCell]; norm_num

/-- The hypotheses of `C156_finding_exact_windows` are met: the same object with exact windows (its integrations are those of the example before). -/
example (c1 c2 c3 : Cell ℝ) : ∃ v1 v2 v, averageSpectra (fun _ => 0) id (timeOnly ["P_N"] none true) { stObj c1 c2 c3 with exact := true } = .ok v1 ∧
    averageSpectra (fun _ => 0) id (stArgs none) v1 = .ok v2 ∧ averageSpectra (fun _ => 0) id { stArgs none with timeAvg := true } { stObj c1 c2 c3 with exact := true } = .ok v := by
  have hm : mult true [(1 : ℝ), 1] = [1, 1] := C31_equal_weights 1 one_pos 2 two_pos
  have hsh : Shaped { stObj c1 c2 c3 with exact := true } := st_shaped c1 c2 c3
  obtain ⟨v, h⟩ : ∃ v, averageSpectra (fun _ => 0) id { stArgs none with timeAvg := true } { stObj c1 c2 c3 with exact := true } = .ok v := by
    refine averageSpectra_of (gs := [([1, 2], [1, 1])]) ?_ ?_ ?_ ?_
    · unfold groupsOf
      simp only [stArgs, stObj, exMeta, weightsOf, Combine.uniq]
      rfl
    · simp [statNames, stArgs, stObj]
    · intro s p cs hc g hg
      rw [List.mem_singleton] at hg
      subst hg
      refine ⟨_, groupRows_of (n := 1) (by simp [stArgs]) ?_ ⟨(1, 1), by simp only [stArgs, hm]; simp, Nat.one_pos⟩ ?_⟩
      · intro b hb
        obtain ⟨l, hl⟩ := accsOf_of hsh hc (b := b) (by simpa [stObj, exMeta] using hb) none true
        have := accsOf_ok hl
        show accsOf none true { stObj c1 c2 c3 with exact := true } s p b = .ok (accs none true { stObj c1 c2 c3 with exact := true } s p b)
        rw [← this]
        exact hl
      · intro bm _ _
        simp [accs]
    · intro g hg
      rw [List.mem_singleton] at hg
      subst hg
      exact groupMeta_of _ _ rfl (by simp [stObj, exMeta])
  obtain ⟨v1, v2, h1, h2⟩ := C156_steps_succeed (F := ["P_N"]) (nz := true) (ta := false) hsh (by simp [stArgs]) (by simp [stObj]) h
  exact ⟨v1, v2, v, h1, h2, h⟩

theorem clipTiny_one {x : ℝ} (h : 1 ≤ x) : clipTiny x = x := clipTiny_eq (le_trans (by unfold tiny; norm_num) h)

theorem st_w_none (x t σ : ℝ) (d : Nat) : weight none (stCell x t σ) d = t ^ 2 := by
  show (t * Real.sqrt 1) ^ 2 = t ^ 2
  rw [Real.sqrt_one, mul_one]

theorem st_w_some (x t σ : ℝ) (d : Nat) : weight (some "P_N") (stCell x t σ) d = 1 / clipTiny (σ ^ 2) := rfl

theorem mean_two (A B : Acc ℝ) : (groupMean false [A, B]).data 0 = (A.w 0 * A.data 0 + B.w 0 * B.data 0) / clipTiny (A.w 0 + B.w 0) := by
  simp only [groupMean, List.map_cons, List.map_nil, List.sum_cons, List.sum_nil, add_zero, smul_eq_mul]
  rw [div_eq_inv_mul]

theorem timeMean_two (A B : Acc ℝ) : (timeMean [A, B]).w 0 = A.w 0 + B.w 0 ∧ (timeMean [A, B]).data 0 = (A.w 0 * A.data 0 + B.w 0 * B.data 0) / clipTiny (A.w 0 + B.w 0) := by
  simp only [timeMean, List.map_cons, List.map_nil, List.sum_cons, List.sum_nil, add_zero, smul_eq_mul]
  exact ⟨trivial, by rw [div_eq_inv_mul]⟩

theorem timeMean_one (A : Acc ℝ) : (timeMean [A]).w 0 = A.w 0 ∧ (timeMean [A]).data 0 = A.w 0 * A.data 0 / clipTiny (A.w 0) := by
  simp only [timeMean, List.map_cons, List.map_nil, List.sum_cons, List.sum_nil, add_zero, smul_eq_mul]
  exact ⟨trivial, by rw [div_eq_inv_mul]⟩

/-- Pair 2 survives the first step. -/
theorem st_second (e : Option String) (he : e = none ∨ e = some "P_N") : (prep e (groupMean false [timeMean [prep e (stCell 1 1 1)]])).w 0 = 1 ∧
    (prep e (groupMean false [timeMean [prep e (stCell 1 1 1)]])).data 0 = 1 := by
  have hs : Steady e [stCell 1 1 1] 0 := by
    refine ⟨?_, ?_, Or.inr ⟨?_, ?_, fun _ => ⟨1, by simp [stCell]⟩⟩⟩
    · intro c hc
      rw [List.mem_singleton] at hc
      subst hc
      refine ⟨by simp [stCell], ?_⟩; intro s _ d x hx; simp only [stCell, Option.some.injEq] at hx; rw [← hx]; norm_num
    · intro st hst c hc x hx
      rw [List.mem_singleton] at hc
      subst hc
      simp only [stCell, Option.some.injEq] at hx; rw [← hx]; norm_num
    · rcases he with rfl | rfl <;> simp [specWeight, stCell, tiny] <;> norm_num
    · intro st _; rcases he with rfl | rfl <;> simp [specWeight, stCell] <;> norm_num
  have hk := keeps_one e false [stCell 1 1 1] 0 hs
  simp only [List.map_cons, List.map_nil] at hk
  have hw : weight e (stCell 1 1 1) 0 = 1 := by
    rw [weight_eq e _ (hs.1 _ (List.mem_singleton_self _))]
    rcases he with rfl | rfl <;> simp [specWeight, stCell]
  have e1 : (prep e (groupMean false [timeMean [prep e (stCell 1 1 1)]])).w 0 = 1 := by
    rw [hk.w, (timeMean_one _).1]
    exact hw
  refine ⟨e1, ?_⟩
  have := hk.data
  rw [e1, (timeMean_one _).1, (timeMean_one _).2, one_smul] at this
  rw [this]
  show weight e (stCell 1 1 1) 0 • (weight e (stCell 1 1 1) 0 * 1 / clipTiny (weight e (stCell 1 1 1) 0)) = (1 : ℝ)
  rw [hw, clipTiny_one (le_refl _)]
  norm_num

/-- Data of the two averages, if the first pair holds zeros. -/
theorem st_values (e : Option String) (he : e = none ∨ e = some "P_N") (t1 t2 σ1 σ2 : ℝ) :
    (groupMean false [again e false (stObj (stCell 0 t1 σ1) (stCell 0 t2 σ2) (stCell 1 1 1)) 0 0 1,
      again e false (stObj (stCell 0 t1 σ1) (stCell 0 t2 σ2) (stCell 1 1 1)) 0 0 2]).data 0 =
        1 / clipTiny (weight e (groupMean false [timeMean [prep e (stCell 0 t1 σ1), prep e (stCell 0 t2 σ2)]]) 0 + 1) ∧
    (groupMean false [timeMean [prep e (stCell 0 t1 σ1), prep e (stCell 0 t2 σ2)], timeMean [prep e (stCell 1 1 1)]]).data 0 =
        1 / clipTiny (weight e (stCell 0 t1 σ1) 0 + weight e (stCell 0 t2 σ2) 0 + 1) := by
  have hw : weight e (stCell 1 1 1) 0 = 1 := by
    rcases he with rfl | rfl
    · rw [st_w_none]; norm_num
    · rw [st_w_some, clipTiny_one (by norm_num)]; norm_num
  constructor
  · obtain ⟨w2, d2⟩ := st_second e he
    rw [mean_two]
    have x2 : again e false (stObj (stCell 0 t1 σ1) (stCell 0 t2 σ2) (stCell 1 1 1)) 0 0 2 =
        prep e (groupMean false [timeMean [prep e (stCell 1 1 1)]]) := rfl
    have x1 : again e false (stObj (stCell 0 t1 σ1) (stCell 0 t2 σ2) (stCell 1 1 1)) 0 0 1 =
        prep e (groupMean false [timeMean [prep e (stCell 0 t1 σ1), prep e (stCell 0 t2 σ2)]]) := rfl
    have d1 : (prep e (groupMean false [timeMean [prep e (stCell 0 t1 σ1), prep e (stCell 0 t2 σ2)]])).data 0 = 0 := by
      simp [prep, groupMean, timeMean, stCell]
    rw [x1, x2, w2, d2, d1]
    simp only [mul_zero, zero_add, mul_one]
    rfl
  · rw [mean_two, (timeMean_two _ _).1, (timeMean_two _ _).2, (timeMean_one _).1, (timeMean_one _).2]
    have p1 : ∀ c : Cell ℝ, (prep e c).w 0 = weight e c 0 := fun _ => rfl
    have p2 : ∀ x t σ : ℝ, (prep e (stCell x t σ)).data 0 = x := fun _ _ _ => rfl
    simp only [p1, p2, hw, mul_zero, add_zero, zero_div, zero_add, mul_one]
    rw [clipTiny_one (le_refl 1), div_one, mul_one]

/-- C156 counterexample: integration-time weights. A pair with integrations of 1 and 3 and a pair with one integration of 1 average to `1/11` in a single call, but to
another value in two steps: the first step stores the mean integration time 2.8, which counts `2.8² · 2 = 15.68` instead of 10. -/
theorem C156_counterexample_times : ∃ (u v1 v2 v : Obj ℝ) (c2 c : Cell ℝ), averageSpectra (fun _ => 0) id (timeOnly ["P_N"] none true) u = .ok v1 ∧
    averageSpectra (fun _ => 0) id (stArgs none) v1 = .ok v2 ∧ averageSpectra (fun _ => 0) id { stArgs none with timeAvg := true } u = .ok v ∧
    (v2.cells[0]?.bind (·[0]?)) = some [c2] ∧ (v.cells[0]?.bind (·[0]?)) = some [c] ∧ c.data 0 = 1 / 11 ∧ c2.data 0 = 1 / (16.68 : ℝ) := by
  obtain ⟨v1, v2, v, h1, h2, h, e2, e⟩ := st_both none (Or.inl rfl) (stCell 0 1 1) (stCell 0 3 1) (stCell 1 1 1)
  refine ⟨_, v1, v2, v, _, _, h1, h2, h, e2, e, ?_, ?_⟩
  · rw [(st_values none (Or.inl rfl) 1 3 1 1).2, st_w_none, st_w_none, clipTiny_one (by norm_num)]
    norm_num
  · rw [(st_values none (Or.inl rfl) 1 3 1 1).1]
    have p1 : ∀ c : Cell ℝ, (prep none c).w 0 = weight none c 0 := fun _ => rfl
    have p2 : ∀ (x t σ : ℝ), (prep none (stCell x t σ)).ints 0 = t := fun _ _ _ => rfl
    have hi : (groupMean false [timeMean [prep none (stCell 0 1 1), prep none (stCell 0 3 1)]]).ints = 2.8 := by
      simp only [groupMean, timeMean, List.map_cons, List.map_nil, List.sum_cons, List.sum_nil, p1, p2, st_w_none]
      norm_num
      rw [clipTiny_one (by norm_num)]
      norm_num
    have hn : (groupMean false [timeMean [prep none (stCell 0 1 1), prep none (stCell 0 3 1)]]).nsmp = 2 := by
      simp only [groupMean, timeMean, List.map_cons, List.map_nil, List.sum_cons, List.sum_nil, prep, stCell]
      norm_num
    have hw : weight none (groupMean false [timeMean [prep none (stCell 0 1 1), prep none (stCell 0 3 1)]]) 0 = 15.68 := by
      unfold weight
      simp only [hi, hn]
      rw [mul_pow, Real.sq_sqrt (by norm_num)]
      norm_num
    rw [hw, clipTiny_one (by norm_num)]
    norm_num

/-- C156 counterexample: error weights. A pair with two integrations of error `1e-5` outweighs a pair with error 1 in a single call; after averaging in time its error
is `7e-6`, whose square `np.isclose` takes for zero, so that the pair is stored with error `1e20` and no longer counts in the second step. -/
theorem C156_counterexample_precise : ∃ (u v1 v2 v : Obj ℝ) (c2 c : Cell ℝ), averageSpectra (fun _ => 0) id (timeOnly ["P_N"] (some "P_N") true) u = .ok v1 ∧
    averageSpectra (fun _ => 0) id (stArgs (some "P_N")) v1 = .ok v2 ∧ averageSpectra (fun _ => 0) id { stArgs (some "P_N") with timeAvg := true } u = .ok v ∧
    (v2.cells[0]?.bind (·[0]?)) = some [c2] ∧ (v.cells[0]?.bind (·[0]?)) = some [c] ∧ c.data 0 < 1 / 10 ^ 10 ∧ 1 - 1 / 10 ^ 39 < c2.data 0 ∧
    ∃ c1 : Cell ℝ, (v1.cells[0]?.bind (·[0]?)).bind (·[0]?) = some c1 ∧ c1.stat "P_N" 0 = some (10 ^ 20) := by
  obtain ⟨v1, v2, v, h1, h2, h, e2, e⟩ := st_both (some "P_N") (Or.inr rfl) (stCell 0 1 (1 / 10 ^ 5)) (stCell 0 1 (1 / 10 ^ 5)) (stCell 1 1 1)
  have p1 : ∀ c : Cell ℝ, (prep (some "P_N") c).w 0 = weight (some "P_N") c 0 := fun _ => rfl
  have hw : ∀ d, weight (some "P_N") (stCell 0 1 (1 / 10 ^ 5)) d = 10 ^ 10 := by
    intro d
    rw [st_w_some, clipTiny_eq (by unfold tiny; norm_num)]
    norm_num
  have hvar : (timeMean [prep (some "P_N") (stCell 0 1 (1 / 10 ^ 5)), prep (some "P_N") (stCell 0 1 (1 / 10 ^ 5))]).var "P_N" 0 = none := by
    have hv : clipVar ((prep (some "P_N") (stCell 0 1 (1 / 10 ^ 5))).var "P_N" 0) = 1 / 10 ^ 10 := by
      show clipVar (some ((1 / 10 ^ 5) ^ 2)) = _
      rw [clipVar_of (by norm_num) (by norm_num)]
      norm_num
    simp only [timeMean, List.map_cons, List.map_nil, List.sum_cons, List.sum_nil, p1, hw, hv]
    rw [clipTiny_one (by norm_num)]
    unfold nearZeroInf
    rw [if_pos]
    norm_num
  have hst : (groupMean false [timeMean [prep (some "P_N") (stCell 0 1 (1 / 10 ^ 5)), prep (some "P_N") (stCell 0 1 (1 / 10 ^ 5))]]).stat "P_N" 0 = some (10 ^ 20) := by
    rw [stat_single, hvar]
    · show some (Real.sqrt (10 ^ 40)) = _
      rw [show (10 : ℝ) ^ 40 = (10 ^ 20) ^ 2 by norm_num, Real.sqrt_sq (by positivity)]
    · rw [(timeMean_two _ _).1, p1, hw]
      unfold tiny; norm_num
  refine ⟨_, v1, v2, v, _, _, h1, h2, h, e2, e, ?_, ?_, _, ?_, hst⟩
  · rw [(st_values (some "P_N") (Or.inr rfl) 1 1 (1 / 10 ^ 5) (1 / 10 ^ 5)).2, hw, clipTiny_one (by norm_num)]
    norm_num
  · rw [(st_values (some "P_N") (Or.inr rfl) 1 1 (1 / 10 ^ 5) (1 / 10 ^ 5)).1]
    have : weight (some "P_N") (groupMean false [timeMean [prep (some "P_N") (stCell 0 1 (1 / 10 ^ 5)), prep (some "P_N") (stCell 0 1 (1 / 10 ^ 5))]]) 0 = 1 / 10 ^ 40 := by
      unfold weight
      simp only [hst]
      rw [clipTiny_one (by norm_num)]
      norm_num
    rw [this, clipTiny_one (by norm_num)]
    norm_num
  · obtain ⟨_, _, _, _, _, h6, _⟩ := first_step h1
    rw [h6 0 0 _ rfl]
    rfl

/-! ### C30: weighting by the errors is optimal -/

theorem cauchy_list {α : Type} (l : List α) (a b : α → ℝ) :
    ((l.map (fun x => a x * b x)).sum) ^ 2 ≤ (l.map (fun x => a x ^ 2)).sum * (l.map (fun x => b x ^ 2)).sum := by
  induction l with
  | nil => simp
  | cons x l ih =>
    simp only [List.map_cons, List.sum_cons]
    have hA : 0 ≤ (l.map (fun x => a x ^ 2)).sum := sum_nonneg_of (fun _ _ => sq_nonneg _)
    have hB : 0 ≤ (l.map (fun x => b x ^ 2)).sum := sum_nonneg_of (fun _ _ => sq_nonneg _)
    generalize (l.map (fun x => a x * b x)).sum = S at *
    generalize (l.map (fun x => a x ^ 2)).sum = A at *
    generalize (l.map (fun x => b x ^ 2)).sum = B at *
    have h2 : 2 * (S * (a x * b x)) ≤ A * b x ^ 2 + B * a x ^ 2 := by
      apply le_of_abs_le
      apply abs_le_of_sq_le_sq
      · nlinarith [mul_nonneg (sq_nonneg (a x)) (sq_nonneg (b x)), sq_nonneg (A * b x ^ 2 - B * a x ^ 2), mul_le_mul_of_nonneg_right ih (mul_nonneg (sq_nonneg (a x)) (sq_nonneg (b x)))]
      · positivity
    nlinarith

/-- C30: weighting independent samples by their inverse variance gives the smallest possible error of the mean: `1/√Σσ⁻²`, not larger than with any other weights. -/
theorem C30_inverse_variance_optimal {α : Type} (l : List α) (hl : l ≠ []) (w σ : α → ℝ) (hσ : ∀ x ∈ l, 0 < σ x) (hw : 0 < (l.map w).sum) :
    werror (l.map (fun x => (1 / σ x ^ 2, σ x))) = 1 / Real.sqrt (l.map (fun x => 1 / σ x ^ 2)).sum ∧
    werror (l.map (fun x => (1 / σ x ^ 2, σ x))) ≤ werror (l.map (fun x => (w x, σ x))) := by
  have hpos : 0 < (l.map (fun x => 1 / σ x ^ 2)).sum := by
    cases l with
    | nil => exact absurd rfl hl
    | cons a l =>
      rw [List.map_cons, List.sum_cons]
      have h1 : 0 < 1 / σ a ^ 2 := by have := hσ a List.mem_cons_self; positivity
      have h2 : 0 ≤ (l.map (fun x => 1 / σ x ^ 2)).sum := sum_nonneg_of (fun x _ => by positivity)
      linarith
  have e1 : werror (l.map (fun x => (1 / σ x ^ 2, σ x))) = 1 / Real.sqrt (l.map (fun x => 1 / σ x ^ 2)).sum := by
    unfold werror wsum
    rw [List.map_map, List.map_map]
    have : (l.map ((fun x : ℝ × ℝ => x.1 ^ 2 * x.2 ^ 2) ∘ fun x => (1 / σ x ^ 2, σ x))) = l.map (fun x => 1 / σ x ^ 2) := by
      apply List.map_congr_left
      intro x hx
      have := hσ x hx
      simp only [Function.comp]
      field_simp
    rw [this]
    show Real.sqrt _ / (l.map (fun x => 1 / σ x ^ 2)).sum = _
    have hs := Real.sqrt_pos.2 hpos
    rw [div_eq_div_iff hpos.ne' hs.ne', one_mul, Real.mul_self_sqrt hpos.le]
  refine ⟨e1, ?_⟩
  rw [e1]
  unfold werror wsum
  rw [List.map_map, List.map_map]
  show 1 / Real.sqrt _ ≤ Real.sqrt (l.map (fun x => w x ^ 2 * σ x ^ 2)).sum / (l.map w).sum
  have hs := Real.sqrt_pos.2 hpos
  rw [div_le_div_iff₀ hs hw, one_mul, ← Real.sqrt_mul (sum_nonneg_of (fun x _ => by positivity))]
  apply Real.le_sqrt_of_sq_le
  have hc := cauchy_list l (fun x => w x * σ x) (fun x => 1 / σ x)
  have e2 : l.map (fun x => w x * σ x * (1 / σ x)) = l.map w := by
    apply List.map_congr_left
    intro x hx
    have := hσ x hx
    field_simp
  simp only [e2, mul_pow, div_pow, one_pow] at hc
  exact hc

end HeraPspec.Average
