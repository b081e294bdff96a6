import Verif.Model.Rescale
import Mathlib.Analysis.Real.Pi.Bounds
import Mathlib.Tactic.Linarith
import Mathlib.Tactic.FieldSimp
import Mathlib.Tactic.Ring
import Mathlib.Tactic.Positivity

/-!
C71, C72, C76: rescaling power spectra and errors.
-/
namespace HeraPspec.Rescale
variable {K : Type} [Field K]

/-! ### Bias correction -/

/-- The factor of window `s` in a bias dictionary; 1 without a dictionary. -/
def factor (bias : Option (Dict Nat K)) (s : Nat) : K := match bias with | none => 1 | some d => (d.get s).getD 1

/-- Every window of the object has a value. -/
def Covers (bias : Option (Dict Nat K)) (spws : List Nat) : Prop := ∀ d ∈ bias, ∀ s ∈ spws, ∃ b, d.get s = some b

theorem withBias_eq (bias : Option (Dict Nat K)) (s : Nat) (f : K → Obj K → Obj K) (u : Obj K) (h : Covers bias [s]) (h1 : f 1 u = u) :
    withBias bias s f u = .ok (f (factor bias s) u) := by
  unfold withBias factor
  cases bias with
  | none => simp [h1]
  | some d =>
    obtain ⟨b, hb⟩ := h d rfl s (by simp)
    simp [hb]

/-- Multiply the windows in `ss`: data by `t s * b s`, covariance by `t s ^ 2`, statistics by `t s`. -/
structure Scaled (t b : Nat → K) (ss : List Nat) (u v : Obj K) : Prop where
  spws : v.spws = u.spws
  data : ∀ s r d p, v.data s r d p = if s ∈ ss then u.data s r d p * t s * b s else u.data s r d p
  covIff : v.cov.isSome = u.cov.isSome
  cov : ∀ c ∈ u.cov, ∀ c' ∈ v.cov, ∀ s r d e p, (c'.1 s r d e p = if s ∈ ss then c.1 s r d e p * t s ^ 2 else c.1 s r d e p) ∧
    (c'.2 s r d e p = if s ∈ ss then c.2 s r d e p * t s ^ 2 else c.2 s r d e p)
  statsIff : v.stats.isSome = u.stats.isSome
  stats : ∀ st ∈ u.stats, ∀ st' ∈ v.stats, ∀ name s r d p, st' name s r d p = if s ∈ ss then st name s r d p * t s else st name s r d p

theorem biasLoop_scaled (total dataB : Option (Dict Nat K)) : ∀ (ss : List Nat) (u : Obj K), ss.Nodup → Covers total ss →
    Covers dataB ss → ∃ v, biasLoop total dataB ss u = (v, none) ∧ Scaled (factor total) (factor dataB) ss u v := by
  intro ss
  induction ss with
  | nil =>
    intro u _ _ _
    refine ⟨u, rfl, rfl, by simp, rfl, ?_, rfl, ?_⟩
    · intro c hc c' hc' s r d e p
      rw [hc] at hc'; obtain rfl := Option.some.inj hc'; simp
    · intro c hc c' hc' name s r d p
      rw [hc] at hc'; obtain rfl := Option.some.inj hc'; simp
  | cons s ss ih =>
    intro u hn ht hb
    have ht1 : Covers total [s] := fun d hd x hx => ht d hd x (by simp at hx; simp [hx])
    have hb1 : Covers dataB [s] := fun d hd x hx => hb d hd x (by simp at hx; simp [hx])
    have e1 : applyTotal s 1 u = u := by
      cases u with
      | mk spws data cov stats =>
        unfold applyTotal onSpw
        simp
    have w1 := withBias_eq total s (applyTotal s) u ht1 e1
    have w2 := withBias_eq dataB s (applyData s) (applyTotal s (factor total s) u) hb1 (by unfold applyData onSpw; simp)
    obtain ⟨v, hv, hs⟩ := ih (applyData s (factor dataB s) (applyTotal s (factor total s) u)) (List.nodup_cons.1 hn).2
      (fun d hd x hx => ht d hd x (List.mem_cons_of_mem _ hx)) (fun d hd x hx => hb d hd x (List.mem_cons_of_mem _ hx))
    refine ⟨v, by unfold biasLoop; rw [w1]; simp only; rw [w2]; exact hv, ?_⟩
    have hns : s ∉ ss := (List.nodup_cons.1 hn).1
    refine ⟨hs.spws, ?_, ?_, ?_, ?_, ?_⟩
    · intro s' r d p
      rw [hs.data]
      by_cases h1 : s' = s
      · subst h1; simp [hns, applyData, applyTotal, onSpw]
      · simp [h1, applyData, applyTotal, onSpw]
    · rw [hs.covIff]; simp [applyData, applyTotal]
    · intro c hc c' hc' s' r d e p
      have := hs.cov (onSpw s (fun a r d e p => a r d e p * factor total s ^ 2) c.1, onSpw s (fun a r d e p => a r d e p * factor total s ^ 2) c.2)
        (by simp [applyData, applyTotal]; exact ⟨_, _, hc, rfl, rfl⟩) c' hc' s' r d e p
      rw [this.1, this.2]
      by_cases h1 : s' = s
      · subst h1; simp [hns, onSpw]
      · simp [h1, onSpw]
    · rw [hs.statsIff]; simp [applyData, applyTotal]
    · intro st hst st' hst' name s' r d p
      have := hs.stats (fun name => onSpw s (fun a r d p => a r d p * factor total s) (st name))
        (by simp [applyData, applyTotal]; exact ⟨st, hst, rfl⟩) st' hst' name s' r d p
      rw [this]
      by_cases h1 : s' = s
      · subst h1; simp [hns, onSpw]
      · simp [h1, onSpw]

/-- C71: with a value for every window, `apply_bias_correction` multiplies in each window `s` the data by `total s * data s`, every
error statistic by `total s`, the covariances by `total s ^ 2`, and nothing else; with `inplace=False` the caller's object is left
alone, otherwise it is the returned object. -/
theorem C71_values (u : Obj K) (hn : u.spws.Nodup) (total dataB : Option (Dict Nat K)) (ht : Covers total u.spws)
    (hb : Covers dataB u.spws) (inplace : Bool) :
    ∃ v, applyBias u total dataB inplace = (if inplace then v else u, .ok v) ∧ Scaled (factor total) (factor dataB) u.spws u v := by
  obtain ⟨v, hv, hs⟩ := biasLoop_scaled total dataB u.spws u hn ht hb
  refine ⟨v, ?_, hs⟩
  unfold applyBias
  rw [hv]

/-- C71: a total bias leaves relative errors alone, window by window: data over statistic, and covariance over products of data. -/
theorem C71_snr_invariant (u : Obj K) (hn : u.spws.Nodup) (total : Dict Nat K) (hnz : ∀ s ∈ u.spws, ∃ b, total.get s = some b ∧ b ≠ 0)
    (inplace : Bool) :
    ∃ v, (applyBias u (some total) none inplace).2 = .ok v ∧ ∀ s ∈ u.spws,
      (∀ st ∈ u.stats, ∃ st' ∈ v.stats, ∀ name r d p, v.data s r d p / st' name s r d p = u.data s r d p / st name s r d p) ∧
      (∀ c ∈ u.cov, ∃ c' ∈ v.cov, ∀ r d e p,
        c'.1 s r d e p / (v.data s r d p * v.data s r e p) = c.1 s r d e p / (u.data s r d p * u.data s r e p) ∧
        c'.2 s r d e p / (v.data s r d p * v.data s r e p) = c.2 s r d e p / (u.data s r d p * u.data s r e p)) := by
  obtain ⟨v, hv, hs⟩ := C71_values u hn (some total) none
    (fun d hd s hsm => by obtain rfl := Option.some.inj hd; obtain ⟨b, hb, _⟩ := hnz s hsm; exact ⟨b, hb⟩) (fun d hd => by cases hd) inplace
  refine ⟨v, by rw [hv], ?_⟩
  intro s hsm
  obtain ⟨b, hb, hb0⟩ := hnz s hsm
  have hf : factor (some total) s = b := by simp [factor, hb]
  have hf2 : factor (none : Option (Dict Nat K)) s = 1 := rfl
  have hdata : ∀ r d p, v.data s r d p = b * u.data s r d p := by
    intro r d p; rw [hs.data, if_pos hsm, hf, hf2]; ring
  constructor
  · intro st hst
    have : v.stats.isSome := by rw [hs.statsIff]; rw [hst]; rfl
    obtain ⟨st', hst'⟩ := Option.isSome_iff_exists.1 this
    refine ⟨st', hst', fun name r d p => ?_⟩
    rw [hs.stats st hst st' hst', if_pos hsm, hf, hdata, mul_comm _ b, mul_div_mul_left _ _ hb0]
  · intro c hc
    have : v.cov.isSome := by rw [hs.covIff]; rw [hc]; rfl
    obtain ⟨c', hc'⟩ := Option.isSome_iff_exists.1 this
    refine ⟨c', hc', fun r d e p => ?_⟩
    obtain ⟨e1, e2⟩ := hs.cov c hc c' hc' s r d e p
    have hprod : v.data s r d p * v.data s r e p = b ^ 2 * (u.data s r d p * u.data s r e p) := by rw [hdata, hdata]; ring
    rw [e1, e2, if_pos hsm, if_pos hsm, hf, hprod, mul_comm _ (b ^ 2), mul_div_mul_left _ _ (pow_ne_zero 2 hb0),
      mul_comm _ (b ^ 2), mul_div_mul_left _ _ (pow_ne_zero 2 hb0)]
    exact ⟨rfl, rfl⟩

/-- C71 finding: a dictionary that lacks a window makes the function raise *after* it has changed the earlier windows in place: the
caller's object is then half corrected. -/
theorem C71_finding_half_corrected :
    ∃ u : Obj ℚ, u.spws = [0, 1] ∧ u.data 0 0 0 0 = 1 ∧
      (applyBias u (some [(0, 3)]) none true).1.data 0 0 0 0 = 3 ∧
      (applyBias u (some [(0, 3)]) none true).2 = .error .key :=
  ⟨⟨[0, 1], fun _ _ _ _ => 1, none, none⟩, rfl, rfl, by decide +kernel, rfl⟩

/-- Non-vacuity: two windows with different factors. -/
example : Covers (some [(0, (2 : ℚ)), (1, 3)]) [0, 1] := by
  intro d hd s hs
  obtain rfl := Option.some.inj hd
  simp at hs
  rcases hs with rfl | rfl
  · exact ⟨2, rfl⟩
  · exact ⟨3, rfl⟩
example : (applyBias (⟨[0, 1], fun _ _ _ _ => 1, none, none⟩ : Obj ℚ) (some [(0, 2), (1, 3)]) none true).1.data 1 0 0 0 = 3 := by
  decide +kernel

/-! ### P_SN -/

theorem const_pos : 0 < Real.sqrt (1 / Real.sqrt Real.pi + 1) - 1 := by
  have : 0 < 1 / Real.sqrt Real.pi := by have := Real.pi_pos; positivity
  have : Real.sqrt 1 < Real.sqrt (1 / Real.sqrt Real.pi + 1) := Real.sqrt_lt_sqrt (by norm_num) (by linarith)
  rw [Real.sqrt_one] at this
  linarith

/-- C72: for error bars (`P_N >= 0`, `P_SN > 0`), the corrected `P_SN` is positive and at most the old one, or infinite; it is
never negative and never `nan`. It is finite exactly when the correction factor exceeds the tolerance `1e-8`. -/
theorem C72_psn (pn psn : ℝ) (hn : 0 ≤ pn) (hs : 0 < psn) :
    match applyPSN pn psn with
    | .fin y => 0 < y ∧ y ≤ psn ∧ ∃ c, 1e-8 < c ∧ c ≤ 1 ∧ y = psn * c
    | .inf => 1 - (Real.sqrt (1 / Real.sqrt Real.pi + 1) - 1) * pn / max psn 1e-40 ≤ 1e-8
    | .nan => False := by
  have hk := const_pos
  have hclip : 0 < clip psn := lt_of_lt_of_le hs (le_max_left _ _)
  have hle : 1 - (Real.sqrt (1 / Real.sqrt Real.pi + 1) - 1) * pn / clip psn ≤ 1 := by
    have : 0 ≤ (Real.sqrt (1 / Real.sqrt Real.pi + 1) - 1) * pn / clip psn := by positivity
    linarith
  unfold applyPSN corr
  by_cases h1 : |1 - (Real.sqrt (1 / Real.sqrt Real.pi + 1) - 1) * pn / clip psn| ≤ 1e-8
  · simp only [h1, if_true, hs.ne', hs]
    exact (le_abs_self _).trans h1
  · simp only [h1, if_false]
    by_cases h2 : 1 - (Real.sqrt (1 / Real.sqrt Real.pi + 1) - 1) * pn / clip psn < 0
    · simp only [h2, if_true, hs.ne', hs]
      exact h2.le.trans (by norm_num)
    · simp only [h2, if_false]
      push Not at h1 h2
      rw [abs_of_nonneg h2] at h1
      have hc0 : 0 < 1 - (Real.sqrt (1 / Real.sqrt Real.pi + 1) - 1) * pn / clip psn := lt_trans (by norm_num) h1
      exact ⟨mul_pos hs hc0, by nlinarith, _, h1, hle, rfl⟩

/-- C72: without thermal noise nothing is corrected. -/
theorem C72_no_noise (psn : ℝ) : match applyPSN 0 psn with | .fin y => y = psn | _ => False := by
  have h1 : ¬ |(1 : ℝ) - (Real.sqrt (1 / Real.sqrt Real.pi + 1) - 1) * 0 / clip psn| ≤ 1e-8 := by simp; norm_num
  have h2 : ¬ (1 : ℝ) - (Real.sqrt (1 / Real.sqrt Real.pi + 1) - 1) * 0 / clip psn < 0 := by simp
  unfold applyPSN corr
  simp only [h1, h2, if_false]
  simp

/-- C72: the more thermal noise, the smaller the corrected value. -/
theorem C72_monotone (pn pn' psn y y' : ℝ) (hs : 0 < psn) (h : pn ≤ pn') (h1 : applyPSN pn psn = .fin y) (h2 : applyPSN pn' psn = .fin y') :
    y' ≤ y := by
  have hk := const_pos
  have hclip : 0 < clip psn := lt_of_lt_of_le hs (le_max_left _ _)
  have get : ∀ q z, applyPSN q psn = .fin z → z = psn * (1 - (Real.sqrt (1 / Real.sqrt Real.pi + 1) - 1) * q / clip psn) := by
    intro q z hq
    unfold applyPSN corr at hq
    by_cases a1 : |1 - (Real.sqrt (1 / Real.sqrt Real.pi + 1) - 1) * q / clip psn| ≤ 1e-8
    · simp only [a1, if_true, hs.ne', if_false, hs] at hq
      cases hq
    · by_cases a2 : 1 - (Real.sqrt (1 / Real.sqrt Real.pi + 1) - 1) * q / clip psn < 0
      · simp only [a1, a2, if_false, if_true, hs.ne', hs] at hq
        cases hq
      · simp only [a1, a2, if_false] at hq
        injection hq with hq
        exact hq.symm
  rw [get _ _ h1, get _ _ h2]
  apply mul_le_mul_of_nonneg_left _ hs.le
  have : (Real.sqrt (1 / Real.sqrt Real.pi + 1) - 1) * pn / clip psn ≤ (Real.sqrt (1 / Real.sqrt Real.pi + 1) - 1) * pn' / clip psn :=
    div_le_div_of_nonneg_right (mul_le_mul_of_nonneg_left h hk.le) hclip.le
  linarith

/-- C72 finding: where `P_SN` is zero and `P_N` is not, the corrected value is `nan` (zero times infinity). -/
theorem C72_finding_zero : applyPSN 1 0 = .nan := by
  have hk := const_pos
  have hbig : 1 < (Real.sqrt (1 / Real.sqrt Real.pi + 1) - 1) / 1e-40 - 1 := by
    have : (1e-8 : ℝ) < Real.sqrt (1 / Real.sqrt Real.pi + 1) - 1 := by
      have hpi := Real.pi_le_four
      have h1 : Real.sqrt Real.pi ≤ 2 := by
        rw [show (2 : ℝ) = Real.sqrt 4 by rw [show (4 : ℝ) = 2 ^ 2 by norm_num, Real.sqrt_sq (by norm_num)]]
        exact Real.sqrt_le_sqrt hpi
      have h2 : (1 : ℝ) / 2 ≤ 1 / Real.sqrt Real.pi := one_div_le_one_div_of_le (Real.sqrt_pos.2 Real.pi_pos) h1
      have h3 : (1 + 1e-8 : ℝ) < Real.sqrt (1 / Real.sqrt Real.pi + 1) := by
        apply Real.lt_sqrt_of_sq_lt
        norm_num at h2 ⊢
        linarith
      linarith
    rw [lt_sub_iff_add_lt, lt_div_iff₀ (by norm_num)]
    linarith
  have hc : clip 0 = 1e-40 := by unfold clip; rw [max_eq_right]; norm_num
  unfold applyPSN corr
  rw [hc]
  have hneg : 1 - (Real.sqrt (1 / Real.sqrt Real.pi + 1) - 1) * 1 / 1e-40 < 0 := by rw [mul_one]; linarith
  have h1 : ¬ |1 - (Real.sqrt (1 / Real.sqrt Real.pi + 1) - 1) * 1 / 1e-40| ≤ 1e-8 := by
    rw [abs_of_neg hneg, mul_one]; push Not; norm_num at hbig ⊢; linarith
  simp only [h1, hneg, if_true, if_false]

/-! ### Delta^2 -/

/-- What the conversion should be: `k^3/(2 pi^2)` with `k` the length of the wave vector. -/
noncomputable def dsq (kperp kpara : ℝ) : ℝ := Real.sqrt (kperp ^ 2 + kpara ^ 2) ^ 3 / (2 * Real.pi ^ 2)

theorem foldl_deltaSq (ki : KInfo) (lh : Bool) : ∀ (ss : List Nat) (u : Obj ℝ), ss.Nodup →
    let v := ss.foldl (fun v s => deltaSqSpw ki lh s v) u
    v.spws = u.spws ∧
    (∀ s r d p, v.data s r d p = if s ∈ ss then u.data s r d p * coeff ki lh s r d else u.data s r d p) ∧
    (v.stats = u.stats.map (fun st name s r d p => if s ∈ ss then st name s r d p * coeff ki lh s r d else st name s r d p)) ∧
    (v.cov = u.cov.map (fun c =>
      ((fun s r d e p => if s ∈ ss then coeff ki lh s r d * c.1 s r d e p * coeff ki lh s r e else c.1 s r d e p),
       (fun s r d e p => if s ∈ ss then coeff ki lh s r d * c.2 s r d e p * coeff ki lh s r e else c.2 s r d e p)))) := by
  intro ss
  induction ss with
  | nil => intro u _; simp
  | cons s ss ih =>
    intro u hn
    obtain ⟨h0, h1, h2, h3⟩ := ih (deltaSqSpw ki lh s u) (List.nodup_cons.1 hn).2
    have hns := (List.nodup_cons.1 hn).1
    simp only [List.foldl_cons]
    refine ⟨h0, ?_, ?_, ?_⟩
    · intro s' r d p
      rw [h1]
      by_cases e : s' = s
      · subst e; simp [hns, deltaSqSpw, onSpw]
      · simp [e, deltaSqSpw, onSpw]
    · rw [h2]
      unfold deltaSqSpw
      simp only [Option.map_map]
      congr 1
      funext st name s' r d p
      simp only [Function.comp_def, onSpw]
      by_cases e : s' = s
      · subst e; simp [hns]
      · simp [e]
    · rw [h3]
      unfold deltaSqSpw
      simp only [Option.map_map]
      congr 1
      funext c
      simp only [Function.comp_def, onSpw]
      congr 1 <;>
      · funext s' r d e p
        by_cases h : s' = s
        · subst h; simp [hns]
        · simp [h]

/-- C76 (partial: first conversion of an unfolded object): in each window data and statistics are multiplied by `k^3/(2 pi^2)`,
with `k` in the length unit the object declares, and covariance entry `(i, j)` by the product of the factors of delays `i` and `j`. Missing: a second conversion, which is neither refused nor harmless, and folded objects, for which the call raises. -/
theorem C76_values_partial (ki : KInfo) (units : List String) (u : Obj ℝ) (hf : ki.folded = false) (hn : u.spws.Nodup) :
    ∃ v units', deltaSq ki units u = .ok (v, units') ∧ units' = units ++ ["k^3 / (2pi^2)"] ∧ v.spws = u.spws ∧ ∀ s ∈ u.spws,
      (∀ r d p, v.data s r d p = u.data s r d p * dsq (ki.kperp (decide ("h^-3" ∈ units)) s r) (ki.kpara (decide ("h^-3" ∈ units)) s d)) ∧
      (∀ st ∈ u.stats, ∃ st' ∈ v.stats, ∀ name r d p, st' name s r d p =
        st name s r d p * dsq (ki.kperp (decide ("h^-3" ∈ units)) s r) (ki.kpara (decide ("h^-3" ∈ units)) s d)) ∧
      (∀ c ∈ u.cov, ∃ c' ∈ v.cov, ∀ r d e p,
        c'.1 s r d e p = c.1 s r d e p * (dsq (ki.kperp (decide ("h^-3" ∈ units)) s r) (ki.kpara (decide ("h^-3" ∈ units)) s d) *
          dsq (ki.kperp (decide ("h^-3" ∈ units)) s r) (ki.kpara (decide ("h^-3" ∈ units)) s e)) ∧
        c'.2 s r d e p = c.2 s r d e p * (dsq (ki.kperp (decide ("h^-3" ∈ units)) s r) (ki.kpara (decide ("h^-3" ∈ units)) s d) *
          dsq (ki.kperp (decide ("h^-3" ∈ units)) s r) (ki.kpara (decide ("h^-3" ∈ units)) s e))) := by
  obtain ⟨h0, h1, h2, h3⟩ := foldl_deltaSq ki (decide ("h^-3" ∈ units)) u.spws u hn
  refine ⟨_, _, by unfold deltaSq; rw [if_neg (by simp [hf])], rfl, h0, ?_⟩
  intro s hs
  refine ⟨fun r d p => by rw [h1, if_pos hs]; rfl, ?_, ?_⟩
  · intro st hst
    rw [h2, hst]
    exact ⟨_, rfl, fun name r d p => by simp only [if_pos hs]; rfl⟩
  · intro c hc
    rw [h3, hc]
    refine ⟨_, rfl, fun r d e p => ?_⟩
    simp only [if_pos hs]
    unfold coeff dsq
    constructor <;> ring

/-- C76: relative errors are unchanged: data over statistic, and covariance over products of data, at delays with `k ≠ 0`. -/
theorem C76_relative_errors (ki : KInfo) (units : List String) (u : Obj ℝ) (hf : ki.folded = false) (hn : u.spws.Nodup) :
    ∃ v units', deltaSq ki units u = .ok (v, units') ∧ ∀ s ∈ u.spws, ∀ r d,
      (ki.kperp (decide ("h^-3" ∈ units)) s r ≠ 0 ∨ ki.kpara (decide ("h^-3" ∈ units)) s d ≠ 0) →
      (∀ st ∈ u.stats, ∃ st' ∈ v.stats, ∀ name p, v.data s r d p / st' name s r d p = u.data s r d p / st name s r d p) ∧
      (∀ e, (ki.kperp (decide ("h^-3" ∈ units)) s r ≠ 0 ∨ ki.kpara (decide ("h^-3" ∈ units)) s e ≠ 0) → ∀ c ∈ u.cov, ∃ c' ∈ v.cov, ∀ p,
        c'.1 s r d e p / (v.data s r d p * v.data s r e p) = c.1 s r d e p / (u.data s r d p * u.data s r e p)) := by
  obtain ⟨v, units', h, _, _, hv⟩ := C76_values_partial ki units u hf hn
  refine ⟨v, units', h, ?_⟩
  have hpos : ∀ a b : ℝ, (a ≠ 0 ∨ b ≠ 0) → dsq a b ≠ 0 := by
    intro a b hab
    have : 0 < a ^ 2 + b ^ 2 := by
      rcases hab with h | h
      · have : 0 < a ^ 2 := by positivity
        have : 0 ≤ b ^ 2 := by positivity
        linarith
      · have : 0 < b ^ 2 := by positivity
        have : 0 ≤ a ^ 2 := by positivity
        linarith
    unfold dsq
    have := Real.sqrt_pos.2 this
    have := Real.pi_pos
    positivity
  intro s hs r d hk
  obtain ⟨hd, hst, hc⟩ := hv s hs
  constructor
  · intro st hst1
    obtain ⟨st', hst', e⟩ := hst st hst1
    refine ⟨st', hst', fun name p => ?_⟩
    rw [e, hd, mul_div_mul_right _ _ (hpos _ _ hk)]
  · intro e hk2 c hc1
    obtain ⟨c', hc', ec⟩ := hc c hc1
    refine ⟨c', hc', fun p => ?_⟩
    rw [(ec r d e p).1, hd, hd]
    have h1 := hpos _ _ hk
    have h2 := hpos _ _ hk2
    rw [mul_mul_mul_comm (u.data s r d p), mul_div_mul_right _ _ (mul_ne_zero h1 h2)]

/-- C76 counterexample: nothing stops a second conversion, which multiplies by `k^3/(2 pi^2)` again. Here `k = 1`. -/
theorem C76_counterexample :
    ∃ (ki : KInfo) (u v w : Obj ℝ) (n1 n2 : List String), deltaSq ki [] u = .ok (v, n1) ∧ deltaSq ki n1 v = .ok (w, n2) ∧
      v.data 0 0 0 0 ≠ 0 ∧ w.data 0 0 0 0 ≠ v.data 0 0 0 0 := by
  refine ⟨⟨fun _ _ _ => 1, fun _ _ _ => 0, false⟩, ⟨[0], fun _ _ _ _ => 1, none, none⟩, _, _, _, _, rfl, rfl, ?_, ?_⟩
  · simp [deltaSqSpw, onSpw, coeff]
  · simp only [deltaSqSpw, onSpw, coeff, List.foldl_cons, List.foldl_nil, if_true]
    have hpi := Real.pi_gt_three
    norm_num
    intro h
    have : (1 : ℝ) < Real.pi ^ 2 * 2 := by nlinarith
    field_simp at h
    nlinarith

/-- C76 finding: a folded object cannot be converted. -/
theorem C76_finding_folded (ki : KInfo) (units : List String) (u : Obj ℝ) (h : ki.folded = true) (hs : u.spws ≠ []) :
    deltaSq ki units u = .error .value := by unfold deltaSq; rw [if_pos ⟨h, hs⟩]

end HeraPspec.Rescale
