import Verif.Model.Cosmo
import Mathlib.Analysis.SpecialFunctions.Trigonometric.DerivHyp
import Mathlib.Analysis.SpecialFunctions.Trigonometric.Bounds
import Mathlib.Tactic.Linarith
import Mathlib.Tactic.FieldSimp
import Mathlib.Tactic.Ring
import Mathlib.Tactic.NormNum

/-!
C68, C69, C84: cosmological conversions.
-/
namespace HeraPspec.Cosmo

theorem f21_pos : 0 < f21 := by unfold f21; norm_num
theorem c_pos : 0 < c := by unfold c; norm_num
theorem ckm_pos : 0 < ckm := by unfold ckm c; norm_num

/-- C68: `z2f(f2z(f)) = f` for every positive frequency, in Hz and in GHz. -/
theorem C68_freq_round_trip (f : ℝ) (hf : 0 < f) (ghz : Bool) : z2f (f2z f ghz) ghz = f := by
  have := f21_pos
  unfold z2f f2z
  cases ghz <;> simp <;> field_simp

/-- C68: `f2z(z2f(z)) = z` for every redshift above -1. -/
theorem C68_redshift_round_trip (z : ℝ) (hz : -1 < z) (ghz : Bool) : f2z (z2f z ghz) ghz = z := by
  have := f21_pos
  have hz1 : z + 1 ≠ 0 := by linarith
  unfold z2f f2z
  cases ghz <;> simp <;> field_simp <;> ring

/-- C68: a higher frequency has a strictly smaller redshift. -/
theorem C68_decreasing (f g : ℝ) (hf : 0 < f) (hfg : f < g) (ghz : Bool) : f2z g ghz < f2z f ghz := by
  have := f21_pos
  unfold f2z
  have key : ∀ a b : ℝ, 0 < a → a < b → f21 / b - 1 < f21 / a - 1 := by
    intro a b ha hab
    have := div_lt_div_of_pos_left this ha hab
    linarith
  cases ghz
  · simpa using key f g hf hfg
  · simpa using key (f * 1e9) (g * 1e9) (by positivity) (by nlinarith)

/-- C68: positive frequencies have redshift above -1, and these have positive frequency: the two functions are inverse bijections.
The rest frequency has redshift 0. -/
theorem C68_ranges (f z : ℝ) (hf : 0 < f) (hz : -1 < z) (ghz : Bool) : -1 < f2z f ghz ∧ 0 < z2f z ghz ∧ f2z f21 false = 0 := by
  have h0 := f21_pos
  have hz1 : 0 < z + 1 := by linarith
  refine ⟨?_, ?_, ?_⟩
  · unfold f2z
    have : 0 < f21 / (if ghz = true then f * 1e9 else f) := by cases ghz <;> simp <;> positivity
    linarith
  · unfold z2f
    cases ghz <;> simp <;> positivity
  · unfold f2z; simp [h0.ne']

/-! ### little h -/

variable (p : Params)

/-- C69: lengths in `h^-1 Mpc` are `h` times lengths in `Mpc`: line-of-sight, transverse and angular-diameter distances. -/
theorem C69_distances (hH : 0 < p.H0) (z : ℝ) :
    DC p z true = p.h * DC p z false ∧ DM p z true = p.h * DM p z false ∧ DA p z true = p.h * DA p z false ∧
      dRperp p z true = p.h * dRperp p z false := by
  have hH' := hH.ne'
  have hc := ckm_pos.ne'
  have hDC : DC p z true = p.h * DC p z false := by
    unfold DC Params.h
    simp only [if_true, Bool.false_eq_true, if_false]
    field_simp
  have hDH : DH p true = p.h * DH p false := by
    unfold DH Params.h
    simp only [if_true, Bool.false_eq_true, if_false]
    field_simp
  have hh : p.h ≠ 0 := by unfold Params.h; positivity
  have hratio : ∀ a, a * DC p z true / DH p true = a * DC p z false / DH p false := by
    intro a
    rw [hDC, hDH, ← mul_assoc, mul_comm a, mul_assoc, mul_div_mul_left _ _ hh]
  have hDM : DM p z true = p.h * DM p z false := by
    unfold DM
    rw [hratio, hratio, hDH]
    split
    · ring
    · split
      · ring
      · exact hDC
  refine ⟨hDC, hDM, ?_, hDM⟩
  unfold DA; rw [hDM]; ring

/-- C69: the angular-diameter distance is the transverse distance over (1 + z); the transverse distance is the line-of-sight one in a flat universe, not smaller than it in an open and
not larger in a closed one. -/
theorem C69_curvature (hH : 0 < p.H0) (z : ℝ) (hz : 0 ≤ z) (littleH : Bool) (hDC : 0 ≤ DC p z littleH) :
    DA p z littleH * (1 + z) = DM p z littleH ∧ (p.OmK = 0 → DM p z littleH = DC p z littleH) ∧
      (0 < p.OmK → DC p z littleH ≤ DM p z littleH) ∧ (p.OmK < 0 → DM p z littleH ≤ DC p z littleH) := by
  have hDH : 0 < DH p littleH := by
    have := ckm_pos
    unfold DH; split <;> positivity
  refine ⟨?_, ?_, ?_, ?_⟩
  · unfold DA; field_simp
  · intro h; unfold DM; simp [h]
  · intro h
    unfold DM
    rw [if_pos h]
    have hs : 0 < Real.sqrt p.OmK := Real.sqrt_pos.2 h
    rw [le_div_iff₀ hs]
    have := Real.self_le_sinh_iff.2 (show 0 ≤ Real.sqrt p.OmK * DC p z littleH / DH p littleH by positivity)
    have h2 := mul_le_mul_of_nonneg_left this hDH.le
    have h3 : DH p littleH * (Real.sqrt p.OmK * DC p z littleH / DH p littleH) = DC p z littleH * Real.sqrt p.OmK := by field_simp
    linarith
  · intro h
    unfold DM
    rw [if_neg (not_lt.2 h.le), if_pos h]
    have hs : 0 < Real.sqrt |p.OmK| := Real.sqrt_pos.2 (abs_pos.2 h.ne)
    rw [div_le_iff₀ hs]
    have := Real.sin_le (show 0 ≤ Real.sqrt |p.OmK| * DC p z littleH / DH p littleH by positivity)
    have h2 := mul_le_mul_of_nonneg_left this hDH.le
    have h3 : DH p littleH * (Real.sqrt |p.OmK| * DC p z littleH / DH p littleH) = DC p z littleH * Real.sqrt |p.OmK| := by field_simp
    linarith

/-- C69: the line-of-sight distance of a universe in which E is one (z small, or no matter at all) is the Hubble law: c z / H0. -/
theorem C69_hubble_law (hH : 0 < p.H0) (hM : p.OmM = 0) (hK : p.OmK = 0) (hL : p.OmL = 1) (z : ℝ) :
    DC p z false = ckm * z / p.H0 ∧ DC p z true = ckm * z / 100 := by
  have hE : ∀ x, E p x = 1 := by intro x; unfold E; rw [hM, hK, hL]; norm_num
  unfold DC
  simp [hE, mul_comm]

/-- C69: the radial conversion `dRpara_df` scales by `h`, `X2Y` by `h^3`. -/
theorem C69_volume (hH : 0 < p.H0) (z : ℝ) (ghz : Bool) :
    dRpara p z ghz true = p.h * dRpara p z ghz false ∧ X2Y p z true = p.h ^ 3 * X2Y p z false := by
  have hH' := hH.ne'
  have hpara : ∀ g, dRpara p z g true = p.h * dRpara p z g false := by
    intro g
    unfold dRpara Params.h
    cases g <;> simp only [if_true, Bool.false_eq_true, if_false] <;> field_simp
  refine ⟨hpara ghz, ?_⟩
  unfold X2Y
  rw [hpara, (C69_distances p hH z).2.2.2]
  ring

/-- C69: wave numbers scale by `1/h`. -/
theorem C69_wave_numbers (hH : 0 < p.H0) (z : ℝ) :
    blToKperp p z true = blToKperp p z false / p.h ∧ tauToKpara p z true = tauToKpara p z false / p.h := by
  have hh : p.h ≠ 0 := by unfold Params.h; positivity
  unfold blToKperp tauToKpara
  rw [(C69_distances p hH z).2.2.2, (C69_volume p hH z false).1]
  refine ⟨?_, ?_⟩
  · rw [mul_assoc, div_mul_eq_div_div, div_right_comm]
  · rw [div_mul_eq_div_div, div_right_comm]

/-- The wave number of a baseline of length `b` and a delay `tau`. -/
noncomputable def kOf (z b tau : ℝ) (littleH : Bool) : ℝ :=
  Real.sqrt ((b * blToKperp p z littleH) ^ 2 + (tau * tauToKpara p z littleH) ^ 2)

/-- C69: dimensionless quantities do not depend on `little_h`: wave number times distance, and `k^3` times a power normalised by
`X2Y` (`Delta^2`). -/
theorem C69_dimensionless (hH : 0 < p.H0) (z b tau q : ℝ) :
    blToKperp p z true * dRperp p z true = blToKperp p z false * dRperp p z false ∧
    tauToKpara p z true * dRpara p z false true = tauToKpara p z false * dRpara p z false false ∧
    kOf p z b tau true ^ 3 * (q * X2Y p z true) = kOf p z b tau false ^ 3 * (q * X2Y p z false) := by
  have hh0 : 0 < p.h := by unfold Params.h; positivity
  have hh : p.h ≠ 0 := hh0.ne'
  obtain ⟨w1, w2⟩ := C69_wave_numbers p hH z
  refine ⟨?_, ?_, ?_⟩
  · rw [w1, (C69_distances p hH z).2.2.2]; field_simp
  · rw [w2, (C69_volume p hH z false).1]; field_simp
  · have hk : kOf p z b tau true = kOf p z b tau false / p.h := by
      unfold kOf
      rw [w1, w2]
      have : (b * (blToKperp p z false / p.h)) ^ 2 + (tau * (tauToKpara p z false / p.h)) ^ 2 =
          ((b * blToKperp p z false) ^ 2 + (tau * tauToKpara p z false) ^ 2) / p.h ^ 2 := by field_simp
      rw [this, Real.sqrt_div' _ (by positivity), Real.sqrt_sq hh0.le]
    rw [hk, (C69_volume p hH z false).2]
    field_simp

/-- C84: when the curvature is left to its default, the expansion rate is normalised today: `E(0) = 1`, and the densities sum
to one, whatever the other parameters. -/
theorem C84_closure (OmL OmB OmC H0 : ℝ) (OmM : Option ℝ) :
    E (init OmL OmB OmC H0 OmM none) 0 = 1 ∧
    (init OmL OmB OmC H0 OmM none).OmM + (init OmL OmB OmC H0 OmM none).OmK + (init OmL OmB OmC H0 OmM none).OmL = 1 := by
  constructor
  · unfold E init
    cases OmM <;> simp
  · unfold init; simp

/-- C84: parameters that are given are used: `Om_L`, `H0`, and `Om_M`, `Om_k` if given. -/
theorem C84_given_parameters (OmL OmB OmC H0 : ℝ) (m k : ℝ) :
    (init OmL OmB OmC H0 (some m) (some k)).OmM = m ∧ (init OmL OmB OmC H0 (some m) (some k)).OmK = k ∧
    (init OmL OmB OmC H0 (some m) (some k)).OmL = OmL ∧ (init OmL OmB OmC H0 (some m) (some k)).H0 = H0 :=
  ⟨rfl, rfl, rfl, rfl⟩

/-- C84: in an expanding universe (`Om_M > 0`, other densities non-negative) the line-of-sight distance is zero at redshift zero,
and grows with redshift. -/
theorem C84_distance_monotone (hM : 0 < p.OmM) (hK : 0 ≤ p.OmK) (hL : 0 ≤ p.OmL) (hH : 0 < p.H0) (lh : Bool) :
    DC p 0 lh = 0 ∧ ∀ z w, 0 ≤ z → z < w → DC p z lh < DC p w lh := by
  have hEpos : ∀ x, 0 ≤ x → 0 < E p x := by
    intro x hx
    unfold E
    apply Real.sqrt_pos.2
    have : 0 < p.OmM * (1 + x) ^ 3 := by positivity
    have : 0 ≤ p.OmK * (1 + x) ^ 2 := by positivity
    linarith
  have hcont : ContinuousOn (fun x => 1 / E p x) (Set.Ici 0) := by
    apply ContinuousOn.div continuousOn_const
    · unfold E; fun_prop
    · intro x hx; exact (hEpos x hx).ne'
  have hint : ∀ a b, 0 ≤ a → a ≤ b → IntervalIntegrable (fun x => 1 / E p x) MeasureTheory.volume a b := by
    intro a b ha hab
    apply ContinuousOn.intervalIntegrable
    apply hcont.mono
    rw [Set.uIcc_of_le hab]
    intro x hx; exact le_trans ha hx.1
  refine ⟨by unfold DC; cases lh <;> simp, ?_⟩
  intro z w hz hzw
  have hlt : (∫ x in (0 : ℝ)..z, 1 / E p x) < ∫ x in (0 : ℝ)..w, 1 / E p x := by
    rw [← intervalIntegral.integral_add_adjacent_intervals (hint 0 z (le_refl _) hz) (hint z w hz hzw.le)]
    have : 0 < ∫ x in z..w, 1 / E p x := by
      apply intervalIntegral.intervalIntegral_pos_of_pos_on (hint z w hz hzw.le) _ hzw
      intro x hx
      have := hEpos x (le_trans hz hx.1.le)
      positivity
    linarith
  have hc := ckm_pos
  unfold DC
  cases lh
  · simp only [Bool.false_eq_true, if_false]
    exact div_lt_div_of_pos_right (mul_lt_mul_of_pos_right hlt hc) hH
  · simp only [if_true]
    exact div_lt_div_of_pos_right (mul_lt_mul_of_pos_right hlt hc) (by norm_num)

/-- Non-vacuity: the default cosmology satisfies the hypotheses on signs, and its curvature is not zero. -/
example : (0 : ℝ) < (init 0.68440 0.04911 0.26442 67.27 none none).H0 ∧ 0 < (init 0.68440 0.04911 0.26442 67.27 none none).OmM ∧
    0 < (init 0.68440 0.04911 0.26442 67.27 none none).OmK ∧ 0 ≤ (init 0.68440 0.04911 0.26442 67.27 none none).OmL := by
  unfold init; norm_num
example : f2z f21 false = 0 ∧ z2f 1 false = f21 / 2 := ⟨(C68_ranges 1 1 one_pos (by norm_num) false).2.2, by unfold z2f; norm_num⟩

end HeraPspec.Cosmo
