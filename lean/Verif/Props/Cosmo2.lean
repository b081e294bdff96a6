import Verif.Props.Cosmo
import Mathlib.MeasureTheory.Integral.IntervalIntegral.FundThmCalculus
import Mathlib.Analysis.SpecialFunctions.Sqrt

/-!
C131: the conversion factors are the geometry they stand for: the derivative of the line-of-sight distance with frequency, and the wave numbers of delays and baselines.
-/
namespace HeraPspec.Cosmo
open MeasureTheory

/-- The expansion rate is real and positive at every redshift a positive frequency can have. -/
def Expands (p : Params) : Prop := ∀ x : ℝ, -1 < x → 0 < p.OmM * (1 + x) ^ 3 + p.OmK * (1 + x) ^ 2 + p.OmL

theorem E_continuous (p : Params) : Continuous (E p) := by
  unfold E; fun_prop

theorem E_pos {p : Params} (h : Expands p) {x : ℝ} (hx : -1 < x) : 0 < E p x := Real.sqrt_pos.2 (h x hx)

theorem invE_integrable {p : Params} (h : Expands p) {z : ℝ} (hz : -1 < z) : IntervalIntegrable (fun x => 1 / E p x) volume 0 z := by
  apply ContinuousOn.intervalIntegrable
  intro x hx
  have h1 : -1 < x := by
    rcases Set.mem_uIcc.1 hx with h | h <;> linarith [h.1]
  exact (continuousAt_const.div (E_continuous p).continuousAt (E_pos h h1).ne').continuousWithinAt

theorem invE_hasDeriv {p : Params} (h : Expands p) {z : ℝ} (hz : -1 < z) : HasDerivAt (fun y => ∫ x in (0 : ℝ)..y, 1 / E p x) (1 / E p z) z := by
  refine intervalIntegral.integral_hasDerivAt_right (invE_integrable h hz) ?_ ?_
  · have : Measurable (fun x => 1 / E p x) := measurable_const.div (E_continuous p).measurable
    exact this.stronglyMeasurable.stronglyMeasurableAtFilter
  · exact continuousAt_const.div (E_continuous p).continuousAt (E_pos h hz).ne'

/-- The line-of-sight distance grows with redshift at the rate c / (H0 E), in Mpc or h^-1 Mpc. -/
theorem C131_distance_redshift {p : Params} (h : Expands p) {z : ℝ} (hz : -1 < z) (littleH : Bool) :
    HasDerivAt (fun y => DC p y littleH) (ckm / (if littleH then 100 else p.H0) / E p z) z := by
  have := (invE_hasDeriv h hz).mul_const (ckm / (if littleH then 100 else p.H0))
  have hfun : (fun y => DC p y littleH) = fun y => (∫ x in (0 : ℝ)..y, 1 / E p x) * (ckm / (if littleH then 100 else p.H0)) := by
    funext y
    unfold DC; cases littleH <;> simp only [if_true, if_false, Bool.false_eq_true] <;> ring
  rw [hfun]
  exact this.congr_deriv (by ring)

/-- `dRpara_df` is the rate at which the line-of-sight distance of the 21cm line falls with the observed frequency, in Hz or GHz. -/
theorem C131_radial {p : Params} (h : Expands p) {f : ℝ} (hf : 0 < f) (ghz littleH : Bool) :
    HasDerivAt (fun g => DC p (f2z g ghz) littleH) (-dRpara p (f2z f ghz) ghz littleH) f := by
  have hz : -1 < f2z f ghz := (C68_ranges f 0 hf (by norm_num) ghz).1
  have hE := (E_pos h hz).ne'
  have hu : (0 : ℝ) < (if ghz then 1e9 else 1) := by split <;> norm_num
  have h1 : HasDerivAt (fun g => f2z g ghz) (-(f21 / (f ^ 2 * (if ghz then 1e9 else 1)))) f := by
    have h0 : HasDerivAt (fun g : ℝ => f21 / (if ghz then (1e9 : ℝ) else 1) * g⁻¹ - 1) (f21 / (if ghz then (1e9 : ℝ) else 1) * (-(f ^ 2)⁻¹)) f :=
      ((hasDerivAt_inv hf.ne').const_mul _).sub_const _
    convert h0 using 1
    · funext g
      unfold f2z; cases ghz <;> simp [div_eq_mul_inv] <;> ring
    · field_simp
  have h2 := (C131_distance_redshift h hz littleH).comp f h1
  refine h2.congr_deriv ?_
  have hopz : 1 + f2z f ghz = f21 / (f * (if ghz then 1e9 else 1)) := by
    unfold f2z; cases ghz <;> simp
  have hf21 := f21_pos.ne'
  have hpow : (1 + f2z f ghz) ^ (2 : ℝ) = (f21 / (f * (if ghz then 1e9 else 1))) ^ 2 := by
    rw [hopz]; norm_cast
  have hd : dRpara p (f2z f ghz) ghz littleH = (f21 / (f * (if ghz then 1e9 else 1))) ^ 2 / E p (f2z f ghz) * ckm / (if littleH then 100 else p.H0) / f21 * (if ghz then 1e9 else 1) := by
    unfold dRpara
    rw [hpow]
    cases ghz <;> cases littleH <;> simp
  rw [hd]
  generalize (if ghz then (1e9 : ℝ) else 1) = u at hu
  generalize (if littleH then (100 : ℝ) else p.H0) = w
  field_simp

/-- `tau_to_kpara`: a delay of one over a bandwidth is the mode whose wavelength is the line-of-sight extent of that bandwidth. -/
theorem C131_kpara {p : Params} (h : Expands p) (hH : 0 < p.H0) {z : ℝ} (hz : -1 < z) (littleH : Bool) (B : ℝ) (hB : 0 < B) :
    0 < tauToKpara p z littleH ∧ (tauToKpara p z littleH * (1 / B)) * (dRpara p z false littleH * B) = 2 * Real.pi := by
  have hd : 0 < dRpara p z false littleH := by
    have := E_pos h hz
    have := ckm_pos
    have := f21_pos
    have : 0 < 1 + z := by linarith
    unfold dRpara
    cases littleH <;> simp <;> positivity
  have hpi := Real.pi_pos
  unfold tauToKpara
  refine ⟨by positivity, by field_simp⟩

/-- `bl_to_kperp`: a baseline is the mode whose wavelength is the transverse extent of its fringe (wavelength over length, in radians). -/
theorem C131_kperp {p : Params} {z : ℝ} (hz : -1 < z) (littleH : Bool) (hd : dRperp p z littleH ≠ 0) (b : ℝ) (hb : 0 < b) :
    (blToKperp p z littleH * b) * (dRperp p z littleH * (c / z2f z false / b)) = 2 * Real.pi := by
  have hc := c_pos.ne'
  have hf : z2f z false ≠ 0 := (C68_ranges 1 z one_pos hz false).2.1.ne'
  unfold blToKperp
  field_simp

/-- `X2Y` is the comoving volume of a square radian and a unit of frequency: transverse extents times the line-of-sight extent. -/
theorem C131_volume {p : Params} (z : ℝ) (littleH : Bool) (theta B : ℝ) :
    X2Y p z littleH * (theta ^ 2 * B) = (dRperp p z littleH * theta) ^ 2 * (dRpara p z false littleH * B) := by
  unfold X2Y; ring

/-- The hypothesis holds for a flat universe of matter and a cosmological constant. -/
example : Expands ⟨0.7, 0.05, 0.25, 0.3, 0, 70⟩ := by
  intro x hx
  have : 0 < 1 + x := by linarith
  have : 0 < (1 + x) ^ 3 := by positivity
  norm_num; positivity

end HeraPspec.Cosmo
