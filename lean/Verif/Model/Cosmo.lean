import Mathlib.MeasureTheory.Integral.IntervalIntegral.Basic
import Mathlib.Analysis.SpecialFunctions.Trigonometric.Basic
import Mathlib.Analysis.SpecialFunctions.Pow.Real

/-!
Model of `Cosmo_Conversions` (conversions.py L57-400) over the reals: `integrate.quad` is the integral, and floating-point
rounding is left out.
-/
namespace HeraPspec.Cosmo
noncomputable section

/-- `units.c`, conversions.py L36. -/
def c : ℝ := 2.99792458e8
/-- `units.ckm`, conversions.py L37. -/
def ckm : ℝ := c / 1e3
/-- `units.f21`, conversions.py L42. -/
def f21 : ℝ := 1.420405751e9

/-- The object's parameters, conversions.py L113-122. -/
structure Params where
  OmL : ℝ
  OmB : ℝ
  OmC : ℝ
  OmM : ℝ
  OmK : ℝ
  H0 : ℝ

/-- `__init__`, conversions.py L75-122. `np.isclose(...) is False` (L107) compares a numpy boolean with Python's `False` by
identity and is never true, so an explicit `Om_M` never changes `Om_b` and `Om_c`. -/
def init (OmL OmB OmC H0 : ℝ) (OmM OmK : Option ℝ) : Params :=
  { OmL := OmL, OmB := OmB, OmC := OmC, OmM := OmM.getD (OmB + OmC), OmK := OmK.getD (1 - OmL - OmM.getD (OmB + OmC)), H0 := H0 }

variable (p : Params)

/-- `self.h = self.H0 / 100.0`, L120. -/
def Params.h : ℝ := p.H0 / 100

/-- `f2z(freq, ghz)`, L138-158. -/
def f2z (freq : ℝ) (ghz : Bool) : ℝ := f21 / (if ghz then freq * 1e9 else freq) - 1

/-- `z2f(z, ghz)`, L160-181. -/
def z2f (z : ℝ) (ghz : Bool) : ℝ := if ghz then f21 / (z + 1) / 1e9 else f21 / (z + 1)

/-- `E(z)`, L183-193. -/
def E (z : ℝ) : ℝ := Real.sqrt (p.OmM * (1 + z) ^ 3 + p.OmK * (1 + z) ^ 2 + p.OmL)

/-- `DC(z, little_h)`, L195-213. -/
def DC (z : ℝ) (littleH : Bool) : ℝ :=
  if littleH then (∫ x in (0 : ℝ)..z, 1 / E p x) * ckm / 100 else (∫ x in (0 : ℝ)..z, 1 / E p x) * ckm / p.H0

/-- The Hubble distance inside `DM`, L229-232. -/
def DH (littleH : Bool) : ℝ := if littleH then ckm / 100 else ckm / p.H0

/-- `DM(z, little_h)`, L215-251. -/
def DM (z : ℝ) (littleH : Bool) : ℝ :=
  if 0 < p.OmK then DH p littleH * Real.sinh (Real.sqrt p.OmK * DC p z littleH / DH p littleH) / Real.sqrt p.OmK
  else if p.OmK < 0 then DH p littleH * Real.sin (Real.sqrt |p.OmK| * DC p z littleH / DH p littleH) / Real.sqrt |p.OmK|
  else DC p z littleH

/-- `DA(z, little_h)`, L253-267. -/
def DA (z : ℝ) (littleH : Bool) : ℝ := DM p z littleH / (1 + z)

/-- `dRperp_dtheta(z, little_h)`, L269-283. -/
def dRperp (z : ℝ) (littleH : Bool) : ℝ := DM p z littleH

/-- `dRpara_df(z, ghz, little_h)`, L285-309. -/
def dRpara (z : ℝ) (ghz littleH : Bool) : ℝ :=
  if ghz then (if littleH then (1 + z) ^ (2 : ℝ) / E p z * ckm / 100 / f21 else (1 + z) ^ (2 : ℝ) / E p z * ckm / p.H0 / f21) * 1e9
  else (if littleH then (1 + z) ^ (2 : ℝ) / E p z * ckm / 100 / f21 else (1 + z) ^ (2 : ℝ) / E p z * ckm / p.H0 / f21)

/-- `X2Y(z, little_h)`, L311-331. -/
def X2Y (z : ℝ) (littleH : Bool) : ℝ := dRperp p z littleH ^ 2 * dRpara p z false littleH

/-- `bl_to_kperp(z, little_h)`, L333-362. -/
def blToKperp (z : ℝ) (littleH : Bool) : ℝ := 2 * Real.pi / (dRperp p z littleH * (c / z2f z false))

/-- `tau_to_kpara(z, little_h)`, L364-389. -/
def tauToKpara (z : ℝ) (littleH : Bool) : ℝ := 2 * Real.pi / dRpara p z false littleH

end
end HeraPspec.Cosmo
