import Verif.Model.FTGauss
import Mathlib.Analysis.SpecialFunctions.Gaussian.FourierTransform

/-!
C133: the Gaussian beam of `FTBeam.gaussian` is the Fourier transform of a Gaussian of the given width, on the grid of the map.
-/
namespace HeraPspec.FTGauss
open HeraPspec.FTBeam MeasureTheory
noncomputable section

/-! ### Specification -/

/-- A Gaussian beam on the sky plane with the given width in degrees (e-folding half-width), in radians from the zenith. -/
def skyBeam (deg x y : ℝ) : ℝ := Real.exp (-(x ^ 2 + y ^ 2) / (deg * Real.pi / 180) ^ 2)

/-- Its Fourier transform at spatial frequencies `(u, v)` (cycles per radian). -/
def skyTransform (deg u v : ℝ) : ℂ :=
  ∫ x : ℝ, ∫ y : ℝ, Complex.exp (-2 * Real.pi * Complex.I * (u * x + v * y)) * (skyBeam deg x y : ℂ)

/-- Spatial frequency of pixel `i`: multiples of one over the width of the map, zero at the middle pixel. -/
def gridFreq (npix : ℕ) (mapsize : ℝ) (i : ℕ) : ℝ := ((i : ℝ) - (npix / 2 : ℕ)) / (2 * mapsize)

/-- The width, in degrees, a channel should have. -/
def widthOf (widths : Widths) (f : ℕ) : Option ℝ := match widths with
  | .number w => some w
  | .array l => l[f]?

/-! ### Proofs -/

theorem ftX_eq (npix : ℕ) (mapsize : ℝ) (i : Fin npix) : ftX npix mapsize i = gridFreq npix mapsize i := by
  have hi := i.2
  have hn : (npix : ℝ) ≠ 0 := by exact_mod_cast (by omega : npix ≠ 0)
  have hk : (fftfreq npix ((i.1 + (npix - npix / 2)) % npix) : ℤ) = (i.1 : ℤ) - (npix / 2 : ℕ) := by
    unfold fftfreq
    rcases lt_or_ge i.1 (npix / 2) with h | h
    · rw [Nat.mod_eq_of_lt (by omega), if_neg (by omega)]; omega
    · have : i.1 + (npix - npix / 2) = (i.1 - npix / 2) + npix := by omega
      rw [this, Nat.add_mod_right, Nat.mod_eq_of_lt (by omega), if_pos (by omega)]; omega
  unfold ftX fftshift gridFreq
  simp only []
  have hc : ((((i.1 : ℤ) - (npix / 2 : ℕ) : ℤ)) : ℝ) = (i.1 : ℝ) - ((npix / 2 : ℕ) : ℝ) := by push_cast; norm_cast
  rw [hk, hc]
  field_simp

theorem gauss1 (w u : ℝ) (hw : 0 < w) :
    ∫ x : ℝ, Complex.exp (-2 * Real.pi * Complex.I * u * x) * Complex.exp (-(x : ℂ) ^ 2 / (w : ℂ) ^ 2) =
      ((Real.sqrt Real.pi * w * Real.exp (-(Real.pi * w * u) ^ 2) : ℝ) : ℂ) := by
  have hwc : (w : ℂ) ≠ 0 := by exact_mod_cast hw.ne'
  have hb : 0 < (1 / (w : ℂ) ^ 2).re := by
    have : (1 / (w : ℂ) ^ 2) = ((1 / w ^ 2 : ℝ) : ℂ) := by push_cast; rfl
    rw [this, Complex.ofReal_re]; positivity
  have h := fourierIntegral_gaussian hb (-2 * Real.pi * u)
  have e : ∀ x : ℝ, Complex.exp (-2 * Real.pi * Complex.I * u * x) * Complex.exp (-(x : ℂ) ^ 2 / (w : ℂ) ^ 2) =
      Complex.exp (Complex.I * (-2 * Real.pi * u) * x) * Complex.exp (-(1 / (w : ℂ) ^ 2) * x ^ 2) := by
    intro x
    congr 2 <;> ring
  simp only [e]
  rw [h]
  have h1 : (Real.pi / (1 / (w : ℂ) ^ 2)) ^ (1 / 2 : ℂ) = ((Real.sqrt Real.pi * w : ℝ) : ℂ) := by
    have : (Real.pi / (1 / (w : ℂ) ^ 2)) = ((Real.pi * w ^ 2 : ℝ) : ℂ) := by push_cast; field_simp
    rw [this, show (1 / 2 : ℂ) = ((1 / 2 : ℝ) : ℂ) by push_cast; rfl, ← Complex.ofReal_cpow (by positivity), ← Real.sqrt_eq_rpow,
      Real.sqrt_mul Real.pi_pos.le, Real.sqrt_sq hw.le]
  rw [h1]
  push_cast
  congr 2
  field_simp
  ring

theorem transform_eq (deg u v : ℝ) (hd : 0 < deg) : skyTransform deg u v =
    ((Real.pi * (deg * Real.pi / 180) ^ 2 * Real.exp (-(Real.pi * (deg * Real.pi / 180)) ^ 2 * (u ^ 2 + v ^ 2)) : ℝ) : ℂ) := by
  have hw : 0 < deg * Real.pi / 180 := by have := Real.pi_pos; positivity
  unfold skyTransform skyBeam
  generalize deg * Real.pi / 180 = w at hw
  have e : ∀ x y : ℝ, Complex.exp (-2 * Real.pi * Complex.I * (u * x + v * y)) * ((Real.exp (-(x ^ 2 + y ^ 2) / w ^ 2) : ℝ) : ℂ) =
      (Complex.exp (-2 * Real.pi * Complex.I * u * x) * Complex.exp (-(x : ℂ) ^ 2 / (w : ℂ) ^ 2)) *
        (Complex.exp (-2 * Real.pi * Complex.I * v * y) * Complex.exp (-(y : ℂ) ^ 2 / (w : ℂ) ^ 2)) := by
    intro x y
    push_cast
    rw [← Complex.exp_add, ← Complex.exp_add, ← Complex.exp_add, ← Complex.exp_add]
    congr 1
    ring
  simp only [e, integral_const_mul, integral_mul_const]
  rw [gauss1 w u hw, gauss1 w v hw, ← Complex.ofReal_mul]
  congr 1
  have hs : Real.sqrt Real.pi * Real.sqrt Real.pi = Real.pi := Real.mul_self_sqrt Real.pi_pos.le
  calc Real.sqrt Real.pi * w * Real.exp (-(Real.pi * w * u) ^ 2) * (Real.sqrt Real.pi * w * Real.exp (-(Real.pi * w * v) ^ 2))
      = (Real.sqrt Real.pi * Real.sqrt Real.pi) * w ^ 2 * (Real.exp (-(Real.pi * w * u) ^ 2) * Real.exp (-(Real.pi * w * v) ^ 2)) := by ring
    _ = _ := by rw [hs, ← Real.exp_add]; congr 2; ring

theorem plane_eq (npix : ℕ) (mapsize deg : ℝ) (hd : 0 < deg) (i j : Fin npix) :
    plane npix mapsize deg i j = Real.pi * (deg * Real.pi / 180) ^ 2 *
      Real.exp (-(Real.pi * (deg * Real.pi / 180)) ^ 2 * (gridFreq npix mapsize i ^ 2 + gridFreq npix mapsize j ^ 2)) / (2 * mapsize) := by
  have hw : 0 < deg * Real.pi / 180 := by have := Real.pi_pos; positivity
  unfold plane
  simp only [ftX_eq]
  generalize deg * Real.pi / 180 = w at hw
  have hpi := Real.pi_ne_zero
  have : -1 * (gridFreq npix mapsize j ^ 2 + gridFreq npix mapsize i ^ 2) / (1 / Real.pi / w) ^ 2 =
      -(Real.pi * w) ^ 2 * (gridFreq npix mapsize i ^ 2 + gridFreq npix mapsize j ^ 2) := by
    field_simp; ring
  rw [this]
  ring

/-- C133: the beam is created exactly when there are at least three frequencies, an array of widths has one per frequency, and the polarization is
accepted; it then holds the given frequencies and one channel per frequency. -/
theorem C133_accepted (num2str : ℤ → String) (freqs : List ℚ) (widths : Widths) (pol : PolArg) (mapsize : ℚ) (npix : ℕ) :
    (∃ b, gaussian num2str freqs widths pol mapsize npix = .ok b) ↔
      3 ≤ freqs.length ∧ (∀ l, widths = .array l → l.length = freqs.length) ∧ ∃ p, polCheck num2str pol = .ok p := by
  unfold gaussian
  by_cases h : freqs.length ≤ 2
  · rw [if_pos h]
    simp only [reduceCtorEq, exists_false, false_iff]
    omega
  · rw [if_neg h]
    have key : ∀ ws : List ℝ, ws.length = freqs.length →
        ((∃ b, mkBeam num2str { ndim := 3, rows := npix, cols := npix, planes := ws.map (fun w => plane npix mapsize w) } pol freqs mapsize = .ok b) ↔
          ∃ p, polCheck num2str pol = .ok p) := by
      intro ws hws
      unfold mkBeam
      rw [if_neg (by simp), if_neg (by simp)]
      cases hp : polCheck num2str pol with
      | error e => simp
      | ok p => simp [hws]
    cases widths with
    | number w =>
      simp only [widthList]
      rw [key _ (by simp)]
      simp; omega
    | array l =>
      simp only [widthList]
      by_cases hl : l.length = freqs.length
      · rw [if_neg (by simpa using hl)]
        simp only []
        rw [key _ hl]
        simp [hl]; omega
      · rw [if_pos hl]
        simp [hl]

/-- C133: every channel is the Fourier transform of a Gaussian of the channel's own width, per map width `2 * mapsize`, at the spatial
frequencies of the map's grid. -/
theorem C133_transform (num2str : ℤ → String) (freqs : List ℚ) (widths : Widths) (pol : PolArg) (mapsize : ℚ) (npix : ℕ)
    (b : Beam (Fin npix → Fin npix → ℝ)) (h : gaussian num2str freqs widths pol mapsize npix = .ok b) :
    b.freqs = freqs ∧ b.mapsize = mapsize ∧ polCheck num2str pol = .ok b.pol ∧ b.planes.length = freqs.length ∧
    ∀ (f : ℕ) (P : Fin npix → Fin npix → ℝ) (deg : ℝ), b.planes[f]? = some P → widthOf widths f = some deg → 0 < deg → ∀ i j : Fin npix,
      (P i j : ℂ) = skyTransform deg (gridFreq npix mapsize i) (gridFreq npix mapsize j) / (2 * (mapsize : ℝ) : ℝ) := by
  unfold gaussian at h
  split at h
  · cases h
  cases hw : widthList freqs.length widths with
  | error e => rw [hw] at h; cases h
  | ok ws =>
    rw [hw] at h
    simp only [] at h
    unfold mkBeam at h
    rw [if_neg (by simp), if_neg (by simp)] at h
    cases hp : polCheck num2str pol with
    | error e => rw [hp] at h; cases h
    | ok p =>
      rw [hp] at h
      simp only [] at h
      split at h
      · cases h
      · rename_i hl
        injection h with h
        subst h
        simp only [List.length_map, ne_eq, not_not] at hl
        refine ⟨rfl, rfl, rfl, by simp [hl], ?_⟩
        intro f P deg hP hdeg hd i j
        have hws : ws[f]? = some deg := by
          rw [List.getElem?_map] at hP
          cases hf : ws[f]? with
          | none => rw [hf] at hP; cases hP
          | some x =>
            cases widths with
            | number w =>
              simp only [widthList] at hw
              injection hw with hw
              subst hw
              simp only [widthOf] at hdeg
              injection hdeg with hdeg
              subst hdeg
              have := List.mem_of_getElem? hf
              rw [List.eq_of_mem_replicate this]
            | array l =>
              simp only [widthList] at hw
              split at hw
              · cases hw
              · injection hw with hw
                subst hw
                rw [← hf]; exact hdeg
        rw [List.getElem?_map, hws] at hP
        injection hP with hP
        subst hP
        simp only []
        rw [plane_eq npix mapsize deg hd, transform_eq deg _ _ hd]
        push_cast
        rfl

/-- C133: the beam is largest at the middle pixel, positive, and symmetric. -/
theorem C133_shape (npix : ℕ) (mapsize deg : ℝ) (hm : 0 < mapsize) (hd : 0 < deg) (i j : Fin npix) :
    0 < plane npix mapsize deg i j ∧ plane npix mapsize deg i j = plane npix mapsize deg j i ∧
    (∀ c : Fin npix, c.1 = npix / 2 → plane npix mapsize deg c c = Real.pi * (deg * Real.pi / 180) ^ 2 / (2 * mapsize) ∧
      (plane npix mapsize deg i j ≤ plane npix mapsize deg c c) ∧
      (plane npix mapsize deg i j = plane npix mapsize deg c c → i = c ∧ j = c)) := by
  have hpi := Real.pi_pos
  have hw : 0 < deg * Real.pi / 180 := by positivity
  simp only [plane_eq npix mapsize deg hd]
  generalize deg * Real.pi / 180 = w at hw
  refine ⟨by positivity, by ring_nf, ?_⟩
  intro c hc
  have h0 : gridFreq npix mapsize c = 0 := by
    unfold gridFreq; rw [hc]; simp
  have hA : 0 < Real.pi * w ^ 2 := by positivity
  have h2 : (0 : ℝ) < 2 * mapsize := by linarith
  have hle : -(Real.pi * w) ^ 2 * (gridFreq npix mapsize i ^ 2 + gridFreq npix mapsize j ^ 2) ≤ 0 := by
    have : 0 ≤ (Real.pi * w) ^ 2 * (gridFreq npix mapsize i ^ 2 + gridFreq npix mapsize j ^ 2) := by positivity
    linarith
  refine ⟨by simp [h0], ?_, ?_⟩
  · rw [h0]
    apply div_le_div_of_nonneg_right _ h2.le
    apply mul_le_mul_of_nonneg_left _ hA.le
    rw [Real.exp_le_exp]
    simpa using hle
  · intro h
    rw [h0, div_left_inj' h2.ne', mul_right_inj' hA.ne', Real.exp_eq_exp] at h
    have hz : gridFreq npix mapsize i ^ 2 + gridFreq npix mapsize j ^ 2 = 0 := by
      have hne : (Real.pi * w) ^ 2 ≠ 0 := by positivity
      have : (Real.pi * w) ^ 2 * (gridFreq npix mapsize i ^ 2 + gridFreq npix mapsize j ^ 2) = 0 := by
        simp at h ⊢
        have h' := h
        tauto
      exact (mul_eq_zero.1 this).resolve_left hne
    have hi : gridFreq npix mapsize i = 0 := by nlinarith [sq_nonneg (gridFreq npix mapsize i), sq_nonneg (gridFreq npix mapsize j)]
    have hj : gridFreq npix mapsize j = 0 := by nlinarith [sq_nonneg (gridFreq npix mapsize i), sq_nonneg (gridFreq npix mapsize j)]
    have conv : ∀ k : Fin npix, gridFreq npix mapsize k = 0 → k = c := by
      intro k hk
      unfold gridFreq at hk
      rw [div_eq_zero_iff] at hk
      rcases hk with hk | hk
      · have : (k.1 : ℝ) = ((npix / 2 : ℕ) : ℝ) := by linarith
        apply Fin.ext
        rw [hc]; exact_mod_cast this
      · linarith
    exact ⟨conv i hi, conv j hj⟩

/-- C133 finding: a single width in a list is documented as allowed ("can be length 1 if the same value is used for all the frequencies") but always
refused. -/
theorem C133_finding_single_width (num2str : ℤ → String) (freqs : List ℚ) (w : ℝ) (pol : PolArg) (mapsize : ℚ) (npix : ℕ) :
    gaussian num2str freqs (.array [w]) pol mapsize npix = .error .value := by
  unfold gaussian
  split
  · rfl
  · simp only [widthList, List.length_singleton]
    rw [if_pos (by omega)]

example : ∃ b, gaussian (fun _ => "pI") [100, 101, 102] (.array [7, 8, 9]) (.str "pI") 1 5 = .ok b := by
  rw [C133_accepted]
  refine ⟨by simp, by rintro l h; injection h with h; subst h; rfl, "pI", rfl⟩

end
end HeraPspec.FTGauss
