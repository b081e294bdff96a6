import Verif.Model.LensAngs

/-!
C100: baseline lengths and angles, and the cuts on them.
-/
namespace HeraPspec.LensAngs
noncomputable section

/-! ### Specification -/

/-- The reversed baseline. -/
def rev (v : Vec) : Vec := ⟨-v.e, -v.n, v.u.map Neg.neg⟩

/-- Length in the horizontal plane. -/
def horiz (v : Vec) : ℝ := Real.sqrt (v.e * v.e + v.n * v.n)

/-! ### Angles in radians -/

theorem rawAng_neg (v : Vec) : rawAng v < 0 ↔ v.n < 0 := by
  unfold rawAng
  have hp := Real.pi_pos
  rw [← Complex.arg_neg_iff (z := ⟨v.e, v.n⟩)]
  constructor
  · intro h
    by_contra hc
    push Not at hc
    have : 0 ≤ Complex.arg ⟨v.e, v.n⟩ * 180 / Real.pi := by positivity
    linarith
  · intro h
    apply div_neg_of_neg_of_pos _ hp
    linarith

theorem ang_pos {tol : ℝ} {v : Vec} (hf : ¬ flip tol v) (hn : ¬ v.n < 0) : ang tol v = Complex.arg ⟨v.e, v.n⟩ * 180 / Real.pi := by
  unfold ang foldAng
  rw [if_neg hf, if_neg (by rw [rawAng_neg]; exact hn)]
  rfl

theorem ang_neg {tol : ℝ} {v : Vec} (hf : ¬ flip tol v) (hn : v.n < 0) : ang tol v = (Complex.arg ⟨v.e, v.n⟩ + Real.pi) * 180 / Real.pi := by
  unfold ang foldAng
  rw [if_neg hf, if_pos (by rw [rawAng_neg]; exact hn)]
  have hp := Real.pi_pos
  have h1 := Complex.neg_pi_lt_arg ⟨v.e, v.n⟩
  have h2 : Complex.arg ⟨v.e, v.n⟩ < 0 := Complex.arg_neg_iff.2 hn
  have e : rawAng v + 180 = (Complex.arg ⟨v.e, v.n⟩ + Real.pi) * 180 / Real.pi := by unfold rawAng; field_simp
  rw [e]
  unfold pymod
  have hfl : ⌊(Complex.arg ⟨v.e, v.n⟩ + Real.pi) * 180 / Real.pi / 360⌋ = 0 := by
    rw [Int.floor_eq_zero_iff]
    constructor
    · apply div_nonneg _ (by norm_num)
      apply div_nonneg _ hp.le
      nlinarith
    · rw [div_lt_one (by norm_num), div_lt_iff₀ hp]
      nlinarith
  rw [hfl]
  simp

/-- **C100** Every angle lies between 0 and 180 degrees. -/
theorem C100_range (tol : ℝ) (v : Vec) : 0 ≤ ang tol v ∧ ang tol v ≤ 180 := by
  have hp := Real.pi_pos
  by_cases hf : flip tol v
  · unfold ang; rw [if_pos hf]; norm_num
  by_cases hn : v.n < 0
  · rw [ang_neg hf hn]
    have h1 := Complex.neg_pi_lt_arg ⟨v.e, v.n⟩
    have h2 : Complex.arg ⟨v.e, v.n⟩ < 0 := Complex.arg_neg_iff.2 hn
    refine ⟨div_nonneg (by nlinarith) hp.le, ?_⟩
    rw [div_le_iff₀ hp]; nlinarith
  · rw [ang_pos hf hn]
    have h1 := Complex.arg_le_pi ⟨v.e, v.n⟩
    have h2 : 0 ≤ Complex.arg ⟨v.e, v.n⟩ := Complex.arg_nonneg_iff.2 (not_lt.1 hn)
    refine ⟨div_nonneg (by nlinarith) hp.le, ?_⟩
    rw [div_le_iff₀ hp]; nlinarith

/-- **C100** The length is the Euclidean length of all components, also of the vertical one, and does not depend on the direction. -/
theorem C100_length (v : Vec) : 0 ≤ norm v ∧ norm v * norm v = v.e * v.e + v.n * v.n + v.u.getD 0 * v.u.getD 0 ∧ norm (rev v) = norm v := by
  refine ⟨Real.sqrt_nonneg _, ?_, ?_⟩
  · unfold norm
    rw [Real.mul_self_sqrt (by positivity)]; ring
  · unfold norm rev
    cases v.u <;> simp

theorem abs_eq_horiz (v : Vec) : ‖(⟨v.e, v.n⟩ : ℂ)‖ = horiz v := by
  rw [Complex.norm_def]; unfold horiz; rw [Complex.normSq_mk]

/-- **C100** Unless the baseline is set to zero degrees by the tolerance, the angle is the direction of the baseline in the East-North
plane, up to reversal. -/
theorem C100_direction (tol : ℝ) (v : Vec) (hf : ¬ flip tol v) : ∃ s : ℝ, (s = 1 ∨ s = -1) ∧
    v.e = s * horiz v * Real.cos (ang tol v * Real.pi / 180) ∧ v.n = s * horiz v * Real.sin (ang tol v * Real.pi / 180) := by
  have hp := Real.pi_pos
  have hr := Complex.norm_mul_cos_arg (⟨v.e, v.n⟩ : ℂ)
  have hi := Complex.norm_mul_sin_arg (⟨v.e, v.n⟩ : ℂ)
  rw [abs_eq_horiz] at hr hi
  by_cases hn : v.n < 0
  · refine ⟨-1, Or.inr rfl, ?_⟩
    have e : ang tol v * Real.pi / 180 = Complex.arg ⟨v.e, v.n⟩ + Real.pi := by rw [ang_neg hf hn]; field_simp
    rw [e, Real.cos_add_pi, Real.sin_add_pi]
    constructor
    · linarith
    · linarith
  · refine ⟨1, Or.inl rfl, ?_⟩
    have e : ang tol v * Real.pi / 180 = Complex.arg ⟨v.e, v.n⟩ := by rw [ang_pos hf hn]; field_simp
    rw [e, one_mul]
    exact ⟨hr.symm, hi.symm⟩

/-- **C100** A baseline that runs at least the tolerance North or South has the same angle in both directions. Missing: near East-West
baselines, see the finding. -/
theorem C100_reversal_partial (tol : ℝ) (ht : 0 < tol) (v : Vec) (h : tol ≤ |v.n|) : ang tol (rev v) = ang tol v := by
  have hz : (⟨-v.e, -v.n⟩ : ℂ) = -⟨v.e, v.n⟩ := rfl
  have hf : ¬ flip tol v := by
    rintro ⟨h1, h2, _⟩
    rw [abs_of_neg h2] at h; linarith
  have hf' : ¬ flip tol (rev v) := by
    rintro ⟨h1, h2, _⟩
    have h2 : -v.n < 0 := h2
    have h1 : -tol < -v.n := h1
    rw [abs_of_pos (by linarith)] at h; linarith
  rcases lt_trichotomy v.n 0 with hn | hn | hn
  · have hn' : ¬ (rev v).n < 0 := by show ¬ (-v.n < 0); linarith
    rw [ang_neg hf hn, ang_pos hf' hn']
    show Complex.arg ⟨-v.e, -v.n⟩ * 180 / Real.pi = _
    rw [hz, Complex.arg_neg_eq_arg_add_pi_of_im_neg hn]
  · rw [hn] at h; simp at h; linarith
  · have hn' : (rev v).n < 0 := by show -v.n < 0; linarith
    rw [ang_neg hf' hn', ang_pos hf (by linarith)]
    show (Complex.arg ⟨-v.e, -v.n⟩ + Real.pi) * 180 / Real.pi = _
    rw [hz, Complex.arg_neg_eq_arg_sub_pi_of_im_pos hn]
    ring

/-- **C100 finding** Within the tolerance of East-West the angle depends on the direction in which the baseline is written: every baseline
pointing East and slightly South gets 0 degrees and its reverse more than 90. -/
theorem C100_finding_reversal (tol : ℝ) (v : Vec) (h : flip tol v) : ang tol v = 0 ∧ 90 < ang tol (rev v) := by
  obtain ⟨h1, h2, h3⟩ := h
  have hp := Real.pi_pos
  refine ⟨by unfold ang; rw [if_pos ⟨h1, h2, h3⟩], ?_⟩
  have hf' : ¬ flip tol (rev v) := by rintro ⟨_, h5, _⟩; have h5 : -v.n < 0 := h5; linarith
  rw [ang_pos hf' (by show ¬ (-v.n < 0); linarith)]
  show 90 < Complex.arg ⟨-v.e, -v.n⟩ * 180 / Real.pi
  have : Real.pi / 2 < Complex.arg ⟨-v.e, -v.n⟩ := by
    by_contra hc
    push Not at hc
    have h6 : 0 ≤ (⟨-v.e, -v.n⟩ : ℂ).re ∨ (⟨-v.e, -v.n⟩ : ℂ).im < 0 := Complex.arg_le_pi_div_two_iff.1 hc
    rcases h6 with h6 | h6
    · have : 0 ≤ -v.e := h6; linarith
    · have : -v.n < 0 := h6; linarith
  rw [lt_div_iff₀ hp]; linarith

example : flip 1 ⟨10, -1 / 2, none⟩ := by unfold flip; norm_num

/-- Also an exact East-West baseline has angle 0 or 180 depending on its direction. -/
theorem C100_finding_east_west (tol x : ℝ) (hx : 0 < x) : ang tol ⟨x, 0, none⟩ = 0 ∧ ang tol ⟨-x, 0, none⟩ = 180 := by
  have hp := Real.pi_pos.ne'
  have f1 : ¬ flip tol ⟨x, 0, none⟩ := by rintro ⟨_, h, _⟩; exact lt_irrefl _ h
  have f2 : ¬ flip tol ⟨-x, 0, none⟩ := by rintro ⟨_, h, _⟩; exact lt_irrefl _ h
  rw [ang_pos f1 (lt_irrefl _), ang_pos f2 (lt_irrefl _)]
  have e1 : (⟨x, 0⟩ : ℂ) = (x : ℂ) := rfl
  have e2 : (⟨-x, 0⟩ : ℂ) = ((-x : ℝ) : ℂ) := rfl
  show Complex.arg ⟨x, 0⟩ * 180 / _ = 0 ∧ Complex.arg ⟨-x, 0⟩ * 180 / _ = 180
  rw [e1, e2, Complex.arg_ofReal_of_nonneg hx.le, Complex.arg_ofReal_of_neg (by linarith)]
  constructor
  · simp
  · field_simp

/-- **C100** The lists are aligned with the input. -/
theorem C100_aligned (tol : ℝ) (vs : List Vec) (i : ℕ) (v : Vec) (h : vs[i]? = some v) :
    (lensAngs tol vs).1[i]? = some (norm v) ∧ (lensAngs tol vs).2[i]? = some (ang tol v) ∧
      (lensAngs tol vs).1.length = vs.length ∧ (lensAngs tol vs).2.length = vs.length := by
  unfold lensAngs
  simp [h]

/-- **C100** The cuts keep, in order and with their own lengths and angles, exactly the groups with a length and an angle in the closed
ranges and, for horizontal baselines not set to zero by the tolerance, an East-West component of at least `min_EW_cut`. -/
theorem C100_cuts {G : Type} (tol : ℝ) (lr dr : ℝ × ℝ) (m : ℝ) (groups : List (G × Vec)) (g : G) (l a : ℝ) :
    (g, l, a) ∈ cuts tol lr dr m groups ↔ ∃ v, (g, v) ∈ groups ∧ l = norm v ∧ a = ang tol v ∧ lr.1 ≤ l ∧ l ≤ lr.2 ∧ dr.1 ≤ a ∧ a ≤ dr.2 ∧
      m ≤ |l * Real.cos (a * Real.pi / 180)| := by
  unfold cuts
  rw [List.mem_filter, List.mem_map]
  simp only [Prod.mk.injEq, Bool.and_eq_true, Bool.not_eq_true', decide_eq_false_iff_not, not_or, not_lt]
  constructor
  · rintro ⟨⟨⟨g', v⟩, hm, rfl, rfl, rfl⟩, ⟨⟨h1, h2⟩, h3, h4⟩, h5⟩
    exact ⟨v, hm, rfl, rfl, h1, h2, h3, h4, h5⟩
  · rintro ⟨v, hm, rfl, rfl, h1, h2, h3, h4, h5⟩
    exact ⟨⟨(g, v), hm, rfl, rfl, rfl⟩, ⟨⟨h1, h2⟩, h3, h4⟩, h5⟩

theorem C100_cuts_order {G : Type} (tol : ℝ) (lr dr : ℝ × ℝ) (m : ℝ) (groups : List (G × Vec)) :
    ((cuts tol lr dr m groups).map (·.1)).Sublist (groups.map (·.1)) := by
  unfold cuts
  have h := (List.filter_sublist (l := groups.map (fun g => (g.1, norm g.2, ang tol g.2))) (p := fun g =>
    !decide (g.2.1 < lr.1 ∨ lr.2 < g.2.1) && !decide (g.2.2 < dr.1 ∨ dr.2 < g.2.2) &&
      !decide (|g.2.1 * Real.cos (g.2.2 * Real.pi / 180)| < m))).map (fun x : G × ℝ × ℝ => x.1)
  rw [List.map_map] at h
  exact h

/-- **C100** For a horizontal baseline the East-West cut is one on the East-West component. -/
theorem C100_east_west (tol : ℝ) (v : Vec) (hf : ¬ flip tol v) (hu : v.u.getD 0 = 0) :
    |norm v * Real.cos (ang tol v * Real.pi / 180)| = |v.e| := by
  obtain ⟨s, hs, he, _⟩ := C100_direction tol v hf
  have hh : norm v = horiz v := by unfold norm horiz; rw [hu]; congr 1; ring
  rw [hh]
  conv_rhs => rw [he]
  rcases hs with rfl | rfl
  · rw [one_mul]
  · rw [neg_one_mul, neg_mul, abs_neg]

/-- **C100** With the default ranges for the angle (0 to 180) no group is lost by its angle. -/
theorem C100_default_angles {G : Type} (tol L : ℝ) (groups : List (G × Vec)) (hl : ∀ g ∈ groups, norm g.2 ≤ L) :
    (cuts tol (0, L) (0, 180) 0 groups).map (·.1) = groups.map (·.1) := by
  unfold cuts
  rw [List.filter_eq_self.2]
  · rw [List.map_map]; rfl
  · intro x hx
    obtain ⟨g, hg, rfl⟩ := List.mem_map.1 hx
    have hr := C100_range tol g.2
    have h0 := (C100_length g.2).1
    simp [not_lt.2 hr.1, not_lt.2 hr.2, not_lt.2 h0, not_lt.2 (hl g hg)]
    positivity

/-- **C100 finding** The vertical component is projected onto East-West: a baseline one metre East and ten metres up passes a cut at
ten metres. -/
theorem C100_finding_vertical : ((), norm ⟨1, 0, some 10⟩, ang 1 ⟨1, 0, some 10⟩) ∈
    cuts 1 (0, 10000) (0, 180) 10 [((), ⟨1, 0, some 10⟩)] := by
  rw [C100_cuts]
  have hn : (10 : ℝ) ≤ norm ⟨1, 0, some 10⟩ := by
    unfold norm
    apply Real.le_sqrt_of_sq_le
    norm_num
  have hn2 : norm ⟨1, 0, some 10⟩ ≤ 10000 := by
    unfold norm
    rw [Real.sqrt_le_left (by norm_num)]
    norm_num
  have f1 : ¬ flip 1 ⟨1, 0, some 10⟩ := by rintro ⟨_, h, _⟩; exact lt_irrefl _ h
  have ha : ang 1 ⟨1, 0, some 10⟩ = 0 := by
    rw [ang_pos f1 (lt_irrefl _)]
    have e1 : (⟨1, 0⟩ : ℂ) = ((1 : ℝ) : ℂ) := rfl
    show Complex.arg ⟨1, 0⟩ * 180 / _ = 0
    rw [e1, Complex.arg_ofReal_of_nonneg zero_le_one]
    simp
  refine ⟨_, List.mem_singleton.2 rfl, rfl, rfl, by linarith, hn2, by rw [ha], by rw [ha]; norm_num, ?_⟩
  rw [ha]
  simp only [zero_mul, zero_div, Real.cos_zero, mul_one]
  rw [abs_of_nonneg (by linarith)]
  exact hn

end
end HeraPspec.LensAngs
