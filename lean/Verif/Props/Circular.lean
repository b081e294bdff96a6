import Verif.Model.Circular
import Mathlib.Analysis.SpecialFunctions.Trigonometric.Angle
import Mathlib.Analysis.Real.Pi.Bounds
import Mathlib.Tactic.Linarith
import Mathlib.Tactic.FieldSimp
import Mathlib.Tactic.Ring

/-!
C77: circular averages.
-/
namespace HeraPspec.Circular
open Complex

theorem two_pi_pos : 0 < 2 * Real.pi := by linarith [Real.pi_pos]

theorem pyMod_range (x m : ℝ) (hm : 0 < m) : 0 ≤ pyMod x m ∧ pyMod x m < m := by
  unfold pyMod
  have h1 := Int.floor_le (x / m)
  have h2 := Int.lt_floor_add_one (x / m)
  rw [le_div_iff₀ hm] at h1
  rw [div_lt_iff₀ hm] at h2
  constructor <;> nlinarith

/-- Two numbers in `[0, m)` that differ by a multiple of `m` are equal. -/
theorem eq_of_range (x y m : ℝ) (hx : 0 ≤ x ∧ x < m) (hy : 0 ≤ y ∧ y < m) (k : ℤ) (h : x = y + m * k) : x = y := by
  have hm : 0 < m := lt_of_le_of_lt hx.1 hx.2
  have h1 : (-1 : ℝ) < k := by by_contra hc; push Not at hc; nlinarith
  have h2 : (k : ℝ) < 1 := by by_contra hc; push Not at hc; nlinarith
  have h1' : -1 < k := by exact_mod_cast h1
  have h2' : k < 1 := by exact_mod_cast h2
  have : k = 0 := by omega
  rw [h, this]; simp

/-- C77: the average lies in `[0, 2 pi)`. -/
theorem C77_range (angles : List ℝ) : 0 ≤ circularAverage angles ∧ circularAverage angles < 2 * Real.pi :=
  pyMod_range _ _ two_pi_pos

/-- C77: adding multiples of `2 pi` to the inputs, any and differently, does not change the average. -/
theorem C77_wrap (angles : List (ℝ × ℤ)) :
    circularAverage (angles.map (fun t => t.1 + 2 * Real.pi * t.2)) = circularAverage (angles.map (·.1)) := by
  unfold circularAverage zMean
  congr 2
  simp only [List.length_map, List.map_map]
  congr 3
  funext t
  simp only [Function.comp_def]
  have : I * ((t.1 + 2 * Real.pi * t.2 : ℝ) : ℂ) = I * (t.1 : ℂ) + t.2 * (2 * Real.pi * I) := by push_cast; ring
  rw [this, exp_add, exp_int_mul_two_pi_mul_I, mul_one]

/-- What `circularAverage` computes: the unique number in `[0, 2 pi)` with the direction of the mean vector. -/
theorem eq_of_direction (angles : List ℝ) (r x : ℝ) (hr : 0 < r) (hx : 0 ≤ x ∧ x < 2 * Real.pi)
    (h : zMean angles = r * exp (I * (x : ℂ))) : circularAverage angles = x := by
  have hne : zMean angles ≠ 0 := by
    rw [h]; exact mul_ne_zero (by exact_mod_cast hr.ne') (exp_ne_zero _)
  have hpol : (‖zMean angles‖ : ℂ) * exp (arg (zMean angles) * I) = zMean angles := norm_mul_exp_arg_mul_I _
  have hn : ‖zMean angles‖ = r := by
    rw [h, norm_mul, mul_comm I, norm_exp_ofReal_mul_I, mul_one, norm_real, Real.norm_of_nonneg hr.le]
  rw [hn] at hpol
  conv at hpol => rhs; rw [h]
  have he := mul_left_cancel₀ (by exact_mod_cast hr.ne' : (r : ℂ) ≠ 0) hpol
  rw [mul_comm I, Complex.exp_eq_exp_iff_exists_int] at he
  obtain ⟨n, hn⟩ := he
  have hre : arg (zMean angles) = x + 2 * Real.pi * n := by
    have h1 : ((arg (zMean angles) : ℂ)) * I = ((x + 2 * Real.pi * n : ℝ) : ℂ) * I := by rw [hn]; push_cast; ring
    exact_mod_cast mul_right_cancel₀ I_ne_zero h1
  refine eq_of_range _ _ (2 * Real.pi) (C77_range angles) hx (n - ⌊arg (zMean angles) / (2 * Real.pi)⌋) ?_
  unfold circularAverage pyMod
  conv => lhs; lhs; rw [hre]
  push_cast; ring

theorem mod_direction (x : ℝ) : exp (I * ((pyMod x (2 * Real.pi) : ℝ) : ℂ)) = exp (I * (x : ℂ)) := by
  unfold pyMod
  have : I * ((x - 2 * Real.pi * ⌊x / (2 * Real.pi)⌋ : ℝ) : ℂ) = I * (x : ℂ) + ((-⌊x / (2 * Real.pi)⌋ : ℤ) : ℂ) * (2 * Real.pi * I) := by
    push_cast; ring
  rw [this, exp_add, exp_int_mul_two_pi_mul_I, mul_one]

/-- C77: the average of equal angles is that angle, taken mod `2 pi`. -/
theorem C77_equal (t : ℝ) (n : Nat) (hn : n ≠ 0) :
    circularAverage (List.replicate n t) = pyMod t (2 * Real.pi) ∧
      (0 ≤ t → t < 2 * Real.pi → circularAverage (List.replicate n t) = t) := by
  have hz : zMean (List.replicate n t) = exp (I * (t : ℂ)) := by
    unfold zMean
    simp only [List.map_replicate, List.sum_replicate, List.length_replicate, nsmul_eq_mul]
    field_simp
  constructor
  · apply eq_of_direction _ 1 _ one_pos (pyMod_range _ _ two_pi_pos)
    rw [hz, mod_direction]; simp
  · intro h1 h2
    apply eq_of_direction _ 1 _ one_pos ⟨h1, h2⟩
    rw [hz]; simp

/-- C77: rotating all the angles rotates the average (unless they cancel exactly). -/
theorem C77_rotation (angles : List ℝ) (a : ℝ) (hne : zMean angles ≠ 0) :
    circularAverage (angles.map (· + a)) = pyMod (circularAverage angles + a) (2 * Real.pi) := by
  have hz : zMean (angles.map (· + a)) = exp (I * (a : ℂ)) * zMean angles := by
    unfold zMean
    rw [List.map_map, List.length_map, ← mul_div_assoc]
    congr 1
    rw [← List.sum_map_mul_left]
    congr 1
    apply List.map_congr_left
    intro t _
    simp only [Function.comp_def]
    rw [← exp_add]; congr 1; push_cast; ring
  apply eq_of_direction _ ‖zMean angles‖ _ (norm_pos_iff.2 hne) (pyMod_range _ _ two_pi_pos)
  rw [mod_direction, hz]
  have hpol : (‖zMean angles‖ : ℂ) * exp (arg (zMean angles) * I) = zMean angles := norm_mul_exp_arg_mul_I _
  have h2 : exp (I * ((circularAverage angles : ℝ) : ℂ)) = exp (arg (zMean angles) * I) := by
    unfold circularAverage; rw [mod_direction, mul_comm]
  have : I * ((circularAverage angles + a : ℝ) : ℂ) = I * ((circularAverage angles : ℝ) : ℂ) + I * (a : ℂ) := by push_cast; ring
  rw [this, exp_add, h2, ← mul_assoc, hpol, mul_comm]

theorem sum_re (l : List ℂ) : l.sum.re = (l.map re).sum := by
  induction l with
  | nil => rfl
  | cons a l ih => simp [ih]
theorem sum_im (l : List ℂ) : l.sum.im = (l.map im).sum := by
  induction l with
  | nil => rfl
  | cons a l ih => simp [ih]

theorem list_sum_pos (l : List ℝ) (h : ∀ x ∈ l, 0 < x) (hne : l ≠ []) : 0 < l.sum := by
  induction l with
  | nil => exact absurd rfl hne
  | cons a l ih =>
    rw [List.sum_cons]
    have ha := h a List.mem_cons_self
    by_cases hl : l = []
    · simpa [hl] using ha
    · linarith [ih (fun x hx => h x (List.mem_cons_of_mem _ hx)) hl]

theorem list_sum_nonneg (l : List ℝ) (h : ∀ x ∈ l, 0 ≤ x) : 0 ≤ l.sum := by
  induction l with
  | nil => simp
  | cons a l ih =>
    rw [List.sum_cons]
    linarith [h a List.mem_cons_self, ih (fun x hx => h x (List.mem_cons_of_mem _ hx))]

/-- The centred case: angles within `b < pi/2` of zero have a mean vector with argument within `b` of zero. -/
theorem arg_mean_centred (angles : List ℝ) (hne : angles ≠ []) (b : ℝ) (hb : b < Real.pi / 2)
    (h : ∀ t ∈ angles, -b ≤ t ∧ t ≤ b) : |arg (zMean angles)| ≤ b ∧ zMean angles ≠ 0 := by
  have hpi := Real.pi_pos
  have hb0 : 0 ≤ b := by
    obtain ⟨t, ht⟩ := List.exists_mem_of_ne_nil _ hne
    have := h t ht; linarith
  have hlen : 0 < (angles.length : ℝ) := by exact_mod_cast List.length_pos_iff.2 hne
  have hre : ∀ t : ℝ, (exp (I * (t : ℂ))).re = Real.cos t := by intro t; rw [mul_comm, exp_ofReal_mul_I_re]
  have him : ∀ t : ℝ, (exp (I * (t : ℂ))).im = Real.sin t := by intro t; rw [mul_comm, exp_ofReal_mul_I_im]
  have hzre : (zMean angles).re = (angles.map Real.cos).sum / angles.length := by
    unfold zMean
    rw [div_natCast_re, sum_re, List.map_map]
    congr 3
    funext t; exact hre t
  have hzim : (zMean angles).im = (angles.map Real.sin).sum / angles.length := by
    unfold zMean
    rw [div_natCast_im, sum_im, List.map_map]
    congr 3
    funext t; exact him t
  have hrepos : 0 < (zMean angles).re := by
    rw [hzre]
    apply div_pos _ hlen
    apply list_sum_pos _ _ (by simpa using hne)
    intro x hx
    obtain ⟨t, ht, rfl⟩ := List.mem_map.1 hx
    have := h t ht
    exact Real.cos_pos_of_mem_Ioo ⟨by linarith, by linarith⟩
  have hne0 : zMean angles ≠ 0 := fun h0 => by rw [h0] at hrepos; simp at hrepos
  refine ⟨?_, hne0⟩
  have hr : 0 < ‖zMean angles‖ := norm_pos_iff.2 hne0
  have hcos : ‖zMean angles‖ * Real.cos (arg (zMean angles)) = (zMean angles).re := norm_mul_cos_arg _
  have hsin : ‖zMean angles‖ * Real.sin (arg (zMean angles)) = (zMean angles).im := norm_mul_sin_arg _
  have harg : |arg (zMean angles)| < Real.pi / 2 := by
    rw [abs_arg_lt_pi_div_two_iff]; exact Or.inl hrepos
  obtain ⟨ha1, ha2⟩ := abs_lt.1 harg
  -- the mean of sin(b ∓ t) is non-negative
  have hpm : ∀ s : ℝ, (s = 1 ∨ s = -1) → 0 ≤ Real.sin (b - s * arg (zMean angles)) := by
    intro s hs
    have h1 : 0 ≤ (angles.map (fun t => Real.sin (b - s * t))).sum := by
      apply list_sum_nonneg
      intro x hx
      obtain ⟨t, ht, rfl⟩ := List.mem_map.1 hx
      have := h t ht
      apply Real.sin_nonneg_of_nonneg_of_le_pi
      · rcases hs with rfl | rfl <;> linarith
      · rcases hs with rfl | rfl <;> linarith
    have h2 : (angles.map (fun t => Real.sin (b - s * t))).sum =
        Real.sin b * (angles.map Real.cos).sum - Real.cos b * (s * (angles.map Real.sin).sum) := by
      clear h hne hlen hre him hzre hzim hrepos hne0 hr hcos hsin harg ha1 ha2 h1
      induction angles with
      | nil => simp
      | cons t l ih =>
        simp only [List.map_cons, List.sum_cons]
        rw [ih, Real.sin_sub]
        rcases hs with rfl | rfl
        · simp only [one_mul]; ring
        · simp only [neg_mul, one_mul, Real.cos_neg, Real.sin_neg]; ring
    have h3 : ‖zMean angles‖ * Real.sin (b - s * arg (zMean angles)) * angles.length =
        (angles.map (fun t => Real.sin (b - s * t))).sum := by
      rw [h2]
      have e1 : (angles.map Real.cos).sum = ‖zMean angles‖ * Real.cos (arg (zMean angles)) * angles.length := by
        rw [hcos, hzre]; field_simp
      have e2 : (angles.map Real.sin).sum = ‖zMean angles‖ * Real.sin (arg (zMean angles)) * angles.length := by
        rw [hsin, hzim]; field_simp
      rw [e1, e2, Real.sin_sub]
      rcases hs with rfl | rfl
      · simp only [one_mul]; ring
      · simp only [neg_mul, one_mul, Real.cos_neg, Real.sin_neg]; ring
    rw [← h3] at h1
    by_contra hneg
    push Not at hneg
    have : ‖zMean angles‖ * Real.sin (b - s * arg (zMean angles)) * angles.length < 0 :=
      mul_neg_of_neg_of_pos (mul_neg_of_pos_of_neg hr hneg) hlen
    linarith
  rw [abs_le]
  constructor
  · by_contra hc
    push Not at hc
    have := hpm (-1) (Or.inr rfl)
    have hneg : Real.sin (b - (-1) * arg (zMean angles)) < 0 :=
      Real.sin_neg_of_neg_of_neg_pi_lt (by linarith) (by linarith)
    linarith
  · by_contra hc
    push Not at hc
    have := hpm 1 (Or.inl rfl)
    have hneg : Real.sin (b - 1 * arg (zMean angles)) < 0 :=
      Real.sin_neg_of_neg_of_neg_pi_lt (by linarith) (by linarith)
    linarith

/-- C77: wrap safety. If all angles lie, up to multiples of `2 pi`, on an arc of half-width `b < pi/2` about `a`, so does the
average: it is `x` mod `2 pi` for some `x` within `b` of `a`. In particular LSTs on both sides of the wrap average to one near the
wrap. -/
theorem C77_stays_on_arc (angles : List (ℝ × ℤ)) (hne : angles ≠ []) (a b : ℝ) (hb : b < Real.pi / 2)
    (h : ∀ t ∈ angles, |t.1 - a| ≤ b) :
    ∃ x, |x - a| ≤ b ∧ circularAverage (angles.map (fun t => t.1 + 2 * Real.pi * t.2)) = pyMod x (2 * Real.pi) := by
  have hc := arg_mean_centred (angles.map (fun t => t.1 - a)) (by simpa using hne) b hb (by
    intro t ht
    obtain ⟨s, hs, rfl⟩ := List.mem_map.1 ht
    exact abs_le.1 (h s hs))
  have hrot := C77_rotation (angles.map (fun t => t.1 - a)) a hc.2
  rw [List.map_map] at hrot
  have e : ((fun t : ℝ => t + a) ∘ fun t : ℝ × ℤ => t.1 - a) = (·.1) := by funext t; simp
  rw [e] at hrot
  refine ⟨arg (zMean (angles.map (fun t => t.1 - a))) + a, by simpa using hc.1, ?_⟩
  rw [C77_wrap, hrot]
  unfold circularAverage
  -- reducing mod 2 pi before or after adding a is the same
  refine eq_of_range _ _ (2 * Real.pi) (pyMod_range _ _ two_pi_pos) (pyMod_range _ _ two_pi_pos)
    (⌊(arg (zMean (angles.map (fun t => t.1 - a))) + a) / (2 * Real.pi)⌋ - ⌊arg (zMean (angles.map (fun t => t.1 - a))) / (2 * Real.pi)⌋
      - ⌊(pyMod (arg (zMean (angles.map (fun t => t.1 - a)))) (2 * Real.pi) + a) / (2 * Real.pi)⌋) ?_
  unfold pyMod
  push_cast; ring

/-- C77 finding: angles that cancel exactly have no mean direction; the code returns 0 for them. -/
theorem C77_finding_opposite : circularAverage [1, 1 + Real.pi] = 0 := by
  have : zMean [1, 1 + Real.pi] = 0 := by
    unfold zMean
    simp only [List.map_cons, List.map_nil, List.sum_cons, List.sum_nil]
    push_cast
    rw [mul_add, exp_add, mul_comm I (Real.pi : ℂ), exp_pi_mul_I]
    simp
  unfold circularAverage
  rw [this]; simp [pyMod]

/-- Non-vacuity: 6.2 and 0.1 (as `6.2 - 2 pi` and `0.1`, `0.1` with the wrap undone) lie on a short arc about 0. -/
example : ∀ t ∈ [((6.2 : ℝ) - 2 * Real.pi, (1 : ℤ)), (0.1, 0)], |t.1 - 0| ≤ 0.2 := by
  have h1 := Real.pi_gt_d2
  have h2 := Real.pi_lt_d2
  intro t ht
  simp only [List.mem_cons, List.not_mem_nil, or_false] at ht
  rw [abs_le]
  rcases ht with rfl | rfl <;> constructor <;> simp only [] <;> linarith
example : circularAverage [1, 1, 1] = 1 := by
  have := (C77_equal 1 3 (by decide)).2 (by norm_num) (by linarith [Real.pi_gt_three])
  simpa [List.replicate] using this

end HeraPspec.Circular
