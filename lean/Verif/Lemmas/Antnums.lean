import Verif.Model.Antnums

namespace HeraPspec.Antnums

theorem truncRat_intCast (n : Int) : truncRat (n : ℚ) = n := by
  simp [truncRat]

theorem antnumsToBlpair_eq (a : Blp) : antnumsToBlpair a =
    (a.1.1 + 100) * 1000000000 + (a.1.2 + 100) * 1000000 + (a.2.1 + 100) * 1000 + (a.2.2 + 100) := by
  unfold antnumsToBlpair antnumsToBlpairFl
  simp only [id]
  rw [← truncRat_intCast ((a.1.1 + 100) * 1000000000 + (a.1.2 + 100) * 1000000 + (a.2.1 + 100) * 1000 + (a.2.2 + 100))]
  push_cast
  rfl

theorem antnumsToBl_eq (a : Bl) : antnumsToBl a = (a.1 + 100) * 1000 + (a.2 + 100) := by
  unfold antnumsToBl antnumsToBlFl
  simp only [id]
  rw [← truncRat_intCast ((a.1 + 100) * 1000 + (a.2 + 100))]
  push_cast
  rfl

theorem floor_div_sub (b k m : Int) (hm : 0 < m) : ⌊(b : ℚ) / m - k⌋ = b / m - k := by
  rw [Int.floor_sub_intCast]
  congr 1
  obtain ⟨n, rfl⟩ := Int.eq_ofNat_of_zero_le hm.le
  simpa using Rat.floor_intCast_div_natCast b n

theorem blpairToAntnums_eq (b : Int) : blpairToAntnums b =
    let a1 := b / 1000000000
    let a2 := b / 1000000 - a1 * 1000
    let a3 := b / 1000 - a1 * 1000000 - a2 * 1000
    ((a1 - 100, a2 - 100), (a3 - 100, b - a1 * 1000000000 - a2 * 1000000 - a3 * 1000 - 100)) := by
  unfold blpairToAntnums blpairToAntnumsFl
  simp only [id]
  have h1 : ⌊(b : ℚ) / 1000000000⌋ = b / 1000000000 := by
    have := floor_div_sub b 0 1000000000 (by norm_num); simpa using this
  rw [h1]
  have h2 : ⌊(b : ℚ) / 1000000 - ((b / 1000000000 : ℤ) : ℚ) * 1000⌋ = b / 1000000 - b / 1000000000 * 1000 := by
    have := floor_div_sub b (b / 1000000000 * 1000) 1000000 (by norm_num)
    push_cast at this ⊢; exact this
  rw [h2]
  have h3 : ⌊(b : ℚ) / 1000 - ((b / 1000000000 : ℤ) : ℚ) * 1000000
      - ((b / 1000000 - b / 1000000000 * 1000 : ℤ) : ℚ) * 1000⌋
      = b / 1000 - b / 1000000000 * 1000000 - (b / 1000000 - b / 1000000000 * 1000) * 1000 := by
    have := floor_div_sub b (b / 1000000000 * 1000000 + (b / 1000000 - b / 1000000000 * 1000) * 1000)
      1000 (by norm_num)
    rw [show b / 1000 - b / 1000000000 * 1000000 - (b / 1000000 - b / 1000000000 * 1000) * 1000
      = b / 1000 - (b / 1000000000 * 1000000 + (b / 1000000 - b / 1000000000 * 1000) * 1000) by ring, ← this]
    congr 1; push_cast; ring
  rw [h3]
  have h4 : ∀ x y z : ℤ, ⌊(b : ℚ) - (x : ℚ) * 1000000000 - (y : ℚ) * 1000000 - (z : ℚ) * 1000⌋
      = b - x * 1000000000 - y * 1000000 - z * 1000 := by
    intro x y z
    rw [show (b : ℚ) - (x : ℚ) * 1000000000 - (y : ℚ) * 1000000 - (z : ℚ) * 1000
      = ((b - x * 1000000000 - y * 1000000 - z * 1000 : ℤ) : ℚ) by push_cast; ring]
    exact Int.floor_intCast _
  rw [h4]

theorem blToAntnums_eq (b : Int) : blToAntnums b = (b / 1000 - 100, b - b / 1000 * 1000 - 100) := by
  unfold blToAntnums blToAntnumsFl
  simp only [id]
  have h1 : ⌊(b : ℚ) / 1000⌋ = b / 1000 := by
    have := floor_div_sub b 0 1000 (by norm_num); simpa using this
  rw [h1]
  have h4 : ⌊(b : ℚ) - ((b / 1000 : ℤ) : ℚ) * 1000⌋ = b - b / 1000 * 1000 := by
    rw [show (b : ℚ) - ((b / 1000 : ℤ) : ℚ) * 1000 = ((b - b / 1000 * 1000 : ℤ) : ℚ) by push_cast; ring]
    exact Int.floor_intCast _
  rw [h4]

/-- Rounding functions at least as accurate as IEEE-754 binary64: integers up to 2^53 are exact, and the relative
error is at most 2^-53. -/
structure DoubleLike (fl : ℚ → ℚ) : Prop where
  exact_int : ∀ n : ℤ, |n| ≤ 9007199254740992 → fl n = n
  rel_err : ∀ x : ℚ, |fl x - x| ≤ |x| / 9007199254740992

/-- The floor of a perturbed fraction. -/
theorem floor_perturb (y : ℚ) (n r D : ℤ) (hD : 0 < D) (hr0 : 0 < r) (hr : r < D)
    (h : |y - ((n : ℚ) + (r : ℚ) / D)| < 1 / D) : ⌊y⌋ = n := by
  have hDq : (0 : ℚ) < D := by exact_mod_cast hD
  rw [abs_lt] at h
  obtain ⟨h1, h2⟩ := h
  have e1 : (1 : ℚ) / D ≤ (r : ℚ) / D := by
    apply div_le_div_of_nonneg_right _ hDq.le
    exact_mod_cast hr0
  have e2 : (r : ℚ) / D + 1 / D ≤ 1 := by
    rw [← add_div, div_le_one hDq]; exact_mod_cast hr
  rw [Int.floor_eq_iff]
  constructor <;> linarith

theorem fl_div {fl : ℚ → ℚ} (h : DoubleLike fl) (b D : ℤ) (hb0 : 0 ≤ b) (hb : b < 1000000000000)
    (hD : 1000 ≤ D) : (b % D = 0 → fl ((b : ℚ) / D) = ((b / D : ℤ) : ℚ)) ∧
      |fl ((b : ℚ) / D) - (((b / D : ℤ) : ℚ) + ((b % D : ℤ) : ℚ) / D)| ≤ 1 / 9000000 := by
  have hDq : (0 : ℚ) < D := by exact_mod_cast (by omega : (0:ℤ) < D)
  have key : (b : ℚ) / D = ((b / D : ℤ) : ℚ) + ((b % D : ℤ) : ℚ) / D := by
    have := Int.mul_ediv_add_emod b D
    rw [eq_comm, ← sub_eq_zero]
    field_simp
    have h2 : (b : ℚ) = (D : ℚ) * ((b / D : ℤ) : ℚ) + ((b % D : ℤ) : ℚ) := by exact_mod_cast this.symm
    rw [h2]; ring
  constructor
  · intro h0
    rw [key, h0]
    simp only [Int.cast_zero, zero_div, add_zero]
    apply h.exact_int
    have h1 : 0 ≤ b / D := Int.ediv_nonneg hb0 (by omega)
    have h2 : b / D ≤ b := Int.ediv_le_self D hb0
    rw [abs_of_nonneg h1]; omega
  · rw [← key]
    refine (h.rel_err _).trans ?_
    have hq0 : (0 : ℚ) ≤ (b : ℚ) / D := div_nonneg (by exact_mod_cast hb0) hDq.le
    rw [abs_of_nonneg hq0]
    have : (b : ℚ) / D ≤ 1000000000 := by
      rw [div_le_iff₀ hDq]
      have h1 : (b : ℚ) ≤ 1000000000000 := by exact_mod_cast hb.le
      have h2 : (1000 : ℚ) ≤ D := by exact_mod_cast hD
      nlinarith
    rw [div_le_div_iff₀ (by norm_num) (by norm_num)]
    linarith

/-- One decoding step `⌊fl (y - k)⌋` (with `y` the rounded quotient) gives `b / D - k`. -/
theorem floor_fl_sub {fl : ℚ → ℚ} (h : DoubleLike fl) (b D k : ℤ) (y : ℚ) (hD : 1000 ≤ D)
    (hD2 : D ≤ 1000000) (hk0 : 0 ≤ b / D - k) (hk1 : b / D - k ≤ 1000000000)
    (hy0 : b % D = 0 → y = ((b / D - k : ℤ) : ℚ))
    (hy : |y - (((b / D - k : ℤ) : ℚ) + ((b % D : ℤ) : ℚ) / D)| ≤ 3 / 9000000) :
    ⌊fl y⌋ = b / D - k := by
  have hDq : (0 : ℚ) < D := by exact_mod_cast (by omega : (0:ℤ) < D)
  by_cases h0 : b % D = 0
  · rw [hy0 h0, h.exact_int _ (by rw [abs_of_nonneg hk0]; omega)]
    exact Int.floor_intCast _
  · have hr := Int.emod_nonneg b (by omega : D ≠ 0)
    have hr2 := Int.emod_lt_of_pos b (by omega : 0 < D)
    apply floor_perturb (fl y) (b / D - k) (b % D) D (by omega) (by omega) hr2
    have e1 := h.rel_err y
    have hn : ((b / D - k : ℤ) : ℚ) ≤ 1000000000 := by exact_mod_cast hk1
    have hn0 : (0 : ℚ) ≤ ((b / D - k : ℤ) : ℚ) := by exact_mod_cast hk0
    have hf0 : (0 : ℚ) ≤ ((b % D : ℤ) : ℚ) / D := div_nonneg (by exact_mod_cast hr) hDq.le
    have hf1 : ((b % D : ℤ) : ℚ) / D ≤ 1 := by
      rw [div_le_one hDq]; exact_mod_cast hr2.le
    have hyb : |y| ≤ 1000000002 := by
      rw [abs_le] at hy ⊢
      constructor <;> linarith [hy.1, hy.2]
    have e2 : |fl y - y| ≤ 1 / 8000000 := by
      refine e1.trans ?_
      rw [div_le_div_iff₀ (by norm_num) (by norm_num)]; linarith
    have e3 : (1 : ℚ) / 1000000 ≤ 1 / D := by
      apply one_div_le_one_div_of_le hDq; exact_mod_cast hD2
    have := abs_sub_le (fl y) y ((((b / D - k : ℤ) : ℚ) + ((b % D : ℤ) : ℚ) / D))
    have e4 : (1 : ℚ) / 8000000 + 3 / 9000000 < 1 / 1000000 := by norm_num
    linarith

theorem doubleLike_id : DoubleLike id := by
  constructor
  · intro n _; rfl
  · intro x; simp; positivity

/-- A genuinely rounding instance: non-integers are perturbed by a relative 2^-54. -/
def perturb (x : ℚ) : ℚ := if x.den = 1 then x else x + x / 18014398509481984

theorem doubleLike_perturb : DoubleLike perturb := by
  constructor
  · intro n _; simp [perturb]
  · intro x
    unfold perturb
    split
    · simp; positivity
    · rw [add_sub_cancel_left, abs_div]
      apply div_le_div_of_nonneg_left (abs_nonneg x) (by norm_num)
      norm_num

theorem flmul {fl : ℚ → ℚ} (h : DoubleLike fl) (x y : ℤ) (hb : |x * y| ≤ 9007199254740992) :
    fl ((x : ℚ) * (y : ℚ)) = ((x * y : ℤ) : ℚ) := by
  rw [← Int.cast_mul]; exact h.exact_int _ hb

theorem blpairToAntnumsFl_eq {fl : ℚ → ℚ} (h : DoubleLike fl) (b : Int) (hb0 : 0 ≤ b)
    (hb : b < 1000000000000) : blpairToAntnumsFl fl b = blpairToAntnums b := by
  rw [blpairToAntnums_eq]
  unfold blpairToAntnumsFl
  have hA1 : ⌊fl ((b : ℚ) / 1000000000)⌋ = b / 1000000000 := by
    have hd := fl_div h b 1000000000 hb0 hb (by norm_num)
    by_cases h0 : b % 1000000000 = 0
    · have := hd.1 h0; push_cast at this
      rw [show ((b : ℚ) / 1000000000) = (b : ℚ) / ((1000000000 : ℤ) : ℚ) by norm_num] 
      rw [hd.1 h0]; exact Int.floor_intCast _
    · have e := h.rel_err ((b : ℚ) / 1000000000)
      have hr := Int.emod_nonneg b (by norm_num : (1000000000:ℤ) ≠ 0)
      have hr2 := Int.emod_lt_of_pos b (by norm_num : (0:ℤ) < 1000000000)
      apply floor_perturb _ (b / 1000000000) (b % 1000000000) 1000000000 (by norm_num) (by omega) hr2
      have key : (b : ℚ) / 1000000000 = ((b / 1000000000 : ℤ) : ℚ) + ((b % 1000000000 : ℤ) : ℚ) / ((1000000000:ℤ):ℚ) := by
        have := Int.mul_ediv_add_emod b 1000000000
        have h2 : (b : ℚ) = (1000000000 : ℚ) * ((b / 1000000000 : ℤ) : ℚ) + ((b % 1000000000 : ℤ) : ℚ) := by
          exact_mod_cast this.symm
        push_cast
        linarith
      rw [← key]
      refine lt_of_le_of_lt e ?_
      have hq0 : (0 : ℚ) ≤ (b : ℚ) / 1000000000 := div_nonneg (by exact_mod_cast hb0) (by norm_num)
      rw [abs_of_nonneg hq0]
      have h1 : (b : ℚ) ≤ 1000000000000 := by exact_mod_cast hb.le
      rw [div_div, div_lt_div_iff₀ (by norm_num) (by norm_num)]
      push_cast
      linarith
  have hd6 := fl_div h b 1000000 hb0 hb (by norm_num)
  have hd3 := fl_div h b 1000 hb0 hb (by norm_num)
  have hA2 : ⌊fl (fl ((b : ℚ) / 1000000) - fl (((b / 1000000000 : ℤ) : ℚ) * 1000))⌋
      = b / 1000000 - b / 1000000000 * 1000 := by
    have hm : fl (((b / 1000000000 : ℤ) : ℚ) * 1000) = ((b / 1000000000 * 1000 : ℤ) : ℚ) := by
      have := flmul h (b / 1000000000) 1000 (by rw [abs_le]; omega)
      exact_mod_cast this
    rw [hm]
    apply floor_fl_sub h b 1000000 _ _ (by norm_num) (by norm_num) (by omega) (by omega)
    · intro h0
      have := hd6.1 h0
      push_cast at this ⊢
      rw [this]
    · have := hd6.2
      push_cast at this ⊢
      rw [show fl ((b : ℚ) / 1000000) - ((b / 1000000000 : ℤ) : ℚ) * 1000 -
          (((b / 1000000 : ℤ) : ℚ) - ((b / 1000000000 : ℤ) : ℚ) * 1000 + ((b % 1000000 : ℤ) : ℚ) / 1000000)
          = fl ((b : ℚ) / 1000000) - (((b / 1000000 : ℤ) : ℚ) + ((b % 1000000 : ℤ) : ℚ) / 1000000) by ring]
      linarith
  have hA3 : ⌊fl (fl (fl ((b : ℚ) / 1000) - fl (((b / 1000000000 : ℤ) : ℚ) * 1000000))
        - fl (((b / 1000000 - b / 1000000000 * 1000 : ℤ) : ℚ) * 1000))⌋
      = b / 1000 - b / 1000000000 * 1000000 - (b / 1000000 - b / 1000000000 * 1000) * 1000 := by
    have hm1 : fl (((b / 1000000000 : ℤ) : ℚ) * 1000000) = ((b / 1000000000 * 1000000 : ℤ) : ℚ) := by
      have := flmul h (b / 1000000000) 1000000 (by rw [abs_le]; omega)
      exact_mod_cast this
    have hm2 : fl (((b / 1000000 - b / 1000000000 * 1000 : ℤ) : ℚ) * 1000)
        = (((b / 1000000 - b / 1000000000 * 1000) * 1000 : ℤ) : ℚ) := by
      have := flmul h (b / 1000000 - b / 1000000000 * 1000) 1000 (by rw [abs_le]; omega)
      exact_mod_cast this
    rw [hm1, hm2]
    rw [show b / 1000 - b / 1000000000 * 1000000 - (b / 1000000 - b / 1000000000 * 1000) * 1000
      = b / 1000 - (b / 1000000000 * 1000000 + (b / 1000000 - b / 1000000000 * 1000) * 1000) by ring]
    -- the intermediate subtraction
    set y := fl ((b : ℚ) / 1000) - ((b / 1000000000 * 1000000 : ℤ) : ℚ) with hy
    have hyi : b % 1000 = 0 → fl y = ((b / 1000 - b / 1000000000 * 1000000 : ℤ) : ℚ) := by
      intro h0
      have := hd3.1 h0
      rw [hy, show ((b : ℚ) / 1000) = (b : ℚ) / ((1000 : ℤ) : ℚ) by norm_num, this, ← Int.cast_sub]
      apply h.exact_int
      rw [abs_le]; omega
    have hye : |y - (((b / 1000 - b / 1000000000 * 1000000 : ℤ) : ℚ) + ((b % 1000 : ℤ) : ℚ) / 1000)| ≤ 1 / 9000000 := by
      have := hd3.2
      rw [hy]
      push_cast at this ⊢
      rw [show fl ((b : ℚ) / 1000) - ((b / 1000000000 : ℤ) : ℚ) * 1000000 -
          (((b / 1000 : ℤ) : ℚ) - ((b / 1000000000 : ℤ) : ℚ) * 1000000 + ((b % 1000 : ℤ) : ℚ) / 1000)
          = fl ((b : ℚ) / 1000) - (((b / 1000 : ℤ) : ℚ) + ((b % 1000 : ℤ) : ℚ) / 1000) by ring]
      linarith
    have hyb : |y| ≤ 1000000002 := by
      have hn : ((b / 1000 - b / 1000000000 * 1000000 : ℤ) : ℚ) ≤ 1000000000 := by
        exact_mod_cast (by omega : b / 1000 - b / 1000000000 * 1000000 ≤ 1000000000)
      have hn0 : (0 : ℚ) ≤ ((b / 1000 - b / 1000000000 * 1000000 : ℤ) : ℚ) := by
        exact_mod_cast (by omega : 0 ≤ b / 1000 - b / 1000000000 * 1000000)
      have hf0 : (0 : ℚ) ≤ ((b % 1000 : ℤ) : ℚ) / 1000 :=
        div_nonneg (by exact_mod_cast (by omega : 0 ≤ b % 1000)) (by norm_num)
      have hf1 : ((b % 1000 : ℤ) : ℚ) / 1000 ≤ 1 := by
        rw [div_le_one (by norm_num)]; exact_mod_cast (by omega : b % 1000 ≤ 1000)
      rw [abs_le] at hye ⊢
      constructor <;> linarith [hye.1, hye.2]
    have hfy : |fl y - y| ≤ 1 / 8000000 := by
      refine (h.rel_err y).trans ?_
      rw [div_le_div_iff₀ (by norm_num) (by norm_num)]; linarith
    apply floor_fl_sub h b 1000 _ _ (by norm_num) (by norm_num) (by omega) (by omega)
    · intro h0
      rw [hyi h0]; push_cast; ring
    · push_cast at hye ⊢
      have t := abs_sub_le (fl y) y (((b / 1000 : ℤ) : ℚ) - ((b / 1000000000 : ℤ) : ℚ) * 1000000 + ((b % 1000 : ℤ) : ℚ) / 1000)
      rw [show fl y - (((b / 1000000 : ℤ) : ℚ) - ((b / 1000000000 : ℤ) : ℚ) * 1000) * 1000 -
          (((b / 1000 : ℤ) : ℚ) - (((b / 1000000000 : ℤ) : ℚ) * 1000000 + (((b / 1000000 : ℤ) : ℚ) - ((b / 1000000000 : ℤ) : ℚ) * 1000) * 1000)
            + ((b % 1000 : ℤ) : ℚ) / 1000)
          = fl y - (((b / 1000 : ℤ) : ℚ) - ((b / 1000000000 : ℤ) : ℚ) * 1000000 + ((b % 1000 : ℤ) : ℚ) / 1000) by ring]
      have : (1 : ℚ) / 8000000 + 1 / 9000000 ≤ 3 / 9000000 := by norm_num
      linarith
  simp only [hA1, hA2, hA3]
  have hA4 : ∀ x y z : ℤ, |x * 1000000000| ≤ 9007199254740992 → |y * 1000000| ≤ 9007199254740992 →
      |z * 1000| ≤ 9007199254740992 → |b - x * 1000000000| ≤ 9007199254740992 →
      |b - x * 1000000000 - y * 1000000| ≤ 9007199254740992 →
      |b - x * 1000000000 - y * 1000000 - z * 1000| ≤ 9007199254740992 →
      ⌊fl (fl (fl ((b : ℚ) - fl ((x : ℚ) * 1000000000)) - fl ((y : ℚ) * 1000000)) - fl ((z : ℚ) * 1000))⌋
        = b - x * 1000000000 - y * 1000000 - z * 1000 := by
    intro x y z h1 h2 h3 h4 h5 h6
    have m1 := flmul h x 1000000000 h1
    have m2 := flmul h y 1000000 h2
    have m3 := flmul h z 1000 h3
    rw [show (((1000000000 : ℤ)) : ℚ) = 1000000000 by norm_num] at m1
    rw [show (((1000000 : ℤ)) : ℚ) = 1000000 by norm_num] at m2
    rw [show (((1000 : ℤ)) : ℚ) = 1000 by norm_num] at m3
    rw [m1, m2, m3, ← Int.cast_sub, h.exact_int _ h4, ← Int.cast_sub, h.exact_int _ h5, ← Int.cast_sub,
      h.exact_int _ h6]
    exact Int.floor_intCast _
  rw [hA4] <;> (rw [abs_le]; omega)

theorem blToAntnumsFl_eq {fl : ℚ → ℚ} (h : DoubleLike fl) (b : Int) (hb0 : 0 ≤ b)
    (hb : b < 1000000) : blToAntnumsFl fl b = blToAntnums b := by
  rw [blToAntnums_eq]
  unfold blToAntnumsFl
  have hd3 := fl_div h b 1000 hb0 (by omega) (by norm_num)
  have hA1 : ⌊fl ((b : ℚ) / 1000)⌋ = b / 1000 := by
    by_cases h0 : b % 1000 = 0
    · have := hd3.1 h0
      rw [show ((b : ℚ) / 1000) = (b : ℚ) / ((1000 : ℤ) : ℚ) by norm_num, this]
      exact Int.floor_intCast _
    · apply floor_perturb _ (b / 1000) (b % 1000) 1000 (by norm_num) (by omega) (by omega)
      have := hd3.2
      push_cast at this ⊢
      refine lt_of_le_of_lt this (by norm_num)
  simp only [hA1]
  have m1 := flmul h (b / 1000) 1000 (by rw [abs_le]; omega)
  rw [show (((1000 : ℤ)) : ℚ) = 1000 by norm_num] at m1
  rw [m1, ← Int.cast_sub, h.exact_int _ (by rw [abs_le]; omega), Int.floor_intCast]

theorem antnumsToBlpairFl_eq {fl : ℚ → ℚ} (h : DoubleLike fl) (a : Blp)
    (h1 : -100 ≤ a.1.1 ∧ a.1.1 ≤ 899) (h2 : -100 ≤ a.1.2 ∧ a.1.2 ≤ 899)
    (h3 : -100 ≤ a.2.1 ∧ a.2.1 ≤ 899) (h4 : -100 ≤ a.2.2 ∧ a.2.2 ≤ 899) :
    antnumsToBlpairFl fl a = antnumsToBlpair a := by
  rw [antnumsToBlpair_eq]
  unfold antnumsToBlpairFl
  simp only []
  have m1 := flmul h (a.1.1 + 100) 1000000000 (by rw [abs_le]; omega)
  have m2 := flmul h (a.1.2 + 100) 1000000 (by rw [abs_le]; omega)
  have m3 := flmul h (a.2.1 + 100) 1000 (by rw [abs_le]; omega)
  rw [show (((1000000000 : ℤ)) : ℚ) = 1000000000 by norm_num] at m1
  rw [show (((1000000 : ℤ)) : ℚ) = 1000000 by norm_num] at m2
  rw [show (((1000 : ℤ)) : ℚ) = 1000 by norm_num] at m3
  rw [m1, m2, m3, ← Int.cast_add, h.exact_int _ (by rw [abs_le]; omega), ← Int.cast_add,
    h.exact_int _ (by rw [abs_le]; omega), ← Int.cast_add, h.exact_int _ (by rw [abs_le]; omega), truncRat_intCast]

theorem antnumsToBlFl_eq {fl : ℚ → ℚ} (h : DoubleLike fl) (a : Bl)
    (h1 : -100 ≤ a.1 ∧ a.1 ≤ 899) (h2 : -100 ≤ a.2 ∧ a.2 ≤ 899) :
    antnumsToBlFl fl a = antnumsToBl a := by
  rw [antnumsToBl_eq]
  unfold antnumsToBlFl
  simp only []
  have m3 := flmul h (a.1 + 100) 1000 (by rw [abs_le]; omega)
  rw [show (((1000 : ℤ)) : ℚ) = 1000 by norm_num] at m3
  rw [m3, ← Int.cast_add, h.exact_int _ (by rw [abs_le]; omega), truncRat_intCast]

theorem roundtrip_aux (a : Blp)
    (h2 : -100 ≤ a.1.2 ∧ a.1.2 ≤ 899)
    (h3 : -100 ≤ a.2.1 ∧ a.2.1 ≤ 899) (h4 : -100 ≤ a.2.2 ∧ a.2.2 ≤ 899) :
    blpairToAntnums (antnumsToBlpair a) = a := by
  rw [antnumsToBlpair_eq, blpairToAntnums_eq]
  obtain ⟨⟨a1, a2⟩, ⟨a3, a4⟩⟩ := a
  simp only [Prod.mk.injEq] at *
  refine ⟨⟨?_, ?_⟩, ?_, ?_⟩ <;> omega

theorem roundtrip_bl_aux (a : Bl) (h2 : -100 ≤ a.2 ∧ a.2 ≤ 899) :
    blToAntnums (antnumsToBl a) = a := by
  rw [antnumsToBl_eq, blToAntnums_eq]
  obtain ⟨a1, a2⟩ := a
  simp only [Prod.mk.injEq] at *
  refine ⟨?_, ?_⟩ <;> omega

theorem decode_range (b : Int) :
    (-100 ≤ (blpairToAntnums b).1.2 ∧ (blpairToAntnums b).1.2 ≤ 899) ∧
    (-100 ≤ (blpairToAntnums b).2.1 ∧ (blpairToAntnums b).2.1 ≤ 899) ∧
    (-100 ≤ (blpairToAntnums b).2.2 ∧ (blpairToAntnums b).2.2 ≤ 899) := by
  rw [blpairToAntnums_eq]
  simp only []
  refine ⟨⟨?_, ?_⟩, ⟨?_, ?_⟩, ?_, ?_⟩ <;> omega

theorem encode_decode (b : Int) : antnumsToBlpair (blpairToAntnums b) = b := by
  rw [antnumsToBlpair_eq, blpairToAntnums_eq]
  simp only []
  omega

end HeraPspec.Antnums
