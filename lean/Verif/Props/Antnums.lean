import Verif.Lemmas.Antnums

/-!
Properties C01, C02, C03: the integer encoding of baselines and baseline-pairs.
-/
namespace HeraPspec.Antnums

/-! ## Specification -/

/-- The documented domain: the antenna number plus 100 has at most three decimal digits and antenna numbers
are non-negative. -/
def ValidAnt (a : Int) : Prop := 0 ≤ a ∧ a ≤ 899

/-- All four antennas of a baseline-pair are in the documented domain. -/
def ValidBlp (p : Blp) : Prop := ValidAnt p.1.1 ∧ ValidAnt p.1.2 ∧ ValidAnt p.2.1 ∧ ValidAnt p.2.2

/-- Both antennas of a baseline are in the documented domain. -/
def ValidBl (p : Bl) : Prop := ValidAnt p.1 ∧ ValidAnt p.2

/-! ## C01 -/

/-- C01: decoding the integer of a valid baseline-pair returns the baseline-pair. -/
theorem C01_blpair_roundtrip (p : Blp) (h : ValidBlp p) : blpairToAntnums (antnumsToBlpair p) = p := by
  obtain ⟨⟨_, _⟩, ⟨_, _⟩, ⟨_, _⟩, ⟨_, _⟩⟩ := h
  apply roundtrip_aux <;> constructor <;> omega

/-- C01: decoding the integer of a valid baseline returns the baseline. -/
theorem C01_bl_roundtrip (p : Bl) (h : ValidBl p) : blToAntnums (antnumsToBl p) = p := by
  obtain ⟨⟨_, _⟩, ⟨_, _⟩⟩ := h
  apply roundtrip_bl_aux; constructor <;> omega

/-- C01: distinct valid baseline-pairs never share an integer. -/
theorem C01_blpair_injective (p q : Blp) (hp : ValidBlp p) (hq : ValidBlp q)
    (h : antnumsToBlpair p = antnumsToBlpair q) : p = q := by
  rw [← C01_blpair_roundtrip p hp, ← C01_blpair_roundtrip q hq, h]

/-- C01: distinct valid baselines never share an integer. -/
theorem C01_bl_injective (p q : Bl) (hp : ValidBl p) (hq : ValidBl q)
    (h : antnumsToBl p = antnumsToBl q) : p = q := by
  rw [← C01_bl_roundtrip p hp, ← C01_bl_roundtrip q hq, h]

/-- C01: exactly when the round trip works, for *every* quadruple of integers: the last three antennas must be
in -100..899 (the first is unconstrained). -/
theorem C01_blpair_roundtrip_iff (p : Blp) : blpairToAntnums (antnumsToBlpair p) = p ↔
    (-100 ≤ p.1.2 ∧ p.1.2 ≤ 899) ∧ (-100 ≤ p.2.1 ∧ p.2.1 ≤ 899) ∧ (-100 ≤ p.2.2 ∧ p.2.2 ≤ 899) := by
  constructor
  · intro h
    have := decode_range (antnumsToBlpair p)
    rwa [h] at this
  · rintro ⟨h2, h3, h4⟩
    exact roundtrip_aux p h2 h3 h4

/-- C01: the encoded integer is the decimal concatenation of the four three-digit antenna codes: it is a 12 digit
number whose digit blocks are the antennas plus 100. -/
theorem C01_blpair_digits (p : Blp) (h : ValidBlp p) :
    100000000000 ≤ antnumsToBlpair p ∧ antnumsToBlpair p < 1000000000000 ∧
    antnumsToBlpair p / 1000000000 = p.1.1 + 100 ∧ antnumsToBlpair p / 1000000 % 1000 = p.1.2 + 100 ∧
    antnumsToBlpair p / 1000 % 1000 = p.2.1 + 100 ∧ antnumsToBlpair p % 1000 = p.2.2 + 100 := by
  obtain ⟨⟨_, _⟩, ⟨_, _⟩, ⟨_, _⟩, ⟨_, _⟩⟩ := h
  rw [antnumsToBlpair_eq]
  omega

/-- C01 fails outside the documented domain: two different baselines (1,1002) and (2,2) share an integer, and the
integer of the first decodes to the second. -/
theorem C01_counterexample_bl : antnumsToBl (1, 1002) = antnumsToBl (2, 2) ∧
    blToAntnums (antnumsToBl (1, 1002)) = (2, 2) := by
  rw [antnumsToBl_eq, antnumsToBl_eq, blToAntnums_eq]; decide

/-- C01 fails outside the documented domain, for baseline-pairs. -/
theorem C01_counterexample_blpair :
    antnumsToBlpair ((1, 2), (3, 900)) = antnumsToBlpair ((1, 2), (4, -100)) ∧
    blpairToAntnums (antnumsToBlpair ((1, 2), (3, 1004))) = ((1, 2), (4, 4)) := by
  rw [antnumsToBlpair_eq, antnumsToBlpair_eq, antnumsToBlpair_eq, blpairToAntnums_eq]; decide

example : ValidBlp ((1, 2), (3, 899)) ∧ ValidBl (0, 899) := by
  simp [ValidBlp, ValidBl, ValidAnt]
example : antnumsToBlpair ((1, 2), (3, 4)) = 101102103104 := by rw [antnumsToBlpair_eq]; decide

/-! ## C02 -/

/-- C02: for every rounding function at least as accurate as an IEEE double, decoding any integer of at most 12
digits gives the same antennas as exact arithmetic. -/
theorem C02_blpair_decode_float {fl : ℚ → ℚ} (h : DoubleLike fl) (b : Int) (h0 : 0 ≤ b)
    (h1 : b < 1000000000000) : blpairToAntnumsFl fl b = blpairToAntnums b :=
  blpairToAntnumsFl_eq h b h0 h1

/-- C02: the same for baseline integers of at most 6 digits. -/
theorem C02_bl_decode_float {fl : ℚ → ℚ} (h : DoubleLike fl) (b : Int) (h0 : 0 ≤ b)
    (h1 : b < 1000000) : blToAntnumsFl fl b = blToAntnums b :=
  blToAntnumsFl_eq h b h0 h1

/-- C02: hence the round trip also holds with every operation, of both directions, done in floating point. -/
theorem C02_blpair_roundtrip_float {fl : ℚ → ℚ} (h : DoubleLike fl) (p : Blp) (hp : ValidBlp p) :
    blpairToAntnumsFl fl (antnumsToBlpairFl fl p) = p := by
  have hd := C01_blpair_digits p hp
  have hp' := hp
  obtain ⟨⟨_, _⟩, ⟨_, _⟩, ⟨_, _⟩, ⟨_, _⟩⟩ := hp'
  rw [antnumsToBlpairFl_eq h p (by constructor <;> omega) (by constructor <;> omega) (by constructor <;> omega)
    (by constructor <;> omega), blpairToAntnumsFl_eq h _ (by omega) (by omega)]
  exact C01_blpair_roundtrip p hp

/-- C02: the same for baselines. -/
theorem C02_bl_roundtrip_float {fl : ℚ → ℚ} (h : DoubleLike fl) (p : Bl) (hp : ValidBl p) :
    blToAntnumsFl fl (antnumsToBlFl fl p) = p := by
  have hp' := hp
  obtain ⟨⟨_, _⟩, ⟨_, _⟩⟩ := hp'
  have e := antnumsToBlFl_eq h p (by constructor <;> omega) (by constructor <;> omega)
  rw [e, blToAntnumsFl_eq h _ (by rw [antnumsToBl_eq]; omega) (by rw [antnumsToBl_eq]; omega)]
  exact C01_bl_roundtrip p hp

/-- A genuinely rounding function satisfies the accuracy hypothesis, and it changes the quotients. -/
example : DoubleLike perturb ∧ perturb (101102103104 / 1000000000) ≠ 101102103104 / 1000000000 := by
  refine ⟨doubleLike_perturb, ?_⟩
  have : ((101102103104 : ℚ) / 1000000000).den ≠ 1 := by
    intro h
    have h2 := Rat.coe_int_num_of_den_eq_one h
    have h3 : (((101102103104 : ℚ) / 1000000000).num : ℚ) * 1000000000 = 101102103104 := by rw [h2]; norm_num
    have h4 : ((101102103104 : ℚ) / 1000000000).num * 1000000000 = 101102103104 := by exact_mod_cast h3
    omega
  simp only [perturb, this, if_false]
  norm_num

/-! ## C03 -/

/-- Integers of at most 12 digits: the codes of baseline-pairs. -/
def ValidBlpairInt (b : Int) : Prop := 0 ≤ b ∧ b < 1000000000000

private theorem dec1 (b : Int) (h : ValidBlpairInt b) :
    -100 ≤ (blpairToAntnums b).1.1 ∧ (blpairToAntnums b).1.1 ≤ 899 := by
  obtain ⟨h0, h1⟩ := h
  rw [blpairToAntnums_eq]; simp only []; constructor <;> omega

/-- C03: `_conj_blpair_int` exchanges the two baselines. -/
theorem C03_conj_swaps_baselines (b : Int) (h : ValidBlpairInt b) :
    blpairToAntnums (conjBlpairInt b) = ((blpairToAntnums b).2, (blpairToAntnums b).1) := by
  obtain ⟨h2, h3, h4⟩ := decode_range b
  exact roundtrip_aux _ h4 (dec1 b h) h2

/-- C03: applying `_conj_blpair_int` twice is the identity. -/
theorem C03_conj_blpair_int_involutive (b : Int) (h : ValidBlpairInt b) :
    conjBlpairInt (conjBlpairInt b) = b := by
  conv_lhs => unfold conjBlpairInt
  rw [show antnumsToBlpair (rev2 (blpairToAntnums b)) = conjBlpairInt b from rfl, C03_conj_swaps_baselines b h]
  exact encode_decode b

/-- C03: `_conj_bl_int` exchanges the two antennas. -/
theorem C03_conj_bl_swaps (b : Int) (h0 : 0 ≤ b) (h1 : b < 1000000) :
    blToAntnums (conjBlInt b) = ((blToAntnums b).2, (blToAntnums b).1) := by
  have : ((rev2 (blToAntnums b)).2) = (blToAntnums b).1 := rfl
  apply roundtrip_bl_aux (rev2 (blToAntnums b))
  rw [this, blToAntnums_eq]; simp only []; constructor <;> omega

/-- C03: applying `_conj_bl_int` twice is the identity. -/
theorem C03_conj_bl_int_involutive (b : Int) (h0 : 0 ≤ b) (h1 : b < 1000000) :
    conjBlInt (conjBlInt b) = b := by
  conv_lhs => unfold conjBlInt
  rw [show antnumsToBl (rev2 (blToAntnums b)) = conjBlInt b from rfl, C03_conj_bl_swaps b h0 h1]
  simp only [rev2]
  rw [antnumsToBl_eq, blToAntnums_eq]; simp only []; omega

/-- C03: what `_conj_blpair(which)` does to the antennas; any other `which` raises. -/
theorem C03_conj_blpair_spec (b : Int) (h : ValidBlpairInt b) :
    let a := blpairToAntnums b
    (∃ c, conjBlpair b "first" = .ok c ∧ ValidBlpairInt c ∧
      blpairToAntnums c = ((a.1.2, a.1.1), (a.2.1, a.2.2))) ∧
    (∃ c, conjBlpair b "second" = .ok c ∧ ValidBlpairInt c ∧
      blpairToAntnums c = ((a.1.1, a.1.2), (a.2.2, a.2.1))) ∧
    (∃ c, conjBlpair b "both" = .ok c ∧ ValidBlpairInt c ∧
      blpairToAntnums c = ((a.1.2, a.1.1), (a.2.2, a.2.1))) ∧
    (∀ w, w ≠ "first" → w ≠ "second" → w ≠ "both" → conjBlpair b w = .error .value) := by
  obtain ⟨h2, h3, h4⟩ := decode_range b
  have h1 := dec1 b h
  refine ⟨⟨_, by simp [conjBlpair, rev2], ?_, roundtrip_aux _ h1 h3 h4⟩,
    ⟨_, by simp [conjBlpair, rev2], ?_, roundtrip_aux _ h2 h4 h3⟩,
    ⟨_, by simp [conjBlpair, rev2], ?_, roundtrip_aux _ h1 h4 h3⟩, ?_⟩
  · rw [antnumsToBlpair_eq]; simp only [ValidBlpairInt]; omega
  · rw [antnumsToBlpair_eq]; simp only [ValidBlpairInt]; omega
  · rw [antnumsToBlpair_eq]; simp only [ValidBlpairInt]; omega
  · intro w n1 n2 n3; simp [conjBlpair, n1, n2, n3]

/-- An integer is determined by the antennas it decodes to. -/
private theorem decode_inj (b c : Int) (h : blpairToAntnums b = blpairToAntnums c) : b = c := by
  rw [← encode_decode b, ← encode_decode c, h]

/-- C03: `_conj_blpair` with any accepted `which` applied twice is the identity. -/
theorem C03_conj_blpair_involutive (b c : Int) (h : ValidBlpairInt b) (w : String)
    (hc : conjBlpair b w = .ok c) : conjBlpair c w = .ok b := by
  obtain ⟨⟨c1, e1, v1, d1⟩, ⟨c2, e2, v2, d2⟩, ⟨c3, e3, v3, d3⟩, hn⟩ := C03_conj_blpair_spec b h
  by_cases w1 : w = "first"
  · subst w1; rw [e1] at hc; cases hc
    obtain ⟨⟨c', e', _, d'⟩, -⟩ := C03_conj_blpair_spec _ v1
    rw [e']; congr 1; apply decode_inj; rw [d', d1]
  by_cases w2 : w = "second"
  · subst w2; rw [e2] at hc; cases hc
    obtain ⟨-, ⟨c', e', _, d'⟩, -⟩ := C03_conj_blpair_spec _ v2
    rw [e']; congr 1; apply decode_inj; rw [d', d2]
  by_cases w3 : w = "both"
  · subst w3; rw [e3] at hc; cases hc
    obtain ⟨-, -, ⟨c', e', _, d'⟩, -⟩ := C03_conj_blpair_spec _ v3
    rw [e']; congr 1; apply decode_inj; rw [d', d3]
  rw [hn w w1 w2 w3] at hc; cases hc

/-- C03: conjugating the first and then the second baseline is conjugating both (and in the other order). -/
theorem C03_first_second_both (b c d : Int) (h : ValidBlpairInt b)
    (h1 : conjBlpair b "first" = .ok c) (h2 : conjBlpair b "second" = .ok d) :
    conjBlpair c "second" = conjBlpair b "both" ∧ conjBlpair d "first" = conjBlpair b "both" := by
  obtain ⟨⟨c1, e1, v1, d1⟩, ⟨c2, e2, v2, d2⟩, ⟨c3, e3, v3, d3⟩, hn⟩ := C03_conj_blpair_spec b h
  rw [e1] at h1; cases h1
  rw [e2] at h2; cases h2
  obtain ⟨-, ⟨x, ex, _, dx⟩, -⟩ := C03_conj_blpair_spec _ v1
  obtain ⟨⟨y, ey, _, dy⟩, -⟩ := C03_conj_blpair_spec _ v2
  rw [ex, ey, e3]
  constructor
  · congr 1; apply decode_inj; rw [dx, d1, d3]
  · congr 1; apply decode_inj; rw [dy, d2, d3]

/-- C03: `_blpair_to_bls` gives the integers of the two baselines, i.e. the six leading and six trailing digits. -/
theorem C03_blpair_to_bls (p : Blp) (h : ValidBlp p) :
    blpairToBls (antnumsToBlpair p) = (antnumsToBl p.1, antnumsToBl p.2) ∧
    blpairToBls (antnumsToBlpair p) = (antnumsToBlpair p / 1000000, antnumsToBlpair p % 1000000) := by
  have e : blpairToBls (antnumsToBlpair p) = (antnumsToBl p.1, antnumsToBl p.2) := by
    unfold blpairToBls; rw [C01_blpair_roundtrip p h]
  refine ⟨e, ?_⟩
  rw [e, antnumsToBl_eq, antnumsToBl_eq, antnumsToBlpair_eq]
  obtain ⟨⟨_, _⟩, ⟨_, _⟩, ⟨_, _⟩, ⟨_, _⟩⟩ := h
  simp only [Prod.mk.injEq]; constructor <;> omega

example : ValidBlpairInt 101102103104 := by simp [ValidBlpairInt]
example : conjBlpair 101102103104 "first" = .ok 102101103104 := by
  simp [conjBlpair, blpairToAntnums_eq, rev2, antnumsToBlpair_eq]

end HeraPspec.Antnums
