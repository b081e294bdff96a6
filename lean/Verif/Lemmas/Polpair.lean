import Verif.Model.Polpair
import Mathlib.Data.Nat.Digits.Lemmas
import Mathlib.Tactic.Ring
import Mathlib.Tactic.Linarith

namespace HeraPspec.Polpair

theorem digitsVal_map (l : List Nat) (acc : Nat) :
    digitsVal (l.map Ch.dig) acc = some (Nat.ofDigits 10 l.reverse + 10 ^ l.length * acc) := by
  induction l generalizing acc with
  | nil => simp [digitsVal]
  | cons d l ih =>
    simp only [List.map_cons, digitsVal, ih, List.reverse_cons, List.length_cons, Nat.ofDigits_append,
      Nat.ofDigits_singleton, List.length_reverse]
    congr 1; ring

theorem pyInt_digits (l : List Nat) (h : l ≠ []) :
    pyInt (l.map Ch.dig) = .ok ((Nat.ofDigits 10 l.reverse : Nat) : Int) := by
  cases l with
  | nil => exact absurd rfl h
  | cons d l =>
    have := digitsVal_map (d :: l) 0
    simp only [List.map_cons] at this ⊢
    unfold pyInt
    simp only [this]
    simp

theorem pyInt_neg (l : List Nat) (h : l ≠ []) :
    pyInt (Ch.minus :: l.map Ch.dig) = .ok (-((Nat.ofDigits 10 l.reverse : Nat) : Int)) := by
  cases l with
  | nil => exact absurd rfl h
  | cons d l =>
    have := digitsVal_map (d :: l) 0
    simp only [List.map_cons] at this ⊢
    unfold pyInt
    simp only [this]
    simp

theorem three_le_length (n : Nat) (h : 100 ≤ n) : 3 ≤ (Nat.digits 10 n).length := by
  have := Nat.lt_digits_length_iff (b := 10) (by norm_num) n (k := 2)
  omega

/-- Splitting off the last two characters of the decimal representation is division by 100. -/
theorem nonneg_parse (n : Nat) (h : 100 ≤ n) :
    pyInt (dropLast2 (pyStr n)) = .ok ((n / 100 : Nat) : Int) ∧
    pyInt (last2 (pyStr n)) = .ok ((n % 100 : Nat) : Int) := by
  have hl := three_le_length n h
  have hs : pyStr (n : Int) = ((Nat.digits 10 n).reverse).map Ch.dig := by
    unfold pyStr decDigits
    have : ¬ ((n : Int) < 0) := by omega
    simp only [this, if_false, Int.natAbs_natCast]
    rw [if_neg (by omega)]
  rw [hs]
  unfold dropLast2 last2
  simp only [List.length_map, List.length_reverse]
  rw [← List.map_take, ← List.map_drop, List.take_reverse, List.drop_reverse]
  have e1 : (Nat.digits 10 n).length - ((Nat.digits 10 n).length - 2) = 2 := by omega
  rw [e1]
  constructor
  · rw [pyInt_digits _ (by
      intro h0
      have := congrArg List.length h0
      simp at this; omega)]
    rw [List.reverse_reverse, ← Nat.self_div_pow_eq_ofDigits_drop _ _ (by norm_num)]; norm_num
  · rw [pyInt_digits _ (by
      intro h0
      have := congrArg List.length h0
      rw [List.length_reverse, List.length_take] at this
      simp only [List.length_nil] at this; omega)]
    rw [List.reverse_reverse, ← Nat.self_mod_pow_eq_ofDigits_take _ _ (by norm_num)]; norm_num


theorem decDigits_length_le (n : Nat) (h : n < 100) : (decDigits n).length ≤ 2 := by
  unfold decDigits
  split
  · simp
  · rw [List.length_reverse, Nat.digits_length_le_iff (by norm_num)]; exact h

theorem small_parse (n : Nat) (h : n < 100) : pyInt (dropLast2 (pyStr n)) = .error .value := by
  have hs : pyStr (n : Int) = (decDigits n).map Ch.dig := by
    unfold pyStr
    have : ¬ ((n : Int) < 0) := by omega
    simp only [this, if_false, Int.natAbs_natCast]
  have := decDigits_length_le n h
  rw [hs]
  unfold dropLast2
  simp only [List.length_map]
  rw [show (decDigits n).length - 2 = 0 by omega]
  simp [pyInt]

/-- The leading part of a negative number's string is not an integer, or it is a non-positive one. -/
theorem neg_parse (n : Int) (h : n < 0) : pyInt (dropLast2 (pyStr n)) = .error .value ∨
    ∃ v : Nat, pyInt (dropLast2 (pyStr n)) = .ok (-(v : Int)) := by
  unfold pyStr dropLast2
  rw [if_pos h]
  simp only [List.length_cons, List.length_map]
  generalize decDigits n.natAbs = l
  rcases Nat.lt_trichotomy l.length 1 with h1 | h1 | h1
  · left
    rw [show l.length + 1 - 2 = 0 by omega]; simp [pyInt]
  · left
    rw [show l.length + 1 - 2 = 0 by omega]; simp [pyInt]
  · obtain ⟨k, hk⟩ : ∃ k, l.length + 1 - 2 = k + 1 := ⟨l.length - 2, by omega⟩
    rw [hk, List.take_succ_cons, ← List.map_take]
    by_cases h0 : l.take k = []
    · left; rw [h0]; simp [pyInt]
    · right; exact ⟨_, pyInt_neg _ h0⟩

end HeraPspec.Polpair
