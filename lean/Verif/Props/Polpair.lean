import Verif.Lemmas.Polpair

/-! Property C04: the polarization-pair integer code. -/
namespace HeraPspec.Polpair

/-- The AIPS polarization integers hera_pspec allows. -/
def ValidPol (p : Int) : Prop := -8 ≤ p ∧ p ≤ 4

/-- C04, complete characterisation over *all* integers: `polpair_int2tuple n` returns `(p,q)` iff `p`, `q` are valid
polarizations and `n` is the integer of `(p,q)`; every other integer raises `ValueError`. -/
theorem C04_int2tuple_iff (n : Int) :
    (∀ p q : Int, int2tuple n = .ok (p, q) ↔ ValidPol p ∧ ValidPol q ∧ n = (20 + p) * 100 + (20 + q)) ∧
    ((¬ ∃ p q : Int, ValidPol p ∧ ValidPol q ∧ n = (20 + p) * 100 + (20 + q)) → int2tuple n = .error .value) := by
  by_cases hn : n < 0
  · have herr : int2tuple n = .error .value := by
      unfold int2tuple
      rcases neg_parse n hn with h | ⟨v, h⟩
      · rw [h]; rfl
      · rw [h]
        cases h2 : pyInt (last2 (pyStr n)) with
        | error e => cases e; rfl
        | ok w =>
          simp only [bind, Except.bind]
          rw [if_pos (by omega)]
    refine ⟨fun p q => ?_, fun _ => herr⟩
    rw [herr]
    constructor
    · intro h; cases h
    · rintro ⟨⟨_, _⟩, ⟨_, _⟩, _⟩; omega
  · obtain ⟨m, rfl⟩ := Int.eq_ofNat_of_zero_le (by omega : 0 ≤ n)
    by_cases hm : m < 100
    · have herr : int2tuple (m : Int) = .error .value := by
        unfold int2tuple
        rw [small_parse m hm]; rfl
      refine ⟨fun p q => ?_, fun _ => herr⟩
      rw [herr]
      constructor
      · intro h; cases h
      · rintro ⟨⟨_, _⟩, ⟨_, _⟩, _⟩; omega
    · obtain ⟨h1, h2⟩ := nonneg_parse m (by omega)
      have hv : int2tuple (m : Int) =
          if ((m / 100 : Nat) : Int) - 20 < -8 ∨ ((m / 100 : Nat) : Int) - 20 > 4 ∨
             ((m % 100 : Nat) : Int) - 20 < -8 ∨ ((m % 100 : Nat) : Int) - 20 > 4 then .error .value
          else .ok (((m / 100 : Nat) : Int) - 20, ((m % 100 : Nat) : Int) - 20) := by
        unfold int2tuple
        rw [h1, h2]
        simp only [bind, Except.bind, or_assoc]
      constructor
      · intro p q
        rw [hv]
        unfold ValidPol
        split
        · constructor
          · intro h; cases h
          · rintro ⟨⟨_, _⟩, ⟨_, _⟩, _⟩; omega
        · constructor
          · intro h; simp only [Except.ok.injEq, Prod.mk.injEq] at h; omega
          · rintro ⟨⟨_, _⟩, ⟨_, _⟩, _⟩
            simp only [Except.ok.injEq, Prod.mk.injEq]; omega
      · intro hne
        rw [hv]
        split
        · rfl
        · exfalso; apply hne
          exact ⟨((m / 100 : Nat) : Int) - 20, ((m % 100 : Nat) : Int) - 20, ⟨by omega, by omega⟩,
            ⟨by omega, by omega⟩, by omega⟩

/-- C04: decoding the integer of a pair of valid polarizations returns the pair. -/
theorem C04_roundtrip (p q : Int) (hp : ValidPol p) (hq : ValidPol q) :
    int2tuple (tuple2int (p, q)) = .ok (p, q) :=
  ((C04_int2tuple_iff _).1 p q).2 ⟨hp, hq, rfl⟩

/-- C04: an integer that is accepted re-encodes to itself. -/
theorem C04_reencode (n : Int) (t : Int × Int) (h : int2tuple n = .ok t) : tuple2int t = n := by
  obtain ⟨p, q⟩ := t
  exact (((C04_int2tuple_iff n).1 p q).1 h).2.2.symm

/-- C04: distinct pairs of valid polarizations have distinct integers. -/
theorem C04_injective (p q r s : Int) (hp : ValidPol p) (hq : ValidPol q) (hr : ValidPol r) (hs : ValidPol s)
    (h : tuple2int (p, q) = tuple2int (r, s)) : (p, q) = (r, s) := by
  have h1 := C04_roundtrip p q hp hq
  rw [h, C04_roundtrip r s hr hs] at h1
  cases h1; rfl

example : ValidPol (-5) ∧ ValidPol 4 ∧ tuple2int (1, 2) = 2122 ∧ int2tuple 2122 = .ok (1, 2) := by
  refine ⟨by simp [ValidPol], by simp [ValidPol], rfl, ?_⟩
  exact C04_roundtrip 1 2 (by simp [ValidPol]) (by simp [ValidPol])

end HeraPspec.Polpair
