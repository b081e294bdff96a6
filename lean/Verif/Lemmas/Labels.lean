import Verif.Model.Labels
import Mathlib.Data.Finset.Card
import Mathlib.Data.List.Nodup
import Mathlib.Data.Finset.Dedup
import Mathlib.Data.Finset.Range
import Mathlib.Tactic.Linarith

namespace HeraPspec.Labels
open HeraPspec.ArgParse (Str)
open HeraPspec.UVP (mapE)

/-- The `k`-th name tried for a label. -/
def cand (base : Str) (k : ℕ) : Str := if k = 0 then base else base ++ dotExt k

theorem toDigits_inj {a b : ℕ} (h : Nat.toDigits 10 a = Nat.toDigits 10 b) : a = b := by
  have h1 := @Nat.ofDigitChars_toDigits 10 a (by norm_num) (by norm_num)
  have h2 := @Nat.ofDigitChars_toDigits 10 b (by norm_num) (by norm_num)
  rw [h, h2] at h1
  exact h1.symm

theorem cand_inj (base : Str) {a b : ℕ} (h : cand base a = cand base b) : a = b := by
  unfold cand at h
  split at h <;> split at h
  · omega
  · exfalso
    have := congrArg List.length h
    simp [dotExt] at this
  · exfalso
    have := congrArg List.length h
    simp [dotExt] at this
  · have := List.append_cancel_left h
    unfold dotExt at this
    exact toDigits_inj (List.cons.inj this).2

theorem relabelOne_spec (prev : List Str) (base : Str) : ∀ fuel e,
    (∃ j, e ≤ j ∧ j < e + fuel ∧ cand base j ∉ prev ∧ (∀ i, e ≤ i → i < j → cand base i ∈ prev) ∧
      relabelOne prev base fuel (e + 1) (cand base e) = cand base j) ∨
    ((∀ j, e ≤ j → j < e + fuel → cand base j ∈ prev) ∧ relabelOne prev base fuel (e + 1) (cand base e) = base) := by
  intro fuel
  induction fuel with
  | zero => intro e; right; exact ⟨fun j h1 h2 => by omega, rfl⟩
  | succ fuel ih =>
    intro e
    by_cases h : cand base e ∈ prev
    · have hs : relabelOne prev base (fuel + 1) (e + 1) (cand base e) =
          relabelOne prev base fuel (e + 1 + 1) (cand base (e + 1)) := by
        show (if cand base e ∈ prev then _ else _) = _
        rw [if_pos h]
        rfl
      rw [hs]
      rcases ih (e + 1) with ⟨j, h1, h2, h3, h4, h5⟩ | ⟨h1, h2⟩
      · refine Or.inl ⟨j, by omega, by omega, h3, ?_, h5⟩
        intro i hi hj
        rcases Nat.eq_or_lt_of_le hi with rfl | hi
        · exact h
        · exact h4 i hi hj
      · refine Or.inr ⟨?_, h2⟩
        intro j hj1 hj2
        rcases Nat.eq_or_lt_of_le hj1 with rfl | hi
        · exact h
        · exact h1 j hi (by omega)
    · refine Or.inl ⟨e, le_refl _, by omega, h, fun i h1 h2 => by omega, ?_⟩
      show (if cand base e ∈ prev then _ else _) = _
      rw [if_neg h]

theorem exists_free (prev : List Str) (base : Str) (n : ℕ) (h : prev.length < n) : ∃ j < n, cand base j ∉ prev := by
  by_contra hc
  push Not at hc
  have h1 : (Finset.range n).image (cand base) ⊆ prev.toFinset := by
    intro x hx
    obtain ⟨j, hj, rfl⟩ := Finset.mem_image.1 hx
    exact List.mem_toFinset.2 (hc j (Finset.mem_range.1 hj))
  have h2 := Finset.card_le_card h1
  rw [Finset.card_image_of_injective _ (fun a b => cand_inj base), Finset.card_range] at h2
  have := List.toFinset_card_le prev
  omega

theorem relabelOne_notMem (prev : List Str) (base : Str) (h : prev.length < 99999) :
    relabelOne prev base 99999 1 base ∉ prev := by
  have hs := relabelOne_spec prev base 99999 0
  have hb : cand base 0 = base := rfl
  rw [hb] at hs
  rcases hs with ⟨j, -, -, h3, -, h5⟩ | ⟨h1, -⟩
  · rw [h5]; exact h3
  · obtain ⟨j, hj, hj2⟩ := exists_free prev base _ h
    exact absurd (h1 j (Nat.zero_le _) (by omega)) hj2

theorem relabelOne_fresh (prev : List Str) (base : Str) (h : base ∉ prev) (f : ℕ) : relabelOne prev base (f + 1) 1 base = base := by
  show (if base ∈ prev then _ else _) = _
  rw [if_neg h]

theorem relabel_length (l : List Str) : ∀ seen, (relabel seen l).length = seen.length + l.length := by
  induction l with
  | nil => intro seen; simp [relabel]
  | cons a l ih => intro seen; simp only [relabel, ih]; simp; omega

theorem relabel_prefix (l : List Str) : ∀ seen, seen <+: relabel seen l := by
  induction l with
  | nil => intro seen; simp [relabel]
  | cons a l ih => intro seen; simp only [relabel]; exact (List.prefix_append _ _).trans (ih _)

theorem relabel_nodup (l : List Str) : ∀ seen, seen.Nodup → seen.length + l.length ≤ 99999 → (relabel seen l).Nodup := by
  induction l with
  | nil => intro seen h _; simpa [relabel] using h
  | cons a l ih =>
    intro seen h hl
    simp only [relabel]
    simp only [List.length_cons] at hl
    apply ih
    · rw [List.nodup_append]
      refine ⟨h, by simp, ?_⟩
      intro x hx y hy
      rw [List.mem_singleton.1 hy]
      intro he
      exact relabelOne_notMem seen a (by omega) (he ▸ hx)
    · simp; omega

theorem relabel_fresh (l : List Str) : ∀ seen, (seen ++ l).Nodup → relabel seen l = seen ++ l := by
  induction l with
  | nil => intro seen _; simp [relabel]
  | cons a l ih =>
    intro seen h
    simp only [relabel]
    have ha : a ∉ seen := by
      intro hm
      exact (List.nodup_append.1 h).2.2 a hm a (by simp) rfl
    rw [relabelOne_fresh seen a ha 99998, ih]
    · simp
    · simpa using h

theorem relabel_append (l₁ l₂ : List Str) : ∀ seen, relabel seen (l₁ ++ l₂) = relabel (relabel seen l₁) l₂ := by
  induction l₁ with
  | nil => intro seen; rfl
  | cons a l ih => intro seen; simp only [List.cons_append, relabel, ih]

theorem mapE_length {α β ε : Type} (f : α → Except ε β) : ∀ (l : List α) (r : List β), mapE f l = .ok r → r.length = l.length := by
  intro l
  induction l with
  | nil => intro r h; simp only [mapE, Except.ok.injEq] at h; subst h; rfl
  | cons a l ih =>
    intro r h
    unfold mapE at h
    split at h
    · cases h
    · split at h
      · cases h
      · simp only [Except.ok.injEq] at h
        subst h
        rename_i hb
        simp [ih _ hb]

end HeraPspec.Labels
