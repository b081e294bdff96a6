import Verif.Model.UVP
import Mathlib.Data.List.Forall2

/-! Facts about `mapE`. -/
namespace HeraPspec.UVP
variable {α β γ ε : Type}

theorem mapE_ok_iff {f : α → Except ε β} {l : List α} {r : List β} :
    mapE f l = .ok r ↔ List.Forall₂ (fun a b => f a = .ok b) l r := by
  induction l generalizing r with
  | nil => cases r <;> simp [mapE]
  | cons a l ih =>
    unfold mapE
    cases ha : f a with
    | error e => cases r <;> simp [ha]
    | ok b =>
      cases hl : mapE f l with
      | error e =>
        simp only [false_iff, reduceCtorEq]
        intro h
        cases h with
        | cons _ h2 => rw [← ih, hl] at h2; cases h2
      | ok bs =>
        simp only [Except.ok.injEq]
        constructor
        · rintro rfl; exact .cons ha (ih.1 hl)
        · intro h
          cases h with
          | cons h1 h2 =>
            rw [ha] at h1; cases h1
            rw [← ih, hl] at h2; cases h2; rfl

theorem mapE_exists {f : α → Except ε β} {l : List α} (h : ∀ a ∈ l, ∃ b, f a = .ok b) : ∃ r, mapE f l = .ok r := by
  induction l with
  | nil => exact ⟨[], rfl⟩
  | cons a l ih =>
    obtain ⟨b, hb⟩ := h a List.mem_cons_self
    obtain ⟨bs, hbs⟩ := ih (fun x hx => h x (List.mem_cons_of_mem _ hx))
    exact ⟨b :: bs, by simp [mapE, hb, hbs]⟩

theorem forall₂_getElem_left {R : α → β → Prop} {l : List α} {r : List β} (h : List.Forall₂ R l r) {i : Nat} {a : α}
    (hi : l[i]? = some a) : ∃ b, r[i]? = some b ∧ R a b := by
  induction h generalizing i with
  | nil => simp at hi
  | cons h1 h2 ih =>
    cases i with
    | zero => simp at hi; subst hi; exact ⟨_, by simp, h1⟩
    | succ i => simpa using ih (by simpa using hi)

theorem forall₂_getElem_right {R : α → β → Prop} {l : List α} {r : List β} (h : List.Forall₂ R l r) {i : Nat} {b : β}
    (hi : r[i]? = some b) : ∃ a, l[i]? = some a ∧ R a b := by
  induction h generalizing i with
  | nil => simp at hi
  | cons h1 h2 ih =>
    cases i with
    | zero => simp at hi; subst hi; exact ⟨_, by simp, h1⟩
    | succ i => simpa using ih (by simpa using hi)

end HeraPspec.UVP
