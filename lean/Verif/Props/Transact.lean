import Verif.Model.Transact
import Mathlib.Tactic.Linarith

/-!
C40, C41: opening and closing the file.
-/
namespace HeraPspec.Transact

/-- C40: with `keep_open=False`, after any call of a container method (any call tree, any exception point, any start state) the
handle is closed, unless the call was ended by a `BaseException` that is not an `Exception`, or `_open` itself raised after
opening the file. Missing: the excluded cases, in which the file stays open. -/
theorem C40_closed_partial (σ : Nat → OpenRes) (b : Body) (s : St)
    (hopen : (topCall false σ b s).2.isOpen = true) :
    (topCall false σ b s).1 = .base ∨ (s.isOpen = false ∧ σ s.n = .headerFail) := by
  unfold topCall wrapper at *
  unfold ensureOpen at *
  by_cases hs : s.isOpen = true
  · rw [if_pos hs] at *
    simp only [] at *
    cases h : run false σ b s with
    | mk o s2 =>
      rw [h] at hopen
      cases o <;> simp [St.close] at *
  · rw [if_neg hs] at *
    have hs' : s.isOpen = false := by simpa using hs
    cases hσ : σ s.n with
    | headerFail => exact Or.inr ⟨hs', rfl⟩
    | fail => rw [hσ] at hopen; simp at hopen
    | ok =>
      rw [hσ] at hopen
      simp only [] at *
      cases h : run false σ b ⟨true, s.n + 1⟩ with
      | mk o s2 =>
        rw [h] at hopen
        cases o <;> simp [St.close] at *

/-- The handle state after a list of top-level calls. -/
def calls (keep : Bool) (σ : Nat → OpenRes) : List Body → St → St
  | [], s => s
  | b :: bs, s => calls keep σ bs (topCall keep σ b s).2

/-- C40: hence after any sequence of calls none of which was interrupted that way. Missing: calls interrupted by a `BaseException` and failures inside `_open`, after which the file stays open. -/
theorem C40_closed_after_history_partial (σ : Nat → OpenRes) (hσ : ∀ n, σ n ≠ .headerFail) (bs : List Body) :
    ∀ s, s.isOpen = false → (∀ b ∈ bs, ∀ s, (topCall false σ b s).1 ≠ .base) → (calls false σ bs s).isOpen = false := by
  induction bs with
  | nil => intro s hs _; exact hs
  | cons b bs ih =>
    intro s hs hb
    apply ih
    · by_contra h
      rcases C40_closed_partial σ b s (by simpa using h) with h1 | h1
      · exact hb b List.mem_cons_self s h1
      · exact hσ _ h1.2
    · exact fun b' hb' => hb b' (List.mem_cons_of_mem _ hb')

theorem run_keeps_open (σ : Nat → OpenRes) (b : Body) : ∀ s : St, s.isOpen = true → (run true σ b s).2.isOpen = true := by
  induction b with
  | done o => intro s hs; exact hs
  | access k ih => intro s hs; unfold run; rw [if_pos hs]; exact ih s hs
  | call nested c k ihc ihk =>
    intro s hs
    unfold run wrapper ensureOpen
    rw [if_pos hs]
    simp only []
    have hc := ihc s hs
    cases h : run true σ c s with
    | mk o s2 =>
      rw [h] at hc
      cases o
      · exact ihk s2 hc
      · exact hc
      · exact hc
      · exact hc

/-- C40: with `keep_open=True` an open handle stays open through any call, whatever it does. -/
theorem C40_kept_open (σ : Nat → OpenRes) (b : Body) (s : St) (hs : s.isOpen = true) :
    (topCall true σ b s).2.isOpen = true := by
  unfold topCall wrapper ensureOpen
  rw [if_pos hs]
  simp only []
  have := run_keeps_open σ b s hs
  cases h : run true σ b s with
  | mk o s2 => rw [h] at this; cases o <;> exact this

/-- Every inner call passes `nested=True`. -/
def AllNested : Body → Prop
  | .done o => o ≠ .closedUse
  | .access k => AllNested k
  | .call nested c k => nested = true ∧ AllNested c ∧ AllNested k

theorem run_nested (keep : Bool) (σ : Nat → OpenRes) (b : Body) : AllNested b → ∀ s : St, s.isOpen = true →
    (run keep σ b s).1 ≠ .closedUse ∧ ((run keep σ b s).1 = .ret → (run keep σ b s).2.isOpen = true) := by
  induction b with
  | done o => intro hn s hs; exact ⟨hn, fun _ => hs⟩
  | access k ih => intro hn s hs; unfold run; rw [if_pos hs]; exact ih hn s hs
  | call nested c k ihc ihk =>
    intro hn s hs
    obtain ⟨h1, h2, h3⟩ := hn
    subst h1
    unfold run wrapper ensureOpen
    rw [if_pos hs]
    simp only []
    obtain ⟨c1, c2⟩ := ihc h2 s hs
    cases h : run keep σ c s with
    | mk o s2 =>
      rw [h] at c1 c2
      cases o with
      | ret => simp only [Bool.not_true, Bool.and_false, Bool.false_eq_true, if_false]; exact ihk h3 s2 (c2 rfl)
      | exc => simp
      | base => simp
      | closedUse => exact absurd rfl c1

/-- C40: a nested call that returns leaves the handle open for its caller, also with `keep_open=False`; and methods that pass
`nested=True` to all inner calls never use a closed handle. -/
theorem C40_nested_keeps_open (keep : Bool) (σ : Nat → OpenRes) (b : Body) (hn : AllNested b) (s : St) :
    (wrapper keep σ true (run keep σ b) s).1 ≠ .closedUse ∧
    ((wrapper keep σ true (run keep σ b) s).1 = .ret → (wrapper keep σ true (run keep σ b) s).2.isOpen = true) := by
  unfold wrapper
  have main : ∀ s1 : St, s1.isOpen = true → ∀ r : Outcome × St, r = (match run keep σ b s1 with
      | (.ret, s2) => (.ret, if !keep && !true then s2.close else s2)
      | (.exc, s2) => (.exc, if !keep then s2.close else s2)
      | (.closedUse, s2) => (.closedUse, if !keep then s2.close else s2)
      | (.base, s2) => (.base, s2)) → r.1 ≠ .closedUse ∧ (r.1 = .ret → r.2.isOpen = true) := by
    intro s1 h1 r hr
    obtain ⟨c1, c2⟩ := run_nested keep σ b hn s1 h1
    cases h : run keep σ b s1 with
    | mk o s2 =>
      rw [h] at c1 c2 hr
      cases o with
      | ret => rw [hr]; simp; exact c2 rfl
      | exc => rw [hr]; simp
      | base => rw [hr]; simp
      | closedUse => exact absurd rfl c1
  unfold ensureOpen
  by_cases hs : s.isOpen = true
  · rw [if_pos hs]; exact main s hs _ rfl
  · rw [if_neg hs]
    cases hσ : σ s.n with
    | fail => simp
    | headerFail => simp
    | ok => exact main ⟨true, s.n + 1⟩ rfl _ rfl

theorem treeBody_nested (os : List Outcome) (h : ∀ o ∈ os, o ≠ .closedUse) : AllNested (treeBody os) := by
  induction os with
  | nil => exact Outcome.noConfusion
  | cons o os ih => exact ⟨rfl, h o List.mem_cons_self, ih (fun o' ho => h o' (List.mem_cons_of_mem _ ho))⟩

theorem setBody_nested (swmr : Option (List Outcome)) (o : Outcome) (ho : o ≠ .closedUse)
    (h : ∀ os, swmr = some os → ∀ o ∈ os, o ≠ .closedUse) : AllNested (setBody swmr o) := by
  cases swmr with
  | none => exact ho
  | some os => exact ⟨rfl, treeBody_nested os (h os rfl), ho⟩

theorem topCall_not_closedUse (keep : Bool) (σ : Nat → OpenRes) (b : Body)
    (h : ∀ s : St, s.isOpen = true → (run keep σ b s).1 ≠ .closedUse) (s : St) (nested : Bool) :
    (wrapper keep σ nested (run keep σ b) s).1 ≠ .closedUse := by
  unfold wrapper ensureOpen
  by_cases hs : s.isOpen = true
  · rw [if_pos hs]
    have := h s hs
    cases hr : run keep σ b s with
    | mk o s2 => rw [hr] at this; cases o <;> simp_all
  · rw [if_neg hs]
    cases hσ : σ s.n with
    | fail => simp
    | headerFail => simp
    | ok =>
      have := h ⟨true, s.n + 1⟩ rfl
      simp only []
      cases hr : run keep σ b ⟨true, s.n + 1⟩ with
      | mk o s2 => rw [hr] at this; cases o <;> simp_all

/-- C40: none of the container's methods uses a closed handle, for any failure of any inner step: the readers, `tree`, `set_pspec`
for one object (with or without SWMR), and `set_pspec` for lists (whose inner calls close and reopen the file). -/
theorem C40_methods_never_use_closed_handle (keep : Bool) (σ : Nat → OpenRes) (s : St) :
    (∀ o, o ≠ .closedUse → (topCall keep σ (reader o) s).1 ≠ .closedUse) ∧
    (∀ os, (∀ o ∈ os, o ≠ .closedUse) → (topCall keep σ (treeBody os) s).1 ≠ .closedUse) ∧
    (∀ swmr o, o ≠ .closedUse → (∀ os, swmr = some os → ∀ o ∈ os, o ≠ .closedUse) → (topCall keep σ (setBody swmr o) s).1 ≠ .closedUse) ∧
    (∀ l : List (Option (List Outcome) × Outcome), (∀ x ∈ l, x.2 ≠ .closedUse ∧ ∀ os, x.1 = some os → ∀ o ∈ os, o ≠ .closedUse) →
      (topCall keep σ (setListBody l) s).1 ≠ .closedUse) := by
  have hn : ∀ b, AllNested b → (topCall keep σ b s).1 ≠ .closedUse := fun b hb =>
    topCall_not_closedUse keep σ b (fun s hs => (run_nested keep σ b hb s hs).1) s false
  refine ⟨fun o ho => hn _ ho, fun os ho => hn _ (treeBody_nested os ho), fun swmr o ho h => hn _ (setBody_nested swmr o ho h), ?_⟩
  intro l hl
  have main : ∀ l : List (Option (List Outcome) × Outcome), (∀ x ∈ l, x.2 ≠ .closedUse ∧ ∀ os, x.1 = some os → ∀ o ∈ os, o ≠ .closedUse) →
      ∀ s, (run keep σ (setListBody l) s).1 ≠ .closedUse := by
    intro l
    induction l with
    | nil => intro _ s; exact Outcome.noConfusion
    | cons x l ih =>
      intro hx s
      obtain ⟨swmr, o⟩ := x
      have h1 := hx (swmr, o) List.mem_cons_self
      have hb := setBody_nested swmr o h1.1 h1.2
      have hc := topCall_not_closedUse keep σ (setBody swmr o) (fun s hs => (run_nested keep σ _ hb s hs).1) s false
      unfold setListBody run
      cases hr : wrapper keep σ false (run keep σ (setBody swmr o)) s with
      | mk o' s' =>
        rw [hr] at hc
        cases o' with
        | ret => exact ih (fun y hy => hx y (List.mem_cons_of_mem _ hy)) s'
        | exc => simp
        | base => simp
        | closedUse => exact absurd rfl hc
  exact topCall_not_closedUse keep σ _ (fun s _ => main l hl s) s false

/-- Why `nested=True` is needed: with `keep_open=False` any inner call without it closes the file under its caller. -/
theorem C40_unnested_inner_call_closes (σ : Nat → OpenRes) (n : Nat) :
    (topCall false σ (.call false (reader .ret) (reader .ret)) ⟨true, n⟩).1 = .closedUse := rfl

/-- C40 finding: a KeyboardInterrupt, or an exception in the header update of `_open`, leaves the file open although
`keep_open=False`. -/
theorem C40_finding_left_open :
    (topCall false (fun _ => .ok) (reader .base) ⟨false, 0⟩).2.isOpen = true ∧
    (topCall false (fun _ => .headerFail) (reader .ret) ⟨false, 0⟩).2.isOpen = true := ⟨rfl, rfl⟩

/-- Non-vacuity: a `tree` call over two groups that raises in the second, with the file closed afterwards. -/
example : topCall false (fun _ => .ok) (treeBody [.ret, .exc]) ⟨false, 0⟩ = (.exc, ⟨false, 1⟩) := rfl
example : topCall false (fun _ => .ok) (setListBody [(none, .ret), (some [.ret], .ret)]) ⟨false, 0⟩ = (.ret, ⟨false, 2⟩) := rfl

/-! ### C41 -/

theorem openLoop_spec (maxiter : Int) (pat : Nat → Attempt) : ∀ (m ncount : Nat), maxiter - ncount < m →
    ∃ k, ncount ≤ k ∧ (openLoop maxiter pat ncount) = (pat k, k + 1) ∧ (∀ i, ncount ≤ i → i < k → pat i = .osError ∧ (i : Int) < maxiter) ∧
      (pat k = .osError → maxiter ≤ k) := by
  intro m
  induction m using Nat.strong_induction_on with
  | _ m ih =>
    intro ncount hm
    rw [openLoop]
    cases hp : pat ncount with
    | ok => exact ⟨ncount, le_refl _, by simp [hp], fun i h1 h2 => by omega, by simp [hp]⟩
    | other => exact ⟨ncount, le_refl _, by simp [hp], fun i h1 h2 => by omega, by simp [hp]⟩
    | osError =>
      simp only []
      by_cases h : (ncount : Int) ≥ maxiter
      · rw [dif_pos h]
        exact ⟨ncount, le_refl _, by simp [hp], fun i h1 h2 => by omega, fun _ => h⟩
      · rw [dif_neg h]
        obtain ⟨k, h1, h2, h3, h4⟩ := ih (m - 1) (by omega) (ncount + 1) (by push_cast; omega)
        refine ⟨k, by omega, h2, ?_, h4⟩
        intro i hi1 hi2
        by_cases hc : i = ncount
        · subst hc; exact ⟨hp, by omega⟩
        · exact h3 i (by omega) hi2

/-- C41: for every pattern of failures, `_open` makes at most `maxiter + 1` attempts (one if `maxiter` is negative). It succeeds
iff one of the first `maxiter + 1` attempts does and all before it failed with OSError, and stops at the first success; if all
of them fail it re-raises the OSError. -/
theorem C41_open_retries (maxiter : Nat) (pat : Nat → Attempt) :
    (openLoop maxiter pat 0).2 ≤ maxiter + 1 ∧
    ((openLoop maxiter pat 0).1 = .ok ↔ ∃ k ≤ maxiter, pat k = .ok ∧ ∀ i < k, pat i = .osError) ∧
    ((openLoop maxiter pat 0).1 = .osError ↔ ∀ i ≤ maxiter, pat i = .osError) ∧
    (∀ k ≤ maxiter, pat k ≠ .osError → (∀ i < k, pat i = .osError) → openLoop maxiter pat 0 = (pat k, k + 1)) := by
  obtain ⟨k, _, h2, h3, h4⟩ := openLoop_spec maxiter pat (maxiter + 1) 0 (by push_cast; omega)
  have hk : k ≤ maxiter := by
    rcases Nat.eq_zero_or_pos k with h | h
    · omega
    · have := (h3 (k - 1) (Nat.zero_le _) (by omega)).2
      omega
  have hall : ∀ i < k, pat i = .osError := fun i hi => (h3 i (Nat.zero_le _) hi).1
  have huniq : ∀ k' ≤ maxiter, pat k' ≠ .osError → (∀ i < k', pat i = .osError) → k' = k := by
    intro k' hk' hne hall'
    rcases Nat.lt_trichotomy k' k with h | h | h
    · exact absurd (hall k' h) hne
    · exact h
    · have := hall' k h
      have := h4 this
      omega
  rw [h2]
  refine ⟨by simpa using hk, ⟨fun h => ⟨k, hk, h, hall⟩, ?_⟩, ⟨?_, ?_⟩, ?_⟩
  · rintro ⟨k', hk', h, ha⟩
    have := huniq k' hk' (by rw [h]; exact Attempt.noConfusion) ha
    subst this; exact h
  · intro h i hi
    have := h4 h
    rcases Nat.lt_or_ge i k with h' | h'
    · exact hall i h'
    · have : i = k := by omega
      subst this; exact h
  · intro h; exact h k hk
  · intro k' hk' hne ha
    have := huniq k' hk' hne ha
    subst this; rfl

theorem C41_negative_maxiter (maxiter : Int) (h : maxiter < 0) (pat : Nat → Attempt) : openLoop maxiter pat 0 = (pat 0, 1) := by
  rw [openLoop]
  cases hp : pat 0 with
  | ok => rfl
  | other => rfl
  | osError =>
    simp only []
    rw [dif_pos (by omega)]

example : (openLoop 2 (fun i => if i = 2 then .ok else .osError) 0) = (.ok, 3) ∧
    (openLoop 1 (fun i => if i = 2 then .ok else .osError) 0) = (.osError, 2) := by
  constructor <;> simp [openLoop]

end HeraPspec.Transact
