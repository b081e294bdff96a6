import Verif.Model.GroupBls

namespace HeraPspec.GroupBls
variable {α : Type}

/-- Consecutive slices concatenate to a prefix. -/
theorem flatten_slices (l : List α) (n m : Nat) :
    ((List.range m).map (fun i => slice l (i * n) ((i + 1) * n))).flatten = l.take (m * n) := by
  induction m with
  | zero => simp
  | succ m ih =>
    rw [List.range_succ, List.map_append, List.flatten_append, ih]
    simp only [slice, List.map_cons, List.map_nil, List.flatten_cons, List.flatten_nil, List.append_nil]
    have : l.take (m * n) = (l.take ((m + 1) * n)).take (m * n) := by
      rw [List.take_take]
      congr 1
      rw [Nat.add_mul]; omega
    rw [this, List.take_append_drop]

theorem flatten_addToLast (g : List (List α)) (x : List α) (h : g ≠ []) :
    (addToLast g x).flatten = g.flatten ++ x := by
  induction g with
  | nil => exact absurd rfl h
  | cons a g ih =>
    cases g with
    | nil => simp [addToLast]
    | cons b g => simp only [addToLast, List.flatten_cons, ih (by simp), List.append_assoc]

theorem length_addToLast (g : List (List α)) (x : List α) : (addToLast g x).length = g.length := by
  induction g with
  | nil => rfl
  | cons a g ih =>
    cases g with
    | nil => rfl
    | cons b g => simp only [addToLast, List.length_cons] at ih ⊢; omega

theorem addToLast_concat (g : List (List α)) (a x : List α) : addToLast (g ++ [a]) x = g ++ [a ++ x] := by
  induction g with
  | nil => rfl
  | cons b g ih =>
    cases g with
    | nil => rfl
    | cons c g => simp only [List.cons_append, addToLast] at ih ⊢; rw [ih]

theorem length_slice (l : List α) (n i : Nat) (h : (i + 1) * n ≤ l.length) :
    (slice l (i * n) ((i + 1) * n)).length = n := by
  unfold slice
  rw [List.length_drop, List.length_take, Nat.min_eq_left h, Nat.add_mul]; omega

theorem length_flatten_const (gs : List (List α)) (n : Nat) (h : ∀ g ∈ gs, g.length = n) :
    gs.flatten.length = gs.length * n := by
  induction gs with
  | nil => simp
  | cons g gs ih =>
    rw [List.flatten_cons, List.length_append, h g (by simp), ih (fun x hx => h x (by simp [hx])), List.length_cons,
      Nat.add_mul]
    omega

end HeraPspec.GroupBls
