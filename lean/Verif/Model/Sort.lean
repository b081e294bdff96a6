/-!
Python's `sorted` (a stable sort), as insertion sort.
-/
namespace HeraPspec
variable {α : Type}

/-- Insert into a sorted list, before equal elements. Helper of `pySorted`, used for cli.py L97 and pspecdata.py L4165. -/
def insertBy (le : α → α → Bool) (a : α) : List α → List α
  | [] => [a]
  | b :: l => if le a b then a :: b :: l else b :: insertBy le a l

/-- `sorted(l)`: stable sort by `le`. As used at cli.py L97, grouping.py L650, pspecdata.py L4165. -/
def pySorted (le : α → α → Bool) : List α → List α
  | [] => []
  | a :: l => insertBy le a (pySorted le l)

theorem insertBy_perm (le : α → α → Bool) (a : α) (l : List α) : (insertBy le a l).Perm (a :: l) := by
  induction l with
  | nil => exact .refl _
  | cons b l ih =>
    unfold insertBy
    split
    · exact .refl _
    · exact (List.Perm.cons b ih).trans (.swap a b l)

theorem pySorted_perm (le : α → α → Bool) (l : List α) : (pySorted le l).Perm l := by
  induction l with
  | nil => exact .refl _
  | cons a l ih => exact (insertBy_perm le a _).trans (.cons a ih)

theorem insertBy_pairwise {le : α → α → Bool} (ht : ∀ a b c, le a b → le b c → le a c) (hto : ∀ a b, le a b || le b a)
    (a : α) {l : List α} (h : l.Pairwise (fun a b => le a b = true)) : (insertBy le a l).Pairwise (fun a b => le a b = true) := by
  induction l with
  | nil => simp [insertBy]
  | cons b l ih =>
    rw [List.pairwise_cons] at h
    unfold insertBy
    split
    · rename_i hab
      rw [List.pairwise_cons]
      refine ⟨?_, List.pairwise_cons.2 h⟩
      intro c hc
      rcases List.mem_cons.1 hc with rfl | hc
      · exact hab
      · exact ht _ _ _ hab (h.1 c hc)
    · rename_i hab
      rw [List.pairwise_cons]
      refine ⟨?_, ih h.2⟩
      intro c hc
      rcases List.mem_cons.1 ((insertBy_perm le a l).mem_iff.1 hc) with rfl | hc
      · have := hto b c; simp_all
      · exact h.1 c hc

theorem pySorted_pairwise {le : α → α → Bool} (ht : ∀ a b c, le a b → le b c → le a c) (hto : ∀ a b, le a b || le b a)
    (l : List α) : (pySorted le l).Pairwise (fun a b => le a b = true) := by
  induction l with
  | nil => exact .nil
  | cons a l ih => exact insertBy_pairwise ht hto a ih

@[simp] theorem mem_pySorted {le : α → α → Bool} {l : List α} {x : α} : x ∈ pySorted le l ↔ x ∈ l := (pySorted_perm le l).mem_iff

end HeraPspec
