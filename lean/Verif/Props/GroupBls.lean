import Verif.Lemmas.GroupBls

/-! Property C06: `group_baselines` partitions the baselines; the sampling half of C32 (`sample_baselines`). -/
namespace HeraPspec.GroupBls
variable {α : Type}

/-- C06: the error cases. -/
theorem C06_errors (bls : List α) (Ngroups : Nat) (kr rz : Bool) (sh : List α → List α) :
    (Ngroups = 0 → groupBaselines bls Ngroups kr rz sh = .error .zeroDiv) ∧
    (bls.length < Ngroups → groupBaselines bls Ngroups kr rz sh = .error .value) := by
  constructor
  · intro h; simp [groupBaselines, h]
  · intro h
    unfold groupBaselines
    simp only []
    rw [if_neg (by omega), if_pos h]

/-- C06 without remainder: exactly `Ngroups` groups, each of `N // Ngroups` baselines, whose concatenation is the
input (after the shuffle) minus fewer than `Ngroups` trailing baselines. -/
theorem C06_no_remainder (bls : List α) (Ngroups : Nat) (rz : Bool) (sh : List α → List α)
    (h0 : 1 ≤ Ngroups) (h : Ngroups ≤ bls.length) (hsh : (sh bls).Perm bls) :
    ∃ gs dropped, groupBaselines bls Ngroups false rz sh = .ok gs ∧ gs.length = Ngroups ∧
      (∀ g ∈ gs, g.length = bls.length / Ngroups) ∧ dropped.length < Ngroups ∧
      gs.flatten ++ dropped = (if rz then sh bls else bls) := by
  have hlen : (if rz then sh bls else bls).length = bls.length := by
    cases rz
    · rfl
    · exact hsh.length_eq
  have hmul := Nat.div_mul_le_self bls.length Ngroups
  have hmod := Nat.div_add_mod bls.length Ngroups
  have hml := Nat.mod_lt bls.length (by omega : Ngroups > 0)
  refine ⟨_, (if rz then sh bls else bls).drop (Ngroups * (bls.length / Ngroups)), by
    unfold groupBaselines
    simp only []
    rw [if_neg (by omega), if_neg (by omega), if_neg (by simp)], by simp, ?_, ?_, ?_⟩
  · intro g hg
    obtain ⟨i, hi, rfl⟩ := List.mem_map.1 hg
    rw [List.mem_range] at hi
    apply length_slice
    rw [hlen]
    calc (i + 1) * (bls.length / Ngroups) ≤ Ngroups * (bls.length / Ngroups) := Nat.mul_le_mul_right _ hi
      _ ≤ bls.length := by rw [Nat.mul_comm]; exact hmul
  · rw [List.length_drop, hlen]; omega
  · rw [flatten_slices, List.take_append_drop]

/-- C06 with remainder: exactly `Ngroups` groups whose concatenation is the whole (shuffled) input; all groups but the
last have `N // Ngroups` baselines. -/
theorem C06_keep_remainder (bls : List α) (Ngroups : Nat) (rz : Bool) (sh : List α → List α)
    (h0 : 1 ≤ Ngroups) (h : Ngroups ≤ bls.length) (hsh : (sh bls).Perm bls) :
    ∃ init last, groupBaselines bls Ngroups true rz sh = .ok (init ++ [last]) ∧ init.length + 1 = Ngroups ∧
      (∀ g ∈ init, g.length = bls.length / Ngroups) ∧
      (init ++ [last]).flatten = (if rz then sh bls else bls) := by
  obtain ⟨gs, dropped, e, hl, hall, hd, hfl⟩ := C06_no_remainder bls Ngroups rz sh h0 h hsh
  have hlen : (if rz then sh bls else bls).length = bls.length := by
    cases rz
    · rfl
    · exact hsh.length_eq
  have hgs : gs = (List.range Ngroups).map (fun i => slice (if rz then sh bls else bls)
      (i * (bls.length / Ngroups)) ((i + 1) * (bls.length / Ngroups))) := by
    unfold groupBaselines at e
    simp only [] at e
    rw [if_neg (by omega), if_neg (by omega), if_neg (by simp)] at e
    cases e; rfl
  have hne : gs ≠ [] := by intro h; rw [h] at hl; simp at hl; omega
  obtain ⟨init, last, hil⟩ : ∃ init last, gs = init ++ [last] :=
    ⟨gs.dropLast, gs.getLast hne, (List.dropLast_concat_getLast hne).symm⟩
  have hinit : init.length + 1 = Ngroups := by rw [← hl, hil]; simp
  have hrem : dropped.length = bls.length - bls.length / Ngroups * Ngroups := by
    have h1 := congrArg List.length hfl
    have h2 : gs.flatten.length = Ngroups * (bls.length / Ngroups) := by
      rw [length_flatten_const gs _ hall, hl]
    rw [List.length_append, h2, hlen] at h1
    rw [Nat.mul_comm (bls.length / Ngroups)]
    omega
  have hlast : lastN (if rz then sh bls else bls) dropped.length = dropped := by
    unfold lastN
    rw [← hfl, List.length_append]
    rw [show gs.flatten.length + dropped.length - dropped.length = gs.flatten.length by omega, List.drop_left]
  by_cases hr : 0 < bls.length - bls.length / Ngroups * Ngroups
  · refine ⟨init, last ++ dropped, ?_, hinit, fun g hg => hall g (by rw [hil]; simp [hg]), ?_⟩
    · unfold groupBaselines
      simp only []
      rw [if_neg (by omega), if_neg (by omega), if_pos ⟨trivial, hr⟩, ← hgs, ← hrem, hlast, hil, addToLast_concat]
    · rw [← hfl, hil]; simp
  · refine ⟨init, last, ?_, hinit, fun g hg => hall g (by rw [hil]; simp [hg]), ?_⟩
    · unfold groupBaselines
      simp only []
      rw [if_neg (by omega), if_neg (by omega), if_neg (by intro h; exact hr h.2), ← hgs, hil]
    · have : dropped = [] := List.length_eq_zero_iff.1 (by omega)
      rw [← hil, ← hfl, this]; simp

/-- C06: with any shuffle, no baseline is lost or duplicated when the remainder is kept. -/
theorem C06_shuffle_no_loss (bls : List α) (Ngroups : Nat) (rz : Bool) (sh : List α → List α)
    (h0 : 1 ≤ Ngroups) (h : Ngroups ≤ bls.length) (hsh : (sh bls).Perm bls) :
    ∃ gs, groupBaselines bls Ngroups true rz sh = .ok gs ∧ gs.flatten.Perm bls := by
  obtain ⟨init, last, e, -, -, hf⟩ := C06_keep_remainder bls Ngroups rz sh h0 h hsh
  refine ⟨_, e, ?_⟩
  rw [hf]
  cases rz
  · exact List.Perm.refl _
  · exact hsh

example : groupBaselines [10, 11, 12, 13, 14, 15, 16] 3 true false id = .ok [[10, 11], [12, 13], [14, 15, 16]] := rfl
example : (List.reverse [1, 2, 3]).Perm [1, 2, 3] := List.reverse_perm _

/-- C32 (sampling): a bootstrap sample has as many elements as the input, all drawn from the input, for every random
stream. -/
theorem C32_sample_baselines (bls : List α) (choice : Nat → Nat) :
    (sampleBaselines bls choice).length = bls.length ∧ ∀ b ∈ sampleBaselines bls choice, b ∈ bls := by
  unfold sampleBaselines
  by_cases h : bls.length = 0
  · rw [h]
    have : bls = [] := List.length_eq_zero_iff.1 h
    subst this; simp
  constructor
  · rw [List.length_filterMap_eq_countP]
    rw [List.countP_eq_length.2]
    · simp
    · intro i _
      have := Nat.mod_lt (choice i) (by omega : bls.length > 0)
      simp [this]
  · intro b hb
    obtain ⟨i, -, hi⟩ := List.mem_filterMap.1 hb
    exact List.mem_of_getElem? hi

end HeraPspec.GroupBls
