import Verif.Model.BlGroups
import Verif.Props.UVP
import Verif.Lemmas.MapE

/-! C114: `get_blpair_groups_from_bl_groups`. -/
namespace HeraPspec.BlGroups
open HeraPspec.UVP

variable {D W : Type}

/-! ### Specification -/

/-- The six-digit baseline integers a group of baselines means: integers as they are, or antenna pairs. -/
inductive Means : List BlArg → List ℤ → Prop
  | ints (l : List ℤ) : l ≠ [] → Means (l.map .int) l
  | pairs (l : List (ℤ × ℤ)) : l ≠ [] → Means (l.map (fun x => .pair x.1 x.2)) (l.map (fun x => (x.1 + 100) * 1000 + (x.2 + 100)))

/-- The baseline-pair `x` of the object has one baseline (or both) in the group. -/
def InGroup (o : Obj D W) (only : Bool) (bls : List ℤ) (x : ℤ) : Prop :=
  ∃ m ∈ o.rows, m.blpair = x ∧ if only then m.bl1 ∈ bls ∧ m.bl2 ∈ bls else m.bl1 ∈ bls ∨ m.bl2 ∈ bls

/-! ### Lemmas -/

theorem antnumsToBl_eq (a b : ℤ) : Antnums.antnumsToBl (a, b) = (a + 100) * 1000 + (b + 100) := by
  unfold Antnums.antnumsToBl Antnums.antnumsToBlFl Antnums.truncRat
  simp only [id]
  have : ((a + 100 : ℤ) : ℚ) * 1000 + ((b + 100 : ℤ) : ℚ) = (((a + 100) * 1000 + (b + 100) : ℤ) : ℚ) := by push_cast; ring
  rw [this, Rat.num_intCast, Rat.den_intCast]
  simp

theorem toBls_means {g : List BlArg} {l : List ℤ} (h : Means g l) : toBls g = .ok l := by
  cases h with
  | ints l hne =>
    cases l with
    | nil => exact absurd rfl hne
    | cons a l =>
      show Except.ok (List.filterMap keep (List.map BlArg.int (a :: l))) = _
      rw [List.filterMap_map]
      congr 1
      exact List.filterMap_some
  | pairs l hne =>
    cases l with
    | nil => exact absurd rfl hne
    | cons a l =>
      show (mapE convert (List.map (fun x : ℤ × ℤ => BlArg.pair x.1 x.2) (a :: l))).map _ = _
      have : ∀ l : List (ℤ × ℤ), mapE convert (l.map (fun x => .pair x.1 x.2)) =
          .ok (l.map (fun x => some ((x.1 + 100) * 1000 + (x.2 + 100)))) := by
        intro l
        induction l with
        | nil => rfl
        | cons b l ih =>
          rw [List.map_cons]
          unfold mapE
          rw [ih]
          simp only [convert, antnumsToBl_eq, List.map_cons]
      rw [this]
      show Except.ok (List.filterMap id _) = _
      rw [List.filterMap_map]
      congr 1
      exact List.filterMap_eq_map' _ _
where
  List.filterMap_eq_map' (l : List (ℤ × ℤ)) (f : ℤ × ℤ → ℤ) : l.filterMap (id ∘ fun x => some (f x)) = l.map f := by
    induction l with
    | nil => rfl
    | cons a l ih => simp [ih]

theorem mask_mem {α : Type} (l : List α) (f : α → Bool) (x : α) : x ∈ ((l.zip (l.map f)).filter (·.2)).map (·.1) ↔ x ∈ l ∧ f x = true := by
  induction l with
  | nil => simp
  | cons a l ih =>
    rw [List.map_cons, List.zip_cons_cons, List.filter_cons]
    by_cases h : f a = true
    · simp only [h, if_true, List.map_cons, List.mem_cons, ih]
      constructor
      · rintro (rfl | hx)
        · exact ⟨.inl rfl, h⟩
        · exact ⟨.inr hx.1, hx.2⟩
      · rintro ⟨rfl | hx, hf⟩
        · exact .inl rfl
        · exact .inr ⟨hx, hf⟩
    · simp only [h, Bool.false_eq_true, if_false, ih, List.mem_cons]
      constructor
      · rintro ⟨h1, h2⟩; exact ⟨.inr h1, h2⟩
      · rintro ⟨rfl | hx, hf⟩
        · exact absurd hf h
        · exact ⟨hx, hf⟩

theorem oneGroup_spec {u : UVP D W} {o : Obj D W} (hr : Represents u o) (hv : Valid o) (only : Bool) {g : List BlArg} {bls : List ℤ}
    (h : Means g bls) : ∃ l, oneGroup u only g = .ok l ∧ l.Pairwise (· < ·) ∧ ∀ x, x ∈ l ↔ InGroup o only bls x := by
  unfold oneGroup
  rw [toBls_means h]
  refine ⟨_, rfl, ?_, ?_⟩
  · have h1 := pySorted_pairwise (le := fun a b : ℤ => decide (a ≤ b)) (by intro a b c; simp; omega) (by intro a b; simp; omega)
      ((((u.blpairArray.zip (blsMask u bls only)).filter (·.2)).map (·.1)).dedup)
    have h2 : (pySorted (fun a b : ℤ => decide (a ≤ b)) ((((u.blpairArray.zip (blsMask u bls only)).filter (·.2)).map (·.1)).dedup)).Nodup :=
      (pySorted_perm _ _).nodup_iff.2 (List.nodup_dedup _)
    exact (h1.and h2).imp (fun {a b} hab => by
      have h3 : a ≤ b := by simpa using hab.1
      have h4 : a ≠ b := hab.2
      omega)
  · intro x
    rw [mem_pySorted, List.mem_dedup]
    unfold blsMask
    rw [mask_mem, hr.blpair, List.mem_map]
    unfold InGroup
    have hdig : ∀ m ∈ o.rows, m.blpair / 1000000 = m.bl1 ∧ m.blpair % 1000000 = m.bl2 := by
      intro m hm
      have := hv.bl2 m hm
      unfold Meas.blpair
      omega
    constructor
    · rintro ⟨⟨m, hm, rfl⟩, hc⟩
      refine ⟨m, hm, rfl, ?_⟩
      obtain ⟨e1, e2⟩ := hdig m hm
      rw [e1, e2] at hc
      cases only <;> simpa using hc
    · rintro ⟨m, hm, rfl, hc⟩
      refine ⟨⟨m, hm, rfl⟩, ?_⟩
      obtain ⟨e1, e2⟩ := hdig m hm
      rw [e1, e2]
      cases only <;> simpa using hc

/-! ### Theorems -/

/-- **C114** For groups of baselines (each non-empty, and each either of integers or of antenna pairs), there is one list per group, in
order: the baseline-pairs of the object with one baseline (or both, if so asked) in the group, without repetition and increasing; the
result is these lists without the empty ones. -/
theorem C114_groups {u : UVP D W} {o : Obj D W} (hr : Represents u o) (hv : Valid o) (only : Bool) (gs : List (List BlArg)) (ms : List (List ℤ))
    (hm : List.Forall₂ Means gs ms) :
    ∃ full : List (List ℤ), List.Forall₂ (fun bls l => l.Pairwise (· < ·) ∧ ∀ x, x ∈ l ↔ InGroup o only bls x) ms full ∧
      blpairGroups u (.seq (gs.map .seq)) only = .ok (full.filter (fun l => decide (l ≠ []))) := by
  have hnorm : normalizeNested (.seq (gs.map SeqArg.seq)) = .ok gs := by
    show mapE normalizeGroup _ = _
    induction hm with
    | nil => rfl
    | @cons g m gs ms h _ ih =>
      rw [List.map_cons]
      unfold mapE
      have : normalizeGroup (.seq g) = .ok g := by
        cases g with
        | nil =>
          exfalso
          generalize hg : ([] : List BlArg) = g at h
          cases h with
          | ints l hne => exact hne (List.map_eq_nil_iff.1 hg.symm)
          | pairs l hne => exact hne (List.map_eq_nil_iff.1 hg.symm)
        | cons a g => rfl
      rw [this]; simp only [ih]
  have hall : ∃ full : List (List ℤ), List.Forall₂ (fun bls l => l.Pairwise (· < ·) ∧ ∀ x, x ∈ l ↔ InGroup o only bls x) ms full ∧
      mapE (oneGroup u only) gs = .ok full := by
    clear hnorm
    induction hm with
    | nil => exact ⟨[], .nil, rfl⟩
    | cons h _ ih =>
      obtain ⟨full, h1, h2⟩ := ih
      obtain ⟨l, hl, hl2⟩ := oneGroup_spec hr hv only h
      exact ⟨l :: full, .cons hl2 h1, by unfold mapE; rw [hl]; simp only [h2]⟩
  obtain ⟨full, h1, h2⟩ := hall
  refine ⟨full, h1, ?_⟩
  unfold blpairGroups
  rw [hnorm]
  simp only [h2]
  show Except.ok _ = _
  congr 1
  apply List.filter_congr
  intro l _
  cases l <;> simp

/-- **C114** An empty group is refused with `ValueError` and a group, or an argument, that is not a sequence with `TypeError`, if the
groups before it are sequences with elements. -/
theorem C114_refused (u : UVP D W) (only : Bool) (gs : List (List BlArg)) (hne : ∀ g ∈ gs, g ≠ []) (rest : List (SeqArg BlArg)) :
    blpairGroups u (.seq (gs.map .seq ++ .seq [] :: rest)) only = .error .value ∧
    blpairGroups u (.seq (gs.map .seq ++ .notSeq :: rest)) only = .error .type ∧
    blpairGroups u .notSeq only = .error .type := by
  have h : ∀ (y : SeqArg BlArg) (e : BErr), normalizeGroup y = .error e → normalizeNested (.seq (gs.map .seq ++ y :: rest)) = .error e := by
    intro y e hy
    show mapE normalizeGroup _ = _
    induction gs with
    | nil => rw [List.map_nil, List.nil_append]; unfold mapE; rw [hy]
    | cons g gs ih =>
      rw [List.map_cons, List.cons_append]
      unfold mapE
      have : normalizeGroup (.seq g) = .ok g := by
        cases g with
        | nil => exact absurd rfl (hne [] (by simp))
        | cons a g => rfl
      rw [this]
      simp only [ih (fun g hg => hne g (List.mem_cons_of_mem _ hg))]
  refine ⟨?_, ?_, rfl⟩
  · unfold blpairGroups; rw [h (.seq []) .value rfl]
  · unfold blpairGroups; rw [h .notSeq .type rfl]

/-! ### Concrete cases and findings -/

example : blpairGroups (store exObj) (.seq [.seq [.pair 1 2], .seq [.pair 7 8], .seq [.int 102103, .int 103104]]) false =
    .ok [[101102102103], [101102102103, 103104104105]] := by decide +kernel
example : List.Forall₂ Means [[.pair 1 2], [.int 102103, .int 103104]] [[101102], [102103, 103104]] :=
  .cons (.pairs [(1, 2)] (by simp)) (.cons (.ints [102103, 103104] (by simp)) .nil)

/-- **C114** finding: the position of the output no longer tells the input group once a group has no baseline-pair, and in a group that
starts with an integer the antenna pairs are silently ignored, as are all elements given as lists; a flat list of antenna pairs is
taken for groups of integers and gives nothing. -/
theorem C114_finding_silent :
    blpairGroups (store exObj) (.seq [.seq [.pair 7 8], .seq [.pair 1 2]]) false = .ok [[101102102103]] ∧
    blpairGroups (store exObj) (.seq [.seq [.int 109109, .pair 1 2]]) false = .ok [] ∧
    blpairGroups (store exObj) (.seq [.seq [.other]]) false = .ok [] ∧
    blpairGroups (store exObj) (.seq [.seq [.int 1, .int 2], .seq [.int 2, .int 3]]) false = .ok [] := by decide +kernel

end HeraPspec.BlGroups
