import Verif.Lemmas.AvgArgs
import Verif.Lemmas.Antnums
import Verif.Props.Average2

/-!
C161: the ways of writing baseline-pair groups and weights.
-/
namespace HeraPspec.AvgArgs
open HeraPspec.UVP (Err mapE)
open HeraPspec.Combine (uniq)
open HeraPspec.Average

variable {E : Type} [AddCommGroup E] [Module ℝ E]

/-- The averaging is the preparation of the groups, the check of the names of the statistics, and the loop. -/
theorem averageSpectra_eq (circ : List ℝ → ℝ) (so : List Nat → List Nat) (a : Args) (u : Obj E) :
    averageSpectra circ so a u = match groupsOf so a u with
      | .error e => .error e
      | .ok gs => if !(statNames a).all (· ∈ u.statNames) then .error .key else averageOn circ a u gs := rfl

theorem resolve_all {ws : List (List Val)} {W : List (List ℚ)} (hW : List.Forall₂ (List.Forall₂ (fun v q => weightOf v = .ok q)) ws W)
    (gs : List (List Nat)) :
    mapE resolveGroup ((ints gs).zip ws) = .ok (gs.zip W) := by
  apply mapE_f2'
  induction hW generalizing gs with
  | nil => simp
  | cons h1 _ ih =>
    cases gs with
    | nil => exact List.Forall₂.nil
    | cons g gs =>
      refine List.Forall₂.cons ?_ (ih gs)
      unfold resolveGroup
      simp only
      rw [mapE_f2' h1]
      simp only
      have : mapE resolve (g.map (fun b : Nat => Val.int b)) = .ok g := by
        apply mapE_f2'
        induction g with
        | nil => exact List.Forall₂.nil
        | cons b g ih => exact List.Forall₂.cons rfl ih
      rw [this]

/-- C161: lists, tuples and arrays, of baseline-pair integers or of nested antenna tuples, with weights written as any nested sequences of numbers: every way of writing the
same groups and weights gives the same average, or the same exception, as the integers do. -/
theorem C161_forms_agree (circ : List ℝ → ℝ) (so : List Nat → List Nat) (a : Args) (u : Obj E) (gs : List (List Nat)) (gv : Val) (wv : Option Val)
    (hg : SpellsInts gv gs ∨ SpellsTuples gv gs) (ha : a.groups = some gs)
    (hw : (wv = none ∧ a.weights = none) ∨ ∃ v W, wv = some v ∧ SpellsWeights v W ∧ a.weights = some (W.map (fun w => w.map (fun q : ℚ => (q : ℝ))))) :
    averageVal circ so (some gv) wv a u = (averageSpectra circ so a u).mapError VErr.err := by
  obtain ⟨WV, W, hWV, hwo, hwl⟩ := weights_vals (gs := gs) hw
  have hgi := groups_ints hg
  have hprep : prepare so (some gv) wv (u.rows.map (·.blp)) u.exact (statNames a) u.statNames =
      match (normalizeGrouped gv).bind convert with
      | .error e => .error e
      | .ok gs =>
        if !gs.all (firstKnown (u.rows.map (·.blp))) then .error (.err .value)
        else if gs.isEmpty then .error (.err .index)
        else if !gs.flatten.all hashable then .error .type
        else match weightLists wv gs with
          | .error e => .error e
          | .ok ws =>
            if !(statNames a).all (· ∈ u.statNames) then .error (.err .key)
            else
              let extra := if u.exact then [] else so ((uniq (u.rows.map (·.blp))).filter (fun b => !gs.flatten.any (fun v => eqNat v b)))
              .ok ((gs ++ extra.map (fun b : Nat => [Val.int b])).zip (ws ++ extra.map (fun _ => [Val.num 1]))) := by
    show prepareGiven _ _ _ _ _ _ _ = _
    unfold prepareGiven
    cases normalizeGrouped gv with
    | error e => rfl
    | ok g => rfl
  rw [averageSpectra_eq]
  unfold averageVal
  rw [hprep, hgi, groupsOf_given so ha]
  simp only
  by_cases c1 : gs.any (·.isEmpty) = true
  · rw [if_pos c1, if_neg (by intro h; rw [List.isEmpty_iff.1 h] at c1; simp at c1), if_pos c1]
    rfl
  rw [if_neg c1]
  simp only
  rw [first_ints]
  by_cases c0 : gs.isEmpty = true
  · rw [if_pos c0]
    rw [List.isEmpty_iff] at c0
    subst c0
    rfl
  rw [if_neg c0, if_neg c1]
  by_cases c2 : (!gs.all (firstNat (u.rows.map (·.blp)))) = true
  · rw [if_pos c2, if_pos c2]
    rfl
  rw [if_neg c2, if_neg c2, if_neg (by simpa [ints] using c0), if_neg (by rw [hashable_ints]; simp), hwl (by rw [← Bool.not_eq_true]; exact c1)]
  by_cases c3 : (weightsOf a gs).any (·.isEmpty) = true
  · rw [if_pos c3, if_pos c3]
    rfl
  rw [if_neg c3, if_neg c3]
  by_cases c4 : (!(List.range gs.length).all (fun i => ((weightsOf a gs)[i]?.map (·.length)) = (gs[i]?.map (·.length)))) = true
  · rw [if_pos c4, if_pos c4]
    rfl
  rw [if_neg c4, if_neg c4]
  simp only
  by_cases c5 : (!(statNames a).all (· ∈ u.statNames)) = true
  · rw [if_pos c5, if_pos c5]
    rfl
  rw [if_neg c5, if_neg c5]
  simp only [any_eqNat_ints, ← decide_not]
  generalize (if u.exact = true then [] else so ((uniq (u.rows.map (·.blp))).filter (fun b => decide (b ∉ gs.flatten)))) = extra
  have h1 : ints gs ++ extra.map (fun b : Nat => [Val.int b]) = ints (gs ++ extra.map (fun b => [b])) := by
    simp [ints]
  have h2 : List.Forall₂ (List.Forall₂ (fun v q => weightOf v = .ok q)) (WV ++ extra.map (fun _ => [Val.num 1])) (W ++ extra.map (fun _ => [(1 : ℚ)])) := by
    refine List.rel_append hWV ?_
    induction extra with
    | nil => exact List.Forall₂.nil
    | cons b l ih => exact List.Forall₂.cons (List.Forall₂.cons rfl List.Forall₂.nil) (ih (by simp [ints]))
  rw [h1, resolve_all h2]
  simp only
  have h3 : ((gs ++ extra.map (fun b => [b])).zip (W ++ extra.map (fun _ => [(1 : ℚ)]))).map (fun g => (g.1, g.2.map (fun q : ℚ => (q : ℝ)))) =
      (gs ++ extra.map (fun b => [b])).zip (weightsOf a gs ++ extra.map (fun _ => [(1 : ℝ)])) := by
    rw [hwo]
    have : W.map (fun w => w.map (fun q : ℚ => (q : ℝ))) ++ extra.map (fun _ => [(1 : ℝ)]) = (W ++ extra.map (fun _ => [(1 : ℚ)])).map (fun w => w.map (fun q : ℚ => (q : ℝ))) := by
      simp
    rw [this, List.zip_map_right]
    rfl
  rw [h3]
  cases averageOn circ a u ((gs ++ extra.map (fun b => [b])).zip (weightsOf a gs ++ extra.map (fun _ => [(1 : ℝ)]))) <;> rfl

theorem resolve_singles (l : List Nat) : mapE resolveGroup (l.map (fun b : Nat => ([Val.int b], [Val.num 1]))) = .ok (l.map (fun b => ([b], [1]))) := by
  induction l with
  | nil => rfl
  | cons b l ih => rw [List.map_cons, mapE, ih]; rfl

/-- C161: without groups every baseline-pair is averaged on its own, and weights are refused. -/
theorem C161_no_groups (circ : List ℝ → ℝ) (so : List Nat → List Nat) (a : Args) (u : Obj E) (wv : Option Val) (ha : a.groups = none)
    (hw : wv.isSome = a.weights.isSome) :
    averageVal circ so none wv a u = (averageSpectra circ so a u).mapError VErr.err := by
  rw [averageSpectra_eq]
  unfold averageVal prepare groupsOf
  rw [ha]
  cases wv with
  | some w =>
    cases haw : a.weights with
    | none => rw [haw] at hw; cases hw
    | some w' => rfl
  | none =>
    cases haw : a.weights with
    | some w' => rw [haw] at hw; cases hw
    | none =>
      simp only
      by_cases c5 : (!(statNames a).all (· ∈ u.statNames)) = true
      · rw [if_pos c5, if_pos c5]; rfl
      rw [if_neg c5, if_neg c5]
      simp only [resolve_singles]
      rw [List.map_map]
      have : ((fun g : List Nat × List ℚ => (g.1, g.2.map (fun q : ℚ => (q : ℝ)))) ∘ fun b : Nat => ([b], [1])) = fun b => ([b], [1]) := by
        funext b; simp
      rw [this]
      cases averageOn circ a u ((uniq (u.rows.map (·.blp))).map (fun b => ([b], [1]))) <;> rfl

/-- C161: groups that are not a sequence of non-empty sequences are refused: TypeError if the value itself, or an element before any empty group, is no list, tuple or array;
ValueError if the first offending element is an empty sequence. In particular a flat list of baseline-pair integers is a TypeError. -/
theorem C161_not_nested (circ : List ℝ → ℝ) (so : List Nat → List Nat) (a : Args) (u : Obj E) (gv : Val) (wv : Option Val) :
    ((¬ ∃ l, IsSeq gv l) → averageVal circ so (some gv) wv a u = .error .type) ∧
    ∀ pre x post, IsSeq gv (pre ++ x :: post) → (∀ y ∈ pre, ∃ v m, IsSeq y (v :: m)) →
      ((¬ ∃ l, IsSeq x l) → averageVal circ so (some gv) wv a u = .error .type) ∧
      (IsSeq x [] → averageVal circ so (some gv) wv a u = .error (.err .value)) := by
  have key : ∀ e, normalizeGrouped gv = .error e → averageVal circ so (some gv) wv a u = .error e := by
    intro e h
    unfold averageVal prepare
    simp only
    unfold prepareGiven
    rw [h]
  have hno : ∀ v, (¬ ∃ l, IsSeq v l) → seqOf v = none := by
    intro v h
    cases v with
    | tup l => exact absurd ⟨l, Or.inr (Or.inl rfl)⟩ h
    | lst l => exact absurd ⟨l, Or.inl rfl⟩ h
    | arr l => exact absurd ⟨l, Or.inr (Or.inr rfl)⟩ h
    | _ => rfl
  refine ⟨fun h => key _ ?_, fun pre x post hs hp => ?_⟩
  · unfold normalizeGrouped
    rw [hno _ h]
  · have hm : ∀ e, groupList x = .error e → normalizeGrouped gv = .error e := by
      intro e he
      unfold normalizeGrouped
      rw [seqOf_seq hs]
      simp only
      clear hs
      induction pre with
      | nil => rw [List.nil_append, mapE, he]
      | cons y pre ih =>
        obtain ⟨v, m, hy⟩ := hp y List.mem_cons_self
        rw [List.cons_append, mapE, ih (fun z hz => hp z (List.mem_cons_of_mem _ hz))]
        unfold groupList
        rw [seqOf_seq hy]
        rfl
    refine ⟨fun h => key _ (hm _ ?_), fun h => key _ (hm _ ?_)⟩
    · unfold groupList
      rw [hno _ h]
    · unfold groupList
      rw [seqOf_seq h]
      rfl

/-- C161: a flat list of baseline-pairs written as tuples (one group, not wrapped in a list) is refused: every pair is taken for a group of two. -/
theorem C161_flat_tuples (circ : List ℝ → ℝ) (so : List Nat → List Nat) (a : Args) (u : Obj E) (gv : Val) (wv : Option Val)
    (l : List (Antnums.Blp)) (hl : l ≠ [])
    (h : IsSeq gv (l.map (fun p => Val.tup [.tup [.int p.1.1, .int p.1.2], .tup [.int p.2.1, .int p.2.2]]))) :
    averageVal circ so (some gv) wv a u = .error .type := by
  have hn : normalizeGrouped gv = .ok (l.map (fun p => [Val.tup [.int p.1.1, .int p.1.2], .tup [.int p.2.1, .int p.2.2]])) := by
    unfold normalizeGrouped
    rw [seqOf_seq h]
    simp only
    clear h hl
    induction l with
    | nil => rfl
    | cons p l ih => rw [List.map_cons, mapE, ih]; rfl
  unfold averageVal prepare
  simp only
  unfold prepareGiven
  rw [hn]
  cases l with
  | nil => exact absurd rfl hl
  | cons p l => rfl

/-- C161: weights must match the groups: if the average succeeds, every group has a weight list of its own length. -/
theorem C161_weights_match {circ : List ℝ → ℝ} {so : List Nat → List Nat} {a : Args} {u v : Obj E} {gs : List (List Nat)} {gv wv : Val}
    {W : List (List ℚ)} (hg : SpellsInts gv gs ∨ SpellsTuples gv gs) (hw : SpellsWeights wv W)
    (h : averageVal circ so (some gv) (some wv) a u = .ok v) :
    ∀ (i : Nat) (g : List Nat), gs[i]? = some g → ∃ w, W[i]? = some w ∧ w.length = g.length ∧ g ≠ [] := by
  let a' : Args := { a with groups := some gs, weights := some (W.map (fun w => w.map (fun q : ℚ => (q : ℝ)))) }
  have he : averageVal circ so (some gv) (some wv) a' u = .ok v := h
  rw [C161_forms_agree circ so a' u gs gv (some wv) hg rfl (Or.inr ⟨wv, W, rfl, hw, rfl⟩), averageSpectra_eq, groupsOf_given so rfl] at he
  intro i g hi
  by_cases c0 : gs.isEmpty = true
  · rw [if_pos c0] at he; cases he
  rw [if_neg c0] at he
  by_cases c1 : gs.any (·.isEmpty) = true
  · rw [if_pos c1] at he; cases he
  rw [if_neg c1] at he
  split at he
  · cases he
  rename_i g1 hgo
  split at hgo
  · cases hgo
  split at hgo
  · cases hgo
  split at hgo
  · cases hgo
  rename_i c4
  have hwo : weightsOf a' gs = W.map (fun w => w.map (fun q : ℚ => (q : ℝ))) := rfl
  rw [hwo, Bool.not_eq_true', Bool.not_eq_false, List.all_eq_true] at c4
  have hil : i < gs.length := (List.getElem?_eq_some_iff.1 hi).1
  have := c4 i (List.mem_range.2 hil)
  rw [decide_eq_true_eq, hi, List.getElem?_map] at this
  cases hWi : W[i]? with
  | none => rw [hWi] at this; simp at this
  | some w =>
    rw [hWi] at this
    refine ⟨w, rfl, by simpa using this, ?_⟩
    rintro rfl
    apply c1
    rw [List.any_eq_true]
    exact ⟨[], List.mem_of_getElem? hi, rfl⟩

/-! ### Findings -/

theorem blp_of_meta {circ : List ℝ → ℝ} {ta : Bool} {u : Obj E} {g : List Nat × List ℝ} {ms : List Meta} (h : groupMeta circ ta u g = .ok ms) :
    ∃ b l, g.1 = b :: l ∧ ms ≠ [] ∧ ∀ m ∈ ms, m.blp = b := by
  unfold groupMeta at h
  cases hg : g.1 with
  | nil => rw [hg] at h; cases h
  | cons b l =>
    rw [hg] at h
    simp only at h
    cases hi : indices u b with
    | error e => rw [hi] at h; cases h
    | ok is =>
      rw [hi] at h
      simp only [Except.ok.injEq] at h
      refine ⟨b, l, rfl, ?_, ?_⟩
      · cases ta with
        | true => simp at h; rw [← h]; simp
        | false =>
          simp at h
          rw [← h]
          unfold indices at hi
          simp only at hi
          split at hi
          · cases hi
          rename_i hne
          simp only [Except.ok.injEq] at hi
          rw [← hi]
          intro h0
          apply hne
          rw [List.map_eq_nil_iff, List.filterMap_eq_nil_iff] at h0
          rw [List.isEmpty_iff, List.filter_eq_nil_iff]
          intro i hir hb
          have h1 := h0 i (List.mem_filter.2 ⟨hir, hb⟩)
          rw [h1] at hb
          simp at hb
      · cases ta with
        | true => simp at h; rw [← h]; simp
        | false =>
          simp at h
          rw [← h]
          intro m hm
          obtain ⟨m', _, rfl⟩ := List.mem_map.1 hm
          rfl

theorem rows_of_average {circ : List ℝ → ℝ} {a : Args} {u v : Obj E} {gs : List (List Nat × List ℝ)} (h : averageOn circ a u gs = .ok v) (b : Nat) :
    (∃ m ∈ v.rows, m.blp = b) ↔ ∃ g ∈ gs, g.1.head? = some b := by
  unfold averageOn at h
  split at h
  · cases h
  split at h
  · cases h
  rename_i ms hms
  simp only [Except.ok.injEq] at h
  subst h
  simp only
  have hf := UVP.mapE_ok_iff.1 hms
  rename_i hblk _
  clear hms hblk
  induction hf with
  | nil => simp
  | @cons g m gs ms h1 _ ih =>
    obtain ⟨c, l, hc, hne, hall⟩ := blp_of_meta h1
    rw [List.flatten_cons]
    simp only [List.mem_append, or_and_right, exists_or, List.mem_cons, exists_eq_left, hc, List.head?_cons]
    refine or_congr ?_ ih
    constructor
    · rintro ⟨x, hx, rfl⟩
      rw [hall x hx]
    · intro h
      obtain ⟨x, hx⟩ := List.exists_mem_of_ne_nil _ hne
      exact ⟨x, hx, by rw [hall x hx]; simpa using h⟩

/-- C161: a pair written as a float, as one gets from a float array, is told from an unknown pair only late: if the object has the pair the call passes the
argument checks and ends with the AssertionError of the data lookup, otherwise it ends with the ValueError of the checks. -/
theorem C161_float_pair (circ : List ℝ → ℝ) (so : List Nat → List Nat) (a : Args) (u : Obj E) (q : ℚ) (hst : statNames a = []) :
    ((∃ b : Nat, b ∈ u.rows.map (·.blp) ∧ q = (b : ℚ)) → averageVal circ so (some (.lst [.lst [.num q]])) none a u = .error (.err .assertion)) ∧
    ((¬ ∃ b : Nat, b ∈ u.rows.map (·.blp) ∧ q = (b : ℚ)) → averageVal circ so (some (.lst [.lst [.num q]])) none a u = .error (.err .value)) := by
  have hn : normalizeGrouped (.lst [.lst [.num q]]) = .ok [[Val.num q]] := rfl
  have hk : ([[Val.num q]] : List (List Val)).all (firstKnown (u.rows.map (·.blp))) = true ↔ ∃ b : Nat, b ∈ u.rows.map (·.blp) ∧ q = (b : ℚ) := by
    simp only [List.all_cons, List.all_nil, Bool.and_true, firstKnown, List.head?_cons, List.any_eq_true, eqNat, decide_eq_true_eq]
  unfold averageVal prepare prepareGiven
  simp only [hn, convert, firstIsTuple, Bool.false_eq_true, if_false]
  constructor <;> intro h
  · rw [hk.2 h]
    have hmem : ∀ (gs : List (List Val × List Val)), mapE resolveGroup (([Val.num q], [Val.num 1]) :: gs) = .error (.err .assertion) := by
      intro gs
      simp [mapE, resolveGroup, weightOf, resolve]
    simp only [hst, List.all_nil, weightLists]
    simp [hashable, hmem]
  · have : ([[Val.num q]] : List (List Val)).all (firstKnown (u.rows.map (·.blp))) = false := by
      rw [← Bool.not_eq_true, hk]; exact h
    simp [this]

/-- C161 finding: a group that starts with a baseline-pair integer and goes on with a pair written as a tuple is accepted; the pair of the tuple is averaged in the group and
again on its own, where the same group written with integers leaves no row of that pair. -/
theorem C161_finding_mixed_group (circ : List ℝ → ℝ) (so : List Nat → List Nat) (hso : ∀ l, (so l).Perm l) (a : Args) (u : Obj E) (x y : Nat) (p : Antnums.Blp)
    (hxy : x ≠ y) (hx : x ∈ u.rows.map (·.blp)) (hy : y ∈ u.rows.map (·.blp)) (hp : Antnums.antnumsToBlpair p = (y : Int)) (hex : u.exact = false) :
    let gv := Val.lst [.lst [.int x, .tup [.tup [.int p.1.1, .int p.1.2], .tup [.int p.2.1, .int p.2.2]]]]
    let iv := Val.lst [.lst [.int x, .int y]]
    (∀ v, averageVal circ so (some gv) none a u = .ok v → ∃ m ∈ v.rows, m.blp = y) ∧
    (∀ v, averageVal circ so (some iv) none a u = .ok v → ∀ m ∈ v.rows, m.blp ≠ y) ∧
    (∀ v, averageVal circ so (some gv) none a u = .ok v → ∃ gs, averageOn circ a u (([x, y], [1, 1]) :: gs) = .ok v) := by
  intro gv iv
  have hany : ∀ c, (u.rows.map (·.blp)).any (eqNat (.int (c : Nat))) = true ↔ c ∈ u.rows.map (·.blp) := by
    intro c
    rw [List.any_eq_true]
    simp [eqNat]
  have hx' : (u.rows.map (·.blp)).any (eqNat (.int x)) = true := (hany x).2 hx
  have main : ∀ v, averageVal circ so (some gv) none a u = .ok v →
      averageOn circ a u (([x, y], [1, 1]) :: (so ((uniq (u.rows.map (·.blp))).filter (fun b => b ≠ x))).map (fun b => ([b], [1]))) = .ok v := by
    intro v h
    unfold averageVal prepare at h
    simp only at h
    unfold prepareGiven at h
    have hn : normalizeGrouped gv = .ok [[Val.int x, .tup [.tup [.int p.1.1, .int p.1.2], .tup [.int p.2.1, .int p.2.2]]]] := rfl
    rw [hn] at h
    simp only [convert, firstIsTuple, Bool.false_eq_true, if_false] at h
    rw [if_neg (by simp only [List.all_cons, List.all_nil, firstKnown, List.head?_cons, hx']; decide)] at h
    rw [if_neg (by simp), if_neg (by simp [hashable, hashableL])] at h
    simp only [weightLists] at h
    split at h
    · cases h
    rename_i gs hgs
    split at hgs
    · cases hgs
    simp only [Except.ok.injEq] at hgs
    rw [hex] at hgs
    have hfil : (uniq (u.rows.map (·.blp))).filter (fun b => !([[Val.int x, Val.tup [.tup [.int p.1.1, .int p.1.2], .tup [.int p.2.1, .int p.2.2]]]] : List (List Val)).flatten.any (fun v => eqNat v b)) =
        (uniq (u.rows.map (·.blp))).filter (fun b => b ≠ x) := by
      congr 1
      funext b
      simp [eqNat, eq_comm]
    simp only [hfil, Bool.false_eq_true, if_false] at hgs
    generalize so ((uniq (u.rows.map (·.blp))).filter (fun b => b ≠ x)) = ex at hgs ⊢
    have hz : gs = ([Val.int x, .tup [.tup [.int p.1.1, .int p.1.2], .tup [.int p.2.1, .int p.2.2]]], [Val.num 1, .num 1]) :: ex.map (fun b : Nat => ([Val.int b], [Val.num 1])) := by
      rw [← hgs]
      simp only [List.map_cons, List.map_nil, List.singleton_append, List.zip_cons_cons]
      congr 1
      rw [List.zip_map']
    rw [hz, mapE, resolve_singles] at h
    have hr : resolveGroup ([Val.int x, .tup [.tup [.int p.1.1, .int p.1.2], .tup [.int p.2.1, .int p.2.2]]], [Val.num 1, .num 1]) = .ok ([x, y], [1, 1]) := by
      have ht := antnumsV_tuple (v := .tup [.tup [.int p.1.1, .int p.1.2], .tup [.int p.2.1, .int p.2.2]]) (p := p)
        ⟨_, _, rfl, Or.inr (Or.inl rfl), Or.inr (Or.inl rfl)⟩
      simp only [resolveGroup, mapE, weightOf, resolve, ht, hp, Int.toNat_natCast]
    rw [hr] at h
    simp only at h
    have hm : (([x, y], [1, 1]) :: ex.map (fun b => ([b], [1]))).map (fun g : List Nat × List ℚ => (g.1, g.2.map (fun q : ℚ => (q : ℝ)))) =
        (([x, y], [1, 1]) :: ex.map (fun b => ([b], [1])) : List (List Nat × List ℝ)) := by
      simp
    rw [hm] at h
    split at h
    · cases h
    · rename_i w hw
      cases h
      exact hw
  refine ⟨fun v h => ?_, fun v h => ?_, fun v h => ⟨_, main v h⟩⟩
  · rw [rows_of_average (main v h)]
    refine ⟨([y], [1]), List.mem_cons_of_mem _ (List.mem_map.2 ⟨y, (hso _).mem_iff.2 (List.mem_filter.2 ⟨(Combine.mem_uniq _ _).2 hy, ?_⟩), rfl⟩), rfl⟩
    simpa using fun h => hxy h.symm
  · have hf := C161_forms_agree circ so { a with groups := some [[x, y]], weights := none } u [[x, y]] iv none
      (Or.inl ⟨[.lst [.int x, .int y]], Or.inl rfl, List.Forall₂.cons (Or.inl rfl) List.Forall₂.nil⟩) rfl (Or.inl ⟨rfl, rfl⟩)
    have h' : averageVal circ so (some iv) none { a with groups := some [[x, y]], weights := none } u = .ok v := h
    rw [h', averageSpectra_eq] at hf
    split at hf
    · cases hf
    rename_i gs hgs
    split at hf
    · cases hf
    have ho : averageOn circ { a with groups := some [[x, y]], weights := none } u gs = .ok v := by
      cases hv : averageOn circ { a with groups := some [[x, y]], weights := none } u gs with
      | error e => rw [hv] at hf; cases hf
      | ok w => rw [hv] at hf; cases hf; rfl
    obtain ⟨_, extra, he, _, hmem⟩ := C29_groups hso hgs
    intro m hm hb
    obtain ⟨g, hg, hh⟩ := (rows_of_average ho y).1 ⟨m, hm, hb⟩
    have : g.1 ∈ [[x, y]] ++ extra.map (fun b => [b]) := by rw [← he]; exact List.mem_map_of_mem hg
    rw [List.mem_append, List.mem_singleton] at this
    rcases this with h1 | h1
    · rw [h1] at hh; simp at hh; exact hxy hh
    · obtain ⟨c, hc, hce⟩ := List.mem_map.1 h1
      rw [← hce] at hh
      simp at hh
      subst hh
      exact ((hmem c).1 hc).2.2 (by simp)

/-- C161 finding: weight lists beyond the number of groups are accepted, and applied to the pairs that are in no group: here the pair 2 (3 samples), left out of the groups, is
returned with 9 samples. -/
theorem C161_finding_long_weights : ∃ v c1 c2, averageVal (E := ℝ) (fun _ => 0) id (some (.lst [.lst [.int 1]])) (some (.lst [.lst [.int 1], .lst [.int 3, .int 0, .int 0]]))
      { groups := none, weights := none, timeAvg := false, errorField := [], errorWeights := none, normalize := true } (exObj false) = .ok v ∧
    v.cells = [[[c1, c2]]] ∧ c1.nsmp = 1 ∧ c2.nsmp = 9 ∧ (exCell 6 3).nsmp = 3 := by
  simp [averageVal, averageOn, prepare, prepareGiven, normalizeGrouped, seqOf, UVP.mapE, groupList, convert, firstIsTuple, firstKnown, exObj, exMeta, eqNat, hashable, weightLists,
    List.range_succ, statNames, (by decide : Combine.uniq [1, 2] = [1, 2]), resolveGroup, weightOf, resolve, groupRows, blpgWgts, accsOf, cellsOf, indices, sumCopies, copies, groupMeta,
    groupMean, prep, exCell, (by norm_num : ¬ ((1 : ℝ) ≤ 0))]
  rw [if_neg (by norm_num)]
  simp [List.replicate, List.range_succ]
  norm_num

/-! ### Cases -/

/-- Two groups in every way of writing them: a list of tuples of integers; a tuple of lists of nested tuples; an array of pairs. -/
example : SpellsInts (.lst [.tup [.int 101102103104, .int 5], .arr [.int 7]]) [[101102103104, 5], [7]] ∧
    SpellsTuples (.tup [.lst [.tup [.tup [.int 1, .int 2], .lst [.int 3, .int 4]]]]) [[101102103104]] ∧
    SpellsWeights (.arr [.lst [.int 2, .num (1 / 2)], .tup [.int 1]]) [[2, 1 / 2], [1]] := by
  refine ⟨⟨_, Or.inl rfl, List.Forall₂.cons (Or.inr (Or.inl rfl)) (List.Forall₂.cons (Or.inr (Or.inr rfl)) List.Forall₂.nil)⟩,
    ⟨_, Or.inr (Or.inl rfl), List.Forall₂.cons ⟨_, Or.inl rfl, List.Forall₂.cons ⟨((1, 2), (3, 4)), ⟨_, _, rfl, Or.inr (Or.inl rfl), Or.inl rfl⟩, ?_⟩ List.Forall₂.nil⟩ List.Forall₂.nil⟩,
    ⟨_, Or.inr (Or.inr rfl), List.Forall₂.cons ⟨_, Or.inl rfl, List.Forall₂.cons (Or.inr ⟨2, rfl, rfl⟩) (List.Forall₂.cons (Or.inl rfl) List.Forall₂.nil)⟩
      (List.Forall₂.cons ⟨_, Or.inr (Or.inl rfl), List.Forall₂.cons (Or.inr ⟨1, rfl, rfl⟩) List.Forall₂.nil⟩ List.Forall₂.nil)⟩⟩
  rw [Antnums.antnumsToBlpair_eq]; rfl

/-- The integer form succeeds on the object with the pairs 1 and 2. -/
example : ∃ v, averageVal (E := ℝ) (fun _ => 0) id (some (.tup [.arr [.int 1, .int 2]])) none exArgs (exObj false) = .ok v := by
  obtain ⟨v, _, h, _⟩ := ex_run false
  refine ⟨v, ?_⟩
  have := C161_forms_agree (fun _ => 0) id exArgs (exObj false) [[1, 2]] (.tup [.arr [.int 1, .int 2]]) none
    (Or.inl ⟨_, Or.inr (Or.inl rfl), List.Forall₂.cons (Or.inr (Or.inr rfl)) List.Forall₂.nil⟩) rfl (Or.inl ⟨rfl, rfl⟩)
  rw [h] at this
  exact this

/-- A flat list of integers, an empty group, an empty list of groups. -/
example (circ : List ℝ → ℝ) (so : List Nat → List Nat) (a : Args) (u : Obj ℝ) :
    averageVal circ so (some (.lst [.int 1, .int 2])) none a u = .error .type ∧ averageVal circ so (some (.lst [.lst []])) none a u = .error (.err .value) ∧
    averageVal circ so (some (.str "ab")) none a u = .error .type ∧ averageVal circ so (some (.lst [])) none a u = .error (.err .index) := by
  refine ⟨?_, ?_, ?_, rfl⟩
  · exact ((C161_not_nested circ so a u _ none).2 [] (.int 1) [.int 2] (Or.inl rfl) (by simp)).1 (by rintro ⟨l, h | h | h⟩ <;> cases h)
  · exact ((C161_not_nested circ so a u _ none).2 [] (.lst []) [] (Or.inl rfl) (by simp)).2 (Or.inl rfl)
  · exact (C161_not_nested circ so a u _ none).1 (by rintro ⟨l, h | h | h⟩ <;> cases h)

end HeraPspec.AvgArgs
