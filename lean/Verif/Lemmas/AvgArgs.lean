import Verif.Spec.AvgArgs
import Verif.Lemmas.MapE

/-! Lemmas about the argument handling of `average_spectra`. -/
namespace HeraPspec.AvgArgs
open HeraPspec.UVP (Err mapE)
open HeraPspec.Combine (uniq)
open HeraPspec.Average

/-- The groups as Python integers. -/
def ints (gs : List (List Nat)) : List (List Val) := gs.map (fun g => g.map (fun b : Nat => Val.int b))

theorem mapE_f2 {α β γ ε : Type} {f : α → Except ε β} {h : γ → β} {l : List α} {gs : List γ}
    (H : List.Forall₂ (fun x g => f x = .ok (h g)) l gs) : mapE f l = .ok (gs.map h) := by
  induction H with
  | nil => rfl
  | cons h1 _ ih => rw [mapE, h1, ih]; rfl

theorem mapE_f2' {α β ε : Type} {f : α → Except ε β} {l : List α} {gs : List β}
    (H : List.Forall₂ (fun x g => f x = .ok g) l gs) : mapE f l = .ok gs := by
  induction H with
  | nil => rfl
  | cons h1 _ ih => rw [mapE, h1, ih]

theorem seqOf_seq {v : Val} {l : List Val} (h : IsSeq v l) : seqOf v = some l := by
  rcases h with rfl | rfl | rfl <;> rfl

/-- Normalising nested sequences whose lists are `M`. -/
theorem normalize_seqs {v : Val} {l : List Val} (hv : IsSeq v l) {M : List (List Val)} (h : List.Forall₂ IsSeq l M) :
    normalizeGrouped v = if M.any (·.isEmpty) then .error (.err .value) else .ok M := by
  unfold normalizeGrouped
  rw [seqOf_seq hv]
  simp only
  clear hv
  induction h with
  | nil => rfl
  | @cons x m l M h1 _ ih =>
    rw [mapE, ih]
    unfold groupList
    rw [seqOf_seq h1]
    have hc : (m :: M).any (·.isEmpty) = (m.isEmpty || M.any (·.isEmpty)) := rfl
    by_cases hm : m.isEmpty = true
    · have : (m :: M).any (·.isEmpty) = true := by rw [hc, hm]; rfl
      rw [if_pos this]
      simp [hm]
    · by_cases hM : (M.any (·.isEmpty)) = true
      · have : (m :: M).any (·.isEmpty) = true := by rw [hc, hM]; simp
        rw [if_pos this]
        simp [hm, hM]
      · have : ¬ ((m :: M).any (·.isEmpty) = true) := by rw [hc, Bool.or_eq_true]; tauto
        rw [if_neg this]
        simp [hm, hM]

theorem getItem_seq {v : Val} {l : List Val} (h : IsSeq v l) (i : Nat) {x : Val} (hx : l[i]? = some x) : getItem v i = .ok x := by
  unfold getItem
  rw [seqOf_seq h]
  simp only [hx]

theorem antnumsV_tuple {v : Val} {p : Antnums.Blp} (h : IsBlpTuple v p) : antnumsV v = .ok (Antnums.antnumsToBlpair p) := by
  obtain ⟨x, y, rfl, hx, hy⟩ := h
  have hs : IsSeq (.tup [x, y]) [x, y] := Or.inr (Or.inl rfl)
  unfold antnumsV antOf
  rw [getItem_seq hs 0 rfl, getItem_seq hs 1 rfl]
  simp only
  rw [getItem_seq hx 0 rfl, getItem_seq hx 1 rfl, getItem_seq hy 0 rfl, getItem_seq hy 1 rfl]

/-- Whichever way the groups are written, they become the same integers. -/
theorem groups_ints {gv : Val} {gs : List (List Nat)} (h : SpellsInts gv gs ∨ SpellsTuples gv gs) :
    (normalizeGrouped gv).bind convert = if gs.any (·.isEmpty) then .error (.err .value) else .ok (ints gs) := by
  rcases h with ⟨l, hl, hf⟩ | ⟨l, hl, hf⟩
  · have h2 : List.Forall₂ IsSeq l (ints gs) := by
      clear hl
      induction hf with
      | nil => exact List.Forall₂.nil
      | cons h1 _ ih => exact List.Forall₂.cons h1 ih
    rw [normalize_seqs hl h2]
    have he : (ints gs).any (·.isEmpty) = gs.any (·.isEmpty) := by
      unfold ints
      rw [List.any_map]
      congr 1
      funext g
      simp
    rw [he]
    split
    · rfl
    · show convert (ints gs) = _
      unfold convert
      rw [if_neg]
      unfold firstIsTuple ints
      cases gs with
      | nil => simp
      | cons g gs =>
        cases g with
        | nil => simp
        | cons b g => simp
  · have h2 : ∃ M : List (List Val), List.Forall₂ IsSeq l M ∧
        List.Forall₂ (List.Forall₂ (fun y (b : Nat) => ∃ p, IsBlpTuple y p ∧ Antnums.antnumsToBlpair p = (b : Int))) M gs := by
      clear hl
      induction hf with
      | nil => exact ⟨[], List.Forall₂.nil, List.Forall₂.nil⟩
      | cons h1 _ ih =>
        obtain ⟨M, i1, i2⟩ := ih
        obtain ⟨m, m1, m2⟩ := h1
        exact ⟨m :: M, List.Forall₂.cons m1 i1, List.Forall₂.cons m2 i2⟩
    obtain ⟨M, hM, hMg⟩ := h2
    rw [normalize_seqs hl hM]
    have he : M.any (·.isEmpty) = gs.any (·.isEmpty) := by
      clear hM hl hf
      induction hMg with
      | nil => rfl
      | cons h1 _ ih =>
        rw [List.any_cons, List.any_cons, ih]
        congr 1
        cases h1 <;> rfl
    rw [he]
    split
    · rfl
    rename_i hne
    show convert M = _
    have hconv : mapE (fun g => mapE (fun v => match antnumsV v with
      | .error e => .error e
      | .ok b => .ok (Val.int b)) g) M = (.ok (ints gs) : Except VErr (List (List Val))) := by
      refine mapE_f2 (List.Forall₂.imp ?_ hMg)
      intro m g hmg
      refine mapE_f2 (List.Forall₂.imp ?_ hmg)
      rintro y b ⟨p, hp, hb⟩
      rw [antnumsV_tuple hp, ← hb]
    unfold convert
    cases hMg with
    | nil => rfl
    | @cons m g M gs h1 h2 =>
      cases h1 with
      | nil => simp at hne
      | @cons y b m g hy hm =>
        rw [if_pos]
        · exact hconv
        · obtain ⟨p, ⟨x, z, rfl, _⟩, _⟩ := hy
          rfl

theorem hashable_ints (gs : List (List Nat)) : (ints gs).flatten.all hashable = true := by
  rw [List.all_eq_true]
  intro v hv
  obtain ⟨m, hm, hvm⟩ := List.mem_flatten.1 hv
  obtain ⟨g, _, rfl⟩ := List.mem_map.1 hm
  obtain ⟨b, _, rfl⟩ := List.mem_map.1 hvm
  rfl

theorem any_eqNat_ints (gs : List (List Nat)) (b : Nat) : (ints gs).flatten.any (fun v => eqNat v b) = decide (b ∈ gs.flatten) := by
  rw [Bool.eq_iff_iff, List.any_eq_true, decide_eq_true_eq]
  constructor
  · rintro ⟨v, hv, he⟩
    obtain ⟨m, hm, hvm⟩ := List.mem_flatten.1 hv
    obtain ⟨g, hg, rfl⟩ := List.mem_map.1 hm
    obtain ⟨c, hc, rfl⟩ := List.mem_map.1 hvm
    simp only [eqNat, Nat.cast_inj, decide_eq_true_eq] at he
    subst he
    exact List.mem_flatten.2 ⟨g, hg, hc⟩
  · intro h
    obtain ⟨g, hg, hb⟩ := List.mem_flatten.1 h
    exact ⟨.int b, List.mem_flatten.2 ⟨_, List.mem_map_of_mem hg, List.mem_map_of_mem hb⟩, by simp [eqNat]⟩

/-- Whether the first pair of a group is in the object. -/
def firstNat (blps : List Nat) (g : List Nat) : Bool :=
  match g.head? with
  | some b => decide (b ∈ blps)
  | none => false

theorem groupsOf_given (so : List Nat → List Nat) {E : Type} [AddCommGroup E] [Module ℝ E] {a : Args} {gs : List (List Nat)} (ha : a.groups = some gs) (u : Obj E) :
    groupsOf so a u =
      if gs.isEmpty then .error .index
      else if gs.any (·.isEmpty) then .error .value
      else if !gs.all (firstNat (u.rows.map (·.blp))) then .error .value
      else if (weightsOf a gs).any (·.isEmpty) then .error .value
      else if !(List.range gs.length).all (fun i => ((weightsOf a gs)[i]?.map (·.length)) = (gs[i]?.map (·.length))) then .error .value
      else .ok ((gs ++ (if u.exact then [] else so ((uniq (u.rows.map (·.blp))).filter (fun b => b ∉ gs.flatten))).map (fun b => [b])).zip
        (weightsOf a gs ++ (if u.exact then [] else so ((uniq (u.rows.map (·.blp))).filter (fun b => b ∉ gs.flatten))).map (fun _ => [1]))) := by
  unfold groupsOf
  rw [ha]
  rfl

theorem first_ints (blps : List Nat) (gs : List (List Nat)) :
    (ints gs).all (firstKnown blps) = gs.all (firstNat blps) := by
  unfold ints
  rw [List.all_map]
  congr 1
  funext g
  cases g with
  | nil => rfl
  | cons b g =>
    simp only [Function.comp, firstKnown, firstNat, List.map_cons, List.head?_cons]
    rw [Bool.eq_iff_iff, List.any_eq_true, decide_eq_true_eq]
    constructor
    · rintro ⟨c, hc, he⟩
      simp only [eqNat, Nat.cast_inj, decide_eq_true_eq] at he
      subst he; exact hc
    · intro h
      exact ⟨b, h, by simp [eqNat]⟩

/-- The weights as written, and their values. -/
theorem weights_vals {wv : Option Val} {gs : List (List Nat)} {a : Args}
    (hw : (wv = none ∧ a.weights = none) ∨ ∃ v W, wv = some v ∧ SpellsWeights v W ∧ a.weights = some (W.map (fun w => w.map (fun q : ℚ => (q : ℝ))))) :
    ∃ (WV : List (List Val)) (W : List (List ℚ)), List.Forall₂ (List.Forall₂ (fun v q => weightOf v = .ok q)) WV W ∧
      weightsOf a gs = W.map (fun w => w.map (fun q : ℚ => (q : ℝ))) ∧
      (gs.any (·.isEmpty) = false → weightLists wv (ints gs) = if (weightsOf a gs).any (·.isEmpty) then .error (.err .value)
        else if !(List.range gs.length).all (fun i => ((weightsOf a gs)[i]?.map (·.length)) = (gs[i]?.map (·.length))) then .error (.err .value) else .ok WV) := by
  have hlen : ∀ {WV : List (List Val)} {W : List (List ℚ)}, List.Forall₂ (List.Forall₂ (fun v q => weightOf v = .ok q)) WV W →
      ∀ i : Nat, (WV[i]?.map (·.length)) = ((W.map (fun w => w.map (fun q : ℚ => (q : ℝ))))[i]?.map (·.length)) := by
    intro WV W h
    induction h with
    | nil => intro i; rfl
    | cons h1 _ ih =>
      intro i
      cases i with
      | zero => simpa using h1.length_eq
      | succ i => simpa using ih i
  have hlg : ∀ i : Nat, ((ints gs)[i]?.map (·.length)) = (gs[i]?.map (·.length)) := by
    intro i
    unfold ints
    rw [List.getElem?_map]
    cases gs[i]? <;> simp
  rcases hw with ⟨rfl, ha⟩ | ⟨v, W, rfl, ⟨l, hl, hf⟩, ha⟩
  · refine ⟨gs.map (fun g => g.map (fun _ => Val.num 1)), gs.map (fun g => g.map (fun _ => 1)), ?_, ?_, ?_⟩
    · induction gs with
      | nil => exact List.Forall₂.nil
      | cons g gs ih =>
        refine List.Forall₂.cons ?_ (ih ?_)
        · induction g with
          | nil => exact List.Forall₂.nil
          | cons b g ih => exact List.Forall₂.cons rfl (ih (by
              intro i
              have := hlg
              unfold ints
              rw [List.getElem?_map]
              cases (g :: gs)[i]? <;> simp))
        · intro i
          unfold ints
          rw [List.getElem?_map]
          cases gs[i]? <;> simp
    · unfold weightsOf
      rw [ha]
      simp
    · intro hne
      have hw1 : weightsOf a gs = gs.map (fun g => g.map (fun _ => 1)) := by unfold weightsOf; rw [ha]
      rw [hw1, if_neg, if_neg]
      · unfold weightLists ints
        simp
      · simp only [Bool.not_eq_true', Bool.not_eq_false, List.all_eq_true, decide_eq_true_eq]
        intro i _
        rw [List.getElem?_map]
        cases gs[i]? <;> simp
      · rw [List.any_map]
        simp only [Function.comp_def, List.isEmpty_map]
        simp only [List.any_eq_false] at hne
        simpa using fun h => hne [] h rfl
  · have h2 : ∃ M : List (List Val), List.Forall₂ IsSeq l M ∧ List.Forall₂ (List.Forall₂ (fun v q => weightOf v = .ok q)) M W := by
      clear hl ha
      induction hf with
      | nil => exact ⟨[], List.Forall₂.nil, List.Forall₂.nil⟩
      | cons h1 _ ih =>
        obtain ⟨M, i1, i2⟩ := ih
        obtain ⟨m, m1, m2⟩ := h1
        refine ⟨m :: M, List.Forall₂.cons m1 i1, List.Forall₂.cons (List.Forall₂.imp ?_ m2) i2⟩
        rintro v q (rfl | ⟨n, rfl, rfl⟩) <;> rfl
    obtain ⟨M, hM, hMW⟩ := h2
    have hw1 : weightsOf a gs = W.map (fun w => w.map (fun q : ℚ => (q : ℝ))) := by unfold weightsOf; rw [ha]
    refine ⟨M, W, hMW, hw1, fun _ => ?_⟩
    unfold weightLists
    simp only
    rw [normalize_seqs hl hM, hw1]
    have he : M.any (·.isEmpty) = (W.map (fun w => w.map (fun q : ℚ => (q : ℝ)))).any (·.isEmpty) := by
      clear hM hl hf hw1 ha
      induction hMW with
      | nil => rfl
      | cons h1 _ ih =>
        rw [List.any_cons, List.map_cons, List.any_cons, ih]
        congr 1
        cases h1 <;> rfl
    rw [he]
    by_cases c : ((W.map (fun w => w.map (fun q : ℚ => (q : ℝ)))).any (·.isEmpty)) = true
    · rw [if_pos c, if_pos c]
    rw [if_neg c, if_neg c]
    have e : ((List.range (ints gs).length).all (fun i => (M[i]?.map (·.length)) = ((ints gs)[i]?.map (·.length)))) =
        (List.range gs.length).all (fun i => ((W.map (fun w => w.map (fun q : ℚ => (q : ℝ))))[i]?.map (·.length)) = (gs[i]?.map (·.length))) := by
      have hli : (ints gs).length = gs.length := by simp [ints]
      simp only [hlen hMW, hlg, hli]
    simp only [e]
    cases ((List.range gs.length).all (fun i => ((W.map (fun w => w.map (fun q : ℚ => (q : ℝ))))[i]?.map (·.length)) = (gs[i]?.map (·.length)))) <;> rfl

end HeraPspec.AvgArgs
