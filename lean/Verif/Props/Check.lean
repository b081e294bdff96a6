import Verif.Model.Check
import Mathlib.Tactic.Tauto

/-! C148: `UVPSpec.check`. -/
namespace HeraPspec.Check
variable {Ty A X : Type}

/-! ### Specification -/

/-- A value has the form and the type its parameter asks for. -/
def WellTyped (py : Py Ty A X) (p : Param Ty) (v : Val A X) : Prop :=
  match p.group with
  | .ndarray => ∃ a, v = .arr a ∧ py.sub (py.dtype a) p.type = true
  | .dict => (∃ d, v = .dict d ∧ ∀ e ∈ d, ∃ a, e.2 = .inl a ∧ py.sub (py.dtype a) p.type = true) ∨ v = .ddict []
  | .immutable => py.isinst v p.type = true
  | .dictOfDicts => (∃ d, v = .ddict d ∧ ∀ e ∈ d, ∀ x ∈ e.2, ∃ a, x.2 = .inl a ∧ py.sub (py.dtype a) p.type = true) ∨ v = .dict []

/-- What is assumed of Python and numpy: a conversion gives a value of the type asked for, and an array of the right type is converted to itself. -/
structure Laws (py : Py Ty A X) : Prop where
  astype : ∀ a t b, py.astype a t = some b → py.sub (py.dtype b) t = true
  call : ∀ t a b, py.call t a = some b → py.sub (py.dtype b) t = true
  same : ∀ t a, py.sub (py.dtype a) t = true → py.call t a = some a
  conv : ∀ t v w, py.conv t v = some w → py.isinst w t = true

/-- The window numbers are `0, ..., Nspws - 1`. -/
def SpwOk (py : Py Ty A X) (o : Obj A X) : Prop :=
  ∃ s n, Dict.get o "spw_array" = some s ∧ Dict.get o "Nspws" = some n ∧ ∀ x, x ∈ py.elems s ↔ x < py.num n

/-- An object with exact windows has their arrays. -/
def ExactOk (py : Py Ty A X) (justMeta : Bool) (o : Obj A X) : Prop :=
  ∃ e, Dict.get o "exact_windows" = some e ∧
    (py.truth e = true → justMeta = false → Dict.get o "window_function_array" ≠ none ∧ Dict.get o "window_function_kperp" ≠ none)

/-- A consistent object, as far as `check` goes. -/
structure Good (py : Py Ty A X) (ps : List (Param Ty)) (justMeta : Bool) (o : Obj A X) : Prop where
  present : justMeta = false → ∀ p ∈ ps, p.required = true → Dict.get o p.name ≠ none
  typed : ∀ p ∈ ps, ∀ v, Dict.get o p.name = some v → WellTyped py p v
  spws : SpwOk py o
  exact : ExactOk py justMeta o

/-! ### Proofs -/

theorem dictOk_iff {py : Py Ty A X} {t : Ty} {d : List (ℕ × (A ⊕ X))} :
    dictOk py t d = true ↔ ∀ e ∈ d, ∃ a, e.2 = .inl a ∧ py.sub (py.dtype a) t = true := by
  unfold dictOk
  rw [List.all_eq_true]
  refine forall₂_congr (fun e _ => ?_)
  cases h : e.2 <;> simp

theorem convInner_typed {py : Py Ty A X} (L : Laws py) {t : Ty} {d d' : List (ℕ × (A ⊕ X))} (h : convInner py t d = .ok d') :
    ∀ x ∈ d', ∃ a, x.2 = .inl a ∧ py.sub (py.dtype a) t = true := by
  induction d generalizing d' with
  | nil => simp only [convInner, Except.ok.injEq] at h; subst h; simp
  | cons x d ih =>
    obtain ⟨k, x⟩ := x
    cases x with
    | inr x => simp [convInner] at h
    | inl a =>
      simp only [convInner] at h
      split at h
      · cases h
      · rename_i b hb
        split at h
        · cases h
        · rename_i d2 hd
          cases h
          intro x hx
          rcases List.mem_cons.1 hx with rfl | hx
          · exact ⟨b, rfl, L.call _ _ _ hb⟩
          · exact ih hd x hx

theorem convOuter_typed {py : Py Ty A X} (L : Laws py) {t : Ty} {d d' : List (String × List (ℕ × (A ⊕ X)))} (h : convOuter py t d = .ok d') :
    ∀ e ∈ d', ∀ x ∈ e.2, ∃ a, x.2 = .inl a ∧ py.sub (py.dtype a) t = true := by
  induction d generalizing d' with
  | nil => simp only [convOuter, Except.ok.injEq] at h; subst h; simp
  | cons x d ih =>
    obtain ⟨k, x⟩ := x
    simp only [convOuter] at h
    split at h
    · cases h
    · rename_i b hb
      split at h
      · cases h
      · rename_i d2 hd
        cases h
        intro x hx
        rcases List.mem_cons.1 hx with rfl | hx
        · exact convInner_typed L hb
        · exact ih hd x hx

theorem convInner_same {py : Py Ty A X} (L : Laws py) {t : Ty} {d : List (ℕ × (A ⊕ X))}
    (h : ∀ x ∈ d, ∃ a, x.2 = .inl a ∧ py.sub (py.dtype a) t = true) : convInner py t d = .ok d := by
  induction d with
  | nil => rfl
  | cons x d ih =>
    obtain ⟨k, x⟩ := x
    obtain ⟨a, ha, hs⟩ := h _ List.mem_cons_self
    simp only at ha
    subst ha
    simp only [convInner, L.same _ _ hs, ih (fun x hx => h x (List.mem_cons_of_mem _ hx))]

theorem convOuter_same {py : Py Ty A X} (L : Laws py) {t : Ty} {d : List (String × List (ℕ × (A ⊕ X)))}
    (h : ∀ e ∈ d, ∀ x ∈ e.2, ∃ a, x.2 = .inl a ∧ py.sub (py.dtype a) t = true) : convOuter py t d = .ok d := by
  induction d with
  | nil => rfl
  | cons x d ih =>
    obtain ⟨k, x⟩ := x
    simp only [convOuter, convInner_same L (h _ List.mem_cons_self), ih (fun x hx => h x (List.mem_cons_of_mem _ hx))]

theorem checkVal_typed {py : Py Ty A X} (L : Laws py) {p : Param Ty} {v w : Val A X} (h : checkVal py p v = .ok w) : WellTyped py p w := by
  unfold checkVal at h
  unfold WellTyped
  cases hg : p.group <;> simp only [hg] at h ⊢
  · cases v <;> simp only [reduceCtorEq] at h
    rename_i a
    split at h
    · rename_i hs; cases h; exact ⟨a, rfl, hs⟩
    · split at h
      · rename_i b hb; cases h; exact ⟨b, rfl, L.astype _ _ _ hb⟩
      · cases h
  · cases v <;> simp only [reduceCtorEq] at h
    · rename_i d
      split at h
      · rename_i hs; cases h; exact .inl ⟨d, rfl, dictOk_iff.1 hs⟩
      · cases h
    · rename_i d
      split at h
      · rename_i hs; cases h; subst hs; exact .inr rfl
      · cases h
  · split at h
    · rename_i hs; cases h; exact hs
    · split at h
      · rename_i w' hw; cases h; exact L.conv _ _ _ hw
      · cases h
  · cases v <;> simp only [reduceCtorEq] at h
    · rename_i d
      split at h
      · rename_i hs; cases h; subst hs; exact .inr rfl
      · cases h
    · rename_i d
      split at h
      · rename_i d' hd; cases h; exact .inl ⟨d', rfl, convOuter_typed L hd⟩
      · cases h

theorem checkVal_same {py : Py Ty A X} (L : Laws py) {p : Param Ty} {v : Val A X} (h : WellTyped py p v) : checkVal py p v = .ok v := by
  unfold WellTyped at h
  unfold checkVal
  cases hg : p.group <;> simp only [hg] at h ⊢
  · obtain ⟨a, rfl, hs⟩ := h; simp only [hs, if_true]
  · rcases h with ⟨d, rfl, hd⟩ | rfl
    · simp only [dictOk_iff.2 hd, if_true]
    · simp
  · simp only [h, if_true]
  · rcases h with ⟨d, rfl, hd⟩ | rfl
    · simp only [convOuter_same L hd]
    · simp

theorem set_same (o : Obj A X) (k : String) (v : Val A X) (h : Dict.get o k = some v) : Dict.set o k v = o := by
  induction o with
  | nil => simp at h
  | cons e o ih =>
    obtain ⟨k', v'⟩ := e
    rw [Dict.get_cons] at h
    unfold Dict.set
    by_cases hk : k' = k
    · subst hk; simp at h; subst h; simp
    · simp only [hk, if_false] at h ⊢; rw [ih h]

/-- What one turn of the loop does. -/
theorem checkParam_spec {py : Py Ty A X} {jm : Bool} {o o' : Obj A X} {p : Param Ty} (h : checkParam py jm o p = .ok o') :
    (Dict.get o p.name = none ∧ (jm = false → p.required = false) ∧ o' = o) ∨
    (∃ v w, Dict.get o p.name = some v ∧ checkVal py p v = .ok w ∧ o' = Dict.set o p.name w) := by
  unfold checkParam at h
  split at h
  · rename_i hn
    split at h
    · cases h
    · rename_i hr
      cases h
      refine .inl ⟨hn, fun hj => ?_, rfl⟩
      subst hj
      simpa using hr
  · rename_i v hv
    split at h
    · cases h
    · rename_i w hw
      cases h
      exact .inr ⟨v, w, hv, hw, rfl⟩

theorem checkParam_get {py : Py Ty A X} {jm : Bool} {o o' : Obj A X} {p : Param Ty} (h : checkParam py jm o p = .ok o') (k : String) (hk : k ≠ p.name) :
    Dict.get o' k = Dict.get o k := by
  rcases checkParam_spec h with ⟨_, _, rfl⟩ | ⟨v, w, _, _, rfl⟩
  · rfl
  · rw [Dict.get_set, if_neg (Ne.symm hk)]

theorem checkAll_get {py : Py Ty A X} {jm : Bool} {ps : List (Param Ty)} {o o' : Obj A X} (h : checkAll py jm o ps = .ok o') (k : String)
    (hk : k ∉ ps.map (·.name)) : Dict.get o' k = Dict.get o k := by
  induction ps generalizing o with
  | nil => simp only [checkAll, Except.ok.injEq] at h; rw [h]
  | cons p ps ih =>
    simp only [checkAll] at h
    split at h
    · cases h
    · rename_i o1 h1
      simp only [List.map_cons, List.mem_cons, not_or] at hk
      rw [ih h hk.2, checkParam_get h1 k hk.1]

/-- What the loop does with each parameter. -/
theorem checkAll_spec {py : Py Ty A X} {jm : Bool} {ps : List (Param Ty)} (hn : (ps.map (·.name)).Nodup) {o o' : Obj A X} (h : checkAll py jm o ps = .ok o') :
    ∀ p ∈ ps, (Dict.get o p.name = none ∧ (jm = false → p.required = false) ∧ Dict.get o' p.name = none) ∨
      (∃ v w, Dict.get o p.name = some v ∧ checkVal py p v = .ok w ∧ Dict.get o' p.name = some w) := by
  induction ps generalizing o with
  | nil => simp
  | cons p ps ih =>
    simp only [checkAll] at h
    rw [List.map_cons, List.nodup_cons] at hn
    split at h
    · cases h
    · rename_i o1 h1
      intro q hq
      rcases List.mem_cons.1 hq with rfl | hq
      · rw [checkAll_get h _ hn.1]
        rcases checkParam_spec h1 with ⟨a, b, rfl⟩ | ⟨v, w, a, b, rfl⟩
        · exact .inl ⟨a, b, a⟩
        · exact .inr ⟨v, w, a, b, by rw [Dict.get_set, if_pos rfl]⟩
      · have hne : q.name ≠ p.name := fun e => hn.1 (e ▸ List.mem_map_of_mem hq)
        have := ih hn.2 h q hq
        rwa [checkParam_get h1 _ hne] at this

theorem checkAll_same {py : Py Ty A X} (L : Laws py) {jm : Bool} {ps : List (Param Ty)} {o : Obj A X}
    (h1 : jm = false → ∀ p ∈ ps, p.required = true → Dict.get o p.name ≠ none) (h2 : ∀ p ∈ ps, ∀ v, Dict.get o p.name = some v → WellTyped py p v) :
    checkAll py jm o ps = .ok o := by
  induction ps with
  | nil => rfl
  | cons p ps ih =>
    have hp : checkParam py jm o p = .ok o := by
      unfold checkParam
      cases hg : Dict.get o p.name with
      | none =>
        have : ¬ (p.required && !jm) = true := by
          rw [Bool.and_eq_true, Bool.not_eq_true']
          rintro ⟨a, b⟩
          exact h1 b p List.mem_cons_self a hg
        simp only [this]; simp
      | some v => simp only [checkVal_same L (h2 p List.mem_cons_self v hg), set_same o _ _ hg]
    simp only [checkAll, hp]
    exact ih (fun hj q hq => h1 hj q (List.mem_cons_of_mem _ hq)) (fun q hq => h2 q (List.mem_cons_of_mem _ hq))

theorem checkEnd_iff {py : Py Ty A X} {jm : Bool} {o : Obj A X} : checkEnd py jm o = .ok () ↔ SpwOk py o ∧ ExactOk py jm o := by
  unfold checkEnd SpwOk ExactOk
  cases hs : Dict.get o "spw_array" with
  | none => simp
  | some s =>
    cases hn : Dict.get o "Nspws" with
    | none => simp
    | some n =>
      simp only [Option.some.injEq, exists_eq_left', exists_and_left, Bool.and_eq_true, List.all_eq_true, decide_eq_true_eq, List.mem_range]
      have key : ((∀ x ∈ py.elems s, x < py.num n) ∧ ∀ x < py.num n, x ∈ py.elems s) ↔ ∀ x, x ∈ py.elems s ↔ x < py.num n :=
        ⟨fun h x => ⟨h.1 x, h.2 x⟩, fun h => ⟨fun x => (h x).1, fun x => (h x).2⟩⟩
      by_cases hb : ∀ x, x ∈ py.elems s ↔ x < py.num n
      · rw [if_pos (key.2 hb)]
        cases he : Dict.get o "exact_windows" with
        | none => simp
        | some e =>
          simp only [Option.some.injEq, exists_eq_left', Bool.not_eq_true']
          by_cases ht : py.truth e = true ∧ jm = false
          · simp only [if_pos ht]
            cases h1 : Dict.get o "window_function_array" <;> cases h2 : Dict.get o "window_function_kperp" <;> simp [ht] <;> exact hb
          · simp only [if_neg ht, true_iff]
            exact ⟨hb, fun a b => absurd ⟨a, b⟩ ht⟩
      · rw [if_neg (fun h => hb (key.1 h))]
        simp only [reduceCtorEq, false_iff]
        exact fun h => hb h.1

theorem check_ok {py : Py Ty A X} {ps : List (Param Ty)} {jm : Bool} {o o' : Obj A X} :
    check py ps jm o = .ok o' ↔ checkAll py jm o ps = .ok o' ∧ checkEnd py jm o' = .ok () := by
  unfold check
  constructor
  · intro h
    split at h
    · cases h
    · rename_i o1 h1
      split at h
      · cases h
      · rename_i h2; cases h; exact ⟨h1, h2⟩
  · rintro ⟨h1, h2⟩
    simp only [h1, h2]

/-- **C148** (partial). After a successful `check`, all required parameters of the table exist, every parameter has the form and type it should have, the
windows are numbered `0, ..., Nspws - 1` and an object with exact windows has their arrays.

Missing: two parameters listed as required are not in the table (`C148_finding_names`), shapes are not looked at (`C148_finding_shape`), and some failures
are not AssertionErrors (`C148_finding_errors`). -/
theorem C148_sound_partial (py : Py Ty A X) (L : Laws py) (ps : List (Param Ty)) (hn : (ps.map (·.name)).Nodup) (jm : Bool) (o o' : Obj A X)
    (h : check py ps jm o = .ok o') : Good py ps jm o' := by
  obtain ⟨h1, h2⟩ := check_ok.1 h
  obtain ⟨hs, he⟩ := checkEnd_iff.1 h2
  refine ⟨fun hj p hp hr hg => ?_, fun p hp v hv => ?_, hs, he⟩
  · rcases checkAll_spec hn h1 p hp with ⟨_, a, _⟩ | ⟨v, w, _, _, a⟩
    · rw [a hj] at hr; cases hr
    · rw [a] at hg; cases hg
  · rcases checkAll_spec hn h1 p hp with ⟨_, _, a⟩ | ⟨v', w, _, a, b⟩
    · rw [a] at hv; cases hv
    · rw [b] at hv; cases hv; exact checkVal_typed L a

/-- **C148** `check` neither makes nor removes attributes, and only changes the values of parameters that do not have their type. -/
theorem C148_frame (py : Py Ty A X) (L : Laws py) (ps : List (Param Ty)) (hn : (ps.map (·.name)).Nodup) (jm : Bool) (o o' : Obj A X)
    (h : check py ps jm o = .ok o') :
    (∀ k, Dict.get o' k = none ↔ Dict.get o k = none) ∧
    (∀ k, k ∉ ps.map (·.name) → Dict.get o' k = Dict.get o k) ∧
    (∀ p ∈ ps, ∀ v, Dict.get o p.name = some v → WellTyped py p v → Dict.get o' p.name = some v) := by
  obtain ⟨h1, _⟩ := check_ok.1 h
  refine ⟨fun k => ?_, fun k hk => checkAll_get h1 k hk, fun p hp v hv hw => ?_⟩
  · by_cases hk : k ∈ ps.map (·.name)
    · obtain ⟨p, hp, rfl⟩ := List.mem_map.1 hk
      rcases checkAll_spec hn h1 p hp with ⟨a, _, b⟩ | ⟨v, w, a, _, b⟩ <;> simp [a, b]
    · rw [checkAll_get h1 k hk]
  · rcases checkAll_spec hn h1 p hp with ⟨a, _, _⟩ | ⟨v', w, a, b, c⟩
    · rw [a] at hv; cases hv
    · rw [a] at hv; cases hv
      rw [checkVal_same L hw] at b; cases b; exact c

/-- **C148** A consistent object passes and is left as it is. -/
theorem C148_complete (py : Py Ty A X) (L : Laws py) (ps : List (Param Ty)) (jm : Bool) (o : Obj A X) (h : Good py ps jm o) : check py ps jm o = .ok o :=
  check_ok.2 ⟨checkAll_same L h.present h.typed, checkEnd_iff.2 ⟨h.spws, h.exact⟩⟩

/-- **C148** A second `check` changes nothing. -/
theorem C148_idempotent (py : Py Ty A X) (L : Laws py) (ps : List (Param Ty)) (hn : (ps.map (·.name)).Nodup) (jm : Bool) (o o' : Obj A X)
    (h : check py ps jm o = .ok o') : check py ps jm o' = .ok o' :=
  C148_complete py L ps jm o' (C148_sound_partial py L ps hn jm o o' h)

/-- **C148** A missing required parameter is found: an AssertionError, if what comes before it is consistent. -/
theorem C148_missing (py : Py Ty A X) (L : Laws py) (ps qs : List (Param Ty)) (p : Param Ty) (o : Obj A X)
    (h1 : ∀ q ∈ ps, q.required = true → Dict.get o q.name ≠ none) (h2 : ∀ q ∈ ps, ∀ v, Dict.get o q.name = some v → WellTyped py q v)
    (hr : p.required = true) (hp : Dict.get o p.name = none) : check py (ps ++ p :: qs) false o = .error .assertion := by
  have h : checkAll py false o (ps ++ p :: qs) = .error .assertion := by
    induction ps with
    | nil => simp [checkAll, checkParam, hp, hr]
    | cons q ps ih =>
      have hq : checkAll py false o [q] = .ok o :=
        checkAll_same L (fun _ x hx => h1 x (by simp at hx; simp [hx])) (fun x hx => h2 x (by simp at hx; simp [hx]))
      simp only [checkAll] at hq
      split at hq
      · cases hq
      · rename_i o1 ho1
        cases hq
        simp only [List.cons_append, checkAll, ho1]
        exact ih (fun x hx => h1 x (List.mem_cons_of_mem _ hx)) (fun x hx => h2 x (List.mem_cons_of_mem _ hx))
  unfold check
  simp only [h]

/-- **C148** (finding). Documented as "Raises AssertionErrors if checks fail": a parameter that should be an array and is something else (a list, say) raises
an AttributeError, because the message of the assertion calls a method of arrays; an array that cannot be converted raises a ValueError. -/
theorem C148_finding_errors (py : Py Ty A X) (L : Laws py) (ps qs : List (Param Ty)) (p : Param Ty) (o : Obj A X)
    (h1 : ∀ q ∈ ps, q.required = true → Dict.get o q.name ≠ none) (h2 : ∀ q ∈ ps, ∀ v, Dict.get o q.name = some v → WellTyped py q v)
    (hg : p.group = .ndarray) (v : Val A X) (hv : Dict.get o p.name = some v) :
    ((∀ a, v ≠ .arr a) → check py (ps ++ p :: qs) false o = .error .attribute) ∧
    (∀ a, v = .arr a → py.sub (py.dtype a) p.type = false → py.astype a p.type = none → check py (ps ++ p :: qs) false o = .error .value) := by
  have key : ∀ e, checkVal py p v = .error e → check py (ps ++ p :: qs) false o = .error e := by
    intro e he
    have h : checkAll py false o (ps ++ p :: qs) = .error e := by
      induction ps with
      | nil => simp [checkAll, checkParam, hv, he]
      | cons q ps ih =>
        have hq : checkAll py false o [q] = .ok o :=
          checkAll_same L (fun _ x hx => h1 x (by simp at hx; simp [hx])) (fun x hx => h2 x (by simp at hx; simp [hx]))
        simp only [checkAll] at hq
        split at hq
        · cases hq
        · rename_i o1 ho1
          cases hq
          simp only [List.cons_append, checkAll, ho1]
          exact ih (fun x hx => h1 x (List.mem_cons_of_mem _ hx)) (fun x hx => h2 x (List.mem_cons_of_mem _ hx))
    unfold check
    simp only [h]
  constructor
  · intro hna
    apply key
    unfold checkVal
    rw [hg]
    cases v <;> simp_all
  · intro a ha hs hc
    apply key
    subst ha
    unfold checkVal
    rw [hg]
    simp [hs, hc]

/-- **C148** (finding). The shapes of arrays are never looked at: in an object that passes, any array (but the list of windows) may be replaced by any other
array of the expected type, of whatever shape, and the object still passes. -/
theorem C148_finding_shape (py : Py Ty A X) (L : Laws py) (ps : List (Param Ty)) (hn : (ps.map (·.name)).Nodup) (jm : Bool) (o : Obj A X)
    (h : check py ps jm o = .ok o) (p : Param Ty) (hp : p ∈ ps) (hg : p.group = .ndarray)
    (hk : p.name ≠ "spw_array" ∧ p.name ≠ "Nspws" ∧ p.name ≠ "exact_windows") (b : A) (hb : py.sub (py.dtype b) p.type = true) :
    check py ps jm (Dict.set o p.name (.arr b)) = .ok (Dict.set o p.name (.arr b)) := by
  have G := C148_sound_partial py L ps hn jm o o h
  apply C148_complete py L
  refine ⟨fun hj q hq hr => ?_, fun q hq v hv => ?_, ?_, ?_⟩
  · rw [Dict.get_set]
    split
    · simp
    · exact G.present hj q hq hr
  · rw [Dict.get_set] at hv
    split at hv
    · rename_i he
      have hqp : p = q := List.inj_on_of_nodup_map hn hp hq he
      subst hqp
      cases hv
      unfold WellTyped
      simp only [hg]
      exact ⟨b, rfl, hb⟩
    · exact G.typed q hq v hv
  · obtain ⟨s, n, a1, a2, a3⟩ := G.spws
    refine ⟨s, n, ?_, ?_, a3⟩
    · rw [Dict.get_set, if_neg hk.1, a1]
    · rw [Dict.get_set, if_neg hk.2.1, a2]
  · obtain ⟨e, a1, a2⟩ := G.exact
    refine ⟨e, by rw [Dict.get_set, if_neg hk.2.2, a1], fun x y => ?_⟩
    obtain ⟨c, d⟩ := a2 x y
    constructor
    · rw [Dict.get_set]; split <;> simp_all
    · rw [Dict.get_set]; split <;> simp_all

/-- **C148** (finding). `time_2_array` and `symmetric_taper` are listed as required but are not among the parameters that are looked at (the second is
stored under another name, the first is declared as `time_1_array` once more): an object that passes still passes without them. -/
theorem C148_finding_names (py : Py NpTy A X) (L : Laws py) (o : Obj A X) (h : check py params false o = .ok o) (k : String)
    (hk : k = "time_2_array" ∨ k = "symmetric_taper") :
    k ∈ required ∧ Dict.get (Dict.del o k) k = none ∧ check py params false (Dict.del o k) = .ok (Dict.del o k) := by
  have hn : (params.map (·.name)).Nodup := by decide +kernel
  have hk' : k ∉ params.map (·.name) ∧ k ≠ "spw_array" ∧ k ≠ "Nspws" ∧ k ≠ "exact_windows" ∧ k ≠ "window_function_array" ∧ k ≠ "window_function_kperp" ∧ k ∈ required := by
    rcases hk with rfl | rfl <;> decide +kernel
  obtain ⟨q0, q1, q2, q3, q4, q5, q6⟩ := hk'
  have hget : ∀ x, x ≠ k → Dict.get (Dict.del o k) x = Dict.get o x := fun x hx => by rw [Dict.get_del, if_neg hx]
  have hpk : ∀ p ∈ params, p.name ≠ k := fun p hp e => q0 (e ▸ List.mem_map_of_mem hp)
  have G := C148_sound_partial py L params hn false o o h
  refine ⟨q6, by rw [Dict.get_del, if_pos rfl], C148_complete py L _ _ _ ⟨fun hj p hp hr => ?_, fun p hp v hv => ?_, ?_, ?_⟩⟩
  · rw [hget _ (hpk p hp)]; exact G.present hj p hp hr
  · rw [hget _ (hpk p hp)] at hv; exact G.typed p hp v hv
  · obtain ⟨s, n, a1, a2, a3⟩ := G.spws
    exact ⟨s, n, by rw [hget _ q1.symm, a1], by rw [hget _ q2.symm, a2], a3⟩
  · obtain ⟨e, a1, a2⟩ := G.exact
    exact ⟨e, by rw [hget _ q3.symm, a1], by rw [hget _ q4.symm, hget _ q5.symm]; exact a2⟩

/-- **C148** Every parameter of the table that is marked as required is in the list of required ones, and the other way round but for two. -/
theorem C148_table : ∀ k, k ∈ required ↔ k = "time_2_array" ∨ k = "symmetric_taper" ∨ ∃ p ∈ params, p.required = true ∧ p.name = k := by
  have h1 : ∀ k ∈ required, k = "time_2_array" ∨ k = "symmetric_taper" ∨ k ∈ (params.filter (·.required)).map (·.name) := by decide +kernel
  have h2 : ∀ k ∈ (params.filter (·.required)).map (·.name), k ∈ required := by decide +kernel
  have h3 : "time_2_array" ∈ required ∧ "symmetric_taper" ∈ required := by decide +kernel
  intro k
  have e : k ∈ (params.filter (·.required)).map (·.name) ↔ ∃ p ∈ params, p.required = true ∧ p.name = k := by
    simp only [List.mem_map, List.mem_filter, and_assoc]
  rw [← e]
  constructor
  · exact h1 k
  · rintro (rfl | rfl | h)
    · exact h3.1
    · exact h3.2
    · exact h2 k h

/-! ### Non-vacuity -/

/-- A small Python: an array is its type and its numbers; an object is its type and a number; everything converts but for strings. -/
def exPy : Py NpTy (NpTy × List ℕ) (NpTy × ℕ) where
  dtype a := a.1
  sub s t := decide (s = t)
  astype a t := if a.1 = .str then none else some (t, a.2)
  call t a := if a.1 = t then some a else if a.1 = .str then none else some (t, a.2)
  isinst v t := match v with
    | .obj x => decide (x.1 = t)
    | _ => false
  conv t v := match v with
    | .obj x => some (.obj (t, x.2))
    | _ => none
  elems v := match v with
    | .arr a => a.2
    | _ => []
  num v := match v with
    | .obj x => x.2
    | _ => 0
  truth v := match v with
    | .obj x => decide (x.2 ≠ 0)
    | _ => true

theorem exLaws : Laws exPy := by
  refine ⟨?_, ?_, ?_, ?_⟩
  · intro a t b h
    simp only [exPy] at h ⊢
    split at h <;> cases h; simp
  · intro t a b h
    simp only [exPy] at h ⊢
    split at h
    · rename_i e; cases h; simp [e]
    · split at h <;> cases h; simp
  · intro t a h
    simp only [exPy, decide_eq_true_eq] at h ⊢
    simp [h]
  · intro t v w h
    cases v <;> simp only [exPy, reduceCtorEq, Option.some.injEq] at h ⊢
    subst h; simp

/-- A value of the right type for each parameter, two windows, no exact windows; optional parameters but `exact_windows` and `stats_array` are left out. -/
def exObj (spws : NpTy × List ℕ) : Obj (NpTy × List ℕ) (NpTy × ℕ) :=
  (params.filter (fun p => p.required || p.name = "exact_windows" || p.name = "stats_array")).map (fun p => (p.name,
    if p.name = "spw_array" then .arr spws else if p.name = "exact_windows" then .obj (.bool, 0) else
    match p.group with
    | .ndarray => .arr (p.type, [1, 2])
    | .dict => .dict [(0, .inl (p.type, [3])), (1, .inl (p.type, [4]))]
    | .immutable => .obj (p.type, 2)
    | .dictOfDicts => .ddict [("err", [(0, .inl (p.type, [3]))])]))

/-- The last windows check, as a test. -/
example : ((check exPy params false (exObj (.i64, [0, 1]))).toOption.bind (fun o => (Dict.get o "spw_array").map exPy.elems)) = some [0, 1] ∧
    (Dict.get (exObj (.i64, [0, 1])) "spw_array").map (fun v => exPy.elems v) = some [0, 1] := by
  constructor <;> decide +kernel

/-- The windows are converted from one integer type to another by the first check; the second check changes nothing. -/
theorem ex_accepts : ∃ o, check exPy params false (exObj (.i64, [0, 1])) = .ok o ∧ check exPy params false o = .ok o := by
  cases h : check exPy params false (exObj (.i64, [0, 1])) with
  | error e =>
    have : (check exPy params false (exObj (.i64, [0, 1]))).toOption.isSome = true := by decide +kernel
    rw [h] at this; cases this
  | ok o => exact ⟨o, rfl, C148_idempotent exPy exLaws params (by decide +kernel) false _ o h⟩

/-- Non-vacuity of the findings: an accepted object stays accepted with labels of any shape and without `time_2_array`. -/
example : ∃ o, check exPy params false o = .ok o ∧
    check exPy params false (Dict.set o "label_1_array" (.arr (.i32, [7, 7, 7, 7, 7]))) = .ok (Dict.set o "label_1_array" (.arr (.i32, [7, 7, 7, 7, 7]))) := by
  obtain ⟨o, _, h⟩ := ex_accepts
  have hp : (⟨"label_1_array", .ndarray, .i32, true⟩ : Param NpTy) ∈ params := by
    unfold params; simp
  exact ⟨o, h, C148_finding_shape exPy exLaws params (by decide +kernel) false o h ⟨"label_1_array", .ndarray, .i32, true⟩ hp rfl (by decide) (.i32, [7, 7, 7, 7, 7]) rfl⟩

/-- The windows `[0, 2]` are refused; so is an object without a required parameter. -/
example : (check exPy params false (exObj (.u16, [0, 2]))).toOption.isSome = false ∧
    (check exPy params false (Dict.del (exObj (.u16, [0, 1])) "taper")).toOption.isSome = false ∧
    (check exPy params true (Dict.del (exObj (.u16, [0, 1])) "taper")).toOption.isSome = true := by
  refine ⟨?_, ?_, ?_⟩ <;> decide +kernel

end HeraPspec.Check
