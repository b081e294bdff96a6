import Verif.Model.Container
import Verif.Spec.Container
import Mathlib.Data.List.Basic

/-!
C37, C38, C39: the container as a map.
-/
namespace HeraPspec.Container
open Dict
variable {V : Type}

/-- What the file holds under a name. -/
def slot (f : File V) : Store V := fun g n =>
  match (groupOf f g).get n with
  | none => .absent
  | some e => if e.tagged then (match e.obj with
    | none => .broken
    | some v => .stored v) else .broken

/-- Well-formed files: names are unique and a tagged entry is complete. -/
structure WF (f : File V) : Prop where
  groups : f.keys.Nodup
  names : ∀ g, (groupOf f g).keys.Nodup
  complete : ∀ g n e, (groupOf f g).get n = some e → (e.tagged = true ↔ e.obj.isSome = true)

theorem groupOf_set (f : File V) (g g' : String) (d : Dict String (Entry V)) :
    groupOf (f.set g d) g' = if g = g' then d else groupOf f g' := by
  unfold groupOf
  rw [get_set]
  split <;> rfl

theorem has_iff (d : Dict String (Entry V)) (n : String) : d.has n = true ↔ d.get n ≠ none := by
  unfold has Dict.get
  rw [List.any_eq_true]
  constructor
  · rintro ⟨e, he, h⟩ h0
    rw [Option.map_eq_none_iff, List.find?_eq_none] at h0
    exact h0 e he h
  · intro h
    rw [ne_eq, Option.map_eq_none_iff, List.find?_eq_none] at h
    push Not at h
    exact h

theorem absent_iff (f : File V) (g n : String) : slot f g n = .absent ↔ (groupOf f g).get n = none := by
  unfold slot
  cases (groupOf f g).get n with
  | none => simp
  | some e =>
    obtain ⟨t, o⟩ := e
    cases t <;> cases o <;> simp

theorem keys_del_nodup (d : Dict String (Entry V)) (n : String) (h : d.keys.Nodup) : (d.del n).keys.Nodup := by
  unfold keys del at *
  exact h.sublist (List.Sublist.map _ List.filter_sublist)

theorem wf_set {f : File V} (hf : WF f) (g : String) (d : Dict String (Entry V)) (h1 : d.keys.Nodup)
    (h2 : ∀ n e, d.get n = some e → (e.tagged = true ↔ e.obj.isSome = true)) : WF (f.set g d) := by
  refine ⟨keys_set_nodup _ _ _ hf.groups, ?_, ?_⟩
  · intro g'
    rw [groupOf_set]
    split
    · exact h1
    · exact hf.names g'
  · intro g' n e
    rw [groupOf_set]
    split
    · exact h2 n e
    · exact hf.complete g' n e

theorem store_spec (write : V → Bool) {f : File V} (hf : WF f) (g n : String) (v : V) :
    WF (store write f g n v).1 ∧
    slot (store write f g n v).1 = (slot f).put g n (if write v then .stored v else .broken) ∧
    (store write f g n v).2 = (if write v then .ok () else .error .write) ∧
    (∀ g', g' ∈ (store write f g n v).1.keys ↔ g' = g ∨ g' ∈ f.keys) := by
  have key : ∀ (e : Entry V) (s : Slot V), (e.tagged = true ↔ e.obj.isSome = true) →
      (s = if e.tagged then (match e.obj with | none => .broken | some v => .stored v) else .broken) →
      WF (f.set g ((groupOf f g).set n e)) ∧ slot (f.set g ((groupOf f g).set n e)) = (slot f).put g n s := by
    intro e s he hs
    constructor
    · apply wf_set hf _ _ (keys_set_nodup _ _ _ (hf.names g))
      intro n' e'
      rw [get_set]
      split
      · rintro ⟨⟩; exact he
      · exact hf.complete g n' e'
    · funext g' n'
      unfold slot Store.put
      rw [groupOf_set]
      by_cases hg : g = g'
      · subst hg
        rw [if_pos rfl, get_set]
        by_cases hn : n = n'
        · subst hn; simp [hs]
        · simp [hn, Ne.symm hn]
      · simp [hg, Ne.symm hg]
  unfold store
  by_cases hw : write v = true
  · rw [if_pos hw, if_pos hw, if_pos hw]
    obtain ⟨h1, h2⟩ := key ⟨true, some v⟩ (.stored v) (by simp) rfl
    exact ⟨h1, h2, rfl, fun g' => keys_set_mem _ _ _ _⟩
  · rw [if_neg hw, if_neg hw, if_neg hw]
    obtain ⟨h1, h2⟩ := key ⟨false, none⟩ .broken (by simp) rfl
    exact ⟨h1, h2, rfl, fun g' => keys_set_mem _ _ _ _⟩

theorem put_put (m : Store V) (g n : String) (s t : Slot V) : (m.put g n s).put g n t = m.put g n t := by
  funext g' n'
  unfold Store.put
  split <;> rfl

theorem slot_del {f : File V} (hf : WF f) (g n : String) :
    WF (f.set g ((groupOf f g).del n)) ∧ slot (f.set g ((groupOf f g).del n)) = (slot f).put g n .absent := by
  constructor
  · apply wf_set hf _ _ (keys_del_nodup _ _ (hf.names g))
    intro n' e'
    rw [get_del]
    split
    · rintro ⟨⟩
    · exact hf.complete g n' e'
  · funext g' n'
    unfold slot Store.put
    rw [groupOf_set]
    by_cases hg : g = g'
    · subst hg
      rw [if_pos rfl, get_del]
      by_cases hn : n' = n
      · subst hn; simp
      · simp [hn]
    · simp [hg, Ne.symm hg]

/-- One call refines the specification. -/
theorem setOne_spec (write : V → Bool) {f : File V} (hf : WF f) (g n : String) (v : V) (ow : Bool) :
    WF (setOne write .rw false f g n (.uvp v) ow).1 ∧
    slot (setOne write .rw false f g n (.uvp v) ow).1 = ((slot f).write write g n v ow).1 ∧
    ((setOne write .rw false f g n (.uvp v) ow).2 = .ok () ↔ ((slot f).write write g n v ow).2 = true) ∧
    (∀ g', g' ∈ (setOne write .rw false f g n (.uvp v) ow).1.keys → g' = g ∨ g' ∈ f.keys) ∧
    (∀ g', g' ∈ f.keys → g' ∈ (setOne write .rw false f g n (.uvp v) ow).1.keys) := by
  unfold setOne Store.write
  rw [if_neg (by simp)]
  simp only [Bool.false_and, Bool.false_eq_true, if_false]
  have hok : ∀ r : Except CErr Unit, r = (if write v then .ok () else .error .write) → (r = .ok () ↔ write v = true) := by
    intro r hr; rw [hr]; cases write v <;> simp
  by_cases ha : slot f g n = .absent
  · have hn : ¬ (groupOf f g).has n = true := by rw [has_iff, (absent_iff f g n).1 ha]; simp
    rw [if_neg hn, if_pos (by rw [ha]; rfl)]
    obtain ⟨h1, h2, h3, h4⟩ := store_spec write hf g n v
    exact ⟨h1, h2, hok _ h3, fun g' h => (h4 g').1 h, fun g' h => (h4 g').2 (Or.inr h)⟩
  · have hn : (groupOf f g).has n = true := by rw [has_iff]; intro h; exact ha ((absent_iff f g n).2 h)
    rw [if_pos hn]
    have hfree : (slot f g n).free = false := by
      cases hs : slot f g n with
      | absent => exact absurd hs ha
      | broken => rfl
      | stored v => rfl
    rw [hfree]
    cases ow with
    | true =>
      simp only [Bool.false_or, if_true]
      obtain ⟨d1, d2⟩ := slot_del hf g n
      obtain ⟨h1, h2, h3, h4⟩ := store_spec write d1 g n v
      rw [d2, put_put] at h2
      refine ⟨h1, h2, hok _ h3, ?_, ?_⟩
      · intro g' h
        rcases (h4 g').1 h with h | h
        · exact Or.inl h
        · exact (keys_set_mem _ _ _ _).1 h
      · intro g' h
        exact (h4 g').2 (Or.inr ((keys_set_mem _ _ _ _).2 (Or.inr h)))
    | false =>
      simp only [Bool.or_self, Bool.false_eq_true, if_false]
      exact ⟨hf, trivial, by simp, fun g' h => Or.inr h, fun g' h => h⟩

theorem groupOf_newFile (g : String) : groupOf (newFile : File V) g = [] := by
  unfold groupOf newFile
  rw [get_cons]
  split <;> rfl

theorem wf_newFile : WF (newFile : File V) :=
  ⟨by simp [newFile, keys], fun g => by rw [groupOf_newFile]; simp [keys], fun g n e h => by rw [groupOf_newFile] at h; cases h⟩

theorem slot_newFile : slot (newFile : File V) = fun _ _ => .absent := by
  funext g n
  unfold slot
  rw [groupOf_newFile]
  rfl

/-- The objects of a call, if all are UVPSpec objects. -/
def Op.items : Op V → List (String × Arg V)
  | .set _ n a _ => [(n, a)]
  | .setList _ items _ => items

def Op.group : Op V → String
  | .set g _ _ _ => g
  | .setList g _ _ => g

def Op.overwrite : Op V → Bool
  | .set _ _ _ ow => ow
  | .setList _ _ ow => ow

/-- The UVPSpec objects of a list up to the first other argument (where the call raises TypeError). -/
def uvps : List (String × Arg V) → List (String × V)
  | [] => []
  | (n, .uvp v) :: l => (n, v) :: uvps l
  | (_, .other) :: _ => []

/-- The specification of a history of calls. -/
def specRun (write : V → Bool) (m : Store V) (ops : List (Op V)) : Store V :=
  ops.foldl (fun m op => Store.writeAll write op.group op.overwrite m (uvps op.items)) m

theorem setMany_spec (write : V → Bool) (g : String) (ow : Bool) (items : List (String × Arg V)) : ∀ {f : File V}, WF f →
    WF (setMany write .rw false g ow f items).1 ∧
    slot (setMany write .rw false g ow f items).1 = Store.writeAll write g ow (slot f) (uvps items) ∧
    (∀ g', g' ∈ (setMany write .rw false g ow f items).1.keys → g' = g ∧ uvps items ≠ [] ∨ g' ∈ f.keys) ∧
    (∀ g', g' ∈ f.keys → g' ∈ (setMany write .rw false g ow f items).1.keys) := by
  induction items with
  | nil => intro f hf; exact ⟨hf, rfl, fun g' h => Or.inr h, fun g' h => h⟩
  | cons x items ih =>
    intro f hf
    obtain ⟨n, a⟩ := x
    cases a with
    | other => exact ⟨hf, rfl, fun g' h => Or.inr h, fun g' h => h⟩
    | uvp v =>
      obtain ⟨h1, h2, h3, h4, h5⟩ := setOne_spec write hf g n v ow
      unfold setMany uvps Store.writeAll
      rw [if_neg (by simp)]
      simp only []
      cases hr : setOne write .rw false f g n (.uvp v) ow with
      | mk f' r =>
        rw [hr] at h1 h2 h3 h4 h5
        cases r with
        | error e =>
          have : ¬ ((slot f).write write g n v ow).2 = true := by rw [← h3]; simp
          rw [if_neg this]
          exact ⟨h1, h2, fun g' h => (h4 g' h).imp (fun h => ⟨h, by simp⟩) id, h5⟩
        | ok u =>
          have : ((slot f).write write g n v ow).2 = true := by rw [← h3]
          rw [if_pos this, ← h2]
          obtain ⟨i1, i2, i3, i4⟩ := ih h1
          refine ⟨i1, i2, ?_, fun g' h => i4 g' (h5 g' h)⟩
          intro g' h
          rcases i3 g' h with h | h
          · exact Or.inl ⟨h.1, by simp⟩
          · exact (h4 g' h).imp (fun h => ⟨h, by simp⟩) id

theorem step_spec (write : V → Bool) {f : File V} (hf : WF f) (op : Op V) :
    WF (step write .rw false f op) ∧
    slot (step write .rw false f op) = Store.writeAll write op.group op.overwrite (slot f) (uvps op.items) ∧
    (∀ g', g' ∈ (step write .rw false f op).keys → g' = op.group ∧ uvps op.items ≠ [] ∨ g' ∈ f.keys) ∧
    (∀ g', g' ∈ f.keys → g' ∈ (step write .rw false f op).keys) := by
  cases op with
  | setList g items ow => exact setMany_spec write g ow items hf
  | set g n a ow =>
    cases a with
    | other =>
      have e : step write .rw false f (.set g n .other ow) = f := by
        show (setOne write .rw false f g n .other ow).1 = f
        unfold setOne
        rw [if_neg (by simp)]
        simp
      rw [e]
      exact ⟨hf, rfl, fun g' h => Or.inr h, fun g' h => h⟩
    | uvp v =>
      obtain ⟨h1, h2, h3, h4, h5⟩ := setOne_spec write hf g n v ow
      refine ⟨h1, ?_, fun g' h => (h4 g' h).imp (fun h => ⟨h, by simp [Op.items, uvps]⟩) id, h5⟩
      show slot (setOne write .rw false f g n (.uvp v) ow).1 = _
      rw [h2]
      simp only [Op.items, Op.group, Op.overwrite, uvps, Store.writeAll]
      split <;> rfl

theorem run_spec (write : V → Bool) (ops : List (Op V)) : ∀ {f : File V}, WF f →
    WF (run write .rw false f ops) ∧ slot (run write .rw false f ops) = specRun write (slot f) ops := by
  induction ops with
  | nil => intro f hf; exact ⟨hf, rfl⟩
  | cons op ops ih =>
    intro f hf
    obtain ⟨h1, h2, _, _⟩ := step_spec write hf op
    obtain ⟨i1, i2⟩ := ih h1
    refine ⟨i1, ?_⟩
    show slot (run write .rw false (step write .rw false f op) ops) = _
    rw [i2, h2]
    rfl

/-- The outcome of `get_pspec(g, n)` in terms of what is stored. -/
theorem getOne_slot {f : File V} (g n : String) :
    (∀ v, getOne f g n = .ok v ↔ slot f g n = .stored v) ∧
    (getOne f g n = .error .key ↔ slot f g n = .absent) ∧ (getOne f g n = .error .type ↔ slot f g n = .broken) := by
  unfold getOne slot groupOf
  cases hg : f.get g with
  | none => simp
  | some d =>
    simp only [Option.getD_some]
    cases hn : d.get n with
    | none => simp
    | some e =>
      obtain ⟨t, o⟩ := e
      cases t <;> cases o <;> simp

/-- C37: for every history of `set_pspec` calls (single or lists, with or without `overwrite`, with objects that can be written or
not, and arguments of the wrong type) on a new container, `get_pspec` returns exactly what the specification map holds, and
raises KeyError where nothing was stored. -/
theorem C37_get_is_map_lookup (write : V → Bool) (ops : List (Op V)) (g n : String) :
    (∀ v, getOne (run write .rw false newFile ops) g n = .ok v ↔ specRun write (fun _ _ => .absent) ops g n = .stored v) ∧
    (getOne (run write .rw false newFile ops) g n = .error .key ↔ specRun write (fun _ _ => .absent) ops g n = .absent) := by
  obtain ⟨_, h⟩ := run_spec write ops (wf_newFile (V := V))
  rw [slot_newFile] at h
  obtain ⟨a, b, _⟩ := getOne_slot (f := run write .rw false newFile ops) g n
  rw [h] at a b
  exact ⟨a, b⟩

/-- C37: after a successful `set_pspec(g, n, v)`, in any reachable file, `get_pspec(g, n)` returns `v` and every other name
returns what it did before. -/
theorem C37_last_write_wins (write : V → Bool) (ops : List (Op V)) (g n : String) (v : V) (ow : Bool)
    (hok : (setOne write .rw false (run write .rw false newFile ops) g n (.uvp v) ow).2 = .ok ()) :
    getOne (setOne write .rw false (run write .rw false newFile ops) g n (.uvp v) ow).1 g n = .ok v ∧
    ∀ g' n' w, (g' ≠ g ∨ n' ≠ n) → (getOne (setOne write .rw false (run write .rw false newFile ops) g n (.uvp v) ow).1 g' n' = .ok w ↔
      getOne (run write .rw false newFile ops) g' n' = .ok w) := by
  obtain ⟨hwf, _⟩ := run_spec write ops (wf_newFile (V := V))
  obtain ⟨_, h2, h3, _, _⟩ := setOne_spec write hwf g n v ow
  have hs := h3.1 hok
  set f := run write .rw false newFile ops
  have hput : ((slot f).write write g n v ow).1 = (slot f).put g n (.stored v) ∧ write v = true := by
    unfold Store.write at hs ⊢
    by_cases hc : ((slot f g n).free || ow) = true
    · rw [if_pos hc] at hs ⊢
      have hw : write v = true := hs
      rw [if_pos hw]
      exact ⟨rfl, hw⟩
    · rw [if_neg hc] at hs; cases hs
  rw [hput.1] at h2
  constructor
  · rw [(getOne_slot g n).1, h2]
    simp [Store.put]
  · intro g' n' w hne
    rw [(getOne_slot g' n').1, (getOne_slot g' n').1, h2]
    unfold Store.put
    rw [if_neg (by rintro ⟨rfl, rfl⟩; rcases hne with h | h <;> exact h rfl)]

theorem mem_spectra {f : File V} (hf : WF f) (g : String) (l : List String) (h : spectra f g = .ok l) :
    l.Nodup ∧ ∀ n, n ∈ l ↔ ∃ v, slot f g n = .stored v := by
  unfold spectra at h
  cases hg : f.get g with
  | none => rw [hg] at h; cases h
  | some d =>
    rw [hg] at h
    simp only [Except.ok.injEq] at h
    have hd : groupOf f g = d := by unfold groupOf; rw [hg]; rfl
    have hnd := hf.names g
    rw [hd] at hnd
    subst h
    refine ⟨hnd.sublist (List.Sublist.map _ List.filter_sublist), ?_⟩
    intro n
    unfold slot
    rw [hd]
    simp only [List.mem_map, List.mem_filter]
    constructor
    · rintro ⟨⟨n', e⟩, ⟨he, ht⟩, rfl⟩
      rw [get_of_mem hnd he]
      simp only [] at ht ⊢
      have hc := (hf.complete g n' e (by rw [hd]; exact get_of_mem hnd he)).1 ht
      obtain ⟨v, hv⟩ := Option.isSome_iff_exists.1 hc
      exact ⟨v, by simp only [ht, hv, if_true]⟩
    · rintro ⟨v, hv⟩
      cases hn : d.get n with
      | none => rw [hn] at hv; cases hv
      | some e =>
        rw [hn] at hv
        refine ⟨(n, e), ⟨mem_of_get hn, ?_⟩, rfl⟩
        simp only [] at hv ⊢
        by_contra ht
        rw [if_neg ht] at hv
        cases hv

/-- C37: `spectra(g)` lists the names under which objects are stored in `g`, each once; `get_pspec(g)` without a name returns as
many objects. -/
theorem C37_spectra (write : V → Bool) (ops : List (Op V)) (g : String) (l : List String)
    (h : spectra (run write .rw false newFile ops) g = .ok l) :
    l.Nodup ∧ (∀ n, n ∈ l ↔ ∃ v, getOne (run write .rw false newFile ops) g n = .ok v) ∧
    ∃ vs, getAll (run write .rw false newFile ops) g = .ok vs ∧
      List.Forall₂ (fun n v => getOne (run write .rw false newFile ops) g n = .ok v) l vs := by
  obtain ⟨hwf, _⟩ := run_spec write ops (wf_newFile (V := V))
  obtain ⟨h1, h2⟩ := mem_spectra hwf g l h
  set f := run write .rw false newFile ops
  refine ⟨h1, fun n => (h2 n).trans (by simp only [(getOne_slot g n).1]), ?_⟩
  unfold spectra at h
  unfold getAll
  cases hg : f.get g with
  | none => rw [hg] at h; cases h
  | some d =>
    rw [hg] at h
    simp only [Except.ok.injEq] at h
    refine ⟨_, rfl, ?_⟩
    have hd : groupOf f g = d := by unfold groupOf; rw [hg]; rfl
    have hnd := hwf.names g
    rw [hd] at hnd
    rw [← h]
    have hall : ∀ x ∈ d.filter (fun e => e.2.tagged), ∃ v, x.2.obj = some v ∧ getOne f g x.1 = .ok v := by
      intro x hx
      obtain ⟨hx1, hx2⟩ := List.mem_filter.1 hx
      have hget := get_of_mem hnd hx1
      have hc := (hwf.complete g x.1 x.2 (by rw [hd]; exact hget)).1 hx2
      obtain ⟨v, hv⟩ := Option.isSome_iff_exists.1 hc
      refine ⟨v, hv, ?_⟩
      unfold getOne
      rw [hg]
      simp only [hget, hv]
      rw [if_pos hx2]
    revert hall
    generalize d.filter (fun e => e.2.tagged) = L
    intro hall
    induction L with
    | nil => exact .nil
    | cons x L ih =>
      obtain ⟨v, hv, hgv⟩ := hall x List.mem_cons_self
      rw [List.map_cons, List.filterMap_cons, hv]
      exact .cons hgv (ih (fun y hy => hall y (List.mem_cons_of_mem _ hy)))

/-- Calls that store at least one object, in a group not named "header", and whose objects can all be written. -/
def Good (write : V → Bool) (op : Op V) : Prop :=
  op.group ≠ "header" ∧ (∀ x ∈ uvps op.items, write x.2 = true)

theorem writeAll_keeps (write : V → Bool) (g : String) (ow : Bool) (items : List (String × V))
    (hw : ∀ x ∈ items, write x.2 = true) : ∀ (m : Store V), (∀ g n, m g n ≠ .broken) →
    (∀ g' n', Store.writeAll write g ow m items g' n' ≠ .broken) ∧
    (∀ g' n v, m g' n = .stored v → ∃ w, Store.writeAll write g ow m items g' n = .stored w) ∧
    (items ≠ [] → ∃ n v, Store.writeAll write g ow m items g n = .stored v) ∧
    (∀ g' n, g' ≠ g → Store.writeAll write g ow m items g' n = m g' n) := by
  induction items with
  | nil =>
    intro m hb
    exact ⟨hb, fun g' n v h => ⟨v, h⟩, fun h => absurd rfl h, fun _ _ _ => rfl⟩
  | cons x items ih =>
    intro m hb
    obtain ⟨n, v⟩ := x
    have hv : write v = true := hw (n, v) List.mem_cons_self
    have hstep : ((m.write write g n v ow).1 = m.put g n (.stored v) ∧ (m.write write g n v ow).2 = true) ∨
        ((m.write write g n v ow).1 = m ∧ (m.write write g n v ow).2 = false ∧ ∃ u, m g n = .stored u) := by
      unfold Store.write
      by_cases hc : ((m g n).free || ow) = true
      · left; rw [if_pos hc, hv]; exact ⟨rfl, rfl⟩
      · right
        rw [if_neg hc]
        refine ⟨rfl, rfl, ?_⟩
        cases hm : m g n with
        | absent => rw [hm] at hc; exact absurd rfl hc
        | broken => exact absurd hm (hb g n)
        | stored u => exact ⟨u, rfl⟩
    have hputb : ∀ g' n', (m.put g n (.stored v)) g' n' ≠ .broken := by
      intro g' n'
      unfold Store.put
      split
      · intro h; cases h
      · exact hb g' n'
    unfold Store.writeAll
    rcases hstep with ⟨e1, e2⟩ | ⟨e1, e2, u, hu⟩
    · rw [e2, if_pos rfl, e1]
      obtain ⟨i1, i2, i3, i4⟩ := ih (fun x hx => hw x (List.mem_cons_of_mem _ hx)) (m.put g n (.stored v)) hputb
      refine ⟨i1, ?_, ?_, ?_⟩
      · intro g' n' w hm
        by_cases hc : g' = g ∧ n' = n
        · exact i2 g' n' v (by unfold Store.put; rw [if_pos hc])
        · exact i2 g' n' w (by unfold Store.put; rw [if_neg hc]; exact hm)
      · intro _
        obtain ⟨w, hw'⟩ := i2 g n v (by unfold Store.put; rw [if_pos ⟨rfl, rfl⟩])
        exact ⟨n, w, hw'⟩
      · intro g' n' hg
        rw [i4 g' n' hg]
        unfold Store.put
        rw [if_neg (fun h => hg h.1)]
    · rw [e2, if_neg (by simp), e1]
      exact ⟨hb, fun g' n v h => ⟨v, h⟩, fun _ => ⟨n, u, hu⟩, fun _ _ _ => rfl⟩

/-- C37: if all objects could be written and no group is called "header", `groups()` lists exactly the groups that hold a
spectrum, each once. -/
theorem C37_groups (write : V → Bool) (ops : List (Op V)) (hops : ∀ op ∈ ops, Good write op) :
    (groups (run write .rw false newFile ops)).Nodup ∧
    ∀ g, g ∈ groups (run write .rw false newFile ops) ↔ ∃ n v, getOne (run write .rw false newFile ops) g n = .ok v := by
  have main : ∀ (ops : List (Op V)) (f : File V), WF f → (∀ op ∈ ops, Good write op) → "header" ∈ f.keys →
      (∀ g n, slot f g n ≠ .broken) → (∀ n, slot f "header" n = .absent) →
      (∀ g, g ≠ "header" → (g ∈ f.keys ↔ ∃ n v, slot f g n = .stored v)) →
      WF (run write .rw false f ops) ∧ "header" ∈ (run write .rw false f ops).keys ∧
      (∀ n, slot (run write .rw false f ops) "header" n = .absent) ∧
      (∀ g, g ≠ "header" → (g ∈ (run write .rw false f ops).keys ↔ ∃ n v, slot (run write .rw false f ops) g n = .stored v)) := by
    intro ops
    induction ops with
    | nil => intro f hf _ hh _ h1 h2; exact ⟨hf, hh, h1, h2⟩
    | cons op ops ih =>
      intro f hf hops hh hb h1 h2
      obtain ⟨s1, s2, s3, s4⟩ := step_spec write hf op
      obtain ⟨hgne, hwr⟩ := hops op List.mem_cons_self
      obtain ⟨w1, w2, w3, w4⟩ := writeAll_keeps write op.group op.overwrite (uvps op.items) hwr (slot f) hb
      show WF (run write .rw false (step write .rw false f op) ops) ∧ _
      apply ih _ s1 (fun o ho => hops o (List.mem_cons_of_mem _ ho)) (s4 _ hh)
      · rw [s2]; exact w1
      · intro n; rw [s2, w4 _ _ (Ne.symm hgne)]; exact h1 n
      · intro g hg
        rw [s2]
        constructor
        · intro hm
          rcases s3 g hm with ⟨rfl, hne⟩ | hold
          · exact w3 hne
          · obtain ⟨n, v, hv⟩ := (h2 g hg).1 hold
            obtain ⟨w, hw⟩ := w2 g n v hv
            exact ⟨n, w, hw⟩
        · rintro ⟨n, v, hv⟩
          by_cases hgo : g = op.group
          · subst hgo
            by_contra hnot
            have : uvps op.items = [] ∨ uvps op.items ≠ [] := by tauto
            rcases this with h0 | h0
            · rw [h0] at hv
              exact hnot (s4 _ ((h2 _ hg).2 ⟨n, v, hv⟩))
            · apply hnot
              have hslot : slot (step write .rw false f op) op.group n = .stored v := by rw [s2]; exact hv
              by_contra hk
              have : groupOf (step write .rw false f op) op.group = [] := by
                unfold groupOf
                rw [(get_eq_none_iff _ _).2 hk]; rfl
              unfold slot at hslot
              rw [this] at hslot
              cases hslot
          · rw [w4 g n hgo] at hv
            exact s4 g ((h2 g hg).2 ⟨n, v, hv⟩)
  obtain ⟨m1, m2, m3, m4⟩ := main ops newFile wf_newFile hops (by simp [newFile, keys])
    (by intro g n; rw [slot_newFile]; intro h; cases h) (by intro n; rw [slot_newFile])
    (by intro g hg; rw [slot_newFile]; simp [newFile, keys, hg])
  set f := run write .rw false newFile ops
  unfold groups
  refine ⟨m1.groups.erase _, ?_⟩
  intro g
  rw [m1.groups.mem_erase_iff]
  simp only [(getOne_slot g _).1]
  constructor
  · rintro ⟨h1, h2⟩; exact (m4 g h1).1 h2
  · rintro ⟨n, v, hv⟩
    have hne : g ≠ "header" := by rintro rfl; rw [m3 n] at hv; cases hv
    exact ⟨hne, (m4 g hne).2 ⟨n, v, hv⟩⟩

/-- C37 finding: a group named "header" is accepted by `set_pspec` and readable, but `groups()` does not list it. -/
theorem C37_finding_header_group (write : V → Bool) (v : V) (hv : write v = true) :
    getOne (run write .rw false newFile [.set "header" "a" (.uvp v) false]) "header" "a" = .ok v ∧
    groups (run write .rw false newFile [.set "header" "a" (.uvp v) false]) = [] := by
  have : run write .rw false newFile [.set "header" "a" (.uvp v) false] = [("header", [("a", ⟨true, some v⟩)])] := by
    simp [run, step, setOne, newFile, groupOf, Dict.get, Dict.has, Dict.set, store, hv]
  rw [this]
  exact ⟨rfl, rfl⟩

/-! ### C38 -/

/-- C38: without `overwrite`, storing under a name that is in use raises and changes nothing at all (whatever the file). -/
theorem C38_no_overwrite (write : V → Bool) (f : File V) (g n : String) (v : V) (h : slot f g n ≠ .absent) :
    setOne write .rw false f g n (.uvp v) false = (f, .error .attribute) := by
  unfold setOne
  rw [if_neg (by simp)]
  simp only [Bool.false_and, Bool.false_eq_true, if_false]
  rw [if_pos]
  rw [has_iff]
  intro h0
  exact h ((absent_iff f g n).2 h0)

/-- C38: in mode 'r' every history of calls leaves the file as it is, and every call raises OSError. -/
theorem C38_read_only (write : V → Bool) (swmr : Bool) (f : File V) :
    (∀ ops, run write .r swmr f ops = f) ∧
    (∀ g n a ow, (setOne write .r swmr f g n a ow).2 = .error .os) ∧
    (∀ g items ow, (setMany write .r swmr g ow f items).2 = .error .os) := by
  have hm : ∀ g items ow, setMany write .r swmr g ow f items = (f, .error .os) := by
    intro g items ow
    cases items with
    | nil => rfl
    | cons x items => obtain ⟨n, a⟩ := x; rfl
  refine ⟨?_, fun g n a ow => rfl, fun g items ow => by rw [hm]⟩
  intro ops
  induction ops with
  | nil => rfl
  | cons op ops ih =>
    have : step write .r swmr f op = f := by
      cases op with
      | set g n a ow => rfl
      | setList g items ow =>
        show (setMany write .r swmr g ow f items).1 = f
        rw [hm]
    show run write .r swmr (step write .r swmr f op) ops = f
    rw [this]; exact ih

/-- C38: with SWMR no new name is ever created: storing under a name that the group does not hold as a power spectrum is refused, and the file stays as it is. -/
theorem C38_swmr_no_new (write : V → Bool) (f : File V) (g n : String) (a : Arg V) (ow : Bool)
    (h : ∀ d e, f.get g = some d → (n, e) ∈ d → e.tagged = false) :
    setOne write .rw true f g n a ow = (f, .error .value) := by
  have : inTree f g n = false := by
    unfold inTree spectra
    cases hd : f.get g with
    | none => simp
    | some d =>
      simp only [Bool.and_eq_false_iff]
      right
      rw [List.contains_eq_any_beq, List.any_eq_false]
      intro x hx
      obtain ⟨e, he, rfl⟩ := List.mem_map.1 hx
      rw [List.mem_filter] at he
      intro hc
      have hn : n = e.1 := by simpa using hc
      have := h d e.2 hd (by rw [hn]; exact he.1)
      rw [this] at he
      exact absurd he.2 (by simp)
  unfold setOne
  rw [if_neg (by simp), if_pos (by simp [this])]

/-- C38: with SWMR an existing power spectrum may be replaced: a writable object is stored, if overwriting is allowed. -/
theorem C38_swmr_overwrites (write : V → Bool) (f : File V) (g n : String) (v : V) (hg : g ≠ "header") (d : Dict String (Entry V)) (e : Entry V) (hd : f.get g = some d)
    (he : (n, e) ∈ d) (ht : e.tagged = true) (hw : write v = true) :
    ∃ f' d', setOne write .rw true f g n (.uvp v) true = (f', .ok ()) ∧ f'.get g = some d' ∧ d'.get n = some ⟨true, some v⟩ := by
  have htree : inTree f g n = true := by
    unfold inTree spectra
    rw [hd, Bool.and_eq_true]
    constructor
    · unfold groups
      rw [List.contains_iff_mem]
      refine (List.mem_erase_of_ne hg).2 ?_
      by_contra hc
      rw [(Dict.get_eq_none_iff f g).2 hc] at hd
      cases hd
    · simp only
      rw [List.contains_iff_mem]
      exact List.mem_map.2 ⟨(n, e), List.mem_filter.2 ⟨he, ht⟩, rfl⟩
  have hhas : (groupOf f g).has n = true := by
    unfold groupOf; rw [hd]
    rw [has_iff]
    intro hc
    exact (Dict.get_eq_none_iff _ _).1 hc (List.mem_map.2 ⟨(n, e), he, rfl⟩)
  unfold setOne store
  rw [if_neg (by simp), if_neg (by simp [htree])]
  simp only [hhas, if_true, hw]
  refine ⟨_, (groupOf (Dict.set f g ((groupOf f g).del n)) g).set n ⟨true, some v⟩, rfl, ?_, ?_⟩
  · rw [Dict.get_set, if_pos rfl]
  · rw [Dict.get_set, if_pos rfl]

/-! ### C39 -/

/-- C39 (partial: failures other than the write itself): a call that raises because the file is read-only, the name exists, the
argument is not a UVPSpec object or SWMR forbids it leaves the file unchanged. Missing: a failure of the write itself, which loses the old spectrum. -/
theorem C39_other_failures_harmless_partial (write : V → Bool) (mode : Mode) (swmr : Bool) (f : File V) (g n : String) (a : Arg V)
    (ow : Bool) (e : CErr) (h : (setOne write mode swmr f g n a ow).2 = .error e) (he : e ≠ .write) :
    (setOne write mode swmr f g n a ow).1 = f := by
  unfold setOne at h ⊢
  split at h
  · rename_i hc; rw [if_pos hc]
  · rename_i hc; rw [if_neg hc]
    split at h
    · rename_i hc2; rw [if_pos hc2]
    · rename_i hc2; rw [if_neg hc2]
      cases a with
      | other => rfl
      | uvp v =>
        simp only [] at h ⊢
        have hst : ∀ f' : File V, (store write f' g n v).2 ≠ .error e := by
          intro f' hs
          unfold store at hs
          split at hs
          · cases hs
          · simp only [Except.error.injEq] at hs; exact he hs.symm
        split at h
        · split at h
          · exact absurd h (hst _)
          · rename_i h1 h2; rw [if_pos h1, if_neg h2]
        · exact absurd h (hst _)

/-- C39 finding: whenever an overwrite fails while writing (for example because the object's self-check raises), the spectrum
stored before is gone, for every file, name and object: reading it raises TypeError, and it is no longer listed. -/
theorem C39_finding_overwrite_destroys (write : V → Bool) (f : File V) (hf : WF f) (g n : String) (old v : V)
    (hold : getOne f g n = .ok old) (hv : write v = false) :
    (setOne write .rw false f g n (.uvp v) true).2 = .error .write ∧
    getOne (setOne write .rw false f g n (.uvp v) true).1 g n = .error .type ∧
    ∀ l, spectra (setOne write .rw false f g n (.uvp v) true).1 g = .ok l → n ∉ l := by
  obtain ⟨h1, h2, h3, _, _⟩ := setOne_spec write hf g n v true
  have hs := ((getOne_slot g n).1 old).1 hold
  have hput : ((slot f).write write g n v true).1 = (slot f).put g n .broken := by
    unfold Store.write
    rw [Bool.or_true, if_pos rfl, hv]
    rfl
  rw [hput] at h2
  refine ⟨?_, ?_, ?_⟩
  · unfold setOne
    rw [if_neg (by simp)]
    simp only [Bool.false_and, Bool.false_eq_true, if_false, if_true]
    rw [if_pos (by rw [has_iff]; intro h0; rw [(absent_iff f g n).2 h0] at hs; cases hs)]
    unfold store
    rw [if_neg (by simp [hv])]
  · rw [(getOne_slot g n).2.2, h2]
    simp [Store.put]
  · intro l hl hn
    obtain ⟨v', hv'⟩ := ((mem_spectra h1 g l hl).2 n).1 hn
    rw [h2] at hv'
    simp [Store.put] at hv'

/-- C39 counterexample: objects 0 (sound) and 1 (fails its self-check). -/
theorem C39_counterexample :
    getOne (run (fun v : Nat => v == 0) .rw false newFile [.set "g" "a" (.uvp 0) false]) "g" "a" = .ok 0 ∧
    getOne (run (fun v : Nat => v == 0) .rw false newFile [.set "g" "a" (.uvp 0) false, .set "g" "a" (.uvp 1) true]) "g" "a" = .error .type := by
  constructor <;> rfl

/-- C39 finding: a failed write also occupies the name: storing a sound object there later raises AttributeError unless
`overwrite` is given. -/
theorem C39_finding_failed_write_occupies_name :
    (setOne (fun v : Nat => v == 0) .rw false (run (fun v : Nat => v == 0) .rw false newFile [.set "g" "a" (.uvp 1) false]) "g" "a"
      (.uvp 0) false).2 = .error .attribute := rfl

/-- Non-vacuity: a history with two groups, an overwrite and a refused write. -/
example : getOne (run (fun _ : Nat => true) .rw false newFile
      [.set "g" "a" (.uvp 1) false, .setList "h" [("x", .uvp 2), ("y", .uvp 3)] false, .set "g" "a" (.uvp 4) true, .set "h" "x" (.uvp 5) false])
      "g" "a" = .ok 4 ∧
    getOne (run (fun _ : Nat => true) .rw false newFile
      [.set "g" "a" (.uvp 1) false, .setList "h" [("x", .uvp 2), ("y", .uvp 3)] false, .set "g" "a" (.uvp 4) true, .set "h" "x" (.uvp 5) false])
      "h" "x" = .ok 2 := by constructor <;> rfl

end HeraPspec.Container
