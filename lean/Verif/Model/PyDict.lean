/-!
Python dictionaries as association lists in insertion order.
-/
namespace HeraPspec

/-- A Python `dict`: association list in insertion order. Python language semantics, e.g. of the dictionaries of uvpspec.py L1100-1146. -/
abbrev Dict (K V : Type) := List (K × V)

namespace Dict
variable {K V : Type} [DecidableEq K]

/-- `d.get(k)`. Python language semantics, e.g. uvpspec.py L1101. -/
def get (d : Dict K V) (k : K) : Option V := (d.find? (fun e => e.1 = k)).map (·.2)

/-- `k in d`. Python language semantics, e.g. uvpspec.py L1138. -/
def has (d : Dict K V) (k : K) : Bool := d.any (fun e => e.1 = k)

/-- `d[k] = v`: replaces the value in place if the key exists, otherwise appends. Python language semantics, e.g. uvpspec.py L1139. -/
def set : Dict K V → K → V → Dict K V
  | [], k, v => [(k, v)]
  | (k', v') :: d, k, v => if k' = k then (k, v) :: d else (k', v') :: set d k v

/-- `del d[k]` (all entries with that key; there is at most one in a well-formed dictionary). Python language semantics, e.g. container.py L313-318. -/
def del (d : Dict K V) (k : K) : Dict K V := d.filter (fun e => decide (e.1 ≠ k))

/-- The list of keys, in insertion order. Python language semantics, e.g. uvpspec.py L1098. -/
def keys (d : Dict K V) : List K := d.map (·.1)

/-- Python dictionary equality `d == e`: the same keys with the same values, in any order. Python language semantics, e.g. uvpspec_utils.py L144-225. -/
def beq [DecidableEq V] (d e : Dict K V) : Bool :=
  d.all (fun x => get e x.1 = get d x.1) && e.all (fun x => get e x.1 = get d x.1)

@[simp] theorem get_nil (k : K) : get ([] : Dict K V) k = none := rfl

theorem get_cons (e : K × V) (d : Dict K V) (k : K) :
    get (e :: d) k = if e.1 = k then some e.2 else get d k := by
  unfold get
  by_cases h : e.1 = k <;> simp [h]

theorem get_set (d : Dict K V) (k : K) (v : V) (x : K) :
    get (set d k v) x = if k = x then some v else get d x := by
  induction d with
  | nil => simp [set, get_cons]
  | cons e d ih =>
    obtain ⟨k', v'⟩ := e
    unfold set
    by_cases h : k' = k
    · subst h; simp only [if_true, get_cons]; split <;> simp_all
    · simp only [h, if_false, get_cons, ih]
      by_cases h2 : k' = x
      · subst h2; simp [Ne.symm h]
      · simp [h2]

theorem get_eq_none_iff (d : Dict K V) (k : K) : get d k = none ↔ k ∉ d.keys := by
  induction d with
  | nil => simp [keys]
  | cons e d ih =>
    simp only [get_cons, keys, List.map_cons, List.mem_cons, not_or]
    by_cases h : e.1 = k
    · simp [h]
    · simp only [h, if_false, ih, keys]
      constructor
      · intro h2; exact ⟨fun h3 => h h3.symm, h2⟩
      · exact fun h2 => h2.2

theorem get_of_mem {d : Dict K V} (hn : d.keys.Nodup) {k : K} {v : V} (h : (k, v) ∈ d) : get d k = some v := by
  induction d with
  | nil => simp at h
  | cons e d ih =>
    simp only [keys, List.map_cons, List.nodup_cons] at hn
    rw [get_cons]
    rcases List.mem_cons.1 h with h | h
    · subst h; simp
    · by_cases h2 : e.1 = k
      · exfalso; apply hn.1; rw [h2]; exact List.mem_map.2 ⟨_, h, rfl⟩
      · simp only [h2, if_false]; exact ih hn.2 h

theorem mem_of_get {d : Dict K V} {k : K} {v : V} (h : get d k = some v) : (k, v) ∈ d := by
  induction d with
  | nil => simp at h
  | cons e d ih =>
    rw [get_cons] at h
    by_cases h2 : e.1 = k
    · simp only [h2, if_true, Option.some.injEq] at h
      exact mem_of_get.left_comm_mem h2 h
    · simp only [h2, if_false] at h; exact List.mem_cons_of_mem _ (ih h)
where
  left_comm_mem {e : K × V} {d : Dict K V} {k : K} {v : V} (h1 : e.1 = k) (h2 : e.2 = v) : (k, v) ∈ e :: d := by
    rw [← h1, ← h2]; exact List.mem_cons_self

theorem get_isSome_iff (d : Dict K V) (k : K) : (get d k).isSome ↔ k ∈ d.keys := by
  have := get_eq_none_iff d k
  cases h : get d k <;> simp_all

theorem beq_iff [DecidableEq V] (d e : Dict K V) : beq d e = true ↔ ∀ k, get d k = get e k := by
  unfold beq
  rw [Bool.and_eq_true, List.all_eq_true, List.all_eq_true]
  constructor
  · rintro ⟨h1, h2⟩ k
    cases hd : get d k with
    | some v => have := h1 _ (mem_of_get hd); simp at this; rw [this, hd]
    | none =>
      cases he : get e k with
      | some v => have := h2 _ (mem_of_get he); simp at this; rw [he, hd] at this; cases this
      | none => rfl
  · intro h
    constructor <;> (intro x _; simp [h])

theorem keys_set_mem (d : Dict K V) (k : K) (v : V) (x : K) : x ∈ (set d k v).keys ↔ x = k ∨ x ∈ d.keys := by
  rw [← get_isSome_iff, get_set, ← get_isSome_iff]
  by_cases h : k = x
  · simp [h]
  · simp [h, Ne.symm h]

theorem keys_set_nodup (d : Dict K V) (k : K) (v : V) (h : d.keys.Nodup) : (set d k v).keys.Nodup := by
  induction d with
  | nil => simp [set, keys]
  | cons e d ih =>
    obtain ⟨k', v'⟩ := e
    simp only [keys, List.map_cons, List.nodup_cons] at h
    unfold set
    by_cases hk : k' = k
    · subst hk; simp only [if_true, keys, List.map_cons, List.nodup_cons]; exact h
    · simp only [hk, if_false]
      show (k' :: (set d k v).keys).Nodup
      rw [List.nodup_cons, keys_set_mem]
      refine ⟨?_, ih h.2⟩
      rintro (h1 | h1)
      · exact hk h1
      · exact h.1 h1

theorem get_del (d : Dict K V) (k x : K) : get (del d k) x = if x = k then none else get d x := by
  induction d with
  | nil => simp [del]
  | cons e d ih =>
    unfold del at ih ⊢
    by_cases h : e.1 = k
    · rw [List.filter_cons_of_neg (by simp [h]), ih]
      by_cases h2 : x = k
      · simp [h2]
      · rw [get_cons, h]; simp [h2, Ne.symm h2]
    · rw [List.filter_cons_of_pos (by simp [h]), get_cons, ih, get_cons]
      by_cases h2 : x = k
      · subst h2; simp [h]
      · simp [h2]

end Dict
end HeraPspec
