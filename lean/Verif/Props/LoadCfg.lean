import Verif.Model.LoadCfg
import Mathlib.Tactic.Push
import Mathlib.Tactic.SplitIfs
import Mathlib.Data.List.Basic

/-! C118: `load_config`. -/
namespace HeraPspec.LoadCfg

/-! ### Specification -/

/-- The value found by following keys through nested dictionaries. -/
def follow : Y → List (List Char) → Option Y
  | y, [] => some y
  | .dict d, k :: ks => (Dict.get d k).bind (fun v => follow v ks)
  | .atom _, _ :: _ => none
  | .list _, _ :: _ => none
  | .tuple _, _ :: _ => none

/-- What a configuration value means: the word `None` is no value, a list of lists is a list of tuples, other scalars and lists are
themselves. -/
inductive Denotes : Y → Y → Prop
  | none : Denotes (.atom (.str "None".toList)) (.atom .null)
  | scalar (a : Atom) : a ≠ .str "None".toList → Denotes (.atom a) (.atom a)
  | tuples (ls : List (List Y)) : Denotes (.list (ls.map .list)) (.list (ls.map .tuple))
  | list (l : List Y) (y : Y) : y ∈ l → (∀ x, y ≠ .list x) → Denotes (.list l) (.list l)

/-! ### Lemmas -/

theorem entry_denotes (y : Y) (hd : ∀ d, y ≠ .dict d) (ht : ∀ l, y ≠ .tuple l) : Denotes y (entry y) := by
  cases y with
  | atom a =>
    cases a with
    | str s =>
      unfold entry
      split_ifs with h
      · subst h; exact .none
      · exact .scalar _ (by simpa using h)
    | null => exact .scalar _ (by simp)
    | bool b => exact .scalar _ (by simp)
    | num n => exact .scalar _ (by simp)
  | tuple l => exact absurd rfl (ht l)
  | dict d => exact absurd rfl (hd d)
  | list l =>
    unfold entry
    split_ifs with h
    · have : ∃ ls : List (List Y), l = ls.map .list := by
        clear hd ht
        induction l with
        | nil => exact ⟨[], rfl⟩
        | cons a l ih =>
          rw [List.all_cons, Bool.and_eq_true] at h
          obtain ⟨ls, rfl⟩ := ih h.2
          cases a with
          | list x => exact ⟨x :: ls, rfl⟩
          | atom a => simp [isList] at h
          | tuple a => simp [isList] at h
          | dict a => simp [isList] at h
      obtain ⟨ls, rfl⟩ := this
      rw [List.map_map]
      exact .tuples ls
    · rw [List.all_eq_true] at h
      push Not at h
      obtain ⟨y, hy, hn⟩ := h
      exact .list l y hy (fun x hx => hn (by rw [hx]; rfl))

theorem get_replaceD (d : List (List Char × Y)) (k : List Char) : Dict.get (replaceD d) k = (Dict.get d k).map entry := by
  induction d with
  | nil => simp [replaceD]
  | cons e d ih =>
    obtain ⟨k', v⟩ := e
    rw [replaceD, replaceE, Dict.get_cons, Dict.get_cons, ih]
    split_ifs <;> rfl

theorem follow_entry (ks : List (List Char)) : ∀ y, follow (entry y) ks = (follow y ks).map entry := by
  induction ks with
  | nil => intro y; cases y <;> rfl
  | cons k ks ih =>
    intro y
    cases y with
    | dict d =>
      rw [entry, follow, follow, get_replaceD]
      cases Dict.get d k with
      | none => rfl
      | some v => simp only [Option.map_some, Option.bind_some]; exact ih v
    | atom a =>
      cases a with
      | str s => unfold entry; split_ifs <;> rfl
      | null => rfl
      | bool b => rfl
      | num n => rfl
    | tuple l => rfl
    | list l => unfold entry; split_ifs <;> rfl

mutual
theorem entry_idem : ∀ y, entry (entry y) = entry y
  | .atom (.str s) => by
    rw [entry]
    split_ifs with h
    · rfl
    · rw [entry, if_neg h]
  | .atom .null => rfl
  | .atom (.bool _) => rfl
  | .atom (.num _) => rfl
  | .tuple _ => rfl
  | .list l => by
    rw [entry]
    split_ifs with h
    · rw [entry]
      split_ifs with h2
      · congr 1
        rw [List.map_map]
        apply List.map_congr_left
        intro y _
        cases y <;> rfl
      · rfl
    · rw [entry, if_neg h]
  | .dict d => by rw [entry, entry, replaceD_idem d]
theorem replaceD_idem : ∀ d, replaceD (replaceD d) = replaceD d
  | [] => rfl
  | e :: d => by rw [replaceD, replaceD, replaceE_idem e, replaceD_idem d]
theorem replaceE_idem : ∀ e, replaceE (replaceE e) = replaceE e
  | (k, v) => by rw [replaceE, replaceE, entry_idem v]
end

theorem keys_replaceD (d : List (List Char × Y)) : (replaceD d).map (·.1) = d.map (·.1) := by
  induction d with
  | nil => rfl
  | cons e d ih => obtain ⟨k, v⟩ := e; rw [replaceD, replaceE, List.map_cons, List.map_cons, ih]

theorem loadConfig_follow (d : List (List Char × Y)) (k : List Char) (ks : List (List Char)) :
    follow (loadConfig (.dict d)) (k :: ks) = (follow (.dict d) (k :: ks)).map entry := by
  rw [loadConfig]
  exact follow_entry (k :: ks) (.dict d)

/-! ### Theorems -/

/-- **C118** (entries of dictionaries) Wherever following keys through nested dictionaries leads to a scalar or a list in the file, it leads
in the configuration to what that value means: `None` for the word `None`, a list of tuples for a list of lists (also when empty), the
value itself otherwise. Where it leads to a dictionary, it leads to a dictionary with the same keys in the same order; where it leads
nowhere, it leads nowhere. Missing: values inside lists, which are not touched (see `C118_finding_inside_lists`). -/
theorem C118_entries_partial (d : List (List Char × Y)) (k : List Char) (ks : List (List Char)) :
    (∀ y, follow (.dict d) (k :: ks) = some y → (∀ e, y ≠ .dict e) → (∀ l, y ≠ .tuple l) →
      ∃ z, follow (loadConfig (.dict d)) (k :: ks) = some z ∧ Denotes y z) ∧
    (∀ e, follow (.dict d) (k :: ks) = some (.dict e) → ∃ e', follow (loadConfig (.dict d)) (k :: ks) = some (.dict e') ∧ e'.map (·.1) = e.map (·.1)) ∧
    (follow (.dict d) (k :: ks) = none → follow (loadConfig (.dict d)) (k :: ks) = none) := by
  rw [loadConfig_follow]
  refine ⟨fun y hy h1 h2 => ?_, fun e he => ?_, fun h => ?_⟩
  · rw [hy]; exact ⟨entry y, rfl, entry_denotes y h1 h2⟩
  · rw [he]; exact ⟨replaceD e, by rw [Option.map_some, entry], keys_replaceD e⟩
  · rw [h]; rfl

/-- **C118** The meaning of a value is unique, so the configuration is determined by the file. -/
theorem C118_unique {y z z' : Y} (h : Denotes y z) (h' : Denotes y z') : z = z' := by
  have hmap : ∀ ls : List (List Y), ∀ y ∈ ls.map Y.list, ∃ x, y = .list x := by
    intro ls y hy
    obtain ⟨x, -, rfl⟩ := List.mem_map.1 hy
    exact ⟨x, rfl⟩
  cases h with
  | none =>
    cases h' with
    | none => rfl
    | scalar _ hn => exact absurd rfl hn
  | scalar a hn =>
    cases h' with
    | none => exact absurd rfl hn
    | scalar _ _ => rfl
  | tuples ls =>
    generalize hl : Y.list (ls.map Y.list) = w at h'
    cases h' with
    | none => simp at hl
    | scalar _ _ => simp at hl
    | tuples ls' =>
      simp only [Y.list.injEq] at hl
      have : ls = ls' := List.map_injective_iff.2 (fun a b hab => by simpa using hab) hl
      rw [this]
    | list l y hy hn =>
      simp only [Y.list.injEq] at hl
      obtain ⟨x, hx⟩ := hmap ls y (hl ▸ hy)
      exact absurd hx (hn x)
  | list l y hy hn =>
    generalize hl : Y.list l = w at h'
    cases h' with
    | none => simp at hl
    | scalar _ _ => simp at hl
    | tuples ls' =>
      simp only [Y.list.injEq] at hl
      obtain ⟨x, hx⟩ := hmap ls' y (hl ▸ hy)
      exact absurd hx (hn x)
    | list l' _ _ _ => rfl

/-- **C118** Applying the replacement again changes nothing, so a dictionary that appears several times through YAML aliases is converted
as if it appeared once. -/
theorem C118_idempotent (y : Y) : loadConfig (loadConfig y) = loadConfig y := by
  cases y with
  | dict d => rw [loadConfig, loadConfig, replaceD_idem]
  | atom a => rfl
  | list l => rfl
  | tuple l => rfl

/-- **C118** finding: contrary to the documentation ("all entries of 'None'", "all lists of lists"), nothing inside a list is converted:
the word `None` in a list, entries of dictionaries in a list, lists of lists within a list of lists, nor a file that is itself a list. -/
theorem C118_finding_inside_lists :
    (∀ l : List Y, (∃ y ∈ l, ∀ x, y ≠ .list x) → ∀ k, loadConfig (.dict [(k, .list l)]) = .dict [(k, .list l)]) ∧
    (∀ (l : List Y) k, loadConfig (.dict [(k, .list [.list [.list l]])]) = .dict [(k, .list [.tuple [.list l]])]) ∧
    (∀ l : List Y, loadConfig (.list l) = .list l) := by
  refine ⟨fun l hl k => ?_, fun l k => ?_, fun _ => rfl⟩
  · obtain ⟨y, hy, hn⟩ := hl
    rw [loadConfig, replaceD, replaceD, replaceE, entry, if_neg]
    intro h
    rw [List.all_eq_true] at h
    have := h y hy
    cases y with
    | list x => exact hn x rfl
    | atom a => simp [isList] at this
    | tuple a => simp [isList] at this
    | dict a => simp [isList] at this
  · rw [loadConfig, replaceD, replaceD, replaceE, entry, if_pos (by simp [isList])]; rfl

/-! ### Concrete case -/

/-- `{data: {pairs: [[0, 1], [1, 2]], beam: None, n: 3}}`. -/
def exCfg : List (List Char × Y) := [("data".toList, .dict [
  ("pairs".toList, .list [.list [.atom (.num 0), .atom (.num 1)], .list [.atom (.num 1), .atom (.num 2)]]),
  ("beam".toList, .atom (.str "None".toList)), ("n".toList, .atom (.num 3))])]

example : loadConfig (.dict exCfg) = .dict [("data".toList, .dict [
  ("pairs".toList, .list [.tuple [.atom (.num 0), .atom (.num 1)], .tuple [.atom (.num 1), .atom (.num 2)]]),
  ("beam".toList, .atom .null), ("n".toList, .atom (.num 3))])] := by
  simp [loadConfig, exCfg, replaceD, replaceE, entry, isList, toTuple]

example : ∃ z, follow (loadConfig (.dict exCfg)) ["data".toList, "beam".toList] = some z ∧ Denotes (.atom (.str "None".toList)) z :=
  (C118_entries_partial exCfg "data".toList ["beam".toList]).1 _ (by simp [exCfg, follow, Dict.get]) (by simp) (by simp)

end HeraPspec.LoadCfg
