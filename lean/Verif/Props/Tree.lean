import Verif.Model.Tree
import Verif.Props.Container

/-!
C164: the tree listing of a container.
-/
namespace HeraPspec.Tree
open Container Dict

variable {V : Type}

theorem fill_spec (f : File V) (gs : List String) : ∀ (t : Dict String (List String)),
    (∀ g ∈ gs, ∃ l, spectra f g = .ok l) → gs.Nodup →
    ∃ t', fill f gs t = .ok t' ∧ ∀ g l, t'.get g = some l ↔ (g ∈ gs ∧ spectra f g = .ok l) ∨ (g ∉ gs ∧ t.get g = some l) := by
  induction gs with
  | nil => intro t _ _; exact ⟨t, rfl, by simp⟩
  | cons a gs ih =>
    intro t h hn
    obtain ⟨l0, hl0⟩ := h a (by simp)
    obtain ⟨t', h1, h2⟩ := ih (t.set a l0) (fun g hg => h g (by simp [hg])) (List.nodup_cons.1 hn).2
    refine ⟨t', by simp only [fill, hl0, h1], ?_⟩
    intro g l
    rw [h2, get_set]
    by_cases hga : a = g
    · subst hga
      have := (List.nodup_cons.1 hn).1
      simp only [this, List.mem_cons, true_or, if_true, false_and, not_false_eq_true, true_and, false_or, not_true_eq_false, or_false,
        hl0, Option.some.injEq, Except.ok.injEq]
    · have : g ≠ a := fun e => hga e.symm
      simp [hga, this]

theorem spectra_total {f : File V} (g : String) (h : g ∈ groups f) : ∃ l, spectra f g = .ok l := by
  have hk : g ∈ f.keys := List.mem_of_mem_erase h
  unfold spectra
  cases hg : f.get g with
  | none => exact absurd hk ((get_eq_none_iff f g).1 hg)
  | some d => exact ⟨_, rfl⟩

/-- **C164** After any history of `set_pspec` calls, failed ones included, `tree(return_str=False)` returns a dictionary. Its
keys are the listed groups, never "header"; under a group each name appears once, and the names are exactly those
`get_pspec` returns an object for. Every stored object outside the group "header" is in it. -/
theorem C164_tree (write : V → Bool) (ops : List (Op V)) :
    ∃ t, treeDict (run write .rw false newFile ops) = .ok t ∧ t.get "header" = none ∧
      (∀ g l, t.get g = some l → l.Nodup ∧
        ∀ n, n ∈ l ↔ ∃ v, getOne (run write .rw false newFile ops) g n = .ok v) ∧
      ∀ g n v, g ≠ "header" → getOne (run write .rw false newFile ops) g n = .ok v → ∃ l, t.get g = some l ∧ n ∈ l := by
  obtain ⟨hwf, -⟩ := run_spec write ops (wf_newFile (V := V))
  set f := run write .rw false newFile ops with hf
  have hnd : (groups f).Nodup := hwf.groups.sublist List.erase_sublist
  obtain ⟨t, h1, h2⟩ := fill_spec f (groups f) [] (fun g hg => spectra_total g hg) hnd
  have hhead : "header" ∉ groups f := by
    unfold groups
    intro h
    have := (List.Nodup.mem_erase_iff hwf.groups).1 h
    exact this.1 rfl
  have hkey : ∀ g l, t.get g = some l ↔ g ∈ groups f ∧ spectra f g = .ok l := by
    intro g l
    rw [h2]; simp
  refine ⟨t, h1, ?_, ?_, ?_⟩
  · cases hh : t.get "header" with
    | none => rfl
    | some l => exact absurd ((hkey _ _).1 hh).1 hhead
  · intro g l hl
    obtain ⟨-, hs⟩ := (hkey _ _).1 hl
    obtain ⟨h3, h4, -⟩ := C37_spectra write ops g l hs
    exact ⟨h3, h4⟩
  · intro g n v hg hv
    have hin : g ∈ f.keys := by
      by_contra hne
      have := (get_eq_none_iff f g).2 hne
      unfold getOne at hv
      rw [this] at hv
      cases hv
    have hgr : g ∈ groups f := (List.Nodup.mem_erase_iff hwf.groups).2 ⟨hg, hin⟩
    obtain ⟨l, hl⟩ := spectra_total g hgr
    refine ⟨l, (hkey _ _).2 ⟨hgr, hl⟩, ?_⟩
    exact ((C37_spectra write ops g l hl).2.1 n).2 ⟨v, hv⟩

/-- Read the lines back: a line that begins with `(` is a group, other lines belong to the group above. -/
private def readLines : List (List Char) → List (List Char) × List (List Char × List (List Char))
  | [] => ([], [])
  | l :: rest =>
    if l.head? = some '(' then ([], ((l.drop 1).dropLast, (readLines rest).1) :: (readLines rest).2)
    else (l.drop 5 :: (readLines rest).1, (readLines rest).2)

private def linesOf (x : List Char × List (List Char)) : List (List Char) :=
  (['('] ++ x.1 ++ [')']) :: x.2.map (fun n => [' ', ' ', '|', '-', '-'] ++ n)

private theorem readLines_specs (ns : List (List Char)) (rest : List (List Char)) :
    readLines (ns.map (fun n => [' ', ' ', '|', '-', '-'] ++ n) ++ rest) = (ns ++ (readLines rest).1, (readLines rest).2) := by
  induction ns with
  | nil => rfl
  | cons n ns ih =>
    rw [List.map_cons, List.cons_append, readLines, ih]
    simp

private theorem readLines_linesOf (t : List (List Char × List (List Char))) : readLines (t.flatMap linesOf) = ([], t) := by
  induction t with
  | nil => rfl
  | cons x t ih =>
    rw [List.flatMap_cons, linesOf, List.cons_append, readLines, readLines_specs, ih]
    simp

private theorem lines_inj (a b : List (List Char)) (ha : ∀ l ∈ a, '\n' ∉ l) (hb : ∀ l ∈ b, '\n' ∉ l)
    (h : a.flatMap (· ++ ['\n']) = b.flatMap (· ++ ['\n'])) : a = b := by
  induction a generalizing b with
  | nil =>
    cases b with
    | nil => rfl
    | cons y b => simp at h
  | cons x a ih =>
    cases b with
    | nil => simp at h
    | cons y b =>
      have hx := ha x (by simp)
      have hy := hb y (by simp)
      simp only [List.flatMap_cons, List.append_assoc, List.singleton_append] at h
      have hxy : x = y ∧ a.flatMap (· ++ ['\n']) = b.flatMap (· ++ ['\n']) := by
        clear ih ha hb
        induction x generalizing y with
        | nil =>
          cases y with
          | nil => simpa using h
          | cons c y =>
            simp only [List.nil_append, List.cons_append, List.cons.injEq] at h
            exact absurd (by rw [h.1]; simp) hy
        | cons c x ihx =>
          cases y with
          | nil =>
            simp only [List.nil_append, List.cons_append, List.cons.injEq] at h
            exact absurd (by rw [← h.1]; simp) hx
          | cons d y =>
            simp only [List.cons_append, List.cons.injEq] at h
            obtain ⟨e1, e2⟩ := ihx y (fun hm => hx (by simp [hm])) (fun hm => hy (by simp [hm])) h.2
            exact ⟨by rw [h.1, e1], e2⟩
      rw [hxy.1, ih b (fun l hl => ha l (by simp [hl])) (fun l hl => hb l (by simp [hl])) hxy.2]

private theorem treeStr_lines (t : List (List Char × List (List Char))) : treeStr t = (t.flatMap linesOf).flatMap (· ++ ['\n']) := by
  induction t with
  | nil => rfl
  | cons x t ih =>
    unfold treeStr at ih ⊢
    rw [List.flatMap_cons, List.flatMap_cons, List.flatMap_append, ← ih]
    congr 1
    simp only [groupLines, linesOf, List.flatMap_cons, List.flatMap_map]
    have : specLine = fun a => ' ' :: ' ' :: '|' :: '-' :: '-' :: (a ++ ['\n']) := by funext a; simp [specLine]
    rw [this]
    simp

/-- **C164** The string shows the same: if no name contains a line break, two listings with the same string have the same groups
in the same order with the same spectra in the same order. -/
theorem C164_string_faithful (t t' : List (List Char × List (List Char)))
    (h : ∀ x ∈ t, '\n' ∉ x.1 ∧ ∀ n ∈ x.2, '\n' ∉ n) (h' : ∀ x ∈ t', '\n' ∉ x.1 ∧ ∀ n ∈ x.2, '\n' ∉ n)
    (he : treeStr t = treeStr t') : t = t' := by
  have nl : ∀ t : List (List Char × List (List Char)), (∀ x ∈ t, '\n' ∉ x.1 ∧ ∀ n ∈ x.2, '\n' ∉ n) →
      ∀ l ∈ t.flatMap linesOf, '\n' ∉ l := by
    intro t h l hl
    obtain ⟨x, hx, hl⟩ := List.mem_flatMap.1 hl
    unfold linesOf at hl
    rcases List.mem_cons.1 hl with rfl | hl
    · simp [(h x hx).1]
    · obtain ⟨n, hn, rfl⟩ := List.mem_map.1 hl
      simp [(h x hx).2 n hn]
  rw [treeStr_lines, treeStr_lines] at he
  have := lines_inj _ _ (nl t h) (nl t' h') he
  have h2 := congrArg readLines this
  rw [readLines_linesOf, readLines_linesOf] at h2
  exact (Prod.ext_iff.1 h2).2

/-- **C164** After any history of calls `tree()` returns a string: for every listed group one line with its name in
parentheses, followed by one indented line for each of the names in the dictionary. -/
theorem C164_string (write : V → Bool) (ops : List (Op V)) :
    ∃ t, treeDict (run write .rw false newFile ops) = .ok t ∧
      treeString (run write .rw false newFile ops) = .ok ((groups (run write .rw false newFile ops)).flatMap (fun g =>
        ("(".toList ++ g.toList ++ ")\n".toList) ++
          ((t.get g).getD []).flatMap (fun n => "  |--".toList ++ n.toList ++ "\n".toList))) := by
  obtain ⟨t, ht, -⟩ := C164_tree write ops
  refine ⟨t, ht, ?_⟩
  simp only [treeString, ht, treeStr, List.flatMap_map, ofGroup, groupLines, specLine, Except.ok.injEq]
  rfl

/-- **C164** (a finding) A name with a line break can make the string the same as that of another container. -/
theorem C164_finding_line_break :
    treeStr [("a)\n  |--x\n(b".toList, [])] = treeStr [("a".toList, ["x".toList]), ("b".toList, [])] := by decide +kernel

/-- A container with three spectra, one of them badly written. -/
example : treeDict (run (fun v => v ≠ 3) .rw false newFile
    [.set "g1" "a" (.uvp 1) false, .set "g2" "b" (.uvp 3) false, .set "g1" "c" (.uvp 2) false, .set "header" "z" (.uvp 5) false]) =
    .ok [("g1", ["a", "c"]), ("g2", [])] := by decide +kernel

example : (treeString (run (fun v => v ≠ 3) .rw false newFile
    [.set "g1" "a" (.uvp 1) false, .set "g2" "b" (.uvp 3) false, .set "g1" "c" (.uvp 2) false])).map String.ofList =
    .ok "(g1)\n  |--a\n  |--c\n(g2)\n" := by decide +kernel

end HeraPspec.Tree
