import Verif.Model.ArgParse
import Mathlib.Data.List.Basic
import Mathlib.Tactic.Common

/-!
C78: command-line lists of tuples.
-/
namespace HeraPspec.ArgParse
open HeraPspec.UVP (mapE)

/-! ### How lists of tuples are written -/

/-- Decimal notation of an integer. -/
def intStr (n : Int) : Str := if n < 0 then '-' :: Nat.toDigits 10 n.natAbs else Nat.toDigits 10 n.natAbs

/-- Pieces joined by a separator. -/
def join (sep : Str) : List Str → Str
  | [] => []
  | [w] => w
  | w :: ws => w ++ sep ++ join sep ws

/-- A list of tuples of words: words joined by `sep`, tuples by commas, with any number of blanks before each tuple. -/
def render (sep : Str) (l : List (Nat × List Str)) : Str :=
  join [','] (l.map (fun t => List.replicate t.1 ' ' ++ join sep t.2))

/-! ### Splitting -/

theorem splitP_ne_nil (p : Char → Bool) (s : Str) : splitP p s ≠ [] := by
  cases s with
  | nil => simp [splitP]
  | cons c cs =>
    unfold splitP
    split
    · simp
    · split <;> simp

theorem splitP_free (p : Char → Bool) (w : Str) (h : ∀ c ∈ w, p c = false) : splitP p w = [w] := by
  induction w with
  | nil => rfl
  | cons c cs ih =>
    unfold splitP
    rw [h c List.mem_cons_self, ih (fun x hx => h x (List.mem_cons_of_mem _ hx))]
    rfl

theorem splitP_append (p : Char → Bool) (w : Str) (c : Char) (s : Str) (h : ∀ x ∈ w, p x = false) (hc : p c = true) :
    splitP p (w ++ c :: s) = w :: splitP p s := by
  induction w with
  | nil => simp [splitP, hc]
  | cons a w ih =>
    have ha := h a List.mem_cons_self
    rw [List.cons_append, splitP, ha, ih (fun x hx => h x (List.mem_cons_of_mem _ hx))]
    rfl

theorem splitP_join (p : Char → Bool) (c : Char) (hc : p c = true) (ws : List Str) (hne : ws ≠ []) (h : ∀ w ∈ ws, ∀ x ∈ w, p x = false) :
    splitP p (join [c] ws) = ws := by
  induction ws with
  | nil => exact absurd rfl hne
  | cons w ws ih =>
    cases ws with
    | nil => exact splitP_free p w (h w List.mem_cons_self)
    | cons w' ws =>
      show splitP p (w ++ [c] ++ join [c] (w' :: ws)) = _
      rw [List.append_assoc, List.singleton_append, splitP_append p w c _ (h w List.mem_cons_self) hc,
        ih (by simp) (fun x hx => h x (List.mem_cons_of_mem _ hx))]

theorem mem_join (sep : Str) (ws : List Str) (x : Char) (hx : x ∈ join sep ws) : x ∈ sep ∨ ∃ w ∈ ws, x ∈ w := by
  induction ws with
  | nil => cases hx
  | cons w ws ih =>
    cases ws with
    | nil => exact Or.inr ⟨w, List.mem_cons_self, hx⟩
    | cons w' ws =>
      have hx' : x ∈ w ++ sep ++ join sep (w' :: ws) := hx
      rw [List.mem_append, List.mem_append] at hx'
      rcases hx' with (h | h) | h
      · exact Or.inr ⟨w, List.mem_cons_self, h⟩
      · exact Or.inl h
      · rcases ih h with h | ⟨v, hv, h⟩
        · exact Or.inl h
        · exact Or.inr ⟨v, List.mem_cons_of_mem _ hv, h⟩

theorem pad_join (k : Nat) (sep : Str) (w : Str) (ws : List Str) :
    List.replicate k ' ' ++ join sep (w :: ws) = join sep ((List.replicate k ' ' ++ w) :: ws) := by
  cases ws with
  | nil => rfl
  | cons w' ws =>
    show _ ++ (w ++ sep ++ join sep (w' :: ws)) = _ ++ w ++ sep ++ join sep (w' :: ws)
    simp [List.append_assoc]

theorem splitWs_pad (k : Nat) (s : Str) : splitWs (List.replicate k ' ' ++ s) = splitWs s := by
  induction k with
  | zero => rfl
  | succ k ih =>
    rw [List.replicate_succ, List.cons_append]
    unfold splitWs at ih ⊢
    rw [← ih, splitP]
    simp [isWs]

theorem splitWs_join (ws : List Str) (h : ∀ w ∈ ws, w ≠ [] ∧ ∀ x ∈ w, isWs x = false) : splitWs (join [' '] ws) = ws := by
  unfold splitWs
  by_cases hne : ws = []
  · subst hne; rfl
  · rw [splitP_join isWs ' ' rfl ws hne (fun w hw => (h w hw).2)]
    exact List.filter_eq_self.2 (fun w hw => by simpa using (h w hw).1)

/-- Splitting at commas recovers the tuples. -/
theorem split_render (sep : Str) (l : List (Nat × List Str)) (hne : l ≠ []) (hsep : ',' ∉ sep) (h : ∀ t ∈ l, ∀ w ∈ t.2, ',' ∉ w) :
    splitOn ',' (render sep l) = l.map (fun t => List.replicate t.1 ' ' ++ join sep t.2) := by
  unfold splitOn render
  apply splitP_join _ _ (by simp) _ (by simpa using hne)
  intro w hw x hx
  obtain ⟨t, ht, rfl⟩ := List.mem_map.1 hw
  simp only [decide_eq_false_iff_not]
  rintro rfl
  rcases List.mem_append.1 hx with h1 | h1
  · have := List.eq_of_mem_replicate h1
    exact absurd this (by decide)
  · rcases mem_join _ _ _ h1 with h2 | ⟨w, hw, h2⟩
    · exact hsep h2
    · exact h t ht w hw h2

theorem mem_render_tilde (sep : Str) (l : List (Nat × List Str)) (h : ∀ t ∈ l, ∀ w ∈ t.2, '~' ∉ w) (hs : '~' ∉ sep) : '~' ∉ render sep l := by
  intro hx
  unfold render at hx
  rcases mem_join _ _ _ hx with h1 | ⟨w, hw, h1⟩
  · simp at h1
  · obtain ⟨t, ht, rfl⟩ := List.mem_map.1 hw
    rcases List.mem_append.1 h1 with h2 | h2
    · exact absurd (List.eq_of_mem_replicate h2) (by decide)
    · rcases mem_join _ _ _ h2 with h3 | ⟨w, hw, h3⟩
      · exact hs h3
      · exact h t ht w hw h3

theorem mem_join_of_sep {sep : Str} {ws : List Str} {x : Char} (hx : x ∈ sep) (h : 2 ≤ ws.length) : x ∈ join sep ws := by
  match ws, h with
  | w :: w' :: ws, _ =>
    show x ∈ w ++ sep ++ join sep (w' :: ws)
    simp [hx]

theorem mem_join_of_mem {sep : Str} {ws : List Str} {w : Str} {x : Char} (hw : w ∈ ws) (hx : x ∈ w) : x ∈ join sep ws := by
  induction ws with
  | nil => cases hw
  | cons v ws ih =>
    cases ws with
    | nil => simp at hw; subst hw; exact hx
    | cons v' ws =>
      show x ∈ v ++ sep ++ join sep (v' :: ws)
      rw [List.mem_append, List.mem_append]
      rcases List.mem_cons.1 hw with rfl | hw
      · exact Or.inl (Or.inl hx)
      · exact Or.inr (ih hw)

/-- Without a `~` in the text, tuples written with `~` have at most one word. -/
theorem short_of_no_tilde (l : List (Nat × List Str)) (h : '~' ∉ render ['~'] l) : ∀ t ∈ l, t.2.length ≤ 1 := by
  intro t ht
  by_contra hc
  apply h
  unfold render
  apply mem_join_of_mem (List.mem_map.2 ⟨t, ht, rfl⟩)
  exact List.mem_append_right _ (mem_join_of_sep (by simp) (by omega))

/-! ### Integers -/

theorem digit_not (c d : Char) (h : c.isDigit = true) (hd : d.isDigit = false) : c ≠ d := by
  rintro rfl; rw [h] at hd; cases hd

theorem intStr_chars (n : Int) (c : Char) (h : c ∈ intStr n) : c = '-' ∨ c.isDigit = true := by
  unfold intStr at h
  split at h
  · rcases List.mem_cons.1 h with rfl | h
    · exact Or.inl rfl
    · exact Or.inr (Nat.isDigit_of_mem_toDigits (by decide) (by decide) h)
  · exact Or.inr (Nat.isDigit_of_mem_toDigits (by decide) (by decide) h)

theorem not_ws_of_digit (c : Char) (h : c.isDigit = true) : isWs c = false := by
  unfold isWs
  simp only [Bool.or_eq_false_iff, decide_eq_false_iff_not]
  refine ⟨⟨⟨⟨⟨?_, ?_⟩, ?_⟩, ?_⟩, ?_⟩, ?_⟩ <;> exact digit_not _ _ h (by decide)

theorem intStr_free (n : Int) (d : Char) (hd : d.isDigit = false) (hm : d ≠ '-') : d ∉ intStr n := by
  intro h
  rcases intStr_chars n d h with h1 | h1
  · exact hm h1
  · rw [h1] at hd; cases hd

theorem intStr_ws (n : Int) : ∀ c ∈ intStr n, isWs c = false := by
  intro c hc
  rcases intStr_chars n c hc with rfl | h
  · decide
  · exact not_ws_of_digit c h

theorem intStr_ne (n : Int) : intStr n ≠ [] := by
  unfold intStr
  split
  · simp
  · exact Nat.toDigits_ne_nil

theorem strip_pad (k : Nat) (w : Str) (h : ∀ c ∈ w, isWs c = false) : strip (List.replicate k ' ' ++ w) = w := by
  unfold strip
  have h1 : (List.replicate k ' ' ++ w).dropWhile isWs = w := by
    induction k with
    | zero =>
      cases w with
      | nil => rfl
      | cons c w => simp [List.dropWhile, h c List.mem_cons_self]
    | succ k ih =>
      rw [List.replicate_succ, List.cons_append, List.dropWhile_cons_of_pos (by decide)]
      exact ih
  have h2 : w.reverse.dropWhile isWs = w.reverse := by
    cases hr : w.reverse with
    | nil => rfl
    | cons c r =>
      have : c ∈ w := by rw [← List.mem_reverse, hr]; exact List.mem_cons_self
      simp [List.dropWhile, h c this]
  rw [h1, h2, List.reverse_reverse]

theorem digitsVal_toDigits (n : Nat) : digitsVal (Nat.toDigits 10 n) = .ok n := by
  unfold digitsVal
  rw [if_pos ⟨Nat.toDigits_ne_nil, List.all_eq_true.2 (fun c hc => Nat.isDigit_of_mem_toDigits (by decide) (by decide) hc)⟩,
    Nat.ofDigitChars_toDigits (by decide) (by decide)]

theorem pyInt_pad (k : Nat) (n : Int) : pyInt (List.replicate k ' ' ++ intStr n) = .ok n := by
  unfold pyInt
  rw [strip_pad k _ (intStr_ws n)]
  unfold intStr
  by_cases hn : n < 0
  · rw [if_pos hn]
    simp only [digitsVal_toDigits]
    congr 1; omega
  · rw [if_neg hn]
    have hval := digitsVal_toDigits n.natAbs
    have hdig : ∀ c ∈ Nat.toDigits 10 n.natAbs, c.isDigit = true := fun c hc => Nat.isDigit_of_mem_toDigits (by decide) (by decide) hc
    generalize Nat.toDigits 10 n.natAbs = ds at hval hdig
    split
    · exact absurd (hdig '-' List.mem_cons_self) (by decide)
    · exact absurd (hdig '+' List.mem_cons_self) (by decide)
    · simp only [hval]; congr 1; omega

theorem mapE_ok {α β : Type} {ε : Type} (f : α → Except ε β) (g : α → β) (l : List α) (h : ∀ a ∈ l, f a = .ok (g a)) :
    mapE f l = .ok (l.map g) := by
  induction l with
  | nil => rfl
  | cons a l ih =>
    unfold mapE
    rw [h a List.mem_cons_self, ih (fun b hb => h b (List.mem_cons_of_mem _ hb))]
    rfl

theorem mapE_map {α β γ : Type} {ε : Type} (f : β → Except ε γ) (g : α → β) (l : List α) : mapE f (l.map g) = mapE (fun a => f (g a)) l := by
  induction l with
  | nil => rfl
  | cons a l ih => simp only [List.map_cons]; unfold mapE; rw [ih]

theorem mapE_int (ns : List Int) : mapE pyInt (ns.map intStr) = .ok ns := by
  rw [mapE_map, mapE_ok _ id]
  · simp
  · intro n _; exact pyInt_pad 0 n

/-- Words of a tuple of integers. -/
def words (l : List (Nat × List Int)) : List (Nat × List Str) := l.map (fun t => (t.1, t.2.map intStr))

/-- A tuple in `~` notation, with blanks in front. -/
theorem intTuple_tilde (k : Nat) (ns : List Int) (hne : ns ≠ []) :
    intTuple true (List.replicate k ' ' ++ join ['~'] (ns.map intStr)) = .ok ns := by
  match ns, hne with
  | n :: ns, _ =>
    unfold intTuple
    simp only [List.map_cons, if_true]
    rw [pad_join]
    unfold splitOn
    rw [splitP_join _ '~' (by simp) _ (by simp)]
    · unfold mapE
      rw [pyInt_pad, mapE_int]
    · intro w hw x hx
      simp only [decide_eq_false_iff_not]
      rintro rfl
      rcases List.mem_cons.1 hw with rfl | hw
      · rcases List.mem_append.1 hx with h | h
        · exact absurd (List.eq_of_mem_replicate h) (by decide)
        · exact intStr_free n '~' (by decide) (by decide) h
      · obtain ⟨m, _, rfl⟩ := List.mem_map.1 hw
        exact intStr_free m '~' (by decide) (by decide) hx

/-- A tuple in blank notation. -/
theorem intTuple_ws (k : Nat) (ns : List Int) : intTuple false (List.replicate k ' ' ++ join [' '] (ns.map intStr)) = .ok ns := by
  unfold intTuple
  simp only [Bool.false_eq_true, if_false]
  rw [splitWs_pad, splitWs_join]
  · exact mapE_int ns
  · intro w hw
    obtain ⟨m, _, rfl⟩ := List.mem_map.1 hw
    exact ⟨intStr_ne m, intStr_ws m⟩

/-- C78: every non-empty list of non-empty integer tuples is read back exactly, in `~` notation (`'0~0, 1~1'`) as in blank notation
(`'0 0, 1 1'`), with any number of blanks after the commas; so both notations agree. -/
theorem C78_int_tuples (l : List (Nat × List Int)) (hne : l ≠ []) (ht : ∀ t ∈ l, t.2 ≠ []) :
    listOfIntTuples (render ['~'] (words l)) = .ok (l.map (·.2)) ∧ listOfIntTuples (render [' '] (words l)) = .ok (l.map (·.2)) := by
  have hwords : ∀ d : Char, d.isDigit = false → d ≠ '-' → ∀ t ∈ words l, ∀ w ∈ t.2, d ∉ w := by
    intro d hd hm t htm w hw
    obtain ⟨t, _, rfl⟩ := List.mem_map.1 htm
    obtain ⟨m, _, rfl⟩ := List.mem_map.1 hw
    exact intStr_free m d hd hm
  have hwne : words l ≠ [] := by simpa [words] using hne
  constructor
  · unfold listOfIntTuples
    rw [split_render ['~'] (words l) hwne (by simp) (hwords ',' (by decide) (by decide)), mapE_map]
    unfold words
    rw [mapE_map, mapE_ok _ (·.2)]
    intro t htm
    by_cases htl : '~' ∈ render ['~'] (l.map (fun t => (t.1, t.2.map intStr)))
    · simp only [htl, decide_true]
      exact intTuple_tilde t.1 t.2 (ht t htm)
    · simp only [htl, decide_false]
      have hs := short_of_no_tilde _ htl (t.1, t.2.map intStr) (List.mem_map.2 ⟨t, htm, rfl⟩)
      have hsame : join ['~'] (t.2.map intStr) = join [' '] (t.2.map intStr) := by
        match hm : t.2.map intStr with
        | [] => rfl
        | [_] => rfl
        | _ :: _ :: _ => simp [hm] at hs
      rw [hsame]
      exact intTuple_ws t.1 t.2
  · unfold listOfIntTuples
    have hnt : '~' ∉ render [' '] (words l) := mem_render_tilde [' '] (words l) (hwords '~' (by decide) (by decide)) (by simp)
    rw [split_render [' '] (words l) hwne (by simp) (hwords ',' (by decide) (by decide)), mapE_map]
    simp only [hnt, decide_false]
    unfold words
    rw [mapE_map, mapE_ok _ (·.2)]
    intro t _
    exact intTuple_ws t.1 t.2

/-- C78: baseline pairs, written as four integers, are read as pairs of pairs. -/
theorem C78_tuple_tuples (l : List (Nat × (Int × Int) × (Int × Int))) (hne : l ≠ []) (sep : Str) (hsep : sep = ['~'] ∨ sep = [' ']) :
    listOfTupleTuples (render sep (words (l.map (fun t => (t.1, [t.2.1.1, t.2.1.2, t.2.2.1, t.2.2.2]))))) =
      .ok (l.map (fun t => ([t.2.1.1, t.2.1.2], [t.2.2.1, t.2.2.2]))) := by
  have h := C78_int_tuples (l.map (fun t => (t.1, [t.2.1.1, t.2.1.2, t.2.2.1, t.2.2.2]))) (by simpa using hne) (by
    intro t ht
    obtain ⟨s, _, rfl⟩ := List.mem_map.1 ht
    simp)
  unfold listOfTupleTuples
  rcases hsep with rfl | rfl
  · rw [h.1]; simp [List.map_map, Function.comp_def]
  · rw [h.2]; simp [List.map_map, Function.comp_def]

/-- C78 (partial: no blanks before tuples in `~` notation): tuples of words are read back exactly in both notations, for words
without commas, tildes and blanks. Missing: words next to blanks in the `~` notation (a blank after a comma is kept in the word, `C78_finding_blank_kept`). -/
theorem C78_str_tuples_partial (l : List (Nat × List Str)) (hne : l ≠ []) (ht : ∀ t ∈ l, t.2 ≠ [] ∧ ∀ w ∈ t.2, w ≠ [] ∧ ∀ c ∈ w,
    c ≠ ',' ∧ c ≠ '~' ∧ isWs c = false) :
    ((∀ t ∈ l, t.1 = 0) → listOfStrTuples (render ['~'] l) = l.map (·.2)) ∧ listOfStrTuples (render [' '] l) = l.map (·.2) := by
  have hfree : ∀ d : Char, (d = ',' ∨ d = '~') → ∀ t ∈ l, ∀ w ∈ t.2, d ∉ w := by
    intro d hd t htm w hw hdw
    have := ((ht t htm).2 w hw).2 d hdw
    rcases hd with rfl | rfl
    · exact this.1 rfl
    · exact this.2.1 rfl
  have hws : ∀ t ∈ l, splitWs (List.replicate t.1 ' ' ++ join [' '] t.2) = t.2 := by
    intro t htm
    rw [splitWs_pad, splitWs_join]
    intro w hw
    exact ⟨((ht t htm).2 w hw).1, fun c hc => (((ht t htm).2 w hw).2 c hc).2.2⟩
  constructor
  · intro hpad
    unfold listOfStrTuples
    rw [split_render ['~'] l hne (by simp) (hfree ',' (Or.inl rfl)), List.map_map]
    apply List.map_congr_left
    intro t htm
    simp only [Function.comp_def]
    by_cases htl : '~' ∈ render ['~'] l
    · rw [if_pos htl, hpad t htm]
      unfold splitOn
      simp only [List.replicate_zero, List.nil_append]
      apply splitP_join _ _ (by simp) _ (ht t htm).1
      intro w hw x hx
      simp only [decide_eq_false_iff_not]
      rintro rfl
      exact hfree '~' (Or.inr rfl) t htm w hw hx
    · rw [if_neg htl]
      have hs := short_of_no_tilde _ htl t htm
      have hsame : join ['~'] t.2 = join [' '] t.2 := by
        match hm : t.2 with
        | [] => rfl
        | [_] => rfl
        | _ :: _ :: _ => simp [hm] at hs
      rw [hsame]
      exact hws t htm
  · unfold listOfStrTuples
    have hnt := mem_render_tilde [' '] l (hfree '~' (Or.inr rfl)) (by simp)
    rw [split_render [' '] l hne (by simp) (hfree ',' (Or.inl rfl)), List.map_map]
    apply List.map_congr_left
    intro t htm
    simp only [Function.comp_def, hnt, if_false]
    exact hws t htm

/-- C78: nothing is dropped silently: a text that is accepted has one tuple per comma-separated piece. -/
theorem C78_nothing_dropped (v : Str) (l : List (List Int)) (h : listOfIntTuples v = .ok l) : l.length = v.count ',' + 1 := by
  have hlen : ∀ (f : Str → Except Err (List Int)) (xs : List Str) (l : List (List Int)), mapE f xs = .ok l → l.length = xs.length := by
    intro f xs
    induction xs with
    | nil => intro l h; unfold mapE at h; injection h with h; subst h; rfl
    | cons x xs ih =>
      intro l h
      unfold mapE at h
      cases hx : f x with
      | error e => rw [hx] at h; cases h
      | ok b =>
        rw [hx] at h
        cases hm : mapE f xs with
        | error e => rw [hm] at h; cases h
        | ok bs => rw [hm] at h; injection h with h; subst h; simp [ih bs hm]
  rw [hlen _ _ _ h]
  clear h
  unfold splitOn
  induction v with
  | nil => rfl
  | cons c v ih =>
    unfold splitP
    by_cases hc : c = ','
    · subst hc; simp [ih]
    · rw [if_neg (by simpa using hc), List.count_cons_of_ne hc]
      rw [← ih]
      split
      · rename_i hn; exact absurd hn (splitP_ne_nil _ _)
      · rename_i hw; rw [hw]; rfl

/-- C78 finding: in `~` notation a blank after the comma becomes part of the word: `'xx~xx, yy~yy'` gives `' yy'`. -/
theorem C78_finding_blank_kept : listOfStrTuples "xx~xx, yy~yy".toList = [["xx".toList, "xx".toList], [" yy".toList, "yy".toList]] := by
  decide +kernel

/-- Non-vacuity. -/
example : render ['~'] (words [(0, [0, 0]), (1, [1, -12])]) = "0~0, 1~-12".toList := by decide +kernel
example : listOfIntTuples "0~0, 1~-12".toList = .ok [[0, 0], [1, -12]] := by decide +kernel
example : listOfIntTuples "0 0, x".toList = .error .value := by decide +kernel

end HeraPspec.ArgParse
