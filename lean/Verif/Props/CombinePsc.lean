import Verif.Model.CombinePsc
import Verif.Lemmas.Combine
import Mathlib.Data.List.Infix

/-!
C42: merging spectra of a container.
-/
namespace HeraPspec.CombinePsc
open HeraPspec.Combine (uniq mem_uniq uniq_nodup)
open Dict

/-! ### Output names -/

/-- No underscore. -/
def Plain (l : Str) : Prop := '_' ∉ l

theorem splitGo_plain (sep' : Str) (l t : Str) (hl : Plain l) : ∀ acc,
    splitGo ('_' :: sep') acc (l ++ t) = splitGo ('_' :: sep') (acc ++ l) t := by
  induction l with
  | nil => intro acc; simp
  | cons c l ih =>
    intro acc
    have hc : c ≠ '_' := fun h => hl (by rw [h]; exact List.mem_cons_self)
    rw [List.cons_append, splitGo]
    rw [dif_neg]
    · rw [ih (fun h => hl (List.mem_cons_of_mem _ h))]
      simp
    · rintro ⟨_, h⟩
      simp [List.isPrefixOf] at h
      exact hc h.1.symm

theorem splitGo_head (sep : Str) : ∀ (m : Nat) (s acc : Str), s.length ≤ m → ∃ u rest, splitGo sep acc s = (acc ++ u) :: rest := by
  intro m
  induction m with
  | zero =>
    intro s acc h
    have : s = [] := List.length_eq_zero_iff.1 (by omega)
    subst this
    exact ⟨[], [], by simp [splitGo]⟩
  | succ m ih =>
    intro s acc h
    cases s with
    | nil => exact ⟨[], [], by simp [splitGo]⟩
    | cons c cs =>
      rw [splitGo]
      split
      · exact ⟨[], _, by simp; rfl⟩
      · obtain ⟨u, rest, hu⟩ := ih cs (acc ++ [c]) (by simpa using h)
        exact ⟨c :: u, rest, by rw [hu]; simp⟩

/-- Nothing, or something that begins with an underscore: an extension. -/
def IsExt (t : Str) : Prop := t = [] ∨ ∃ u, t = '_' :: u

theorem splitGo_first (sep' : Str) (B t : Str) (hB : Plain B) (ht : IsExt t) :
    ∃ t' rest, splitGo ('_' :: sep') [] (B ++ t) = (B ++ t') :: rest ∧ IsExt t' := by
  rw [splitGo_plain sep' B t hB, List.nil_append]
  rcases ht with rfl | ⟨u, rfl⟩
  · exact ⟨[], [], by simp [splitGo], Or.inl rfl⟩
  · rw [splitGo]
    split
    · exact ⟨[], _, by simp; rfl, Or.inl rfl⟩
    · obtain ⟨w, rest, hw⟩ := splitGo_head ('_' :: sep') u.length u (B ++ ['_']) (le_refl _)
      exact ⟨'_' :: w, rest, by rw [hw]; simp, Or.inr ⟨w, rfl⟩⟩

theorem split_ext_head (B t : Str) (hB : Plain B) (ht : IsExt t) : ∃ rest, split ['_'] (B ++ t) = B :: rest := by
  unfold split
  rw [splitGo_plain [] B t hB, List.nil_append]
  rcases ht with rfl | ⟨u, rfl⟩
  · exact ⟨[], by simp [splitGo]⟩
  · rw [splitGo]
    rw [dif_pos ⟨by simp, by simp [List.isPrefixOf]⟩]
    exact ⟨_, rfl⟩

/-- C42: names of the form `A_x_B`, with any extension `_...`, belong to the output `A_x_B` (labels without underscores). -/
theorem C42_output_name (A B t : Str) (hA : Plain A) (hB : Plain B) (ht : IsExt t) :
    baseName "_x_".toList "_".toList (A ++ "_x_".toList ++ B ++ t) = A ++ "_x_".toList ++ B := by
  have e1 : "_x_".toList = ['_', 'x', '_'] := rfl
  have e2 : "_".toList = ['_'] := rfl
  rw [e1, e2]
  unfold baseName
  rw [if_neg (by simp)]
  have h1 : split ['_', 'x', '_'] (A ++ ['_', 'x', '_'] ++ B ++ t) = A :: splitGo ['_', 'x', '_'] [] (B ++ t) := by
    unfold split
    rw [List.append_assoc, List.append_assoc, splitGo_plain ['x', '_'] A _ hA, List.nil_append]
    rw [List.cons_append, splitGo, dif_pos ⟨by simp, by simp [List.isPrefixOf]⟩]
    rfl
  obtain ⟨t', rest, h2, ht'⟩ := splitGo_first ['x', '_'] B t hB ht
  rw [h1, h2]
  obtain ⟨r1, hr1⟩ := split_ext_head A [] hA (Or.inl rfl)
  have hA1 : split ['_'] A = [A] := by
    unfold split
    have := splitGo_plain [] A [] hA []
    rw [List.append_nil] at this
    rw [this]
    simp [splitGo]
  obtain ⟨r2, hr2⟩ := split_ext_head B t' hB ht'
  rw [List.map_cons, List.map_cons, hA1, hr2]
  simp [join, List.intersperse]

/-- C42: without `dset_split_str` the output name is what precedes the extension. -/
theorem C42_output_name_no_dset (A t : Str) (hA : Plain A) (ht : IsExt t) : baseName [] "_".toList (A ++ t) = A := by
  unfold baseName
  rw [if_pos rfl]
  obtain ⟨r, hr⟩ := split_ext_head A t hA ht
  have e2 : "_".toList = ['_'] := rfl
  rw [e2, hr]
  rfl

/-! ### The merge -/

variable {V : Type}

/-- The objects stored under the names that belong to output `b`, in listing order. -/
def inputsOf (base : Str → Str) (d : Dict Str V) (b : Str) : List V :=
  (d.keys.filter (fun n => decide (base n = b))).filterMap d.get

/-- What is written for output `b`: nothing if the output exists and `overwrite` is not set, or if merging fails; the object itself
if there is only one; else the merge of exactly the objects that belong to `b`. -/
def output (base : Str → Str) (comb : List V → Option V) (overwrite : Bool) (d : Dict Str V) (b : Str) : Option V :=
  if b ∈ d.keys ∧ overwrite = false then none
  else if (inputsOf base d b).length = 1 then (inputsOf base d b).head? else comb (inputsOf base d b)

theorem mapM_get_keys (d : Dict Str V) (l : List Str) (h : ∀ x ∈ l, x ∈ d.keys) : l.mapM d.get = some (l.filterMap d.get) := by
  induction l with
  | nil => rfl
  | cons a l ih =>
    have ha : d.get a ≠ none := fun hn => (get_eq_none_iff d a).1 hn (h a List.mem_cons_self)
    obtain ⟨v, hv⟩ := Option.ne_none_iff_exists'.1 ha
    rw [List.mapM_cons, hv, ih (fun x hx => h x (List.mem_cons_of_mem _ hx)), List.filterMap_cons, hv]
    rfl

theorem filterMap_get_length (d : Dict Str V) (l : List Str) (h : ∀ x ∈ l, x ∈ d.keys) : (l.filterMap d.get).length = l.length := by
  induction l with
  | nil => rfl
  | cons a l ih =>
    have ha : d.get a ≠ none := fun hn => (get_eq_none_iff d a).1 hn (h a List.mem_cons_self)
    obtain ⟨v, hv⟩ := Option.ne_none_iff_exists'.1 ha
    rw [List.filterMap_cons, hv]
    simp [ih (fun x hx => h x (List.mem_cons_of_mem _ hx))]

theorem merged_eq (base : Str → Str) (comb : List V → Option V) (d : Dict Str V) (b : Str) (hb : b ∈ d.keys.map base) :
    merged comb d (d.keys.filter (fun n => decide (base n = b))) =
      if (inputsOf base d b).length = 1 then (inputsOf base d b).head? else comb (inputsOf base d b) := by
  have hk : ∀ x ∈ d.keys.filter (fun n => decide (base n = b)), x ∈ d.keys := fun x hx => (List.mem_filter.1 hx).1
  have hl := filterMap_get_length d _ hk
  have hpos : 0 < (d.keys.filter (fun n => decide (base n = b))).length := by
    obtain ⟨m, hm, rfl⟩ := List.mem_map.1 hb
    exact List.length_pos_of_mem (List.mem_filter.2 ⟨hm, by simp⟩)
  unfold merged inputsOf
  rw [mapM_get_keys d _ hk]
  generalize hv : (d.keys.filter (fun n => decide (base n = b))).filterMap d.get = vs at *
  match vs with
  | [] => simp at hl; omega
  | [v] => rfl
  | v :: w :: vs => simp

theorem get_foldl_del (l : List Str) (d : Dict Str V) (x : Str) :
    Dict.get (l.foldl Dict.del d) x = if x ∈ l then none else Dict.get d x := by
  induction l generalizing d with
  | nil => simp
  | cons a l ih =>
    rw [List.foldl_cons, ih, get_del]
    by_cases h : x ∈ l
    · simp [h]
    · by_cases h2 : x = a
      · simp [h2]
      · simp [h, h2]

theorem mapM_congr {d e : Dict Str V} {l : List Str} (h : ∀ x ∈ l, d.get x = e.get x) : l.mapM d.get = l.mapM e.get := by
  induction l with
  | nil => rfl
  | cons a l ih =>
    rw [List.mapM_cons, List.mapM_cons, h a List.mem_cons_self, ih (fun x hx => h x (List.mem_cons_of_mem _ hx))]

/-- No confusion between output names: whenever an output name is a substring of a stored name, it is the output name of that
stored name. -/
structure NoConfusion (base : Str → Str) (names : List Str) : Prop where
  own : ∀ n ∈ names, base n <:+: n
  other : ∀ m ∈ names, ∀ n ∈ names, base m <:+: n → base n = base m

theorem contains_iff (spc s : Str) : contains spc s = true ↔ spc <:+: s := by
  unfold contains
  rw [List.any_eq_true]
  constructor
  · rintro ⟨t, ht, h⟩
    rw [List.isPrefixOf_iff_prefix] at h
    rw [List.mem_tails] at ht
    exact h.isInfix.trans ht.isInfix
  · intro h
    obtain ⟨t, h1, h2⟩ := List.infix_iff_prefix_suffix.1 h
    exact ⟨t, (List.mem_tails _ _).2 h2, List.isPrefixOf_iff_prefix.2 h1⟩

theorem toMerge_eq {base : Str → Str} {names : List Str} (h : NoConfusion base names) {b : Str} (hb : b ∈ names.map base) :
    toMerge names b = names.filter (fun n => decide (base n = b)) := by
  obtain ⟨m, hm, rfl⟩ := List.mem_map.1 hb
  unfold toMerge
  apply List.filter_congr
  intro n hn
  rw [Bool.eq_iff_iff, contains_iff, decide_eq_true_eq]
  constructor
  · exact h.other m hm n hn
  · intro e; rw [← e]; exact h.own n hn

/-- C42 (partial: names without confusion, `keep_open=True`): each output merges exactly the spectra named after it, in listing
order; these are deleted once the output is written; if merging fails they are kept; and nothing else is touched. Missing: names that contain each other, and `keep_open=False`; the claim is false of the code for both. -/
theorem C42_merges_own_names_partial (base : Str → Str) (comb : List V → Option V) (write : V → Bool) (overwrite : Bool)
    (d : Dict Str V) (hc : NoConfusion base d.keys) :
    ∃ r, combineGroup true base comb write overwrite d = some r ∧
      ∀ x, (x ∉ d.keys.map base → x ∉ d.keys → r.get x = none) ∧
        (∀ b, b ∈ d.keys.map base → (x = b ∨ (x ∈ d.keys ∧ base x = b)) →
          r.get x = match output base comb overwrite d b with
            | none => d.get x
            | some v => if write v then (if x = b then some v else none) else (if x = b then none else d.get x)) := by
  refine ⟨_, rfl, ?_⟩
  have hbb : ∀ b, b ∈ d.keys.map base → b ∈ d.keys → base b = b := by
    intro b hb hbk
    obtain ⟨m, hm, rfl⟩ := List.mem_map.1 hb
    exact hc.other m hm _ hbk (List.infix_refl _)
  -- one step
  have hstep : ∀ (e : Dict Str V) (b : Str), b ∈ d.keys.map base →
      (∀ n ∈ d.keys, base n = b → e.get n = d.get n) →
      ∀ x, Dict.get (mergeStep comb write overwrite d.keys e b) x =
        if x = b ∨ (x ∈ d.keys ∧ base x = b) then
          (match output base comb overwrite d b with
            | none => e.get x
            | some v => if write v then (if x = b then some v else none) else (if x = b then none else e.get x))
        else e.get x := by
    intro e b hb hsame x
    unfold mergeStep output
    by_cases hskip : b ∈ d.keys ∧ overwrite = false
    · rw [if_pos hskip, if_pos hskip]
      split <;> rfl
    · rw [if_neg hskip, if_neg hskip, toMerge_eq hc hb, ← merged_eq base comb d b hb]
      have hm : merged comb e (d.keys.filter (fun n => decide (base n = b))) =
          merged comb d (d.keys.filter (fun n => decide (base n = b))) := by
        unfold merged
        rw [mapM_congr (d := e) (e := d) (fun n hn => by
          obtain ⟨h1, h2⟩ := List.mem_filter.1 hn
          exact hsame n h1 (by simpa using h2))]
      rw [hm]
      cases merged comb d (d.keys.filter (fun n => decide (base n = b))) with
      | none => simp only []; split <;> rfl
      | some v =>
        simp only []
        by_cases hw : write v = true
        · rw [if_pos hw, get_foldl_del, get_set]
          simp only [hw, if_true, List.mem_filter, decide_eq_true_eq]
          by_cases hxb : x = b
          · subst hxb; simp
          · by_cases hx : x ∈ d.keys ∧ base x = b
            · simp [hx, hxb]
            · rw [if_neg (fun h => hx h.1), if_neg (Ne.symm hxb), if_neg (by rintro (h | h); exact hxb h; exact hx h)]
        · rw [if_neg hw, get_del]
          simp only [hw]
          by_cases hxb : x = b
          · subst hxb; simp
          · simp [hxb]
  -- the fold
  have hfold : ∀ (bs : List Str) (e : Dict Str V), bs.Nodup → (∀ b ∈ bs, b ∈ d.keys.map base) →
      (∀ b ∈ bs, ∀ x, (x = b ∨ (x ∈ d.keys ∧ base x = b)) → e.get x = d.get x) →
      ∀ x, (∀ b ∈ bs, ¬ (x = b ∨ (x ∈ d.keys ∧ base x = b))) → Dict.get (bs.foldl (mergeStep comb write overwrite d.keys) e) x = e.get x := by
    intro bs
    induction bs with
    | nil => intro e _ _ _ x _; rfl
    | cons b bs ih =>
      intro e hn hb hs x hx
      rw [List.foldl_cons]
      have hst := hstep e b (hb b List.mem_cons_self) (fun n hn hbn => hs b List.mem_cons_self n (Or.inr ⟨hn, hbn⟩))
      have hdis : ∀ b' ∈ bs, ∀ y, (y = b' ∨ (y ∈ d.keys ∧ base y = b')) → ¬ (y = b ∨ (y ∈ d.keys ∧ base y = b)) := by
        intro b' hb' y hy hy2
        have hne : b ≠ b' := fun h => (List.nodup_cons.1 hn).1 (h ▸ hb')
        rcases hy with rfl | ⟨h1, rfl⟩
        · rcases hy2 with h | ⟨h1, h2⟩
          · exact hne h.symm
          · rw [hbb y (hb y (List.mem_cons_of_mem _ hb')) h1] at h2; exact hne h2.symm
        · rcases hy2 with rfl | ⟨_, h2⟩
          · rw [hbb y (hb y List.mem_cons_self) h1] at hne; exact hne rfl
          · exact hne h2.symm
      rw [ih _ (List.nodup_cons.1 hn).2 (fun b' hb' => hb b' (List.mem_cons_of_mem _ hb')) ?_ x
        (fun b' hb' => hx b' (List.mem_cons_of_mem _ hb'))]
      · rw [hst x, if_neg (hx b List.mem_cons_self)]
      · intro b' hb' y hy
        rw [hst y, if_neg (hdis b' hb' y hy)]
        exact hs b' (List.mem_cons_of_mem _ hb') y hy
  -- split the fold at b
  have hmain : ∀ (bs : List Str) (e : Dict Str V), bs.Nodup → (∀ b ∈ bs, b ∈ d.keys.map base) →
      (∀ b ∈ bs, ∀ x, (x = b ∨ (x ∈ d.keys ∧ base x = b)) → e.get x = d.get x) →
      ∀ b ∈ bs, ∀ x, (x = b ∨ (x ∈ d.keys ∧ base x = b)) → Dict.get (bs.foldl (mergeStep comb write overwrite d.keys) e) x =
        match output base comb overwrite d b with
            | none => d.get x
            | some v => if write v then (if x = b then some v else none) else (if x = b then none else d.get x) := by
    intro bs
    induction bs with
    | nil => intro e _ _ _ b hb; cases hb
    | cons c bs ih =>
      intro e hn hb hs b hbm x hx
      rw [List.foldl_cons]
      have hst := hstep e c (hb c List.mem_cons_self) (fun n hn hbn => hs c List.mem_cons_self n (Or.inr ⟨hn, hbn⟩))
      have hdis : ∀ b' ∈ bs, ∀ y, (y = b' ∨ (y ∈ d.keys ∧ base y = b')) → ¬ (y = c ∨ (y ∈ d.keys ∧ base y = c)) := by
        intro b' hb' y hy hy2
        have hne : c ≠ b' := fun h => (List.nodup_cons.1 hn).1 (h ▸ hb')
        rcases hy with rfl | ⟨h1, rfl⟩
        · rcases hy2 with h | ⟨h1, h2⟩
          · exact hne h.symm
          · rw [hbb y (hb y (List.mem_cons_of_mem _ hb')) h1] at h2; exact hne h2.symm
        · rcases hy2 with rfl | ⟨_, h2⟩
          · rw [hbb y (hb y List.mem_cons_self) h1] at hne; exact hne rfl
          · exact hne h2.symm
      have hs' : ∀ b' ∈ bs, ∀ y, (y = b' ∨ (y ∈ d.keys ∧ base y = b')) →
          Dict.get (mergeStep comb write overwrite d.keys e c) y = d.get y := by
        intro b' hb' y hy
        rw [hst y, if_neg (hdis b' hb' y hy)]
        exact hs b' (List.mem_cons_of_mem _ hb') y hy
      rcases List.mem_cons.1 hbm with rfl | hbm
      · rw [hfold bs _ (List.nodup_cons.1 hn).2 (fun b' hb' => hb b' (List.mem_cons_of_mem _ hb')) hs' x
          (fun b' hb' hx' => hdis b' hb' x hx' hx)]
        rw [hst x, if_pos hx, hs b List.mem_cons_self x hx]
      · exact ih _ (List.nodup_cons.1 hn).2 (fun b' hb' => hb b' (List.mem_cons_of_mem _ hb')) hs' b hbm x hx
  intro x
  constructor
  · intro hx1 hx2
    rw [hfold (uniqueSpectra base d.keys) d (uniq_nodup _) (fun b hb => (mem_uniq _ _).1 hb) (fun _ _ _ _ => rfl) x ?_]
    · exact (get_eq_none_iff d x).2 hx2
    · rintro b hb (rfl | ⟨h, _⟩)
      · exact hx1 ((mem_uniq _ _).1 hb)
      · exact hx2 h
  · intro b hb hx
    exact hmain (uniqueSpectra base d.keys) d (uniq_nodup _) (fun b hb => (mem_uniq _ _).1 hb) (fun _ _ _ _ => rfl) b
      ((mem_uniq _ _).2 hb) x hx

/-- The default naming. -/
def stdBase : Str → Str := baseName "_x_".toList "_".toList

/-- C42 counterexample: the spectra of the pair `a, bc` are merged into the output of the pair `a, b`, and deleted. Objects are
lists of numbers, `comb` concatenates. -/
theorem C42_counterexample : combineGroup true
      (fun s => if s = "a_x_b_1".toList then "a_x_b".toList else "a_x_bc".toList) (fun vs : List (List Nat) => some vs.flatten)
      (fun _ => true) false [("a_x_b_1".toList, [1]), ("a_x_bc_1".toList, [2])] = some [("a_x_b".toList, [1, 2])] ∧
    stdBase "a_x_b_1".toList = "a_x_b".toList ∧ stdBase "a_x_bc_1".toList = "a_x_bc".toList := by
  refine ⟨by decide +kernel, ?_, ?_⟩
  · exact C42_output_name ['a'] ['b'] ['_', '1'] (by unfold Plain; decide) (by unfold Plain; decide) (Or.inr ⟨_, rfl⟩)
  · exact C42_output_name ['a'] ['b', 'c'] ['_', '1'] (by unfold Plain; decide) (by unfold Plain; decide) (Or.inr ⟨_, rfl⟩)

/-- C42 finding: with `keep_open=False` the function always raises (the handle is `None` after `psc.groups()`). -/
theorem C42_finding_keep_open_false (base : Str → Str) (comb : List V → Option V) (write : V → Bool) (ow : Bool) (d : Dict Str V) :
    combineGroup false base comb write ow d = none := rfl

/-- Non-vacuity: two pairs of two spectra each, without confusion. -/
example : NoConfusion (fun s => s.take 5) ["a_x_b_1".toList, "a_x_b_2".toList, "a_x_c_1".toList, "a_x_c_2".toList] :=
  ⟨by simp only [← contains_iff]; decide +kernel, by simp only [← contains_iff]; decide +kernel⟩
example : combineGroup true (fun s => s.take 5) (fun vs : List (List Nat) => some vs.flatten) (fun _ => true) false
    [("a_x_b_1".toList, [1]), ("a_x_b_2".toList, [2]), ("a_x_c_1".toList, [3])] =
    some [("a_x_b".toList, [1, 2]), ("a_x_c".toList, [3])] := by decide +kernel

end HeraPspec.CombinePsc
