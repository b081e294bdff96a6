import Verif.Model.ConfigBlps
import Mathlib.Data.List.Infix

/-! C108: `config_pspec_blpairs`. -/
namespace HeraPspec.ConfigBlps

/-! Specification. -/

/-- There are files of a polarization and group. -/
def HasFiles (glob : Str → List Str) (templates : List Str) (pol group : Str) : Prop := ∃ t ∈ templates, glob (fill t pol group) ≠ []

/-- A requested (polarization pair, group pair) whose two halves both have files. -/
def Available (glob : Str → List Str) (templates : List Str) (polPairs groupPairs : List (Str × Str)) (pp gp : Str × Str) : Prop :=
  (∃ i : ℕ, polPairs[i]? = some pp ∧ groupPairs[i]? = some gp) ∧ HasFiles glob templates pp.1 gp.1 ∧ HasFiles glob templates pp.2 gp.2

/-- Neither baseline of the pair has an excluded antenna. -/
def Allowed (xants : Option (List ℤ)) (p : Bl × Bl) : Prop :=
  ∀ x, xants = some x → ∀ a ∈ [p.1.1, p.1.2, p.2.1, p.2.2], a ∉ x

theorem mem_names (pairs : List (Str × Str)) (s : Str) : s ∈ names pairs ↔ ∃ p ∈ pairs, s = p.1 ∨ s = p.2 := by
  unfold names
  rw [(pySorted_perm _ _).mem_iff, List.mem_dedup]
  simp only [List.mem_flatMap, List.mem_cons, List.not_mem_nil, or_false]

theorem mem_combos (templates pols groups : List Str) (c : Str × Str × Str) :
    c ∈ combos templates pols groups ↔ c.1 ∈ templates ∧ c.2.1 ∈ pols ∧ c.2.2 ∈ groups := by
  obtain ⟨t, p, g⟩ := c
  unfold combos
  simp only [List.mem_flatMap, List.mem_map, Prod.mk.injEq]
  constructor
  · rintro ⟨t', h1, p', h2, g', h3, rfl, rfl, rfl⟩; exact ⟨h1, h2, h3⟩
  · rintro ⟨h1, h2, h3⟩; exact ⟨t, h1, p, h2, g, h3, rfl, rfl, rfl⟩

theorem search_polGrps (glob : Str → List Str) (l : List (Str × Str × Str)) (st : Found) (x : Str × Str) :
    x ∈ (l.foldl (step glob) st).polGrps ↔ x ∈ st.polGrps ∨ ∃ t, (t, x) ∈ l ∧ glob (fill t x.1 x.2) ≠ [] := by
  induction l generalizing st with
  | nil => simp
  | cons c l ih =>
    rw [List.foldl_cons, ih]
    obtain ⟨t, p⟩ := c
    have hstep : x ∈ (step glob st (t, p)).polGrps ↔ x ∈ st.polGrps ∨ (x = p ∧ glob (fill t p.1 p.2) ≠ []) := by
      unfold step
      simp only
      by_cases hg : glob (fill t p.1 p.2) = []
      · simp [hg]
      · rw [if_pos (List.length_pos_of_ne_nil hg)]
        simp [hg]
    rw [hstep]
    simp only [List.mem_cons, Prod.mk.injEq]
    constructor
    · rintro ((h | ⟨rfl, h⟩) | ⟨t', h1, h2⟩)
      · exact .inl h
      · exact .inr ⟨t, .inl ⟨rfl, rfl⟩, h⟩
      · exact .inr ⟨t', .inr h1, h2⟩
    · rintro (h | ⟨t', ⟨rfl, rfl⟩ | h1, h2⟩)
      · exact .inl (.inl h)
      · exact .inl (.inr ⟨rfl, h2⟩)
      · exact .inr ⟨t', h1, h2⟩

theorem search_mem (glob : Str → List Str) (templates : List Str) (polPairs groupPairs : List (Str × Str)) (p g : Str)
    (hp : p ∈ names polPairs) (hg : g ∈ names groupPairs) :
    (p, g) ∈ (search glob templates (names polPairs) (names groupPairs)).polGrps ↔ HasFiles glob templates p g := by
  unfold search HasFiles
  rw [search_polGrps]
  simp only [List.not_mem_nil, false_or, mem_combos]
  constructor
  · rintro ⟨t, ⟨h1, _, _⟩, h2⟩; exact ⟨t, h1, h2⟩
  · rintro ⟨t, h1, h2⟩; exact ⟨t, ⟨h1, hp, hg⟩, h2⟩

theorem groupings_get (polGrps : List (Str × Str)) (blps : List (Bl × Bl)) (l : List ((Str × Str) × (Str × Str))) (k : (Str × Str) × (Str × Str)) :
    Dict.get (groupings polGrps blps l) k =
      if (k.2, k.1) ∈ l ∧ (k.2.1, k.1.1) ∈ polGrps ∧ (k.2.2, k.1.2) ∈ polGrps then some blps else none := by
  unfold groupings
  suffices h : ∀ d : Dict ((Str × Str) × (Str × Str)) (List (Bl × Bl)),
      Dict.get (l.foldl (fun d x => if (x.1.1, x.2.1) ∉ polGrps ∨ (x.1.2, x.2.2) ∉ polGrps then d else Dict.set d (x.2, x.1) blps) d) k =
        if (k.2, k.1) ∈ l ∧ (k.2.1, k.1.1) ∈ polGrps ∧ (k.2.2, k.1.2) ∈ polGrps then some blps else Dict.get d k by
    rw [h]; rfl
  induction l with
  | nil => intro d; simp
  | cons x l ih =>
    intro d
    rw [List.foldl_cons, ih]
    obtain ⟨pp, gp⟩ := x
    obtain ⟨kg, kp⟩ := k
    simp only [List.mem_cons, Prod.mk.injEq]
    by_cases hl : (kp, kg) ∈ l ∧ (kp.1, kg.1) ∈ polGrps ∧ (kp.2, kg.2) ∈ polGrps
    · rw [if_pos hl, if_pos ⟨.inr hl.1, hl.2⟩]
    · rw [if_neg hl]
      by_cases hx : kp = pp ∧ kg = gp
      · obtain ⟨rfl, rfl⟩ := hx
        by_cases hm : (kp.1, kg.1) ∈ polGrps ∧ (kp.2, kg.2) ∈ polGrps
        · rw [if_neg (by tauto), Dict.get_set, if_pos rfl, if_pos ⟨.inl ⟨rfl, rfl⟩, hm⟩]
        · rw [if_pos (by tauto), if_neg (by tauto)]
      · have hne : ¬ ((gp, pp) = (kg, kp)) := by
          rintro h
          simp only [Prod.mk.injEq] at h
          exact hx ⟨h.2.symm, h.1.symm⟩
        rw [if_neg (c := (kp = pp ∧ kg = gp ∨ (kp, kg) ∈ l) ∧ _) (by tauto)]
        split
        · rfl
        · rw [Dict.get_set, if_neg hne]

private theorem finish_dict {reds : Str → Option (List (Bl × Bl))} {xants : Option (List ℤ)} {files : List Str} {pg : List (Str × Str)}
    {l : List ((Str × Str) × (Str × Str))} {d : Dict ((Str × Str) × (Str × Str)) (List (Bl × Bl))}
    (h : finish reds xants files pg l = .ok (.dict d)) :
    ∃ f fs g gs blps, files = f :: fs ∧ pg = g :: gs ∧ reds (fill f g.1 g.2) = some blps ∧ d = groupings pg (cutAnts xants blps) l := by
  unfold finish at h
  match files, pg with
  | [], _ => cases h
  | _ :: _, [] => cases h
  | f :: fs, g :: gs =>
    simp only at h
    cases hr : reds (fill f g.1 g.2) with
    | none => rw [hr] at h; cases h
    | some blps =>
      rw [hr] at h
      simp only [Except.ok.injEq, Res.dict.injEq] at h
      exact ⟨f, fs, g, gs, blps, rfl, rfl, hr, h.symm⟩

private theorem config_dict {glob : Str → List Str} {reds : Str → Option (List (Bl × Bl))} {templates : List Str}
    {polPairs groupPairs : List (Str × Str)} {xants : Option (List ℤ)} {patterns : Option (List Str)}
    {d : Dict ((Str × Str) × (Str × Str)) (List (Bl × Bl))} (h : config glob reds templates polPairs groupPairs xants patterns = .ok (.dict d)) :
    polPairs.length = groupPairs.length ∧ ∃ files blps f, reds f = some blps ∧ files ≠ [] ∧
      finish reds xants files (search glob templates (names polPairs) (names groupPairs)).polGrps (polPairs.zip groupPairs) = .ok (.dict d) ∧
      d = groupings (search glob templates (names polPairs) (names groupPairs)).polGrps (cutAnts xants blps) (polPairs.zip groupPairs) := by
  unfold config at h
  by_cases hl : polPairs.length ≠ groupPairs.length
  · rw [if_pos hl] at h; cases h
  rw [if_neg hl] at h
  refine ⟨not_not.1 hl, ?_⟩
  have key : ∀ files, finish reds xants files (search glob templates (names polPairs) (names groupPairs)).polGrps (polPairs.zip groupPairs) = .ok (.dict d) →
      ∃ files blps f, reds f = some blps ∧ files ≠ [] ∧
      finish reds xants files (search glob templates (names polPairs) (names groupPairs)).polGrps (polPairs.zip groupPairs) = .ok (.dict d) ∧
      d = groupings (search glob templates (names polPairs) (names groupPairs)).polGrps (cutAnts xants blps) (polPairs.zip groupPairs) := by
    intro files hf
    obtain ⟨f, fs, g, gs, blps, h1, h2, h3, h4⟩ := finish_dict hf
    exact ⟨files, blps, _, h3, by rw [h1]; simp, hf, h4⟩
  cases patterns with
  | none => exact key _ h
  | some ps =>
    simp only at h
    split_ifs at h with hc
    · cases h
    · exact key _ h

/-- **C108** (partial). In the dictionary returned, the keys are exactly the requested (group pair, polarization pair) combinations whose two
halves both have files, and every key has the same list of baseline-pairs: those found from the antennas of one file, in order, without
the pairs that contain an excluded antenna.

Missing: `exclude_patterns` does not do what it says (`C108_finding_patterns`), and the file the antennas are read from may not exist
(`C108_counterexample_missing_file`). -/
theorem C108_groupings_partial (glob : Str → List Str) (reds : Str → Option (List (Bl × Bl))) (templates : List Str)
    (polPairs groupPairs : List (Str × Str)) (xants : Option (List ℤ)) (patterns : Option (List Str))
    (d : Dict ((Str × Str) × (Str × Str)) (List (Bl × Bl))) (h : config glob reds templates polPairs groupPairs xants patterns = .ok (.dict d)) :
    ∃ f all blps, reds f = some all ∧ blps.Sublist all ∧ (∀ p, p ∈ blps ↔ p ∈ all ∧ Allowed xants p) ∧
      ∀ pp gp, (Available glob templates polPairs groupPairs pp gp → Dict.get d (gp, pp) = some blps) ∧
        (¬ Available glob templates polPairs groupPairs pp gp → Dict.get d (gp, pp) = none) := by
  obtain ⟨hl, files, all, f, h1, h2, _, rfl⟩ := config_dict h
  refine ⟨f, all, cutAnts xants all, h1, ?_, ?_, ?_⟩
  · unfold cutAnts
    cases xants with
    | none => exact List.Sublist.refl _
    | some x => exact List.filter_sublist
  · intro p
    unfold cutAnts Allowed
    cases xants with
    | none => simp
    | some x =>
      simp only [List.mem_filter, decide_eq_true_eq, Option.some.injEq, forall_eq', List.mem_cons, List.not_mem_nil, or_false]
      constructor
      · rintro ⟨ha, h1, h2, h3, h4⟩
        refine ⟨ha, ?_⟩
        rintro a (rfl | rfl | rfl | rfl) <;> assumption
      · rintro ⟨ha, hall⟩
        exact ⟨ha, hall _ (.inl rfl), hall _ (.inr (.inl rfl)), hall _ (.inr (.inr (.inl rfl))), hall _ (.inr (.inr (.inr rfl)))⟩
  · intro pp gp
    rw [groupings_get]
    have hz : (pp, gp) ∈ polPairs.zip groupPairs ↔ ∃ i : ℕ, polPairs[i]? = some pp ∧ groupPairs[i]? = some gp := by
      rw [List.mem_iff_getElem?]
      simp only [List.getElem?_zip_eq_some]
    have hcond : ((pp, gp) ∈ polPairs.zip groupPairs ∧ (pp.1, gp.1) ∈ (search glob templates (names polPairs) (names groupPairs)).polGrps ∧
        (pp.2, gp.2) ∈ (search glob templates (names polPairs) (names groupPairs)).polGrps) ↔ Available glob templates polPairs groupPairs pp gp := by
      unfold Available
      rw [← hz]
      constructor
      · rintro ⟨hm, ha, hb⟩
        have m1 := (List.of_mem_zip hm).1
        have m2 := (List.of_mem_zip hm).2
        rw [search_mem _ _ _ _ _ _ ((mem_names _ _).2 ⟨pp, m1, .inl rfl⟩) ((mem_names _ _).2 ⟨gp, m2, .inl rfl⟩)] at ha
        rw [search_mem _ _ _ _ _ _ ((mem_names _ _).2 ⟨pp, m1, .inr rfl⟩) ((mem_names _ _).2 ⟨gp, m2, .inr rfl⟩)] at hb
        exact ⟨hm, ha, hb⟩
      · rintro ⟨hm, ha, hb⟩
        have m1 := (List.of_mem_zip hm).1
        have m2 := (List.of_mem_zip hm).2
        rw [← search_mem _ _ _ _ _ _ ((mem_names _ _).2 ⟨pp, m1, .inl rfl⟩) ((mem_names _ _).2 ⟨gp, m2, .inl rfl⟩)] at ha
        rw [← search_mem _ _ _ _ _ _ ((mem_names _ _).2 ⟨pp, m1, .inr rfl⟩) ((mem_names _ _).2 ⟨gp, m2, .inr rfl⟩)] at hb
        exact ⟨hm, ha, hb⟩
    constructor
    · intro ha; rw [if_pos (hcond.2 ha)]
    · intro ha; rw [if_neg (fun hc => ha (hcond.1 hc))]

/-- Lists of different lengths are refused. -/
theorem C108_lengths (glob : Str → List Str) (reds : Str → Option (List (Bl × Bl))) (templates : List Str)
    (polPairs groupPairs : List (Str × Str)) (xants : Option (List ℤ)) (patterns : Option (List Str)) (h : polPairs.length ≠ groupPairs.length) :
    config glob reds templates polPairs groupPairs xants patterns = .error .assertion := by
  unfold config
  rw [if_pos h]

theorem addNew_nodup {l : List Str} (h : l.Nodup) (f : Str) : (addNew l f).Nodup := by
  unfold addNew
  split
  · exact h
  · rename_i hf
    rw [List.nodup_append]
    refine ⟨h, by simp, ?_⟩
    intro a ha b hb
    simp only [List.mem_cons, List.not_mem_nil, or_false] at hb
    rintro rfl
    subst hb
    exact hf ha

theorem search_nodup (glob : Str → List Str) (templates pols groups : List Str) : (search glob templates pols groups).files.Nodup := by
  unfold search
  suffices h : ∀ (l : List (Str × Str × Str)) (st : Found), st.files.Nodup → (l.foldl (step glob) st).files.Nodup from h _ _ (by simp)
  intro l
  induction l with
  | nil => intro st h; exact h
  | cons c l ih =>
    intro st h
    rw [List.foldl_cons]
    apply ih
    unfold step
    simp only
    generalize glob (fill c.1 c.2.1 c.2.2) = g
    induction g generalizing st with
    | nil => exact h
    | cons x g ihg =>
      rw [List.foldl_cons]
      exact ihg ⟨addNew st.files (unfill x c.2.1 c.2.2), st.polGrps⟩ (addNew_nodup h _)

theorem contains_iff (pattern f : Str) : contains pattern f = true ↔ pattern <:+: f := by
  unfold contains
  rw [List.any_eq_true]
  simp only [List.mem_tails, List.isPrefixOf_iff_prefix]
  rw [List.infix_iff_prefix_suffix]
  constructor
  · rintro ⟨t, h1, h2⟩; exact ⟨t, h2, h1⟩
  · rintro ⟨t, h1, h2⟩; exact ⟨t, h2, h1⟩

theorem mem_addNew (l : List Str) (f x : Str) : x ∈ addNew l f ↔ x ∈ l ∨ x = f := by
  unfold addNew
  split
  · rename_i h
    constructor
    · exact .inl
    · rintro (h' | rfl) <;> assumption
  · simp

theorem search_files (glob : Str → List Str) (l : List (Str × Str × Str)) (st : Found) (x : Str) :
    x ∈ (l.foldl (step glob) st).files ↔ x ∈ st.files ∨ ∃ c ∈ l, ∃ f ∈ glob (fill c.1 c.2.1 c.2.2), x = unfill f c.2.1 c.2.2 := by
  induction l generalizing st with
  | nil => simp
  | cons c l ih =>
    rw [List.foldl_cons, ih]
    have hstep : x ∈ (step glob st c).files ↔ x ∈ st.files ∨ ∃ f ∈ glob (fill c.1 c.2.1 c.2.2), x = unfill f c.2.1 c.2.2 := by
      unfold step
      simp only
      generalize glob (fill c.1 c.2.1 c.2.2) = g
      generalize st.files = fs
      induction g generalizing fs with
      | nil => simp
      | cons y g ihg =>
        rw [List.foldl_cons, ihg, mem_addNew]
        simp only [List.mem_cons, exists_eq_or_imp]
        tauto
    rw [hstep]
    simp only [List.mem_cons, exists_eq_or_imp, or_assoc]

/-- A file name with its polarization and group fields replaced by `{pol}` and `{group}`: what the patterns are compared with. -/
def Listed (glob : Str → List Str) (templates : List Str) (polPairs groupPairs : List (Str × Str)) (x : Str) : Prop :=
  ∃ t ∈ templates, ∃ pp ∈ polPairs, ∃ gp ∈ groupPairs, ∃ p ∈ [pp.1, pp.2], ∃ g ∈ [gp.1, gp.2], ∃ f ∈ glob (fill t p g), x = unfill f p g

theorem search_listed (glob : Str → List Str) (templates : List Str) (polPairs groupPairs : List (Str × Str)) (x : Str) :
    x ∈ (search glob templates (names polPairs) (names groupPairs)).files ↔ Listed glob templates polPairs groupPairs x := by
  unfold search Listed
  rw [search_files]
  simp only [List.not_mem_nil, false_or, mem_combos]
  constructor
  · rintro ⟨⟨t, p, g⟩, ⟨h1, h2, h3⟩, f, hf, hx⟩
    obtain ⟨pp, hpp, hp⟩ := (mem_names _ _).1 h2
    obtain ⟨gp, hgp, hg⟩ := (mem_names _ _).1 h3
    exact ⟨t, h1, pp, hpp, gp, hgp, p, by simpa using hp, g, by simpa using hg, f, hf, hx⟩
  · rintro ⟨t, h1, pp, hpp, gp, hgp, p, hp, g, hg, f, hf, hx⟩
    exact ⟨(t, p, g), ⟨h1, (mem_names _ _).2 ⟨pp, hpp, by simpa using hp⟩, (mem_names _ _).2 ⟨gp, hgp, by simpa using hg⟩⟩, f, hf, hx⟩

theorem mem_toExclude (patterns files : List Str) (f : Str) : f ∈ toExclude patterns files ↔ f ∈ files ∧ ∃ p ∈ patterns, contains p f = true := by
  unfold toExclude
  simp only [List.mem_flatMap, List.mem_map, List.mem_filter]
  constructor
  · rintro ⟨a, ha, p, ⟨hp, hc⟩, rfl⟩; exact ⟨ha, p, hp, hc⟩
  · rintro ⟨ha, p, hp, hc⟩; exact ⟨f, ha, p, ⟨hp, hc⟩, rfl⟩

/-- What the exclusion keeps, of files listed once each: exactly the file templates that contain no pattern. -/
theorem mem_exclude (patterns files : List Str) (hn : files.Nodup) (f : Str) :
    f ∈ exclude patterns files ↔ f ∈ files ∧ ∀ p ∈ patterns, contains p f = false := by
  have main : ∀ (ex l : List Str), l.Nodup → (f ∈ ex.foldl (fun l f => l.erase f) l ↔ f ∈ l ∧ f ∉ ex) := by
    intro ex
    induction ex with
    | nil => intro l _; simp
    | cons x ex ih =>
      intro l hl
      rw [List.foldl_cons, ih _ (hl.erase _), hl.mem_erase_iff]
      simp only [List.mem_cons, not_or]
      tauto
  unfold exclude
  rw [main _ _ hn, mem_toExclude]
  constructor
  · rintro ⟨h1, h2⟩
    refine ⟨h1, fun p hp => ?_⟩
    by_contra hc
    exact h2 ⟨h1, p, hp, by simpa using hc⟩
  · rintro ⟨h1, h2⟩
    refine ⟨h1, ?_⟩
    rintro ⟨_, p, hp, hc⟩
    rw [h2 p hp] at hc
    cases hc

/-- Without patterns, no files at all is an IndexError; with patterns, no remaining file is the empty list (not a dictionary). -/
theorem C108_nothing_left (glob : Str → List Str) (reds : Str → Option (List (Bl × Bl))) (templates : List Str)
    (polPairs groupPairs : List (Str × Str)) (xants : Option (List ℤ)) (hl : polPairs.length = groupPairs.length)
    (hg : ∀ s, glob s = []) :
    config glob reds templates polPairs groupPairs xants none = .error .index ∧
    ∀ ps, config glob reds templates polPairs groupPairs xants (some ps) = .ok .emptyList := by
  have hs : ∀ (l : List (Str × Str × Str)) (st : Found), (l.foldl (step glob) st) = st := by
    intro l
    induction l with
    | nil => intro st; rfl
    | cons c l ih => intro st; rw [List.foldl_cons, ih]; unfold step; simp [hg]
  unfold config search
  rw [hs]
  constructor
  · rw [if_neg (by rw [hl]; simp)]; rfl
  · intro ps; rw [if_neg (by rw [hl]; simp)]; simp only; rw [if_pos (by cases ps <;> rfl)]

private theorem all_excluded (glob : Str → List Str) (reds : Str → Option (List (Bl × Bl))) (templates : List Str)
    (polPairs groupPairs : List (Str × Str)) (xants : Option (List ℤ)) (ps : List Str) (hl : polPairs.length = groupPairs.length) :
    config glob reds templates polPairs groupPairs xants (some ps) = .ok .emptyList ↔
      ∀ f ∈ (search glob templates (names polPairs) (names groupPairs)).files, ∃ p ∈ ps, contains p f = true := by
  unfold config
  rw [if_neg (by rw [hl]; simp)]
  simp only
  have hperm := pySorted_perm strLe (search glob templates (names polPairs) (names groupPairs)).files
  have hn := (hperm.nodup_iff).2 (search_nodup glob templates (names polPairs) (names groupPairs))
  have hnil : (exclude ps (pySorted strLe (search glob templates (names polPairs) (names groupPairs)).files)).length = 0 ↔
      ∀ f ∈ (search glob templates (names polPairs) (names groupPairs)).files, ∃ p ∈ ps, contains p f = true := by
    rw [List.length_eq_zero_iff, List.eq_nil_iff_forall_not_mem]
    constructor
    · intro h f hf
      by_contra hc
      push Not at hc
      exact h f ((mem_exclude _ _ hn _).2 ⟨hperm.mem_iff.2 hf, fun p hp => by simpa using hc p hp⟩)
    · intro h f hf
      obtain ⟨h1, h2⟩ := (mem_exclude _ _ hn _).1 hf
      obtain ⟨p, hp, hc⟩ := h f (hperm.mem_iff.1 h1)
      rw [h2 p hp] at hc
      cases hc
  by_cases he : (exclude ps (pySorted strLe (search glob templates (names polPairs) (names groupPairs)).files)).length = 0
  · rw [if_pos he]
    exact ⟨fun _ => hnil.1 he, fun _ => rfl⟩
  · rw [if_neg he]
    constructor
    · intro h
      exfalso
      unfold finish at h
      split at h
      · split at h <;> cases h
      · cases h
    · intro h
      exact absurd (hnil.2 h) he

/-- With patterns, the result is the empty list exactly when every file name (with its fields replaced by `{pol}` and `{group}`) contains a pattern. -/
theorem C108_all_excluded (glob : Str → List Str) (reds : Str → Option (List (Bl × Bl))) (templates : List Str)
    (polPairs groupPairs : List (Str × Str)) (xants : Option (List ℤ)) (ps : List Str) (hl : polPairs.length = groupPairs.length) :
    config glob reds templates polPairs groupPairs xants (some ps) = .ok .emptyList ↔
      ∀ x, Listed glob templates polPairs groupPairs x → ∃ p ∈ ps, p <:+: x := by
  rw [all_excluded _ _ _ _ _ _ _ hl]
  simp only [search_listed, contains_iff]

/-- Finding: patterns never remove a combination: as long as some file remains, the keys are the same with and without patterns, even for
combinations all of whose files match a pattern. -/
theorem C108_finding_patterns (glob : Str → List Str) (reds : Str → Option (List (Bl × Bl))) (templates : List Str)
    (polPairs groupPairs : List (Str × Str)) (xants : Option (List ℤ)) (ps : List Str) (d d' : Dict ((Str × Str) × (Str × Str)) (List (Bl × Bl)))
    (h : config glob reds templates polPairs groupPairs xants (some ps) = .ok (.dict d))
    (h' : config glob reds templates polPairs groupPairs xants none = .ok (.dict d')) (k : (Str × Str) × (Str × Str)) :
    (Dict.get d k).isSome = (Dict.get d' k).isSome := by
  obtain ⟨_, _, _, _, _, _, _, e1⟩ := config_dict h
  obtain ⟨_, _, _, _, _, _, _, e2⟩ := config_dict h'
  rw [e1, e2, groupings_get, groupings_get]
  split <;> rfl

/-! Concrete cases. Two groups, one polarization. -/

/-- Files `z.even.xx.uv` and `z.odd.xx.uv`, matched literally. -/
def exGlob (s : Str) : List Str := if s = "z.even.xx.uv".toList ∨ s = "z.odd.xx.uv".toList then [s] else []
/-- Both files can be read; three baseline-pairs. -/
def exReds (s : Str) : Option (List (Bl × Bl)) :=
  if s = "z.even.xx.uv".toList ∨ s = "z.odd.xx.uv".toList then some [((1, 2), (2, 3)), ((1, 2), (3, 4)), ((2, 3), (3, 4))] else none
/-- The template. -/
def exT : Str := "z.{group}.{pol}.uv".toList
/-- The keys and values of a result. -/
def resKeys : Except Err Res → Option (Dict ((Str × Str) × (Str × Str)) (List (Bl × Bl)))
  | .ok (.dict d) => some d
  | _ => none

/-- The hypothesis of `C108_groupings_partial` is met: one of the two requested combinations has files, and antenna 1 is excluded. -/
example : resKeys (config exGlob exReds [exT] [("xx".toList, "xx".toList), ("yy".toList, "yy".toList)] [("even".toList, "odd".toList), ("even".toList, "odd".toList)]
    (some [1]) none) = some [((("even".toList, "odd".toList), ("xx".toList, "xx".toList)), [((2, 3), (3, 4))])] := by
  rfl

/-- The documented meaning of a pattern is a substring of a file name after the template has been filled in. The pattern "even" is contained in
`z.even.xx.uv`, but nothing is excluded, since the pattern is looked for in `z.{group}.{pol}.uv`. -/
theorem C108_counterexample_pattern_in_field :
    "even".toList <:+: "z.even.xx.uv".toList ∧ exGlob "z.even.xx.uv".toList = ["z.even.xx.uv".toList] ∧
    resKeys (config exGlob exReds [exT] [("xx".toList, "xx".toList)] [("even".toList, "odd".toList)] none (some ["even".toList])) =
      resKeys (config exGlob exReds [exT] [("xx".toList, "xx".toList)] [("even".toList, "odd".toList)] none none) ∧
    (resKeys (config exGlob exReds [exT] [("xx".toList, "xx".toList)] [("even".toList, "odd".toList)] none (some ["even".toList]))).isSome := by
  exact ⟨by decide +kernel, rfl, rfl, rfl⟩

/-- Conversely the pattern "group" is in no file name and still excludes every file. -/
theorem C108_counterexample_pattern_group :
    ¬ "group".toList <:+: "z.even.xx.uv".toList ∧ ¬ "group".toList <:+: "z.odd.xx.uv".toList ∧
    config exGlob exReds [exT] [("xx".toList, "xx".toList)] [("even".toList, "odd".toList)] none (some ["group".toList]) = .ok .emptyList := by
  refine ⟨by decide +kernel, by decide +kernel, rfl⟩

/-- Files: time 1 exists for the group "odd" only, time 2 for the group "even" only. -/
def exGlob2 (s : Str) : List Str :=
  if s = "z.even.*.xx.uv".toList then ["z.even.2.xx.uv".toList] else if s = "z.odd.*.xx.uv".toList then ["z.odd.1.xx.uv".toList] else []
/-- Only those two files can be read. -/
def exReds2 (s : Str) : Option (List (Bl × Bl)) :=
  if s = "z.even.2.xx.uv".toList ∨ s = "z.odd.1.xx.uv".toList then some [((1, 2), (2, 3))] else none

/-- Every file found can be read, both halves of the requested combination have files, and the call still fails: it reads
`z.even.1.xx.uv`, which does not exist. -/
theorem C108_counterexample_missing_file :
    (∀ s f, f ∈ exGlob2 s → (exReds2 f).isSome) ∧
    config exGlob2 exReds2 ["z.{group}.*.{pol}.uv".toList] [("xx".toList, "xx".toList)] [("even".toList, "odd".toList)] none none = .error .os := by
  refine ⟨?_, rfl⟩
  intro s f hf
  unfold exGlob2 at hf
  split_ifs at hf
  · simp only [List.mem_cons, List.not_mem_nil, or_false] at hf; subst hf; decide +kernel
  · simp only [List.mem_cons, List.not_mem_nil, or_false] at hf; subst hf; decide +kernel
  · simp at hf

end HeraPspec.ConfigBlps
