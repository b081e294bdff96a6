import Verif.Lemmas.Labels
import Verif.Lemmas.MapE
import Verif.Lemmas.Combine2

/-!
C52 and C53: the collection of data sets of `PSpecData` and its keys.
-/
namespace HeraPspec.Labels
open HeraPspec.ArgParse (Str)
open HeraPspec.UVP (mapE mapE_ok_iff)
open HeraPspec.Combine (bind_ok)
variable {D C : Type}

/-- What a successful `add` does. -/
theorem add_ok {nf : D → ℕ} {cal : C → D → Option D} {s s' : St D} {d w e : Arg D} {c : Arg C} {l : LArg}
    (h : add nf cal s d w e c l = .ok s') :
    ∃ (a : Lists D C) (ds : List D) (ws ss : List (Option D)) (cs : List (Option C)) (prs : List (D × Option D)),
      toLists d w e c l = .ok a ∧ lengthsOk a = true ∧ mapE mustObj a.dsets = .ok ds ∧ mapE optObj a.wgts = .ok ws ∧
      mapE optObj a.stds = .ok ss ∧ mapE optObj a.cals = .ok cs ∧ mapE (calOne cal) ((ds.zip ss).zip cs) = .ok prs ∧
      s'.dsets = s.dsets ++ prs.map (·.1) ∧ s'.wgts = s.wgts ++ ws ∧ s'.stds = s.stds ++ prs.map (·.2) ∧
      s'.labels = relabel [] (s.labels ++ a.labels.getD (defaultLabels s.dsets.length ds.length)) ∧
      (∃ d0, s'.dsets.head? = some d0 ∧ s'.nfreqs = some (nf d0) ∧ s'.spw = some (0, nf d0)) := by
  unfold add at h
  obtain ⟨a, ha, h⟩ := bind_ok.1 h
  split at h
  · rename_i hl
    obtain ⟨ds, hds, h⟩ := bind_ok.1 h
    obtain ⟨ws, hws, h⟩ := bind_ok.1 h
    obtain ⟨ss, hss, h⟩ := bind_ok.1 h
    obtain ⟨cs, hcs, h⟩ := bind_ok.1 h
    obtain ⟨prs, hprs, h⟩ := bind_ok.1 h
    dsimp only at h
    split at h
    · cases h
    · rename_i d0 hd0
      cases h
      exact ⟨a, ds, ws, ss, cs, prs, ha, hl, hds, hws, hss, hcs, hprs, rfl, rfl, rfl, rfl, d0, hd0, rfl, rfl⟩
  · cases h

theorem add_lengths {nf : D → ℕ} {cal : C → D → Option D} {s s' : St D} {d w e : Arg D} {c : Arg C} {l : LArg}
    (h : add nf cal s d w e c l = .ok s') :
    ∃ (n : ℕ) (ls : List Str), s'.dsets.length = s.dsets.length + n ∧ s'.wgts.length = s.wgts.length + n ∧
      s'.stds.length = s.stds.length + n ∧ ls.length = n ∧ s'.labels = relabel [] (s.labels ++ ls) ∧
      s.dsets <+: s'.dsets ∧ s.wgts <+: s'.wgts ∧ s.stds <+: s'.stds := by
  obtain ⟨a, ds, ws, ss, cs, prs, -, hl, h1, h2, h3, h4, h5, h6, h7, h8, h9, -⟩ := add_ok h
  unfold lengthsOk at hl
  simp only [Bool.and_eq_true, beq_iff_eq] at hl
  obtain ⟨⟨⟨l1, l2⟩, l3⟩, l4⟩ := hl
  have k1 := mapE_length _ _ _ h1
  have k2 := mapE_length _ _ _ h2
  have k3 := mapE_length _ _ _ h3
  have k4 := mapE_length _ _ _ h4
  have k5 := mapE_length _ _ _ h5
  simp only [List.length_zip] at k5
  refine ⟨ds.length, _, ?_, ?_, ?_, ?_, h9, ?_, ?_, ?_⟩
  · rw [h6]; simp; omega
  · rw [h7]; simp; omega
  · rw [h8]; simp; omega
  · cases hla : a.labels with
    | none => simp [defaultLabels]
    | some x => rw [hla] at l4; simp at l4; simp; omega
  · rw [h6]; exact List.prefix_append _ _
  · rw [h7]; exact List.prefix_append _ _
  · rw [h8]; exact List.prefix_append _ _

/-- The collection is consistent: one weight, error and label per data set, and no two labels alike. -/
structure Consistent (s : St D) : Prop where
  wgts : s.wgts.length = s.dsets.length
  stds : s.stds.length = s.dsets.length
  labels : s.labels.length = s.dsets.length
  nodup : s.labels.Nodup

theorem step_consistent (nf : D → ℕ) (cal : C → D → Option D) (s : St D) (c : Call D C) (h : Consistent s)
    (hn : (step nf cal s c).dsets.length ≤ 99999) :
    Consistent (step nf cal s c) ∧ s.labels <+: (step nf cal s c).labels ∧ s.dsets <+: (step nf cal s c).dsets ∧
      s.wgts <+: (step nf cal s c).wgts ∧ s.stds <+: (step nf cal s c).stds := by
  unfold step at hn ⊢
  cases hadd : add nf cal s c.dsets c.wgts c.stds c.cals c.labels with
  | error e => simp only; exact ⟨h, List.prefix_rfl, List.prefix_rfl, List.prefix_rfl, List.prefix_rfl⟩
  | ok s' =>
    rw [hadd] at hn
    simp only at hn ⊢
    obtain ⟨n, ls, h1, h2, h3, h4, h5, h6, h7, h8⟩ := add_lengths hadd
    have hw := h.wgts
    have hs := h.stds
    have hl := h.labels
    have hd := h.nodup
    have hrel : relabel [] s.labels = s.labels := by
      have := relabel_fresh s.labels [] (by simpa using hd)
      simpa using this
    refine ⟨⟨by omega, by omega, ?_, ?_⟩, ?_, h6, h7, h8⟩
    · rw [h5, relabel_length]; simp; omega
    · rw [h5]; apply relabel_nodup _ _ (by simp); simp; omega
    · rw [h5, relabel_append, hrel]; exact relabel_prefix _ _

theorem step_mono (nf : D → ℕ) (cal : C → D → Option D) (s : St D) (c : Call D C) :
    s.dsets.length ≤ (step nf cal s c).dsets.length := by
  unfold step
  cases hadd : add nf cal s c.dsets c.wgts c.stds c.cals c.labels with
  | error e => simp
  | ok s' => obtain ⟨n, ls, h1, -⟩ := add_lengths hadd; simp only; omega

theorem run_mono (nf : D → ℕ) (cal : C → D → Option D) (cs : List (Call D C)) : ∀ s : St D,
    s.dsets.length ≤ (run nf cal s cs).dsets.length := by
  induction cs with
  | nil => intro s; simp [run]
  | cons c cs ih => intro s; exact (step_mono nf cal s c).trans (ih _)

theorem run_consistent (nf : D → ℕ) (cal : C → D → Option D) (cs : List (Call D C)) : ∀ s : St D, Consistent s →
    (run nf cal s cs).dsets.length ≤ 99999 →
    Consistent (run nf cal s cs) ∧ s.labels <+: (run nf cal s cs).labels ∧ s.dsets <+: (run nf cal s cs).dsets ∧
      s.wgts <+: (run nf cal s cs).wgts ∧ s.stds <+: (run nf cal s cs).stds := by
  induction cs with
  | nil => intro s h _; exact ⟨h, List.prefix_rfl, List.prefix_rfl, List.prefix_rfl, List.prefix_rfl⟩
  | cons c cs ih =>
    intro s h hn
    have h1 := step_consistent nf cal s c h ((run_mono nf cal cs _).trans hn)
    obtain ⟨a1, a2, a3, a4, a5⟩ := ih _ h1.1 hn
    exact ⟨a1, h1.2.1.trans a2, h1.2.2.1.trans a3, h1.2.2.2.1.trans a4, h1.2.2.2.2.trans a5⟩

theorem pref_get {α : Type} {l m : List α} (h : l <+: m) {i : ℕ} (hi : i < l.length) : m[i]? = l[i]? := by
  obtain ⟨t, rfl⟩ := h
  exact List.getElem?_append_left hi

theorem consistent_empty : Consistent (St.empty : St D) := ⟨rfl, rfl, rfl, by simp [St.empty]⟩

/-- C52. After any history of `add` calls, with any arguments and any labels, some of which may have been rejected, there is one
label, one weight and one error entry per data set, and no two labels are equal — as long as there are fewer than 100000 data
sets (the code tries 99999 names per label). -/
theorem C52_labels_unique (nf : D → ℕ) (cal : C → D → Option D) (cs : List (Call D C))
    (hn : (run nf cal St.empty cs).dsets.length ≤ 99999) :
    (run nf cal St.empty cs).labels.Nodup ∧
    (run nf cal St.empty cs).labels.length = (run nf cal St.empty cs).dsets.length ∧
    (run nf cal St.empty cs).wgts.length = (run nf cal St.empty cs).dsets.length ∧
    (run nf cal St.empty cs).stds.length = (run nf cal St.empty cs).dsets.length := by
  have h := (run_consistent nf cal cs _ consistent_empty hn).1
  exact ⟨h.nodup, h.labels, h.wgts, h.stds⟩

/-- C52. Later calls never change an earlier label, nor the data set, weights and errors that it names. -/
theorem C52_labels_stable (nf : D → ℕ) (cal : C → D → Option D) (before after : List (Call D C))
    (hn : (run nf cal St.empty (before ++ after)).dsets.length ≤ 99999) (i : ℕ)
    (hi : i < (run nf cal St.empty before).dsets.length) :
    (run nf cal St.empty (before ++ after)).labels[i]? = (run nf cal St.empty before).labels[i]? ∧
    (run nf cal St.empty (before ++ after)).dsets[i]? = (run nf cal St.empty before).dsets[i]? ∧
    (run nf cal St.empty (before ++ after)).wgts[i]? = (run nf cal St.empty before).wgts[i]? ∧
    (run nf cal St.empty (before ++ after)).stds[i]? = (run nf cal St.empty before).stds[i]? := by
  have hrun : run nf cal St.empty (before ++ after) = run nf cal (run nf cal St.empty before) after := by
    simp [run, List.foldl_append]
  have hb := (run_consistent nf cal before _ consistent_empty
    ((run_mono nf cal after _).trans (by rw [← hrun]; exact hn))).1
  have h := run_consistent nf cal after _ hb (by rw [← hrun]; exact hn)
  rw [hrun]
  have hw := hb.wgts
  have hs := hb.stds
  have hl := hb.labels
  refine ⟨?_, ?_, ?_, ?_⟩
  · exact (pref_get h.2.1 (by omega))
  · exact (pref_get h.2.2.1 (by omega))
  · exact (pref_get h.2.2.2.1 (by omega))
  · exact (pref_get h.2.2.2.2 (by omega))

/-- C52. Labels that do not collide are kept as given: if the requested labels are distinct and differ from the existing ones,
they are appended verbatim. -/
theorem C52_labels_verbatim (nf : D → ℕ) (cal : C → D → Option D) (s s' : St D) (d w e : Arg D) (c : Arg C) (ls : List Str)
    (hd : ∀ x, d ≠ .dict x) (hn : (s.labels ++ ls).Nodup) (h : add nf cal s d w e c (.list ls) = .ok s') :
    s'.labels = s.labels ++ ls := by
  obtain ⟨a, ds, ws, ss, cs, prs, ha, -, -, -, -, -, -, -, -, -, h9, -⟩ := add_ok h
  have hal : a.labels = some ls := by
    unfold toLists at ha
    split at ha
    · rename_i x; exact absurd rfl (hd x)
    · obtain ⟨_, -, ha⟩ := bind_ok.1 ha
      obtain ⟨_, -, ha⟩ := bind_ok.1 ha
      obtain ⟨_, -, ha⟩ := bind_ok.1 ha
      obtain ⟨_, -, ha⟩ := bind_ok.1 ha
      cases ha; rfl
  rw [h9, hal]
  simpa using relabel_fresh (s.labels ++ ls) [] (by simpa using hn)

/-- C52. A label that collides becomes `label.k`, with the smallest `k` that makes it new. -/
theorem C52_collision_suffix (seen : List Str) (l : Str) (hn : seen.Nodup) (hl : l ∈ seen) (hlen : seen.length < 99999) :
    ∃ k, 1 ≤ k ∧ relabel seen [l] = seen ++ [l ++ '.' :: Nat.toDigits 10 k] ∧ (l ++ '.' :: Nat.toDigits 10 k) ∉ seen ∧
      ∀ j, 1 ≤ j → j < k → (l ++ '.' :: Nat.toDigits 10 j) ∈ seen := by
  have hs := relabelOne_spec seen l 99999 0
  have hb : cand l 0 = l := rfl
  rw [hb] at hs
  rcases hs with ⟨j, -, -, h3, h4, h5⟩ | ⟨h1, -⟩
  · have hj : j ≠ 0 := by rintro rfl; exact h3 (by rw [hb]; exact hl)
    refine ⟨j, by omega, ?_, ?_, ?_⟩
    · simp only [relabel]
      rw [h5, cand, if_neg hj]
      rfl
    · rw [cand, if_neg hj] at h3; exact h3
    · intro i hi hij
      have := h4 i (Nat.zero_le _) hij
      rw [cand, if_neg (by omega)] at this
      exact this
  · obtain ⟨j, hj, hj2⟩ := exists_free seen l _ hlen
    exact absurd (h1 j (Nat.zero_le _) (by omega)) hj2

/-- C52 (the limit). Once a label and its first 99998 numbered variants are all taken, the next data set with that label keeps it,
so two data sets share a label. -/
theorem C52_finding_limit (seen : List Str) (l : Str) (hl : l ∈ seen)
    (hall : ∀ k, 1 ≤ k → k ≤ 99998 → (l ++ '.' :: Nat.toDigits 10 k) ∈ seen) :
    relabel seen [l] = seen ++ [l] ∧ ¬ (relabel seen [l]).Nodup := by
  have hs := relabelOne_spec seen l 99999 0
  have hb : cand l 0 = l := rfl
  rw [hb] at hs
  have hr : relabelOne seen l 99999 1 l = l := by
    rcases hs with ⟨j, -, h2, h3, -, h5⟩ | ⟨-, h2⟩
    · exfalso
      apply h3
      rw [cand]
      split
      · exact hl
      · exact hall j (by omega) (by omega)
    · exact h2
  have h1 : relabel seen [l] = seen ++ [l] := by simp only [relabel, hr]
  refine ⟨h1, ?_⟩
  rw [h1]
  intro hd
  exact (List.nodup_append.1 hd).2.2 l hl l (by simp) rfl

theorem mapE_map_ok {α β ε : Type} (f : α → Except ε β) (g : β → α) (h : ∀ b, f (g b) = .ok b) (l : List β) :
    mapE f (l.map g) = .ok l := by
  rw [mapE_ok_iff]
  induction l with
  | nil => exact .nil
  | cons b l ih => exact .cons (h b) ih

/-- The value put in a slot. -/
def Obj.ofOption : Option D → Obj D
  | Option.none => Obj.none
  | some d => .obj d

theorem optObj_ofOption (x : Option D) : optObj (Obj.ofOption x) = .ok x := by cases x <;> rfl

theorem cal_none (cal : C → D → Option D) (ds : List D) (ss : List (Option D)) (cs : List (Option C)) (h1 : ss.length = ds.length)
    (h2 : cs.length = ds.length) (hc : ∀ c ∈ cs, c = none) : mapE (calOne cal) ((ds.zip ss).zip cs) = .ok (ds.zip ss) := by
  rw [mapE_ok_iff]
  induction ds generalizing ss cs with
  | nil => simp
  | cons d ds ih =>
    cases ss with
    | nil => simp at h1
    | cons s ss =>
      cases cs with
      | nil => simp at h2
      | cons c cs =>
        simp only [List.zip_cons_cons]
        refine .cons ?_ (ih ss cs (by simpa using h1) (by simpa using h2) (fun c hc' => hc c (List.mem_cons_of_mem _ hc')))
        rw [hc c List.mem_cons_self]
        rfl

/-- C52. A call with lists of equal length and without calibration succeeds and appends the data sets, weights and errors in the
given order, so entry `j` of each list ends up at the same place. -/
theorem C52_add_lists (nf : D → ℕ) (cal : C → D → Option D) (s : St D) (ds : List D) (ws ss : List (Option D)) (ls : LArg)
    (hne : ds ≠ []) (hw : ws.length = ds.length) (hs : ss.length = ds.length)
    (hl : ∀ l, ls.toList = some l → l.length = ds.length) :
    ∃ s', add nf cal s (.list (ds.map .obj)) (.list (ws.map .ofOption)) (.list (ss.map .ofOption)) .none ls = .ok s' ∧
      s'.dsets = s.dsets ++ ds ∧ s'.wgts = s.wgts ++ ws ∧ s'.stds = s.stds ++ ss ∧
      s'.spw = ((s.dsets ++ ds).head?).map (fun d => (0, nf d)) := by
  have h1 : mapE mustObj (ds.map Obj.obj) = .ok ds := mapE_map_ok mustObj Obj.obj (fun _ => rfl) ds
  have h2 : mapE optObj (ws.map Obj.ofOption) = .ok ws := mapE_map_ok _ _ optObj_ofOption ws
  have h3 : mapE optObj (ss.map Obj.ofOption) = .ok ss := mapE_map_ok _ _ optObj_ofOption ss
  have h4 : mapE (optObj (D := C)) (List.replicate ds.length Obj.none) = .ok (List.replicate ds.length none) := by
    have := mapE_map_ok (optObj (D := C)) Obj.ofOption optObj_ofOption (List.replicate ds.length none)
    simpa [Obj.ofOption] using this
  have h5 := cal_none cal ds ss (List.replicate ds.length none) hs (by simp) (fun c hc => (List.mem_replicate.1 hc).2)
  have hl' : lengthsOk (⟨ds.map Obj.obj, ws.map Obj.ofOption, ss.map Obj.ofOption,
      List.replicate ds.length (Obj.none : Obj C), ls.toList⟩ : Lists D C) = true := by
    unfold lengthsOk
    cases hls : ls.toList with
    | none => simp [hw, hs]
    | some l => simp [hw, hs, hl l hls]
  have hm1 : (ds.zip ss).map (·.1) = ds := List.map_fst_zip (by omega)
  have hm2 : (ds.zip ss).map (·.2) = ss := List.map_snd_zip (by omega)
  have hhd : ∃ d0, (s.dsets ++ ds).head? = some d0 := by
    cases hq : s.dsets ++ ds with
    | nil => simp at hq; exact absurd hq.2 hne
    | cons d0 _ => exact ⟨d0, rfl⟩
  obtain ⟨d0, hd0⟩ := hhd
  refine ⟨⟨s.dsets ++ ds, s.wgts ++ ws, s.stds ++ ss,
    relabel [] (s.labels ++ ls.toList.getD (defaultLabels s.dsets.length ds.length)), some (nf d0), some (0, nf d0)⟩,
    ?_, rfl, rfl, rfl, ?_⟩
  · have ht : toLists (D := D) (C := C) (.list (ds.map Obj.obj)) (.list (ws.map .ofOption)) (.list (ss.map .ofOption)) .none ls =
        .ok ⟨ds.map Obj.obj, ws.map Obj.ofOption, ss.map Obj.ofOption, List.replicate ds.length (Obj.none : Obj C), ls.toList⟩ := by
      simp only [toLists, dsetsList, wgtsList, restList, bind, Except.bind, pure, Except.pure, List.length_map]
    simp only [add, ht, bind, Except.bind, pure, Except.pure, hl', if_true, h1, h2, h3, h4, h5, hm1, hm2, hd0]
  · simp [hd0]

theorem dictGet_mem {d : List (Str × Obj D)} (hn : (d.map (·.1)).Nodup) {k : Str} {v : Obj D} (h : (k, v) ∈ d) :
    dictGet d k = .ok v := by
  have hg := Dict.get_of_mem (d := d) hn h
  unfold Dict.get at hg
  unfold dictGet
  cases hf : d.find? (fun e => decide (e.1 = k)) with
  | none => rw [hf] at hg; cases hg
  | some e => rw [hf] at hg; simp at hg; simp only [hg]

theorem dictGet_all {d : List (Str × Obj D)} (hn : (d.map (·.1)).Nodup) : mapE (dictGet d) (d.map (·.1)) = .ok (d.map (·.2)) := by
  rw [mapE_ok_iff, List.forall₂_map_left_iff, List.forall₂_map_right_iff, List.forall₂_same]
  intro x hx
  exact dictGet_mem hn hx

/-- C52. Data sets given as a dictionary, with weights and errors given as dictionaries: the data set stored under a label is the
one the dictionary had there, and so are its weights and errors, whatever the order of the entries of the other dictionaries. -/
theorem C52_add_dict (nf : D → ℕ) (cal : C → D → Option D) (s s' : St D) (ds : List (Str × Obj D)) (ws ss : List (Str × Obj D))
    (hcons : Consistent s)
    (hn : (s.labels ++ ds.map (·.1)).Nodup) (hws : (ws.map (·.1)).Nodup) (hss : (ss.map (·.1)).Nodup)
    (h : add nf cal s (.dict ds) (.dict ws) (.dict ss) .none .none = .ok s')
    (k : Str) (d : D) (w e : Option D) (hd : (k, .obj d) ∈ ds) (hw : (k, .ofOption w) ∈ ws) (he : (k, .ofOption e) ∈ ss) :
    ∃ i : ℕ, s'.labels[i]? = some k ∧ s'.dsets[i]? = some d ∧ s'.wgts[i]? = some w ∧ s'.stds[i]? = some e := by
  obtain ⟨a, dl, wl, sl, cs, prs, ha, hlen, h1, h2, h3, h4, h5, h6, h7, h8, h9, -⟩ := add_ok h
  have hdn : (ds.map (·.1)).Nodup := (List.nodup_append.1 hn).2.1
  simp only [toLists, unpackDict, companionDict] at ha
  obtain ⟨_, hq, ha⟩ := bind_ok.1 ha; cases hq
  obtain ⟨_, hq, ha⟩ := bind_ok.1 ha; cases hq
  obtain ⟨c0, hq, ha⟩ := bind_ok.1 ha; cases hq
  obtain ⟨dl0, hdl, ha⟩ := bind_ok.1 ha
  obtain ⟨sl0, hsl, ha⟩ := bind_ok.1 ha
  obtain ⟨wl0, hwl, ha⟩ := bind_ok.1 ha
  obtain ⟨cl0, hcl, ha⟩ := bind_ok.1 ha
  cases ha
  simp only at h1 h2 h3 h4 h9
  rw [dictGet_all hdn] at hdl
  cases hdl
  obtain ⟨i, hi, hik⟩ := List.getElem_of_mem hd
  have hcs : ∀ c ∈ cs, c = none := by
    intro c hc
    rw [mapE_ok_iff] at h4 hcl
    obtain ⟨j, hj, rfl⟩ := List.getElem_of_mem hc
    have l4 := h4.length_eq
    have lc := hcl.length_eq
    have q := h4.get (i := j) (by omega) hj
    have q2 := hcl.get (i := j) (by omega) (by omega)
    simp only [List.get_eq_getElem] at q q2
    have hmem : ((ds.map (·.1))[j]'(by omega), (Obj.none : Obj C)) ∈ (ds.map (·.1)).map (fun k => (k, (Obj.none : Obj C))) :=
      List.mem_map.2 ⟨_, List.getElem_mem _, rfl⟩
    have q3 := dictGet_mem (d := (ds.map (·.1)).map (fun k => (k, (Obj.none : Obj C))))
      (by simpa [List.map_map, Function.comp_def] using hdn) hmem
    rw [q3] at q2
    rw [← Except.ok.inj q2] at q
    exact (Except.ok.inj q).symm
  have k1 := mapE_length _ _ _ h1
  have k2 := mapE_length _ _ _ h2
  have k3 := mapE_length _ _ _ h3
  have k4 := mapE_length _ _ _ h4
  have k6 := mapE_length _ _ _ hsl
  have k7 := mapE_length _ _ _ hwl
  have k8 := mapE_length _ _ _ hcl
  simp only [List.length_map] at k1 k6 k7 k8
  rw [cal_none cal dl sl cs (by omega) (by omega) hcs] at h5
  cases h5
  have hm1 : (dl.zip sl).map (·.1) = dl := List.map_fst_zip (by omega)
  have hm2 : (dl.zip sl).map (·.2) = sl := List.map_snd_zip (by omega)
  rw [hm1] at h6
  rw [hm2] at h8
  have hkey : (ds.map (·.1))[i]'(by simpa using hi) = k := by simp [hik]
  rw [mapE_ok_iff] at h1 h2 h3 hsl hwl
  have p1 := h1.get (i := i) (by simpa using hi) (by omega)
  have p2 := h2.get (i := i) (by omega) (by omega)
  have p3 := h3.get (i := i) (by omega) (by omega)
  have p4 := hsl.get (i := i) (by simpa using hi) (by omega)
  have p5 := hwl.get (i := i) (by simpa using hi) (by omega)
  simp only [List.get_eq_getElem] at p1 p2 p3 p4 p5
  rw [hkey, dictGet_mem hss he] at p4
  rw [hkey, dictGet_mem hws hw] at p5
  simp only [Except.ok.injEq] at p4 p5
  rw [← p4, optObj_ofOption] at p3
  rw [← p5, optObj_ofOption] at p2
  simp only [List.getElem_map, hik, mustObj, Except.ok.injEq] at p1 p2 p3
  have e1 := hcons.wgts
  have e2 := hcons.stds
  have e3 := hcons.labels
  have hlab : s'.labels = s.labels ++ ds.map (·.1) := by
    rw [h9]; simpa using relabel_fresh (s.labels ++ ds.map (·.1)) [] (by simpa using hn)
  refine ⟨s.dsets.length + i, ?_, ?_, ?_, ?_⟩
  · rw [hlab, List.getElem?_append_right (by omega), List.getElem?_eq_getElem (by simp; omega)]
    simp only [e3, Nat.add_sub_cancel_left, hkey]
  · rw [h6, List.getElem?_append_right (by omega), List.getElem?_eq_getElem (by omega)]
    simp only [Nat.add_sub_cancel_left, p1]
  · rw [h7, List.getElem?_append_right (by omega), List.getElem?_eq_getElem (by omega)]
    simp only [e1, Nat.add_sub_cancel_left, p2]
  · rw [h8, List.getElem?_append_right (by omega), List.getElem?_eq_getElem (by omega)]
    simp only [e2, Nat.add_sub_cancel_left, p3]

/-- C52, a concrete history: a labelled data set, a second one with the same label, a rejected call, and a default label that
collides with a given one. -/
example :
    (run (C := Unit) (fun d : ℕ => d) (fun _ d => some d) St.empty
      [⟨.single 5, .none, .none, .none, .single ['d', 's', 'e', 't', '2']⟩,
       ⟨.single 6, .none, .none, .none, .single ['d', 's', 'e', 't', '2']⟩,
       ⟨.list [.obj 1, .other], .list [.none, .none], .none, .none, .none⟩,
       ⟨.list [.obj 7, .obj 8], .list [.none, .obj 9], .none, .none, .none⟩]) =
    ⟨[5, 6, 7, 8], [none, none, none, some 9], [none, none, none, none],
     [['d', 's', 'e', 't', '2'], ['d', 's', 'e', 't', '2', '.', '1'], ['d', 's', 'e', 't', '2', '.', '2'],
      ['d', 's', 'e', 't', '3']], some 5, some (0, 5)⟩ := by decide +kernel

/-- C52_add_dict is not vacuous: dictionaries in different orders. -/
example :
    add (C := Unit) (fun d : ℕ => d) (fun _ d => some d) St.empty
      (.dict [(['a'], .obj 1), (['b'], .obj 2)]) (.dict [(['b'], .obj 20), (['a'], .obj 10)])
      (.dict [(['a'], .none), (['b'], .obj 200)]) .none .none =
    .ok ⟨[1, 2], [some 10, some 20], [none, some 200], [['a'], ['b']], some 1, some (0, 1)⟩ := by rfl

/-! ### C53 -/

/-- `d` is the integer `i`, or a label that stands at position `i` and not before. -/
def IsDset (labels : List Str) (d : Comp) (i : ℤ) : Prop :=
  d = .atom (.int i) ∨ ∃ (s : Str) (n : ℕ), d = .atom (.str s) ∧ i = n ∧ labels[n]? = some s ∧ ∀ m < n, labels[m]? ≠ some s

/-- C53 (specification). The spellings of a key for data set index `i` and baseline-polarization key `bl`. -/
inductive Spells (labels : List Str) : List Comp → ℤ × List Atom → Prop
  /-- `(dset, (…))` -/
  | tup (d i bl) (hd : IsDset labels d i) : Spells labels [d, .tup bl] (i, bl)
  /-- `(dset, (…), pol, …)` -/
  | tupPol (d i bl p rest) (hd : IsDset labels d i) (hp : p ≠ .other) :
      Spells labels (d :: .tup bl :: .atom p :: rest) (i, bl ++ [p])
  /-- `(dset, a, b)` -/
  | flat (d i a b) (hd : IsDset labels d i) : Spells labels [d, .atom (.int a), .atom b] (i, [.int a, b])
  /-- `(dset, a, b, pol, …)` -/
  | flatPol (d i a b p rest) (hd : IsDset labels d i) (hp : p ≠ .other) :
      Spells labels (d :: .atom (.int a) :: .atom b :: .atom p :: rest) (i, [.int a, b, p])

theorem idxOf_le : ∀ (l : List Str) (m : ℕ) (h : m < l.length), l.idxOf l[m] ≤ m := by
  intro l
  induction l with
  | nil => intro m h; simp at h
  | cons a l ih =>
    intro m h
    rw [List.idxOf_cons]
    cases m with
    | zero => simp
    | succ m =>
      simp only [List.getElem_cons_succ]
      have := ih m (by simpa using h)
      cases hb : (a == l[m]'(by simpa using h)) <;> simp [hb] <;> omega

theorem dsetIdx_iff (labels : List Str) (d : Comp) (i : ℤ) : dsetIdx labels d = .ok i ↔ IsDset labels d i := by
  constructor
  · intro h
    match d, h with
    | .atom (.int n), h => left; simp only [dsetIdx, Except.ok.injEq] at h; rw [h]
    | .atom (.str s), h =>
      right
      simp only [dsetIdx] at h
      split at h
      · rename_i hm
        simp only [Except.ok.injEq] at h
        have hlt := List.idxOf_lt_length_iff.2 hm
        refine ⟨s, labels.idxOf s, rfl, h.symm, ?_, ?_⟩
        · rw [List.getElem?_eq_getElem hlt, List.getElem_idxOf]
        · intro m hm2 hc
          exact absurd hc (by
            rw [List.getElem?_eq_getElem (by omega)]
            intro hc
            simp only [Option.some.injEq] at hc
            have := idxOf_le labels m (by omega)
            rw [hc] at this
            omega)
      · cases h
    | .atom .other, h => cases h
    | .tup _, h => cases h
  · rintro (rfl | ⟨s, n, rfl, rfl, h1, h2⟩)
    · rfl
    · obtain ⟨hn, hs⟩ := List.getElem?_eq_some_iff.1 h1
      have hm : s ∈ labels := hs ▸ List.getElem_mem hn
      simp only [dsetIdx, hm, if_true]
      have hlt := List.idxOf_lt_length_iff.2 hm
      have h3 : labels.idxOf s ≤ n := by
        have := idxOf_le labels n hn
        rwa [hs] at this
      have h4 : ¬ labels.idxOf s < n := by
        intro hc
        apply h2 _ hc
        rw [List.getElem?_eq_getElem hlt, List.getElem_idxOf]
      congr 2
      omega

theorem parseBlkey_cons (labels : List Str) (d x : Comp) (rest : List Comp) (r : ℤ × List Atom) :
    parseBlkey labels (d :: x :: rest) = .ok r ↔ IsDset labels d r.1 ∧ parseBl (x :: rest) = .ok r.2 := by
  unfold parseBlkey
  rw [← dsetIdx_iff]
  constructor
  · intro h
    obtain ⟨i, hi, h⟩ := bind_ok.1 h
    obtain ⟨bl, hb, h⟩ := bind_ok.1 h
    cases h
    exact ⟨hi, hb⟩
  · rintro ⟨h1, h2⟩
    simp only [h1, h2, bind, Except.bind, pure, Except.pure]

theorem addPol_iff (bl r : List Atom) (rest : List Comp) :
    addPol bl rest = .ok r ↔ (rest = [] ∧ r = bl) ∨ ∃ p tl, rest = .atom p :: tl ∧ p ≠ .other ∧ r = bl ++ [p] := by
  constructor
  · intro h
    match rest, h with
    | [], h => cases h; exact Or.inl ⟨rfl, rfl⟩
    | .atom (.str s) :: tl, h => cases h; exact Or.inr ⟨_, tl, rfl, by simp, rfl⟩
    | .atom (.int n) :: tl, h => cases h; exact Or.inr ⟨_, tl, rfl, by simp, rfl⟩
    | .atom .other :: tl, h => cases h
    | .tup _ :: tl, h => cases h
  · rintro (⟨rfl, rfl⟩ | ⟨p, tl, rfl, hp, rfl⟩)
    · rfl
    · cases p with
      | int n => rfl
      | str s => rfl
      | other => exact absurd rfl hp

/-- C53. `parse_blkey` accepts exactly the spellings of the specification — a data set index or an existing label, a baseline as
a tuple or as two entries, and an optional polarization — and returns the index and the baseline key they spell; every other
key raises. -/
theorem C53_parse_iff (labels : List Str) (key : List Comp) (r : ℤ × List Atom) :
    parseBlkey labels key = .ok r ↔ Spells labels key r := by
  constructor
  · intro h
    match key, h with
    | [], h => cases h
    | [_], h => cases h
    | d :: .atom (.int a) :: .atom b :: rest, h =>
      obtain ⟨h1, h2⟩ := (parseBlkey_cons ..).1 h
      obtain ⟨i, bl⟩ := r
      simp only [parseBl] at h2
      rcases (addPol_iff ..).1 h2 with ⟨rfl, h3⟩ | ⟨p, tl, rfl, h3, h4⟩
      · subst h3; exact .flat d i a b h1
      · subst h4; exact .flatPol d i a b p tl h1 h3
    | d :: .tup t :: rest, h =>
      obtain ⟨h1, h2⟩ := (parseBlkey_cons ..).1 h
      obtain ⟨i, bl⟩ := r
      simp only [parseBl] at h2
      rcases (addPol_iff ..).1 h2 with ⟨rfl, h3⟩ | ⟨p, tl, rfl, h3, h4⟩
      · subst h3; exact .tup d i _ h1
      · subst h4; exact .tupPol d i _ p tl h1 h3
    | d :: .atom (.int a) :: .tup _ :: rest, h => exact absurd ((parseBlkey_cons ..).1 h).2 (by simp [parseBl])
    | [d, .atom (.int a)], h => exact absurd ((parseBlkey_cons ..).1 h).2 (by simp [parseBl])
    | d :: .atom (.str a) :: rest, h => exact absurd ((parseBlkey_cons ..).1 h).2 (by simp [parseBl])
    | d :: .atom .other :: rest, h => exact absurd ((parseBlkey_cons ..).1 h).2 (by simp [parseBl])
  · intro h
    cases h with
    | tup d i bl hd => exact (parseBlkey_cons ..).2 ⟨hd, rfl⟩
    | tupPol d i bl p rest hd hp =>
      exact (parseBlkey_cons ..).2 ⟨hd, (addPol_iff ..).2 (Or.inr ⟨p, rest, rfl, hp, rfl⟩)⟩
    | flat d i a b hd => exact (parseBlkey_cons ..).2 ⟨hd, rfl⟩
    | flatPol d i a b p rest hd hp =>
      exact (parseBlkey_cons ..).2 ⟨hd, (addPol_iff ..).2 (Or.inr ⟨p, rest, rfl, hp, rfl⟩)⟩

/-- C53. For a collection built by any history of `add`, the index and the label of a data set, the tuple and the flat form of a
baseline, with a polarization string or number, all give the same result. -/
theorem C53_spellings_agree (nf : D → ℕ) (cal : C → D → Option D) (cs : List (Call D C))
    (hn : (run nf cal St.empty cs).dsets.length ≤ 99999) (i : ℕ) (l : Str)
    (hl : (run nf cal St.empty cs).labels[i]? = some l) (a b : ℤ) (p : Atom) (hp : p ≠ .other) :
    ∀ d ∈ [Comp.atom (.int i), Comp.atom (.str l)],
      parseBlkey (run nf cal St.empty cs).labels [d, .tup [.int a, .int b], .atom p] = .ok (i, [.int a, .int b, p]) ∧
      parseBlkey (run nf cal St.empty cs).labels [d, .atom (.int a), .atom (.int b), .atom p] = .ok (i, [.int a, .int b, p]) ∧
      parseBlkey (run nf cal St.empty cs).labels [d, .tup [.int a, .int b]] = .ok (i, [.int a, .int b]) ∧
      parseBlkey (run nf cal St.empty cs).labels [d, .atom (.int a), .atom (.int b)] = .ok (i, [.int a, .int b]) ∧
      parseBlkey (run nf cal St.empty cs).labels [d, .tup [.int a, .int b, p]] = .ok (i, [.int a, .int b, p]) := by
  have hnd := (C52_labels_unique nf cal cs hn).1
  generalize (run nf cal St.empty cs).labels = labels at hl hnd
  intro d hd
  have hid : IsDset labels d i := by
    rcases List.mem_cons.1 hd with rfl | hd
    · exact Or.inl rfl
    · rw [List.mem_singleton.1 hd]
      refine Or.inr ⟨l, i, rfl, rfl, hl, ?_⟩
      intro m hm hc
      obtain ⟨h1, h2⟩ := List.getElem?_eq_some_iff.1 hc
      obtain ⟨h3, h4⟩ := List.getElem?_eq_some_iff.1 hl
      have := (List.Nodup.getElem_inj_iff hnd).1 (h2.trans h4.symm)
      omega
  refine ⟨?_, ?_, ?_, ?_, ?_⟩
  · exact (C53_parse_iff ..).2 (.tupPol d i [.int a, .int b] p [] hid hp)
  · exact (C53_parse_iff ..).2 (.flatPol d i a (.int b) p [] hid hp)
  · exact (C53_parse_iff ..).2 (.tup d i _ hid)
  · exact (C53_parse_iff ..).2 (.flat d i a _ hid)
  · exact (C53_parse_iff ..).2 (.tup d i _ hid)

/-- C53. Keys without a baseline, with an unknown label, with a baseline that is neither a tuple nor two entries starting with an
integer, or with a polarization that is neither a string nor an integer, raise. -/
theorem C53_malformed_raise (labels : List Str) (d x : Comp) (s : Str) (rest : List Comp) (t : List Atom) :
    (∀ r, parseBlkey labels [d] ≠ .ok r) ∧
    (s ∉ labels → ∀ r, parseBlkey labels (.atom (.str s) :: x :: rest) ≠ .ok r) ∧
    (∀ r, parseBlkey labels (d :: .atom (.str s) :: rest) ≠ .ok r) ∧
    (∀ a r, parseBlkey labels [d, .atom (.int a)] ≠ .ok r) ∧
    (∀ r, parseBlkey labels (d :: .tup t :: .atom .other :: rest) ≠ .ok r) ∧
    (∀ t' r, parseBlkey labels (d :: .tup t :: .tup t' :: rest) ≠ .ok r) := by
  refine ⟨?_, ?_, ?_, ?_, ?_, ?_⟩
  · intro r h; cases h
  · intro hs r h
    rcases ((parseBlkey_cons ..).1 h).1 with h | ⟨s', n, h, -, h2, -⟩
    · cases h
    · cases h; exact hs (List.mem_of_getElem? h2)
  · intro r h; rw [C53_parse_iff] at h; cases h
  · intro a r h; rw [C53_parse_iff] at h; cases h
  · intro r h; rw [C53_parse_iff] at h
    cases h with | tupPol _ _ _ _ _ _ hp => exact hp rfl
  · intro t' r h; rw [C53_parse_iff] at h; cases h

/-- C53 (finding). An integer index is not checked against the number of data sets, and entries after the polarization are
ignored: both keys are accepted. -/
theorem C53_finding_unchecked :
    parseBlkey [['a']] [.atom (.int 7), .tup [.int 1, .int 2]] = .ok (7, [.int 1, .int 2]) ∧
    parseBlkey [['a']] [.atom (.str ['a']), .atom (.int 1), .atom (.int 2), .atom (.int (-5)), .atom .other] =
      .ok (0, [.int 1, .int 2, .int (-5)]) := ⟨rfl, rfl⟩

/-- C53 is not vacuous. -/
example : parseBlkey [['a'], ['b']] [.atom (.str ['b']), .atom (.int 37), .atom (.int 38), .atom (.str ['x', 'x'])] =
    .ok (1, [.int 37, .int 38, .str ['x', 'x']]) := rfl

end HeraPspec.Labels
