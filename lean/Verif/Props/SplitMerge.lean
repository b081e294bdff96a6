import Verif.Lemmas.SplitMerge2

/-! C153: splitting and merging objects. -/
namespace HeraPspec.Combine
open HeraPspec.UVP (mapE Err mapE_ok_iff mapE_exists forall₂_getElem_left forall₂_getElem_right)
variable {R M T Z S X C K V : Type}
variable [LinearOrder R] [LinearOrder T] [DecidableEq C] [DecidableEq K] [DecidableEq V]
variable {rangeOf : M → R} {rnd : T → T} {close : S → S → Bool} {keysOf : Int → Int → List K}

/-- **C153** What a selection holds: exactly the values of the object at the kept windows, rows and polarization pairs. -/
theorem C153_select_values (keysOf : Int → Int → List K) {u : Obj M T Z S X C K V} (h : WF rangeOf u) {ws bs ps : List Nat}
    (hw : Positions u.spwMeta.length ws) (hb : Positions u.blpair.length bs) (hp : Positions u.pols.length ps) (r : R) (b : Int × T × T)
    (p : Int) (x : X) :
    HasVal rangeOf (select keysOf u ws bs ps) r b p x ↔ HasVal rangeOf u r b p x ∧
      (∃ i ∈ ws, (u.spwMeta.map rangeOf)[i]? = some r) ∧ (∃ j ∈ bs, u.blpts[j]? = some b) ∧ (∃ k ∈ ps, u.pols[k]? = some p) := by
  rw [select_hasVal h hw hb hp, mem_pick, mem_pick, mem_pick]

/-- **C153** The same with the data sets the spectra come from, for objects whose spectra are all of the same two data sets. Missing: objects with several pairs of data sets: `select` does not slice the label arrays. -/
theorem C153_select_partial (keysOf : Int → Int → List K) {u : Obj M T Z S X C K V} (h : WF rangeOf u) (ho : OneOrigin u) {ws bs ps : List Nat}
    (hw : Positions u.spwMeta.length ws) (hb : Positions u.blpair.length bs) (hp : Positions u.pols.length ps) (r : R) (b : Int × T × T)
    (p : Int) (x : X) (n1 n2 : String) :
    Has rangeOf (select keysOf u ws bs ps) r b p x n1 n2 ↔ Has rangeOf u r b p x n1 n2 ∧
      (∃ i ∈ ws, (u.spwMeta.map rangeOf)[i]? = some r) ∧ (∃ j ∈ bs, u.blpts[j]? = some b) ∧ (∃ k ∈ ps, u.pols[k]? = some p) := by
  rw [select_has h ho hw hb hp, mem_pick, mem_pick, mem_pick]

section
variable {u : Obj M T Z S X C K V} {ax : Axis} {iss : List (List Nat)}

theorem parts_newSpws (hw : WF rangeOf u) (ho : Ordered rangeOf u) (hp : Partition (u.axisLen ax) iss) :
    newSpws rangeOf (iss.map (selectAx keysOf ax u)) = u.spwMeta.map rangeOf := by
  refine sorted_unique (le := (· ≤ ·)) (fun a b h1 h2 => le_antisymm h1 h2) sorted_newSpws (ho.spws.imp le_of_lt) nodup_newSpws hw.spws ?_
  intro x
  rw [mem_newSpws]
  simp only [List.mem_map (f := selectAx keysOf ax u), exists_exists_and_eq_and, Obj.spws, selectAx_spws]
  split
  · rename_i e; subst e
    exact parts_mem hp (by simp [Obj.axisLen]) x
  · obtain ⟨a, ha⟩ := hp.ex
    exact ⟨fun ⟨_, _, h⟩ => h, fun h => ⟨a, ha, h⟩⟩

theorem parts_newBlpts (hw : WF rangeOf u) (ho : Ordered rangeOf u) (hp : Partition (u.axisLen ax) iss) :
    newBlpts (iss.map (selectAx keysOf ax u)) = u.blpts := by
  refine sorted_unique (fun a b h1 h2 => bleT_antisymm h1 h2) sorted_newBlpts (ho.rows.imp (fun h => (bleT_iff _ _).2 (le_of_lt h)))
    nodup_newBlpts hw.rows ?_
  intro x
  rw [mem_newBlpts]
  simp only [List.mem_map (f := selectAx keysOf ax u), exists_exists_and_eq_and]
  have e1 : (∃ a ∈ iss, x ∈ (selectAx keysOf ax u a).blpts) ↔ ∃ a ∈ iss, x ∈ (if ax = .blpairts then pick a u.blpts else u.blpts) := by
    apply exists_congr; intro a
    constructor
    · rintro ⟨h1, h2⟩; rw [selectAx_blpts hw (hp.positions a h1)] at h2; exact ⟨h1, h2⟩
    · rintro ⟨h1, h2⟩; rw [selectAx_blpts hw (hp.positions a h1)]; exact ⟨h1, h2⟩
  rw [e1]
  split
  · rename_i e; subst e
    exact parts_mem hp (by rw [hw.blpts_length]; rfl) x
  · obtain ⟨a, ha⟩ := hp.ex
    exact ⟨fun ⟨_, _, h⟩ => h, fun h => ⟨a, ha, h⟩⟩

theorem parts_newPols (hw : WF rangeOf u) (ho : Ordered rangeOf u) (hp : Partition (u.axisLen ax) iss) :
    newPols (iss.map (selectAx keysOf ax u)) = u.pols := by
  have m : ∀ x, x ∈ newPols (iss.map (selectAx keysOf ax u)) ↔ x ∈ u.pols := by
    intro x
    rw [mem_newPols]
    simp only [List.mem_map (f := selectAx keysOf ax u), exists_exists_and_eq_and, selectAx_pols]
    split
    · rename_i e; subst e
      exact parts_mem hp rfl x
    · obtain ⟨a, ha⟩ := hp.ex
      exact ⟨fun ⟨_, _, h⟩ => h, fun h => ⟨a, ha, h⟩⟩
  refine List.Perm.eq_of_pairwise (le := fun a b : Int => a.natAbs ≤ b.natAbs) ?_ sorted_newPols (ho.pols.imp le_of_lt)
    ((List.perm_ext_iff_of_nodup nodup_newPols hw.pols).2 m)
  intro a b ha hb h1 h2
  obtain ⟨i, hi⟩ := List.mem_iff_getElem?.1 ((m a).1 ha)
  obtain ⟨j, hj⟩ := List.mem_iff_getElem?.1 hb
  obtain ⟨li, rfl⟩ := List.getElem?_eq_some_iff.1 hi
  obtain ⟨lj, rfl⟩ := List.getElem?_eq_some_iff.1 hj
  have hpw := List.pairwise_iff_getElem.1 ho.pols
  rcases Nat.lt_trichotomy i j with h | h | h
  · have := hpw i j li lj h; omega
  · subst h; rfl
  · have := hpw j i lj li h; omega

theorem parts_newLabels (ho : Ordered rangeOf u) (hp : Partition (u.axisLen ax) iss) :
    newLabels (iss.map (selectAx keysOf ax u)) = u.labels := by
  have srt : ∀ w : List (Obj M T Z S X C K V), (newLabels w).Pairwise (fun a b : String => decide (a ≤ b) = true) :=
    fun w => pySorted_pairwise (by simp only [decide_eq_true_eq]; exact fun _ _ _ => le_trans)
      (by simp only [Bool.or_eq_true, decide_eq_true_eq]; exact le_total) _
  refine sorted_unique (fun a b h1 h2 => le_antisymm (by simpa using h1) (by simpa using h2)) (srt _)
    (ho.labels.imp (fun h => by simpa using le_of_lt h)) nodup_newLabels (ho.labels.imp (fun h => ne_of_lt h)) ?_
  intro x
  rw [mem_newLabels]
  obtain ⟨a, ha⟩ := hp.ex
  constructor
  · rintro ⟨v, hv, h⟩
    obtain ⟨b, _, rfl⟩ := List.mem_map.1 hv
    rw [selectAx_eq] at h; exact h
  · intro h
    refine ⟨_, List.mem_map.2 ⟨a, ha, rfl⟩, ?_⟩
    rw [selectAx_eq]; exact h

end

/-- **C153** (partial). Splitting an object along one axis and combining the parts gives the object back: every array and all metadata are the same, and the `r_params`
dictionary has the same entries. Missing: objects with spectra of several pairs of data sets (`C153_counterexample_labels`: the labels are then wrong), objects
not in the order in which `combine_uvpspec` stores them, rows that differ in the second time only, and `r_params` for some of the baselines only
(`C153_counterexample_rparams`: the parts are then refused). -/
theorem C153_split_merge_partial {u : Obj M T Z S X C K V} {ax : Axis} {parts : List (List Nat)} (hw : WF rangeOf u)
    (ho : Ordered rangeOf u) (h1 : OneOrigin u) (hr : RParamsFit keysOf u) (hp : Partition (u.axisLen ax) parts)
    (hk : ax ≠ .blpairts → Keyed rnd u) (hcl : ax = .blpairts → ∀ row ∈ u.scalar, ∀ s ∈ row, close s s = true) :
    ∃ rparams, combine rangeOf rnd close (parts.map (selectAx keysOf ax u)) = .ok { u with rparams := rparams } ∧
      ∀ k, Dict.get rparams k = Dict.get u.rparams k := by
  have hc := parts_combinable (keysOf := keysOf) hw hp hcl
  have hal := parts_aligned (keysOf := keysOf) hw ho hp hk
  have hco := parts_compatible (keysOf := keysOf) hw hr hp
  have hwf : ∀ v ∈ parts.map (selectAx keysOf ax u), WF rangeOf v := by
    intro v hv
    obtain ⟨a, ha, rfl⟩ := List.mem_map.1 hv
    exact selectAx_wf hw (hp.positions a ha) (hp.nonempty a ha)
  obtain ⟨w, hw'⟩ := combine_exists hc hwf hal hco
  obtain ⟨s1, s2, s3, s4, s5, s6, s7, s8, s9⟩ := combine_spec hc hwf hal hw'
  obtain ⟨ax', u0, rows, hc', h0, hrp, hmeta, hsc, hdt, hrw, e1, e2, e3, e4, e5, e6, e7⟩ := (combine_iff hc.two).1 hw'
  obtain rfl : ax' = ax := by
    have a1 := overlap_ok.2 ⟨hc, rfl, rfl, rfl⟩
    have a2 := overlap_ok.2 ⟨hc', rfl, rfl, rfl⟩
    rw [a1] at a2; cases a2; rfl
  rw [parts_newSpws hw ho hp] at s3
  rw [parts_newBlpts hw ho hp] at s4
  rw [parts_newPols hw ho hp] at s5
  rw [parts_newLabels ho hp] at s6
  have hpos := hp.positions
  have q1 : w.blpair = u.blpair := by rw [(axis_of_blpts s9).1, s4, ← (axis_of_blpts hw).1]
  have q2 : w.time1 = u.time1 := by rw [(axis_of_blpts s9).2.1, s4, ← (axis_of_blpts hw).2.1]
  have q3 : w.time2 = u.time2 := by rw [(axis_of_blpts s9).2.2, s4, ← (axis_of_blpts hw).2.2]
  have lspw : w.spwMeta.length = u.spwMeta.length := by simpa using congrArg List.length s3
  -- row metadata
  have q4 : w.rowMeta = u.rowMeta := by
    apply ext_get (by rw [s9.rowMeta, hw.rowMeta, q1])
    intro j z z' hz hz'
    have hj : j < u.blpts.length := by
      rw [hw.blpts_length, ← hw.rowMeta]; exact (List.getElem?_eq_some_iff.1 hz').1
    have hb := List.getElem?_eq_getElem hj
    obtain ⟨g1, g2, g3⟩ := blpts_get.1 (by rw [s4]; exact hb)
    obtain ⟨v, hv, hrow⟩ := s2 _ z ⟨j, g1, g2, g3, hz⟩
    obtain ⟨a, ha, rfl⟩ := List.mem_map.1 hv
    obtain ⟨n, b1, b2, b3, b4⟩ := hrow
    have hbn := blpts_get.2 ⟨b1, b2, b3⟩
    rw [selectAx_eq] at b4 hbn
    rw [select_blpts hw (axB_pos (hpos a ha)), pick_eq_map (by rw [hw.blpts_length]; exact (axB_pos (hpos a ha)).2)] at hbn
    have b4' : (pick (axB ax' u a) u.rowMeta)[n]? = some z := b4
    rw [pick_eq_map (by rw [hw.rowMeta]; exact (axB_pos (hpos a ha)).2)] at b4'
    obtain ⟨m, hm, hm'⟩ := Option.bind_eq_some_iff.1 hbn
    rw [hm] at b4'
    obtain rfl := nodup_idx hw.rows hb hm'
    rw [Option.bind_some, hz'] at b4'
    exact (Option.some.inj b4').symm
  -- window metadata
  have q5 : w.spwMeta = u.spwMeta := by
    have hmem : ∀ m ∈ w.spwMeta, m ∈ u.spwMeta := by
      intro m hm
      have hsub : ∀ v ∈ parts.map (selectAx keysOf ax' u), ∀ y ∈ v.spwMeta, y ∈ u.spwMeta := by
        intro v hv y hy
        obtain ⟨a, _, rfl⟩ := List.mem_map.1 hv
        rw [selectAx_eq] at hy
        obtain ⟨i, _, hi⟩ := mem_pick.1 (show y ∈ pick (axW ax' u a) u.spwMeta from hy)
        exact List.mem_of_getElem? hi
      unfold metaOf at hmeta
      split at hmeta
      · have hF := mapE_ok_iff.1 hmeta
        obtain ⟨i, hi⟩ := List.mem_iff_getElem?.1 hm
        obtain ⟨r, _, hr'⟩ := forall₂_getElem_right hF hi
        obtain ⟨v, hv, hr'⟩ := bind_ok.1 hr'
        obtain ⟨n, hn, hr'⟩ := bind_ok.1 hr'
        exact hsub v (owner_ok hv).1 m (List.mem_of_getElem? (at?_ok.1 hr'))
      · have e : u0.spwMeta = w.spwMeta := Except.ok.inj hmeta
        exact hsub u0 (List.mem_of_getElem? h0) m (by rw [e]; exact hm)
    apply ext_get lspw
    intro i m m' hm hm'
    obtain ⟨i', hi'⟩ := List.mem_iff_getElem?.1 (hmem m (List.mem_of_getElem? hm))
    have a1 : (u.spwMeta.map rangeOf)[i]? = some (rangeOf m) := by rw [← s3, List.getElem?_map, hm]; rfl
    have a2 : (u.spwMeta.map rangeOf)[i']? = some (rangeOf m) := by rw [List.getElem?_map, hi']; rfl
    obtain rfl := nodup_idx hw.spws a1 a2
    rw [hm'] at hi'; exact (Option.some.inj hi').symm
  -- scalars
  have q6 : w.scalar = u.scalar := by
    have hF := mapE_ok_iff.1 hsc
    rw [parts_newSpws hw ho hp] at hF
    apply ext_get (by rw [s9.scalar, hw.scalar, lspw])
    intro i a a' ha ha'
    apply ext_get (by rw [s9.scalar2 a (List.mem_of_getElem? ha), hw.scalar2 a' (List.mem_of_getElem? ha'), s5])
    intro k s s' hs hs'
    obtain ⟨r, hri, hF1⟩ := forall₂_getElem_right hF ha
    have hF2 := mapE_ok_iff.1 hF1
    rw [parts_newPols hw ho hp] at hF2
    obtain ⟨p, hpk, hF3⟩ := forall₂_getElem_right hF2 hs
    obtain ⟨v, hv, hF3⟩ := bind_ok.1 hF3
    have hvm : v ∈ parts.map (selectAx keysOf ax' u) := by
      unfold scalarSource at hv
      cases ax' with
      | spw => exact (owner_ok hv).1
      | polpairs => exact (owner_ok hv).1
      | blpairts =>
        obtain ⟨b, _, hv⟩ := bind_ok.1 hv
        exact (owner_ok hv).1
    obtain ⟨c, hcm, rfl⟩ := List.mem_map.1 hvm
    unfold copyScalar at hF3
    obtain ⟨m, hm, hF3⟩ := bind_ok.1 hF3
    obtain ⟨q, hq, hF3⟩ := bind_ok.1 hF3
    obtain ⟨x, hx, hF3⟩ := bind_ok.1 hF3
    have hm := indexOf_ok hm
    have hq := indexOf_ok hq
    have hx := at?_ok.1 hx
    have hF3 := at?_ok.1 hF3
    rw [selectAx_eq] at hm hq hx
    have hm' : (pick (axW ax' u c) (u.spwMeta.map rangeOf))[m]? = some r := by rw [pick_map]; exact hm
    have hq' : (pick (axP ax' u c) u.pols)[q]? = some p := hq
    have hx' : ((pick (axW ax' u c) u.scalar).map (pick (axP ax' u c)))[m]? = some x := hx
    rw [pick_eq_map (by rw [List.length_map]; exact (axW_pos (hpos c hcm)).2)] at hm'
    rw [pick_eq_map (axP_pos (hpos c hcm)).2] at hq'
    rw [List.getElem?_map, pick_eq_map (by rw [hw.scalar]; exact (axW_pos (hpos c hcm)).2)] at hx'
    obtain ⟨m2, hm2, hm3⟩ := Option.bind_eq_some_iff.1 hm'
    obtain ⟨q2', hq2, hq3⟩ := Option.bind_eq_some_iff.1 hq'
    obtain rfl := nodup_idx hw.spws hri hm3
    obtain rfl := nodup_idx hw.pols hpk hq3
    rw [hm2, Option.bind_some, ha', Option.map_some, Option.some.injEq] at hx'
    subst hx'
    rw [pick_eq_map (by rw [hw.scalar2 a' (List.mem_of_getElem? ha')]; exact (axP_pos (hpos c hcm)).2), hq2, Option.bind_some, hs'] at hF3
    exact (Option.some.inj hF3).symm
  -- data
  have hlabn : u.labels.Nodup := ho.labels.imp (fun h => ne_of_lt h)
  have hcell : ∀ (i j k : Nat) c c', cellAt w i j k = some c → cellAt u i j k = some c' → c = c' := by
    intro i j k c c' hcw hcu
    obtain ⟨l1, l2, l3⟩ := hw.cell_lt hcu
    have hi : i < (u.spwMeta.map rangeOf).length := by simpa using l1
    have hj : j < u.blpts.length := by rw [hw.blpts_length]; exact l2
    have g1 := List.getElem?_eq_getElem hi
    have g2 := List.getElem?_eq_getElem hj
    have g3 := List.getElem?_eq_getElem l3
    obtain ⟨a, ha, b, hb, hcm⟩ := cell_mem hcw
    obtain ⟨t1, t2⟩ := s9.lab a ha b hb c hcm
    have hH : Has rangeOf w _ _ _ c.val w.labels[c.lab1] w.labels[c.lab2] :=
      has_iff.2 ⟨i, j, k, c, by rw [s3]; exact g1, by rw [s4]; exact g2, by rw [s5]; exact g3, hcw, rfl,
        List.getElem?_eq_getElem t1, List.getElem?_eq_getElem t2⟩
    obtain ⟨v, hv, hH⟩ := (s1 _ _ _ _ _ _).1 hH
    obtain ⟨d, hd, rfl⟩ := List.mem_map.1 hv
    rw [selectAx_eq, select_has hw h1 (axW_pos (hpos d hd)) (axB_pos (hpos d hd)) (axP_pos (hpos d hd))] at hH
    obtain ⟨a', ha', b', hb', hcm'⟩ := cell_mem hcu
    obtain ⟨t1', t2'⟩ := hw.lab a' ha' b' hb' c' hcm'
    have hH' : Has rangeOf u _ _ _ c'.val u.labels[c'.lab1] u.labels[c'.lab2] :=
      has_iff.2 ⟨i, j, k, c', g1, g2, g3, hcu, rfl, List.getElem?_eq_getElem t1', List.getElem?_eq_getElem t2'⟩
    obtain ⟨v1, v2, v3⟩ := Has.unique hw hH.1 hH'
    have w1 : c.lab1 = c'.lab1 := by
      refine nodup_idx hlabn (x := u.labels[c'.lab1]) ?_ (List.getElem?_eq_getElem t1')
      rw [← v2, ← s6]; exact List.getElem?_eq_getElem t1
    have w2 : c.lab2 = c'.lab2 := by
      refine nodup_idx hlabn (x := u.labels[c'.lab2]) ?_ (List.getElem?_eq_getElem t2')
      rw [← v3, ← s6]; exact List.getElem?_eq_getElem t2
    cases c; cases c'; simp only [] at v1 w1 w2; subst v1 w1 w2; rfl
  have q7 : w.data = u.data := by
    apply ext_get (by rw [s9.data, hw.data, lspw])
    intro i a a' ha ha'
    apply ext_get (by rw [s9.data2 a (List.mem_of_getElem? ha), hw.data2 a' (List.mem_of_getElem? ha'), q1])
    intro j b b' hb hb'
    apply ext_get (by rw [s9.data3 a (List.mem_of_getElem? ha) b (List.mem_of_getElem? hb),
      hw.data3 a' (List.mem_of_getElem? ha') b' (List.mem_of_getElem? hb'), s5])
    intro k c c' hc1 hc2
    exact hcell i j k c c' (by simp [cellAt, ha, hb, hc1]) (by simp [cellAt, ha', hb', hc2])
  have q8 : w.static = u.static := by
    rw [e7]
    obtain ⟨a, _, e⟩ := List.mem_map.1 (List.mem_of_getElem? h0)
    rw [← e, selectAx_eq]; rfl
  refine ⟨w.rparams, ?_, ?_⟩
  · rw [hw']
    congr 1
    cases w; cases u
    simp only [] at q1 q2 q3 q4 q5 q6 q7 q8 s5 s6
    subst q1 q2 q3 q4 q5 q6 q7 q8 s5 s6
    rfl
  · intro k
    apply Option.ext
    intro v
    rw [s7]
    constructor
    · rintro ⟨x, hx, h⟩
      obtain ⟨a, _, rfl⟩ := List.mem_map.1 hx
      rw [selectAx_rparams, get_keepR] at h
      exact h.1
    · intro h
      obtain ⟨b, hb, p, hpp, hkk⟩ := hr.used k v h
      have hbp : ∃ a ∈ parts, b ∈ (selectAx keysOf ax' u a).blpair ∧ p ∈ (selectAx keysOf ax' u a).pols := by
        simp only [selectAx_blpair hw, selectAx_pols]
        cases ax' with
        | spw => obtain ⟨a, ha⟩ := hp.ex; exact ⟨a, ha, by simpa using hb, by simpa using hpp⟩
        | blpairts =>
          obtain ⟨a, ha, h⟩ := (parts_mem hp rfl b).2 hb
          exact ⟨a, ha, by simpa using h, by simpa using hpp⟩
        | polpairs =>
          obtain ⟨a, ha, h⟩ := (parts_mem hp rfl p).2 hpp
          exact ⟨a, ha, by simpa using hb, by simpa using h⟩
      obtain ⟨a, ha, h2, h3⟩ := hbp
      refine ⟨_, List.mem_map.2 ⟨a, ha, rfl⟩, ?_⟩
      rw [selectAx_rparams, get_keepR]
      exact ⟨h, b, h2, p, h3, hkk⟩

/-- **C153** Selecting the windows, rows and polarization pairs of one of the inputs from a combination gives that input's values back. -/
theorem C153_merge_select {us : List (Obj M T Z S X C K V)} {ax : Axis} (hc : Combinable rangeOf close ax us)
    (hwf : ∀ v ∈ us, WF rangeOf v) (hal : Aligned rangeOf rnd ax us) {u : Obj M T Z S X C K V}
    (h : combine rangeOf rnd close us = .ok u) {v : Obj M T Z S X C K V} (hv : v ∈ us) {ws bs ps : List Nat}
    (hw : Positions u.spwMeta.length ws) (hb : Positions u.blpair.length bs) (hp : Positions u.pols.length ps)
    (hws : ∀ r, (∃ i ∈ ws, (u.spwMeta.map rangeOf)[i]? = some r) ↔ r ∈ v.spwMeta.map rangeOf)
    (hbs : ∀ b, (∃ j ∈ bs, u.blpts[j]? = some b) ↔ b ∈ v.blpts) (hps : ∀ p, (∃ k ∈ ps, u.pols[k]? = some p) ↔ p ∈ v.pols) :
    (∀ r b p x, HasVal rangeOf (select keysOf u ws bs ps) r b p x ↔ HasVal rangeOf v r b p x) ∧
    (∀ r, r ∈ (select keysOf u ws bs ps).spwMeta.map rangeOf ↔ r ∈ v.spwMeta.map rangeOf) ∧
    (∀ b, b ∈ (select keysOf u ws bs ps).blpts ↔ b ∈ v.blpts) ∧ (∀ p, p ∈ (select keysOf u ws bs ps).pols ↔ p ∈ v.pols) := by
  obtain ⟨s1, _, _, _, _, _, _, _, s9⟩ := combine_spec hc hwf hal h
  refine ⟨?_, ?_, ?_, ?_⟩
  · intro r b p x
    rw [C153_select_values keysOf s9 hw hb hp, hws, hbs, hps]
    constructor
    · rintro ⟨⟨n1, n2, hH⟩, m1, m2, m3⟩
      obtain ⟨v', hv', hH⟩ := (s1 _ _ _ _ _ _).1 hH
      have hH0 := hH
      obtain ⟨i, j, k, c, g1, g2, g3, _⟩ := has_iff.1 hH
      have : v' = v := by
        refine hc.owner_unique hv' hv (r := r) (b := b) (p := p) ?_ ?_
        · cases ax with
          | spw => exact List.mem_of_getElem? g1
          | blpairts => exact List.mem_of_getElem? g2
          | polpairs => exact List.mem_of_getElem? g3
        · cases ax with
          | spw => exact m1
          | blpairts => exact m2
          | polpairs => exact m3
      subst this
      exact ⟨n1, n2, hH0⟩
    · rintro ⟨n1, n2, hH⟩
      obtain ⟨i, j, k, c, g1, g2, g3, _⟩ := has_iff.1 hH
      exact ⟨⟨n1, n2, (s1 _ _ _ _ _ _).2 ⟨v, hv, hH⟩⟩, List.mem_of_getElem? g1, List.mem_of_getElem? g2, List.mem_of_getElem? g3⟩
  · intro r; rw [select_spws, mem_pick]; exact hws r
  · intro b; rw [select_blpts s9 hb, mem_pick]; exact hbs b
  · intro p; exact mem_pick.trans (hps p)

/-! ### Non-vacuity and counterexamples -/

/-- Non-vacuity of `C153_split_merge_partial`: an object with two windows, three rows and two polarization pairs meets all hypotheses along every axis. -/
def exU : Ex := exObj [1, 2] [(7, 1, 1), (7, 2, 2), (8, 1, 1)] [5, 6] code

theorem exU_wf : WF (id : Nat → Nat) exU := exObj_wf (by decide) (by decide) (by decide) (by decide) (by decide)

theorem exU_ordered : Ordered (id : Nat → Nat) exU where
  spws := by decide
  rows := by
    show List.Pairwise _ [((7 : Int), (1 : Nat), (1 : Nat)), (7, 2, 2), (8, 1, 1)]
    simp [Prod.Lex.toLex_lt_toLex]
  pols := by decide
  labels := by decide

theorem exU_origin : OneOrigin exU := ⟨0, 0, by
  intro a ha b hb c hc
  simp only [exU, exObj, List.map_cons, List.map_nil, List.mem_cons, List.not_mem_nil, or_false] at ha
  rcases ha with rfl | rfl <;> (
    simp only [List.mem_cons, List.not_mem_nil, or_false] at hb
    rcases hb with rfl | rfl | rfl <;> (
      simp only [List.mem_cons, List.not_mem_nil, or_false] at hc
      rcases hc with rfl | rfl <;> simp))⟩

theorem exU_rparams : RParamsFit (fun _ _ => [1]) exU where
  used := by
    intro k v h
    refine ⟨7, by decide, 5, by decide, ?_⟩
    have : k = 1 := by
      by_contra hk
      simp [exU, exObj, Dict.get_cons, Ne.symm hk] at h
    simp [this]
  all := by
    intro _ b _ p _
    refine ⟨by simp, ?_⟩
    intro k hk
    simp at hk; subst hk
    exact ⟨2, rfl⟩

theorem exU_partition : Partition (exU.axisLen .blpairts) [[0, 2], [1]] where
  two := by decide
  positions := by
    intro is h
    simp only [List.mem_cons, List.not_mem_nil, or_false] at h
    rcases h with rfl | rfl <;> exact ⟨by decide, by decide⟩
  nonempty := by decide
  disjoint := by decide
  cover := by
    intro i hi
    have : i < 3 := hi
    rcases (show i = 0 ∨ i = 1 ∨ i = 2 by omega) with rfl | rfl | rfl <;> simp

theorem exU_keyed : Keyed (id : Nat → Nat) exU := by unfold Keyed; decide

example : ∃ rp, combine id id (fun a b => decide (a = b)) ([[0, 2], [1]].map (selectAx (fun _ _ => [1]) .blpairts exU)) = .ok { exU with rparams := rp } ∧
    ∀ k, Dict.get rp k = Dict.get exU.rparams k :=
  C153_split_merge_partial exU_wf exU_ordered exU_origin exU_rparams exU_partition (fun _ => exU_keyed) (by simp)

/-- The parts and what combining them gives. -/
example : (combine id id (fun a b => decide (a = b)) ([[0, 2], [1]].map (selectAx (fun _ _ => [1]) .blpairts exU))) = .ok exU := by rfl
example : (combine id id (fun a b => decide (a = b)) ([[1], [0]].map (selectAx (fun _ _ => [1]) .spw exU))) = .ok exU := by rfl
example : (combine id id (fun a b => decide (a = b)) ([[1], [0]].map (selectAx (fun _ _ => [1]) .polpairs exU))) = .ok exU := by rfl

/-- **C153** (counterexample). An object with spectra of two data sets: after splitting it by rows and merging, the spectrum of data set "b" is said to be of data
set "a". -/
theorem C153_counterexample_labels :
    let u : Ex := { exObj [1] [(7, 1, 1), (8, 1, 1)] [5] code with labels := ["a", "b"], data := [[[⟨1, 0, 0⟩], [⟨2, 1, 1⟩]]] }
    WF (id : Nat → Nat) u ∧
    (combine id id (fun a b => decide (a = b)) ([[0], [1]].map (selectAx (fun _ _ => [1]) .blpairts u))).map (fun w => w.data) =
      .ok [[[⟨1, 0, 0⟩], [⟨2, 0, 0⟩]]] := by
  refine ⟨?_, by rfl⟩
  constructor <;> first | decide | simp [exObj, Dict.keys]

/-- **C153** (counterexample). An object with `r_params` for one of its two baseline-pairs: the part without any is not accepted beside the part that has some. -/
theorem C153_counterexample_rparams :
    let u : Ex := exObj [1] [(7, 1, 1), (8, 1, 1)] [5] code
    (combine id id (fun a b => decide (a = b)) ([[0], [1]].map (selectAx (fun b _ => if b = 7 then [1] else []) .blpairts u))) =
      .error Err.value := by rfl

end HeraPspec.Combine
