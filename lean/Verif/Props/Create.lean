import Verif.Model.Create
import Verif.Props.Labels
import Verif.Props.TimeDiff

/-!
C136: creating a `PSpecData` object, and its time difference.
-/
namespace HeraPspec.Create
open HeraPspec.ArgParse (Str)
open HeraPspec.Labels
variable {D C B : Type}

theorem slot_eq : (slot : Option D → Labels.Obj D) = Labels.Obj.ofOption := by
  funext x; cases x <;> rfl

/-- The errors kept: all of them, or none as soon as one is missing. -/
def keptStds (n : ℕ) (stds : Option (List (Option D))) : List (Option D) := match stds with
  | none => List.replicate n none
  | some l => if l.any (fun x => x.isNone) then List.replicate n none else l

/-- An optional list as an argument. -/
def optArg (l : Option (List (Option D))) : Arg D := match l with
  | none => .none
  | some l => .list (l.map slot)

theorem initStds_eq (stds : Option (List (Option D))) (n : ℕ) :
    (keptStds n stds = List.replicate n none ∧ initStds (optArg stds) = .none) ∨
    (∃ l : List (Option D), stds = some l ∧ keptStds n stds = l ∧ initStds (optArg stds) = .list (l.map Labels.Obj.ofOption)) := by
  cases stds with
  | none => exact Or.inl ⟨rfl, rfl⟩
  | some l =>
    have hany : (l.map slot).any isNone = l.any (fun x => x.isNone) := by
      induction l with
      | nil => rfl
      | cons a l ih =>
        rw [List.map_cons, List.any_cons, ih]
        cases a <;> simp [slot, isNone]
    simp only [optArg, initStds, hany, keptStds]
    by_cases h : l.any (fun x => x.isNone) = true
    · left; rw [if_pos h, if_pos h]; exact ⟨rfl, rfl⟩
    · right; refine ⟨l, rfl, by rw [if_neg h], by rw [if_neg h, slot_eq]⟩

theorem add_stds_none (nf : D → ℕ) (cal : C → D → Option D) (s : St D) (ds : List (Labels.Obj D)) (w : Arg D) (ls : LArg) :
    add nf cal s (.list ds) w .none (.none : Arg C) ls = add nf cal s (.list ds) w (.list (List.replicate ds.length .none)) (.none : Arg C) ls := by
  unfold add toLists
  simp only [dsetsList, restList, bind, Except.bind]

/-- C136: created from lists, the object holds the data sets in order, the weights given (or none), the errors given unless one is missing, the labels given
(made different), and the beam; the window is the whole band. -/
theorem C136_lists (nf : D → ℕ) (cal : C → D → Option D) (ds : List D) (ws ss : Option (List (Option D))) (ls : LArg) (beam : Option B) (hne : ds ≠ [])
    (hw : ∀ l, ws = some l → l.length = ds.length) (hs : ∀ l, ss = some l → l.length = ds.length) (hl : ∀ l, ls.toList = some l → l.length = ds.length) :
    ∃ o : Obj D B, init (C := C) nf cal (.list (ds.map .obj)) (optArg ws) (optArg ss) .none ls beam = .ok o ∧
      o.st.dsets = ds ∧ o.st.wgts = ws.getD (List.replicate ds.length none) ∧ o.st.stds = keptStds ds.length ss ∧ o.beam = beam ∧
      o.st.spw = ds.head?.map (fun d => (0, nf d)) ∧
      (∀ l, ls.toList = some l → l.Nodup → o.st.labels = l) := by
  have hW : initWgts (.list (ds.map .obj)) (optArg ws) = .list ((ws.getD (List.replicate ds.length none)).map Labels.Obj.ofOption) := by
    cases ws with
    | none =>
      simp only [optArg, initWgts, Option.getD_none, List.map_map, List.map_replicate, Labels.Obj.ofOption]
      congr 1
      exact List.map_const'
    | some l => simp [optArg, initWgts, slot_eq]
  have hS : ∀ w, add nf cal St.empty (.list (ds.map .obj)) w (initStds (optArg ss)) (.none : Arg C) ls =
      add nf cal St.empty (.list (ds.map .obj)) w (.list ((keptStds ds.length ss).map Labels.Obj.ofOption)) (.none : Arg C) ls := by
    intro w
    rcases initStds_eq ss ds.length with ⟨h1, h2⟩ | ⟨l, _, h2, h3⟩
    · rw [h1, h2, add_stds_none]
      simp [Labels.Obj.ofOption]
    · rw [h2, h3]
  have hwl : (ws.getD (List.replicate ds.length none)).length = ds.length := by
    cases ws with
    | none => simp
    | some l => exact hw l rfl
  have hsl : (keptStds ds.length ss).length = ds.length := by
    cases ss with
    | none => simp [keptStds]
    | some l =>
      simp only [keptStds]
      split
      · simp
      · exact hs l rfl
  obtain ⟨s', h1, h2, h3, h4, h5⟩ := C52_add_lists nf cal St.empty ds _ _ ls hne hwl hsl hl
  refine ⟨⟨s', beam⟩, ?_, by simpa [St.empty] using h2, by simpa [St.empty] using h3, by simpa [St.empty] using h4, rfl, by simpa [St.empty] using h5, ?_⟩
  · unfold init argLen
    obtain ⟨n, hn⟩ : ∃ n, (ds.map Labels.Obj.obj).length = n + 1 := by
      cases ds with
      | nil => exact absurd rfl hne
      | cons a l => exact ⟨l.length, by simp⟩
    simp only [hn, hW, hS, h1]
  · intro l hll hnd
    have : ∃ l', ls = .list l' ∧ l' = l ∨ ∃ x, ls = .single x ∧ l = [x] := by
      cases ls with
      | none => simp [LArg.toList] at hll
      | single x => simp [LArg.toList] at hll; exact ⟨[], Or.inr ⟨x, rfl, hll.symm⟩⟩
      | list l' => simp [LArg.toList] at hll; exact ⟨l', Or.inl ⟨rfl, hll⟩⟩
    obtain ⟨a, d', w', s1, c', prs, ha, -, -, -, -, -, -, -, -, -, h9, -⟩ := add_ok h1
    have hal : a.labels = some l := by
      unfold toLists at ha
      simp only [dsetsList, wgtsList, restList, bind, Except.bind, pure, Except.pure] at ha
      injection ha with ha
      rw [← ha, hll]
    simp only []
    rw [h9, hal]
    simp only [Option.getD_some, St.empty, List.nil_append]
    simpa using relabel_fresh l [] (by simpa using hnd)

/-- C136: without data sets the object is empty. -/
theorem C136_empty (nf : D → ℕ) (cal : C → D → Option D) (ws ss : Arg D) (cals : Arg C) (ls : LArg) (beam : Option B) :
    init nf cal .none ws ss cals ls beam = .ok ⟨St.empty, beam⟩ ∧ init nf cal (.list []) ws ss cals ls beam = .ok ⟨St.empty, beam⟩ := ⟨rfl, rfl⟩

/-- C136: created from dictionaries, an object has for every key its data set, weight and error under that label. Missing: with the default weights this is
refused, see the finding. -/
theorem C136_dicts_partial (nf : D → ℕ) (cal : C → D → Option D) (ds ws ss : List (Str × Labels.Obj D)) (beam : Option B) (o : Obj D B) (hn : (ds.map (·.1)).Nodup) (hws : (ws.map (·.1)).Nodup)
    (hss : (ss.map (·.1)).Nodup) (h : init (C := C) nf cal (.dict ds) (.dict ws) (.dict ss) .none .none beam = .ok o)
    (k : Str) (d : D) (w e : Option D) (hd : (k, .obj d) ∈ ds) (hw : (k, slot w) ∈ ws) (he : (k, slot e) ∈ ss) :
    o.beam = beam ∧ ∃ i : ℕ, o.st.labels[i]? = some k ∧ o.st.dsets[i]? = some d ∧ o.st.wgts[i]? = some w ∧ o.st.stds[i]? = some e := by
  unfold init at h
  cases hl : ds.length with
  | zero =>
    rw [List.length_eq_zero_iff] at hl
    subst hl; simp at hd
  | succ n =>
    simp only [argLen, hl, initWgts, initStds] at h
    cases hadd : add nf cal St.empty (.dict ds) (.dict ws) (.dict ss) (.none : Arg C) .none with
    | error x => rw [hadd] at h; cases h
    | ok s =>
      rw [hadd] at h
      injection h with h
      subst h
      rw [slot_eq] at hw he
      exact ⟨rfl, C52_add_dict nf cal St.empty s ds ws ss consistent_empty (by simpa [St.empty] using hn) hws hss hadd k d w e hd hw he⟩

/-- C136 finding: a dictionary of data sets without weights, whose default is documented to be the flags, is always refused: the default weights are made a list. -/
theorem C136_finding_dict_without_weights (nf : D → ℕ) (cal : C → D → Option D) (ds : List (Str × Labels.Obj D)) (hne : ds ≠ []) (ss : Arg D) (cals : Arg C) (beam : Option B) :
    init nf cal (.dict ds) .none ss cals .none beam = .error .type := by
  unfold init
  cases ds with
  | nil => exact absurd rfl hne
  | cons a l =>
    simp only [argLen, List.length_cons, initWgts]
    have : ∀ st, add nf cal St.empty (.dict (a :: l)) (.list (List.map (fun _ => Labels.Obj.none) (a :: l))) st cals .none = .error .type := by
      intro st
      simp only [add, toLists, unpackDict, companionDict, bind, Except.bind]
    rw [this]

/-! ### Time difference -/

/-- C136: the time difference of an object of exactly two data sets holds their time differences in order, the beam, and nothing else is taken. Missing: the
weights are those of the undifferenced data, see the finding. -/
theorem C136_time_difference_partial (nf : D → ℕ) (cal : C → D → Option D) (td : D → Option D) (o : Obj D B) (d0 d1 t0 t1 : D) (w0 w1 : Option D)
    (hd : o.st.dsets = [d0, d1]) (hw : o.st.wgts = [w0, w1]) (h0 : td d0 = some t0) (h1 : td d1 = some t1) :
    ∃ r : Obj D B, timeDifference (C := C) nf cal td o = .ok r ∧ r.st.dsets = [t0, t1] ∧ r.beam = o.beam ∧ r.st.wgts = [w0, w1] ∧ r.st.stds = [none, none] ∧
      r.st.spw = some (0, nf t0) := by
  have := C136_lists (C := C) nf cal [t0, t1] (some [w0, w1]) none .none o.beam (by simp) (by simp) (by simp) (by simp [LArg.toList])
  obtain ⟨r, h2, h3, h4, h5, h6, h7, _⟩ := this
  refine ⟨r, ?_, h3, h6, h4, h5, h7⟩
  unfold timeDifference
  rw [hd, hw]
  simp only [List.getElem?_cons_zero, List.getElem?_cons_succ, h0, h1]
  exact h2

/-- C136: an object with fewer or more than two data sets is refused. -/
theorem C136_time_difference_two (nf : D → ℕ) (cal : C → D → Option D) (td : D → Option D) (o r : Obj D B) (hc : Consistent o.st)
    (h : timeDifference (C := C) nf cal td o = .ok r) : o.st.dsets.length = 2 := by
  unfold timeDifference at h
  split at h
  · rename_i d0 d1 h0 h1
    split at h
    · unfold init argLen at h
      simp only [List.length_cons, List.length_nil, initWgts, initStds] at h
      split at h
      · cases h
      · rename_i s hadd
        obtain ⟨a, ds, ws, ss, cs, prs, ha, hl, -⟩ := add_ok hadd
        simp only [toLists, dsetsList, wgtsList, restList, bind, Except.bind, pure, Except.pure] at ha
        injection ha with ha
        subst ha
        simp only [lengthsOk, Bool.and_eq_true, beq_iff_eq, List.length_cons, List.length_nil, List.length_map] at hl
        have := hc.wgts
        omega
    · cases h
  · cases h

theorem getD_get (l : List ℚ) {i : ℕ} (h : i < l.length) : l.getD i 0 = l[i] := by simp [List.getD, h]

/-- C136 finding: if a data set comes with weights, which have a row for each row of the data, the weights kept have rows at times that the differenced data
no longer have. -/
theorem C136_finding_weights_not_differenced {E : Type} [AddCommGroup E] [Module ℝ E] (ts : List ℚ) (hts : ts.Pairwise (· < ·)) (h3 : 3 ≤ ts.length) (bls : List ℕ) (hb : bls ≠ [])
    (v w : ℕ → ℚ → E) (td : ℚ) (h0 : 0 ≤ td) (nf : List (TimeDiff.Row E) → ℕ) (cal : C → List (TimeDiff.Row E) → Option (List (TimeDiff.Row E)))
    (o : Obj (List (TimeDiff.Row E)) B)
    (hd : o.st.dsets = [TimeDiff.timeMajor ts bls v, TimeDiff.timeMajor ts bls v]) (hw : o.st.wgts = [some (TimeDiff.timeMajor ts bls w), some (TimeDiff.timeMajor ts bls w)]) :
    ∃ (r : Obj (List (TimeDiff.Row E)) B) (dat wgt : List (TimeDiff.Row E)), timeDifference (C := C) nf cal (fun d => TimeDiff.timeDifference d td) o = .ok r ∧
      r.st.dsets[0]? = some dat ∧ r.st.wgts[0]? = some (some wgt) ∧ ∃ x ∈ wgt, ∀ y ∈ dat, y.time ≠ x.time := by
  obtain ⟨d, hd0, hd1, ht, _, hi⟩ := TimeDiff.C99_differences_partial ts hts h3 bls hb v td h0
  obtain ⟨r, h1, h2, _, h4, _⟩ := C136_time_difference_partial (C := C) (B := B) nf cal (fun d => TimeDiff.timeDifference d td) o _ _ _ _ _ _ hd hw ht ht
  refine ⟨r, _, _, h1, by rw [h2]; rfl, by rw [h4]; rfl, ?_⟩
  obtain ⟨b, hbm⟩ := List.exists_mem_of_ne_nil bls hb
  have hlast : ts.length - 1 < ts.length := by omega
  refine ⟨⟨b, ts.getD (ts.length - 1) 0, w b (ts.getD (ts.length - 1) 0)⟩, ?_, ?_⟩
  · unfold TimeDiff.timeMajor
    rw [List.mem_flatMap]
    refine ⟨ts.getD (ts.length - 1) 0, ?_, List.mem_map.2 ⟨b, hbm, rfl⟩⟩
    rw [getD_get ts hlast]
    exact List.getElem_mem _
  · intro y hy
    rw [List.mem_flatMap] at hy
    obtain ⟨i, hir, hy⟩ := hy
    rw [List.mem_map] at hy
    obtain ⟨c, _, rfl⟩ := hy
    have hlt := (hi i).2 (List.mem_range.1 hir)
    simp only []
    rw [getD_get ts hlast, getD_get ts (show d * i < ts.length by omega)]
    exact (List.pairwise_iff_getElem.1 hts _ _ (by omega) hlast (by omega)).ne

example : ∃ o : Obj ℕ ℕ, init (C := ℕ) (fun _ => 10) (fun _ _ => none) (.list [.obj 1, .obj 2]) .none (.list [.obj 3, .none]) .none (.list [['a'], ['b']]) (some 7) = .ok o ∧
    o.st.dsets = [1, 2] ∧ o.st.wgts = [none, none] ∧ o.st.stds = [none, none] ∧ o.st.labels = [['a'], ['b']] ∧ o.beam = some 7 := ⟨_, rfl, rfl, rfl, rfl, rfl, rfl⟩

end HeraPspec.Create
