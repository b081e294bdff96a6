import Verif.Lemmas.Hdf5

/-!
C92: writing a power spectrum object to HDF5 and reading it back.
-/
namespace HeraPspec.Hdf5
open HeraPspec.ArgParse (Str)
open HeraPspec.UVP (mapE)
open HeraPspec.Params

variable {V : Type}

/-! ### Specification -/

/-- `u.a[s]` for a dictionary attribute `a`, if present. -/
def arrayAt (u : Obj V) (a : Str) (s : ℕ) : Option V := (Dict.get u.dicts a).bind (fun d => Dict.get d s)

/-- `u.stats_array[n][s]`, if present. -/
def statAt (u : Obj V) (n : Str) (s : ℕ) : Option V := (u.stats.bind (fun d => Dict.get d n)).bind (fun d => Dict.get d s)

/-- The spectral windows of an object. -/
def spwsOf (c : Codec V) (u : Obj V) : List ℕ := ((Dict.get u.attrs n_spw_array).map c.spws).getD []

/-- Whether the object says it has exact window functions. -/
def exactOf (c : Codec V) (u : Obj V) : Bool := ((Dict.get u.attrs n_exact_windows).map c.truthy).getD false

/-! ### Lemmas -/

theorem arrayAt_iff (u : Obj V) (a : Str) (s : ℕ) (v : V) :
    arrayAt u a s = some v ↔ ∃ e, Dict.get u.dicts a = some e ∧ Dict.get e s = some v := by
  unfold arrayAt
  cases Dict.get u.dicts a <;> simp

theorem statAt_iff (u : Obj V) (n : Str) (s : ℕ) (v : V) :
    statAt u n s = some v ↔ ∃ e, Dict.get (u.stats.getD []) n = some e ∧ Dict.get e s = some v := by
  unfold statAt
  cases u.stats with
  | none => simp
  | some d => simp only [Option.bind_some, Option.getD_some]; cases Dict.get d n <;> simp

theorem check_ok {c : Codec V} {u : Obj V} (h : check c u false = .ok ()) :
    (∀ p ∈ allParams, p ∈ reqParams → u.hasattr p = true) ∧
    ∃ sp n ex, Dict.get u.attrs n_spw_array = some sp ∧ Dict.get u.attrs n_Nspws = some n ∧
      Dict.get u.attrs n_exact_windows = some ex ∧ (∀ s, s ∈ c.spws sp ↔ s < c.nat n) ∧
      (c.truthy ex = true → Dict.has u.dicts n_window_function_array = true ∧ Dict.has u.dicts n_window_function_kperp = true) := by
  unfold check at h
  split at h
  · cases h
  rename_i h1
  split at h
  · rename_i sp n ex hsp hn hex
    split at h
    · cases h
    rename_i h2
    split at h
    · cases h
    rename_i h3
    refine ⟨?_, sp, n, ex, attr_ok.1 hsp, attr_ok.1 hn, attr_ok.1 hex, ?_, ?_⟩
    · intro p hp hr
      simp only [Bool.not_false, Bool.true_and, Bool.not_eq_true', Bool.not_eq_false, List.all_eq_true] at h1
      have := h1 p hp
      simpa [hr] using this
    · simp only [Bool.not_eq_true', Bool.not_eq_false, Bool.and_eq_true, List.all_eq_true] at h2
      intro s
      constructor
      · intro hs; simpa using h2.1 s hs
      · intro hs; simpa using h2.2 s (List.mem_range.2 hs)
    · intro ht
      simpa [ht] using h3
  · cases h

theorem ok_of_check {c : Codec V} {u : Obj V} (h1 : ∀ p ∈ allParams, p ∈ reqParams → u.hasattr p = true)
    {sp n ex : V} (hsp : Dict.get u.attrs n_spw_array = some sp) (hn : Dict.get u.attrs n_Nspws = some n)
    (hex : Dict.get u.attrs n_exact_windows = some ex) (h2 : ∀ s, s ∈ c.spws sp ↔ s < c.nat n)
    (h3 : c.truthy ex = true → Dict.has u.dicts n_window_function_array = true ∧ Dict.has u.dicts n_window_function_kperp = true) :
    check c u false = .ok () := by
  unfold check
  rw [attr_ok.2 hsp, attr_ok.2 hn, attr_ok.2 hex]
  rw [if_neg ?_]
  · simp only
    rw [if_neg ?_, if_neg ?_]
    · cases ht : c.truthy ex
      · simp
      · simp [(h3 ht).1, (h3 ht).2]
    · simp only [Bool.not_eq_true', Bool.not_eq_false, Bool.and_eq_true, List.all_eq_true]
      exact ⟨fun s hs => by simpa using (h2 s).1 hs, fun s hs => by simpa using (h2 s).2 (List.mem_range.1 hs)⟩
  · simp only [Bool.not_false, Bool.true_and, Bool.not_eq_true', Bool.not_eq_false, List.all_eq_true]
    intro p hp
    by_cases hr : p ∈ reqParams
    · simp [h1 p hp hr]
    · simp [hr]

theorem req_cases : ∀ p ∈ allParams, p ∈ reqParams →
    (Params.dicts.contains p = true ∧ p ∈ required.map (·.1)) ∨
    (Params.dicts.contains p = false ∧ (p == n_stats_array) = false ∧ (p ∈ metaAttrs ∨ (p ∈ metaDsets ∧ p ≠ n_time_2_array))) := by
  decide +kernel

theorem required_sub (w e c : Bool) : ∀ a ∈ required.map (·.1), a ∈ (names w e c).map (·.1) := by
  revert w e c; decide +kernel

theorem mem_names (w e c : Bool) :
    (n_window_function_array ∈ (names w e c).map (·.1) ↔ w = true) ∧
    (n_window_function_kperp ∈ (names w e c).map (·.1) ↔ (w && e) = true) ∧
    (n_window_function_kpara ∈ (names w e c).map (·.1) ↔ (w && e) = true) ∧
    (n_cov_array_real ∈ (names w e c).map (·.1) ↔ c = true) ∧
    (n_cov_array_imag ∈ (names w e c).map (·.1) ↔ c = true) := by
  revert w e c; decide +kernel

theorem mem_fst {l : List (Str × Str)} {a : Str} : a ∈ l.map (·.1) ↔ ∃ p, (a, p) ∈ l := by
  simp [List.mem_map]

theorem dsets_allParams : ∀ k ∈ metaDsets, k ≠ n_time_2_array → k ∈ allParams := by decide +kernel
theorem rparams_mem : n_r_params ∈ metaAttrs := by decide +kernel

/-- Everything about a complete read of a file written with the check on. -/
theorem read_full {c : Codec V} {u old : Obj V} {f : File V} (hw : writeGroup c u true = .ok f)
    (hc : ∀ k v, c.dec k (c.enc k v) = v) (htag : c.isTag c.tag = true) (hne : spwsOf c u ≠ []) :
    ∃ sp ex r, Written c u f sp ex ∧ ex = (Dict.has u.dicts n_window_function_array && exactOf c u) ∧ spwsOf c u = c.spws sp ∧
      0 ∈ c.spws sp ∧ (Dict.get u.attrs n_exact_windows).isSome ∧ readGroup c old f (full c) = .ok r ∧
      Loaded c u f sp ex (Dict.set (readMeta c old f) n_r_params (c.rp (readMeta c old f))) r := by
  obtain ⟨hck, sp, ex, w⟩ := written_of_write hw
  obtain ⟨h1, sp', n, e, hsp, hn, he, h2, h3⟩ := check_ok (hck rfl)
  have hsp' : sp' = sp := by have := attr_ok.1 w.hsp; rw [hsp] at this; exact Option.some.inj this
  subst hsp'
  have hspw : spwsOf c u = c.spws sp' := by simp [spwsOf, hsp]
  have h0 : 0 ∈ c.spws sp' := by
    rw [hspw] at hne
    obtain ⟨x, hx⟩ := List.exists_mem_of_ne_nil _ hne
    exact (h2 0).2 (Nat.lt_of_le_of_lt (Nat.zero_le x) ((h2 x).1 hx))
  have hexv : ex = (Dict.has u.dicts n_window_function_array && exactOf c u) := by
    have hx := w.hex
    unfold exactFlag at hx
    unfold exactOf
    rw [he]
    split at hx
    · rename_i hh
      rw [attr_ok.2 he] at hx
      simp only [Except.map, Except.ok.injEq] at hx
      simp [hh, hx]
    · rename_i hh
      simp only [Except.ok.injEq] at hx
      simp [hh, ← hx]
  have hxs : (Dict.get u.attrs n_exact_windows).isSome := by simp [he]
  have hrm := w.get_readMeta hc hxs old
  have hmsp : Dict.get (readMeta c old f) n_spw_array = some sp' := by
    rw [hrm, if_pos (by decide +kernel), hsp]
  obtain ⟨r, hr, hl⟩ := w.load h0 (Dict.set (readMeta c old f) n_r_params (c.rp (readMeta c old f)))
  have hra : ∀ k ∈ metaAttrs, k ≠ n_r_params → Dict.get r.attrs k = Dict.get u.attrs k := by
    intro k hk hkr
    rw [hl.attrs, Dict.get_set, if_neg (Ne.symm hkr), hrm, if_pos hk]
  have hrd : ∀ k ∈ metaDsets, k ≠ n_time_2_array → Dict.get r.attrs k = Dict.get u.attrs k := by
    intro k hk hkt
    have hkm : k ∉ metaAttrs := fun h => metaAttrs_not_dsets k h hk
    rw [hl.attrs, Dict.get_set, if_neg (fun h : n_r_params = k => hkm (h ▸ rparams_mem)), hrm, if_neg hkm, if_pos hk, get_clear,
      if_pos (dsets_allParams k hk hkt)]
    simp
  have hhas : ∀ a, Dict.has r.dicts a = decide (a ∈ (uNames u ex).map (·.1)) := by
    intro a
    rw [Bool.eq_iff_iff, has_iff, Dict.get_isSome_iff, decide_eq_true_eq, ← hl.keys]; rfl
  have hcheck : check c r false = .ok () := by
    refine ok_of_check ?_ (sp := sp') (n := n) (ex := e) ?_ ?_ ?_ h2 ?_
    · intro p hp hq
      rcases req_cases p hp hq with ⟨hd, hm⟩ | ⟨hd, hst, hm⟩
      · simp only [Obj.hasattr, hd, if_true, hhas, decide_eq_true_eq]
        exact required_sub _ _ _ p hm
      · have hu := h1 p hp hq
        simp only [Obj.hasattr, hd, hst, Bool.false_eq_true, if_false, has_iff] at hu ⊢
        by_cases hpr : p = n_r_params
        · rw [hl.attrs, Dict.get_set, if_pos hpr.symm]; rfl
        · rcases hm with hm | ⟨hm, ht⟩
          · rw [hra p hm hpr]; exact hu
          · rw [hrd p hm ht]; exact hu
    · rw [hra _ (by decide +kernel) (by decide)]; exact hsp
    · rw [hra _ (by decide +kernel) (by decide)]; exact hn
    · rw [hra _ (by decide +kernel) (by decide)]; exact he
    · intro ht
      have hw' := (h3 ht).1
      have hext : ex = true := by
        rw [hexv, hw']
        simp [exactOf, he, ht]
      have hmn := mem_names (Dict.has u.dicts n_window_function_array) ex (Dict.has u.dicts n_cov_array_real)
      constructor
      · rw [hhas, decide_eq_true_eq]; exact hmn.1.2 hw'
      · rw [hhas, decide_eq_true_eq]; exact hmn.2.1.2 (by simp [hw', hext])
  refine ⟨sp', ex, r, w, hexv, hspw, h0, hxs, ?_, hl⟩
  have hgt : ((Dict.get f.attrs n_pspec_type).map c.isTag).getD false = true := by
    rw [w.attrs, Dict.get_set, if_pos rfl]; exact htag
  unfold readGroup
  rw [hgt, if_pos rfl]
  unfold readBody full
  simp only [attr_ok.2 hmsp]
  show (arrays _ _ _ _ _ _ _ _ >>= _) = _
  rw [hr]
  show (check c r false >>= _) = _
  rw [hcheck]
  rfl

/-! ### Theorems -/

/-- C92: an object that passes its own check and is written to a group comes back, into any object `old`, with all its metadata
(except that `r_params` is normalised by the reader), with the same arrays for every spectral window, the same window functions,
covariances and statistics; nothing else appears. Missing: `symmetric_taper` and `time_2_array` (false, see the findings) and an
empty `stats_array`. -/
theorem C92_round_trip_partial {c : Codec V} {u old : Obj V} {f : File V} (hw : writeGroup c u true = .ok f)
    (hc : ∀ k v, c.dec k (c.enc k v) = v) (htag : c.isTag c.tag = true) (hne : spwsOf c u ≠ []) :
    ∃ r, readGroup c old f (full c) = .ok r ∧
      (∀ k ∈ metaAttrs, k ≠ n_r_params → Dict.get r.attrs k = Dict.get u.attrs k) ∧
      (∀ k ∈ metaDsets, k ≠ n_time_2_array → Dict.get r.attrs k = Dict.get u.attrs k) ∧
      (∀ v, Dict.get u.attrs n_time_2_array = some v → Dict.get r.attrs n_time_2_array = some v) ∧
      (∀ s ∈ spwsOf c u, ∀ a ∈ required.map (·.1), (arrayAt u a s).isSome ∧ arrayAt r a s = arrayAt u a s) ∧
      (∀ s ∈ spwsOf c u, arrayAt r n_window_function_array s = arrayAt u n_window_function_array s) ∧
      (exactOf c u = true → ∀ s ∈ spwsOf c u, arrayAt r n_window_function_kperp s = arrayAt u n_window_function_kperp s ∧
        arrayAt r n_window_function_kpara s = arrayAt u n_window_function_kpara s) ∧
      (∀ s ∈ spwsOf c u, arrayAt r n_cov_array_real s = arrayAt u n_cov_array_real s) ∧
      (Dict.has u.dicts n_cov_array_real = true → ∀ s ∈ spwsOf c u, arrayAt r n_cov_array_imag s = arrayAt u n_cov_array_imag s) ∧
      (∀ s ∈ spwsOf c u, ∀ n, statAt r n s = statAt u n s) ∧
      (∀ s, s ∉ spwsOf c u → (∀ a, arrayAt r a s = none) ∧ ∀ n, statAt r n s = none) := by
  obtain ⟨sp, ex, r, w, hexv, hspw, h0, hxs, hr, hl⟩ := read_full (old := old) hw hc htag hne
  have hrm := w.get_readMeta hc hxs old
  have hmn := mem_names (Dict.has u.dicts n_window_function_array) ex (Dict.has u.dicts n_cov_array_real)
  have harr : ∀ s ∈ spwsOf c u, ∀ a ∈ (uNames u ex).map (·.1), arrayAt r a s = arrayAt u a s := by
    intro s hs a ha
    apply Option.ext
    intro v
    rw [arrayAt_iff, hl.arr, arrayAt_iff, ← fetchMem_ok]
    constructor
    · exact fun h => h.2.2
    · exact fun h => ⟨mem_fst.1 ha, hspw ▸ hs, h⟩
  have hno : ∀ s a, a ∉ (uNames u ex).map (·.1) → arrayAt r a s = none := by
    intro s a ha
    apply Option.eq_none_iff_forall_not_mem.2
    intro v hv
    have := (hl.arr a s v).1 ((arrayAt_iff _ _ _ _).1 hv)
    exact ha (mem_fst.2 this.1)
  have habs : ∀ a s, Dict.has u.dicts a = false → arrayAt u a s = none := by
    intro a s h
    have : Dict.get u.dicts a = none := by
      cases hg : Dict.get u.dicts a with
      | none => rfl
      | some d =>
        have : Dict.has u.dicts a = true := (has_iff _ _).2 (by rw [hg]; rfl)
        rw [h] at this; cases this
    simp [arrayAt, this]
  refine ⟨r, hr, ?_, ?_, ?_, ?_, ?_, ?_, ?_, ?_, ?_, ?_⟩
  · intro k hk hkr
    rw [hl.attrs, Dict.get_set, if_neg (Ne.symm hkr), hrm, if_pos hk]
  · intro k hk hkt
    have hkm : k ∉ metaAttrs := fun h => metaAttrs_not_dsets k h hk
    rw [hl.attrs, Dict.get_set, if_neg (fun h : n_r_params = k => hkm (h ▸ rparams_mem)), hrm, if_neg hkm, if_pos hk, get_clear,
      if_pos (dsets_allParams k hk hkt)]
    simp
  · intro v hv
    rw [hl.attrs, Dict.get_set, if_neg (by decide), hrm, if_neg (by decide +kernel), if_pos (by decide +kernel), hv]
    rfl
  · intro s hs a ha
    have hm := required_sub (Dict.has u.dicts n_window_function_array) ex (Dict.has u.dicts n_cov_array_real) a ha
    refine ⟨?_, harr s hs a hm⟩
    obtain ⟨p, hp⟩ := mem_fst.1 hm
    obtain ⟨v, hv⟩ := w.arr _ hp s (hspw ▸ hs)
    rw [Option.isSome_iff_exists]
    exact ⟨v, (arrayAt_iff _ _ _ _).2 (fetchMem_ok.1 hv)⟩
  · intro s hs
    by_cases h : Dict.has u.dicts n_window_function_array = true
    · exact harr s hs _ (hmn.1.2 h)
    · rw [hno s _ (fun h' => h (hmn.1.1 h')), habs _ _ (by simpa using h)]
  · intro hx s hs
    obtain ⟨-, sp', n', e', -, -, he', -, h3⟩ := check_ok ((written_of_write hw).1 rfl)
    have hwin := (h3 (by simpa [exactOf, he'] using hx)).1
    have hext : (Dict.has u.dicts n_window_function_array && ex) = true := by rw [hexv, hwin, hx]; rfl
    exact ⟨harr s hs _ (hmn.2.1.2 hext), harr s hs _ (hmn.2.2.1.2 hext)⟩
  · intro s hs
    by_cases h : Dict.has u.dicts n_cov_array_real = true
    · exact harr s hs _ (hmn.2.2.2.1.2 h)
    · rw [hno s _ (fun h' => h (hmn.2.2.2.1.1 h')), habs _ _ (by simpa using h)]
  · intro h s hs
    exact harr s hs _ (hmn.2.2.2.2.2 h)
  · intro s hs n
    apply Option.ext
    intro v
    rw [statAt_iff, hl.stat, statAt_iff, ← fetchMem_ok]
    constructor
    · exact fun h => h.2.2
    · intro h
      refine ⟨?_, hspw ▸ hs, h⟩
      obtain ⟨e, he, -⟩ := fetchMem_ok.1 h
      exact (Dict.get_isSome_iff _ _).1 (by rw [he]; rfl)
  · intro s hs
    constructor
    · intro a
      apply Option.eq_none_iff_forall_not_mem.2
      intro v hv
      exact hs (hspw ▸ ((hl.arr a s v).1 ((arrayAt_iff _ _ _ _).1 hv)).2.1)
    · intro n
      apply Option.eq_none_iff_forall_not_mem.2
      intro v hv
      exact hs (hspw ▸ ((hl.stat n s v).1 ((statAt_iff _ _ _ _).1 hv)).2.1)

/-- C92: without exact window functions the bin arrays of the window functions do not come back even if the object has them. -/
theorem C92_no_exact_no_bins {c : Codec V} {u old r : Obj V} {f : File V} (hw : writeGroup c u true = .ok f)
    (hc : ∀ k v, c.dec k (c.enc k v) = v) (htag : c.isTag c.tag = true) (hne : spwsOf c u ≠ []) (hx : exactOf c u = false)
    (hr : readGroup c old f (full c) = .ok r) (s : ℕ) :
    arrayAt r n_window_function_kperp s = none ∧ arrayAt r n_window_function_kpara s = none := by
  obtain ⟨sp, ex, r', w, hexv, hspw, h0, hxs, hr', hl⟩ := read_full (old := old) hw hc htag hne
  rw [hr] at hr'
  cases hr'
  have hmn := mem_names (Dict.has u.dicts n_window_function_array) ex (Dict.has u.dicts n_cov_array_real)
  have hexf : ex = false := by rw [hexv, hx]; simp
  constructor <;>
  · apply Option.eq_none_iff_forall_not_mem.2
    intro v hv
    have := mem_fst.2 ((hl.arr _ s v).1 ((arrayAt_iff _ _ _ _).1 hv)).1
    first
      | exact absurd (hmn.2.1.1 this) (by simp [hexf])
      | exact absurd (hmn.2.2.1.1 this) (by simp [hexf])

/-- C92: reading part of a file is the same as reading all of it and selecting in memory. The selection acts on the metadata, does not
depend on whether `r_params` was normalised before, and keeps at least one spectral window. -/
theorem C92_read_selection {c : Codec V} {u old r : Obj V} {f : File V} (hw : writeGroup c u true = .ok f)
    (hc : ∀ k v, c.dec k (c.enc k v) = v) (htag : c.isTag c.tag = true) (hne : spwsOf c u ≠ [])
    (hr : readGroup c old f (full c) = .ok r) (sel : Selection V)
    (hsel : ∀ a, sel (Dict.set a n_r_params (c.rp a)) = sel a) (hpairs : ∀ a p, sel a = .ok p → p.pairs ≠ []) :
    select c r sel = readGroup c old f sel := by
  obtain ⟨sp, ex, r', w, hexv, hspw, h0, hxs, hr', hl⟩ := read_full (old := old) hw hc htag hne
  rw [hr] at hr'
  cases hr'
  have hgt : ((Dict.get f.attrs n_pspec_type).map c.isTag).getD false = true := by
    rw [w.attrs, Dict.get_set, if_pos rfl]; exact htag
  unfold readGroup
  rw [hgt, if_pos rfl]
  unfold select readBody
  rw [hl.attrs, hsel]
  cases hp : sel (readMeta c old f) with
  | error e => rfl
  | ok p =>
    show (arrays r p _ _ _ _ _ _ >>= _) = (arrays _ p _ _ _ _ _ _ >>= _)
    have hpe : p.pairs.isEmpty = false := by
      have := hpairs _ _ hp
      cases h : p.pairs with
      | nil => exact absurd h this
      | cons x l => rfl
    suffices harr : arrays r p (Dict.has r.dicts n_window_function_array) (Dict.has r.dicts n_window_function_kperp)
        (Dict.has r.dicts n_cov_array_real) (Dict.keys (r.stats.getD [])) (fun n => fetchMem r.dicts n.1) (fetchMem (r.stats.getD [])) =
      arrays ⟨[], [], none⟩ p (Dict.has f.dsets (dsName pWin 0)) (Dict.has f.dsets (dsName pKperp 0))
        (Dict.has f.dsets (dsName pCovR 0)) (statNames f) (fun n i => fetchDs f (dsName n.2 i)) (fun s i => fetchDs f (statName s i)) by
      rw [harr]
    have hhas : ∀ a, Dict.has r.dicts a = decide (a ∈ (uNames u ex).map (·.1)) := by
      intro a
      rw [Bool.eq_iff_iff, has_iff, Dict.get_isSome_iff, decide_eq_true_eq, ← hl.keys]; rfl
    have hmn := mem_names (Dict.has u.dicts n_window_function_array) ex (Dict.has u.dicts n_cov_array_real)
    have e1 : Dict.has r.dicts n_window_function_array = Dict.has u.dicts n_window_function_array := by
      rw [hhas, Bool.eq_iff_iff, decide_eq_true_eq]; exact hmn.1
    have e2 : Dict.has r.dicts n_window_function_kperp = (Dict.has u.dicts n_window_function_array && ex) := by
      rw [hhas, Bool.eq_iff_iff, decide_eq_true_eq]; exact hmn.2.1
    have e3 : Dict.has r.dicts n_cov_array_real = Dict.has u.dicts n_cov_array_real := by
      rw [hhas, Bool.eq_iff_iff, decide_eq_true_eq]; exact hmn.2.2.2.1
    have hst : Dict.keys (r.stats.getD []) = statNames f := by
      rcases hl.stats with ⟨h1, h2⟩ | ⟨ss, h1, h2, -⟩
      · rw [h1, h2]; rfl
      · rw [h1]; exact h2
    have hnm : names (Dict.has u.dicts n_window_function_array) (Dict.has u.dicts n_window_function_array && ex)
        (Dict.has u.dicts n_cov_array_real) = uNames u ex := (flag_names _ _ _).2.2.2
    have hf : ∀ n ∈ uNames u ex, ∀ i, fetchMem r.dicts n.1 i = fetchDs f (dsName n.2 i) := by
      intro n hn i
      by_cases hi : i ∈ c.spws sp
      · obtain ⟨v, hv⟩ := w.arr n hn i hi
        rw [fetchMem_ok.2 ((hl.arr n.1 i v).2 ⟨⟨n.2, hn⟩, hi, hv⟩),
          fetchDs_ok.2 ((w.get_ds (names_prefixes _ _ _ n hn) i v).2 ⟨hi, n.1, hn, hv⟩)]
      · have h1 : Dict.get f.dsets (dsName n.2 i) = none := by
          apply Option.eq_none_iff_forall_not_mem.2
          intro v hv
          exact hi ((w.get_ds (names_prefixes _ _ _ n hn) i v).1 hv).1
        have h2 : ∃ d, Dict.get r.dicts n.1 = some d := by
          rw [← Option.isSome_iff_exists, ← has_iff, hhas, decide_eq_true_eq]
          exact mem_fst.2 ⟨n.2, hn⟩
        obtain ⟨d, hd⟩ := h2
        have h3 : Dict.get d i = none := by
          apply Option.eq_none_iff_forall_not_mem.2
          intro v hv
          exact hi ((hl.arr n.1 i v).1 ⟨d, hd, hv⟩).2.1
        simp [fetchMem, fetchDs, h1, hd, h3]
    have hs : ∀ n ∈ statNames f, ∀ i, fetchMem (r.stats.getD []) n i = fetchDs f (statName n i) := by
      intro n hn i
      obtain ⟨hk, -⟩ := (w.mem_statNames n).1 hn
      by_cases hi : i ∈ c.spws sp
      · obtain ⟨v, hv⟩ := w.st n hk i hi
        rw [fetchMem_ok.2 ((hl.stat n i v).2 ⟨hk, hi, hv⟩), fetchDs_ok.2 ((w.get_stat n i v).2 ⟨hk, hi, hv⟩)]
      · have h1 : Dict.get f.dsets (statName n i) = none := by
          apply Option.eq_none_iff_forall_not_mem.2
          intro v hv
          exact hi ((w.get_stat n i v).1 hv).2.1
        have h2 : ∃ d, Dict.get (r.stats.getD []) n = some d := by
          rw [← Option.isSome_iff_exists, Dict.get_isSome_iff, hst]; exact hn
        obtain ⟨d, hd⟩ := h2
        have h3 : Dict.get d i = none := by
          apply Option.eq_none_iff_forall_not_mem.2
          intro v hv
          exact hi ((hl.stat n i v).1 ⟨d, hd, hv⟩).2.1
        simp [fetchMem, fetchDs, h1, hd, h3]
    unfold arrays
    rw [e1, e2, e3, hst, (w.flags h0).1, (w.flags h0).2.1, (w.flags h0).2.2, hpe, Bool.not_false, Bool.and_true, hnm]
    have g1 : mapE (fun n : Str × Str => (loadOne (fetchMem r.dicts n.1) (p.slice n.1) p.pairs).map (fun d => (n.1, d))) (uNames u ex) =
        mapE (fun n : Str × Str => (loadOne (fun i => fetchDs f (dsName n.2 i)) (p.slice n.1) p.pairs).map (fun d => (n.1, d)))
          (uNames u ex) := by
      apply mapE_congr
      intro n hn
      have : fetchMem r.dicts n.1 = fun i => fetchDs f (dsName n.2 i) := by funext i; exact hf n hn i
      rw [this]
    have g2 : mapE (fun s : Str => (loadOne (fetchMem (r.stats.getD []) s) p.statSlice p.pairs).map (fun d => (s, d))) (statNames f) =
        mapE (fun s : Str => (loadOne (fun i => fetchDs f (statName s i)) p.statSlice p.pairs).map (fun d => (s, d))) (statNames f) := by
      apply mapE_congr
      intro n hn
      have : fetchMem (r.stats.getD []) n = fun i => fetchDs f (statName n i) := by funext i; exact hs n hn i
      rw [this]
    rw [g1, g2]
    cases hds : mapE (fun n : Str × Str => (loadOne (fun i => fetchDs f (dsName n.2 i)) (p.slice n.1) p.pairs).map (fun d => (n.1, d)))
      (uNames u ex) with
    | error e => rfl
    | ok ds =>
      show (mapE _ (statNames f) >>= _) = (mapE _ (statNames f) >>= _)
      cases hss : mapE (fun s : Str => (loadOne (fun i => fetchDs f (statName s i)) p.statSlice p.pairs).map (fun d => (s, d)))
        (statNames f) with
      | error e => rfl
      | ok ss =>
        show Except.ok _ = Except.ok _
        have hk := mapE_keys hds
        have hn1 : (ds.map (·.1)).Nodup := by rw [hk]; exact names_fst_nodup _ _ _
        have a1 : assign r.dicts ds = ds := by
          have := foldl_set_same ds r.dicts [] (by rw [List.nil_append, hl.keys]; exact names_fst_nodup _ _ _) (by rw [hk, hl.keys])
          simpa [assign] using this
        have a2 : assign [] ds = ds := by
          unfold assign
          rw [foldl_set_append ds [] hn1 (by simp)]; rfl
        rw [a1, a2]
        congr 2
        rcases hl.stats with ⟨h1, h2⟩ | ⟨ss', h1, h2, h3⟩
        · simp [h2, h1]
        · simp [h3, hpe]

/-- C92 finding: `symmetric_taper` is not stored. Whatever the written object says, the reader keeps the value it had before. -/
theorem C92_finding_symmetric_taper {c : Codec V} {u old r : Obj V} {f : File V} (hw : writeGroup c u true = .ok f)
    (hc : ∀ k v, c.dec k (c.enc k v) = v) (htag : c.isTag c.tag = true) (hne : spwsOf c u ≠ [])
    (hr : readGroup c old f (full c) = .ok r) :
    Dict.get r.attrs n_symmetric_taper = Dict.get old.attrs n_symmetric_taper := by
  obtain ⟨sp, ex, r', w, hexv, hspw, h0, hxs, hr', hl⟩ := read_full (old := old) hw hc htag hne
  rw [hr] at hr'
  cases hr'
  rw [hl.attrs, Dict.get_set, if_neg (by decide), w.get_readMeta hc hxs old, if_neg (by decide +kernel), if_neg (by decide +kernel),
    get_clear, if_neg (by decide +kernel)]

/-- C92 finding: reading does not clear `time_2_array`: if the file has none, the reader keeps the array it had before, next to the
metadata of the file. (The check does not require `time_2_array` although it is listed as required.) -/
theorem C92_finding_time_2_stale {c : Codec V} {u old r : Obj V} {f : File V} (hw : writeGroup c u true = .ok f)
    (hc : ∀ k v, c.dec k (c.enc k v) = v) (htag : c.isTag c.tag = true) (hne : spwsOf c u ≠ [])
    (hr : readGroup c old f (full c) = .ok r) (hu : Dict.get u.attrs n_time_2_array = none) :
    Dict.get r.attrs n_time_2_array = Dict.get old.attrs n_time_2_array := by
  obtain ⟨sp, ex, r', w, hexv, hspw, h0, hxs, hr', hl⟩ := read_full (old := old) hw hc htag hne
  rw [hr] at hr'
  cases hr'
  rw [hl.attrs, Dict.get_set, if_neg (by decide), w.get_readMeta hc hxs old, if_neg (by decide +kernel), if_pos (by decide +kernel),
    hu, get_clear, if_neg (by decide +kernel)]
  rfl

/-- C92 finding: an empty `stats_array` does not come back. -/
theorem C92_finding_empty_stats {c : Codec V} {u old r : Obj V} {f : File V} (hw : writeGroup c u true = .ok f)
    (hc : ∀ k v, c.dec k (c.enc k v) = v) (htag : c.isTag c.tag = true) (hne : spwsOf c u ≠ [])
    (hr : readGroup c old f (full c) = .ok r) (hu : u.stats = some []) : r.stats = none := by
  obtain ⟨sp, ex, r', w, hexv, hspw, h0, hxs, hr', hl⟩ := read_full (old := old) hw hc htag hne
  rw [hr] at hr'
  cases hr'
  rcases hl.stats with ⟨h, -⟩ | ⟨ss, -, -, h⟩
  · exact h
  · exfalso
    obtain ⟨n, hn⟩ := List.exists_mem_of_ne_nil _ h
    have := ((w.mem_statNames n).1 hn).1
    rw [hu] at this
    cases this

/-- C92: without `overwrite` an existing file is left as it is and an error is raised; otherwise, if the object can be written, the
path holds what was written, whatever was there before. -/
theorem C92_write_file (c : Codec V) (u : Obj V) (fs : Option (File V)) (rc : Bool) :
    (∀ f0, fs = some f0 → writeFile c u fs false rc = (.error .os, some (some f0))) ∧
    (∀ f ow, writeGroup c u rc = .ok f → fs = none ∨ ow = true → writeFile c u fs ow rc = (.ok (), some (some f))) := by
  constructor
  · rintro f0 rfl; rfl
  · rintro f ow h (rfl | rfl) <;> simp [writeFile, h]

/-- C92 finding: overwriting with an object that fails its check destroys the old file. -/
theorem C92_finding_overwrite_loses (c : Codec V) (u : Obj V) (f0 : File V) (e : Err) (h : check c u false = .error e) :
    writeFile c u (some f0) true true = (.error e, some none) := by
  have : writeGroup c u true = .error e := by
    show (check c u false >>= _) = _
    rw [h]; rfl
  simp [writeFile, this]

/-! ### A concrete case -/

/-- A codec on lists of numbers. -/
def cex : Codec (List ℕ) where
  spws := id
  nat := fun v => v.headD 0
  truthy := fun v => !v.isEmpty
  enc := fun k v => if k = n_labels then 9 :: v else v
  dec := fun k v => if k = n_labels then v.tail else v
  rp := fun _ => [3]
  ff := []
  tag := [42]
  isTag := fun v => v == [42]

/-- An object with two spectral windows, exact window functions, covariances and a statistic `P_N`. -/
def uex : Obj (List ℕ) where
  attrs := (n_symmetric_taper, [1]) :: (metaAttrs ++ metaDsets).map (fun k =>
    (k, if k = n_spw_array then [0, 1] else if k = n_Nspws then [2] else k.map Char.toNat))
  dicts := (names true true true).map (fun n => (n.1, [(0, n.1.map Char.toNat), (1, n.2.map Char.toNat)]))
  stats := some [(['P', '_', 'N'], [(0, [5]), (1, [6])])]

/-- The object written. -/
def fex : Except Err (File (List ℕ)) := writeGroup cex uex true

/-- Whether reading the written object into an empty one gives back the arrays and the statistic. -/
def okEx : Bool :=
  match fex with
  | .error _ => false
  | .ok f => match readGroup cex ⟨[], [], none⟩ f (full cex) with
    | .error _ => false
    | .ok r => arrayAt r n_data_array 1 == arrayAt uex n_data_array 1 && statAt r ['P', '_', 'N'] 0 == some [5] &&
        (Dict.get r.attrs n_symmetric_taper).isNone && arrayAt r n_window_function_kperp 0 == some (n_window_function_kperp.map Char.toNat)

/-- The hypotheses of `C92_round_trip_partial` are met by a concrete object. -/
example : (∃ f, writeGroup cex uex true = .ok f) ∧ (∀ k v, cex.dec k (cex.enc k v) = v) ∧ cex.isTag cex.tag = true ∧ spwsOf cex uex ≠ [] := by
  refine ⟨?_, ?_, by decide, by decide +kernel⟩
  · have h : fex.isOk = true := by decide +kernel
    unfold fex at h
    cases hw : writeGroup cex uex true with
    | error e => rw [hw] at h; cases h
    | ok f => exact ⟨f, rfl⟩
  · intro k v
    show (if k = n_labels then (if k = n_labels then 9 :: v else v).tail else (if k = n_labels then 9 :: v else v)) = v
    by_cases h : k = n_labels <;> simp [h]

example : okEx = true := by decide +kernel

/-- A selection of the second window only, relabelled `0`, meets the hypotheses of `C92_read_selection`. -/
example : ∃ sel : Selection (List ℕ), (∀ a, sel (Dict.set a n_r_params (cex.rp a)) = sel a) ∧ (∀ a p, sel a = .ok p → p.pairs ≠ []) ∧
    ∃ a p, sel a = .ok p ∧ p.pairs = [(0, 1)] :=
  ⟨fun a => .ok ⟨Dict.set a n_r_params [3], [(0, 1)], fun _ v => v.take 1, fun v => v.take 1⟩,
    fun a => by
      have : ∀ (d : Dict Str (List ℕ)) (k : Str) (v w : List ℕ), Dict.set (Dict.set d k v) k w = Dict.set d k w := by
        intro d k v w
        induction d with
        | nil => simp [Dict.set]
        | cons e d ih =>
          obtain ⟨a, b⟩ := e
          by_cases h : a = k <;> simp [Dict.set, h, ih]
      simp [this],
    fun a p h => by cases h; simp, [], _, rfl, rfl⟩

end HeraPspec.Hdf5
