import Verif.Model.UvpEq
import Verif.Props.Hdf5
import Mathlib.Algebra.Order.Field.Rat
import Mathlib.Algebra.Order.AbsoluteValue.Basic
import Mathlib.Tactic.NormNum

/-!
C93: equality of power spectrum objects.
-/
namespace HeraPspec.UvpEq
open HeraPspec.ArgParse (Str)
open HeraPspec.Hdf5
open HeraPspec.Params

variable {V : Type}

/-- The attributes that are compared by value: scalars, strings and arrays (all but the per-window dictionaries and statistics). -/
def plain : List Str := allParams.filter (fun p => immutables.contains p || ndarrays.contains p)

/-- Specification of equality: the two objects have the same attributes among those compared, the scalars are equal, the arrays
close, and the per-window arrays of the first are there and close in the second. -/
structure Same (m : Cmp V) (u v : Obj V) : Prop where
  attrs : ∀ p ∈ plain, (Dict.get u.attrs p = none ∧ Dict.get v.attrs p = none ∧ p ∉ reqParams) ∨
    ∃ x y, Dict.get u.attrs p = some x ∧ Dict.get v.attrs p = some y ∧
      (if p ∈ immutables ∨ m.isStr x = true then m.same x y = true else m.close x y = some true)
  dicts : ∀ p ∈ Params.dicts, (Dict.get u.dicts p = none ∧ Dict.get v.dicts p = none ∧ p ∉ reqParams) ∨
    ∃ d, Dict.get u.dicts p = some d ∧ ∀ x ∈ d, ∃ e y, Dict.get v.dicts p = some e ∧ Dict.get e x.1 = some y ∧ m.close x.2 y = some true

theorem eqLoop_true {m : Cmp V} {u v : Obj V} : ∀ l, eqLoop m u v l = .ok true ↔ ∀ p ∈ l, eqParam m u v p = .ok true := by
  intro l
  induction l with
  | nil => simp [eqLoop]
  | cons p l ih =>
    unfold eqLoop
    cases h : eqParam m u v p with
    | error e => simp [h]
    | ok b => cases b <;> simp [h, ih]

theorem closeE_true {m : Cmp V} {x y : V} : closeE m x y = .ok true ↔ m.close x y = some true := by
  unfold closeE
  cases m.close x y <;> simp

theorem eqEntries_true {m : Cmp V} {e : Dict ℕ V} : ∀ d, eqEntries m e d = .ok true ↔
    ∀ x ∈ d, ∃ y, Dict.get e x.1 = some y ∧ m.close x.2 y = some true := by
  intro d
  induction d with
  | nil => simp [eqEntries]
  | cons x d ih =>
    unfold eqEntries
    cases h : Dict.get e x.1 with
    | none => simp [h]
    | some y =>
      simp only [List.mem_cons, forall_eq_or_imp, h, Option.some.injEq, exists_eq_left']
      rw [← ih, ← closeE_true]
      cases closeE m x.2 y with
      | error e => simp
      | ok b => cases b <;> simp

theorem eqDict_true {m : Cmp V} {d e : Option (Dict ℕ V)} : eqDict m d e = .ok true ↔
    ∃ d', d = some d' ∧ ∀ x ∈ d', ∃ e' y, e = some e' ∧ Dict.get e' x.1 = some y ∧ m.close x.2 y = some true := by
  cases d with
  | none => simp [eqDict]
  | some d =>
    cases d with
    | nil => simp [eqDict]
    | cons x d =>
      cases e with
      | none =>
        constructor
        · intro h; cases h
        · rintro ⟨d', hd', h⟩
          cases hd'
          obtain ⟨e, y, he, -⟩ := h x List.mem_cons_self
          cases he
      | some e =>
        show eqEntries m e (x :: d) = .ok true ↔ _
        rw [eqEntries_true]
        constructor
        · intro h
          exact ⟨_, rfl, fun z hz => by obtain ⟨y, hy⟩ := h z hz; exact ⟨e, y, rfl, hy⟩⟩
        · rintro ⟨d', hd', h⟩ z hz
          cases hd'
          obtain ⟨e', y, he, hy⟩ := h z hz
          cases he
          exact ⟨y, hy⟩

theorem classes : ∀ p ∈ allParams,
    (immutables.contains p = true ∧ ndarrays.contains p = false ∧ Params.dicts.contains p = false ∧ (p == n_stats_array) = false) ∨
    (immutables.contains p = false ∧ ndarrays.contains p = true ∧ Params.dicts.contains p = false ∧ (p == n_stats_array) = false) ∨
    (immutables.contains p = false ∧ ndarrays.contains p = false ∧ Params.dicts.contains p = true ∧ (p == n_stats_array) = false) ∨
    (immutables.contains p = false ∧ ndarrays.contains p = false ∧ Params.dicts.contains p = false ∧ (p == n_stats_array) = true) := by
  decide +kernel

theorem dicts_all : ∀ p ∈ Params.dicts, p ∈ allParams := by decide +kernel
theorem stats_not_req : reqParams.contains n_stats_array = false := by decide +kernel

theorem has_false {W : Type} {d : Dict Str W} {k : Str} : Dict.has d k = false ↔ Dict.get d k = none := by
  have := has_iff d k
  cases h : Dict.get d k with
  | none => rw [h] at this; cases hh : Dict.has d k <;> simp_all
  | some v => rw [h] at this; cases hh : Dict.has d k <;> simp_all

theorem eqParam_true {m : Cmp V} {u v : Obj V} {p : Str} (hp : p ∈ allParams) : eqParam m u v p = .ok true ↔
    (p ∈ plain → (Dict.get u.attrs p = none ∧ Dict.get v.attrs p = none ∧ p ∉ reqParams) ∨
    ∃ x y, Dict.get u.attrs p = some x ∧ Dict.get v.attrs p = some y ∧
      (if p ∈ immutables ∨ m.isStr x = true then m.same x y = true else m.close x y = some true)) ∧
    (p ∈ Params.dicts → (Dict.get u.dicts p = none ∧ Dict.get v.dicts p = none ∧ p ∉ reqParams) ∨
    ∃ d, Dict.get u.dicts p = some d ∧ ∀ x ∈ d, ∃ e y, Dict.get v.dicts p = some e ∧ Dict.get e x.1 = some y ∧ m.close x.2 y = some true) := by
  have hpl : p ∈ plain ↔ (immutables.contains p || ndarrays.contains p) = true := by simp [plain, hp]
  have hdl : p ∈ Params.dicts ↔ Params.dicts.contains p = true := by simp
  have hil : p ∈ immutables ↔ immutables.contains p = true := by simp
  have hrl : p ∉ reqParams ↔ reqParams.contains p = false := by simp
  simp only [hpl, hdl, hil, hrl]
  unfold eqParam Obj.hasattr attr
  rcases classes p hp with ⟨h1, h2, h3, h4⟩ | ⟨h1, h2, h3, h4⟩ | ⟨h1, h2, h3, h4⟩ | ⟨h1, h2, h3, h4⟩
  · simp only [h1, h2, h3, h4, Bool.false_eq_true, if_false, if_true]
    cases ha : Dict.get u.attrs p with
    | none =>
      cases hb : Dict.get v.attrs p with
      | none => cases hr : reqParams.contains p <;> simp [has_false.2 ha, has_false.2 hb]
      | some y =>
        have hb' : Dict.has v.attrs p = true := (has_iff _ _).2 (by rw [hb]; rfl)
        simp [hb']
    | some x =>
      have ha' : Dict.has u.attrs p = true := (has_iff _ _).2 (by rw [ha]; rfl)
      cases hb : Dict.get v.attrs p <;> simp [ha']
  · simp only [h1, h2, h3, h4, Bool.false_eq_true, if_false, if_true]
    cases ha : Dict.get u.attrs p with
    | none =>
      cases hb : Dict.get v.attrs p with
      | none => cases hr : reqParams.contains p <;> simp [has_false.2 ha, has_false.2 hb]
      | some y =>
        have hb' : Dict.has v.attrs p = true := (has_iff _ _).2 (by rw [hb]; rfl)
        simp [hb']
    | some x =>
      have ha' : Dict.has u.attrs p = true := (has_iff _ _).2 (by rw [ha]; rfl)
      cases hb : Dict.get v.attrs p with
      | none => simp [ha']
      | some y => cases hs : m.isStr x <;> simp [ha', hs, closeE_true]
  · simp only [h1, h2, h3, h4, Bool.false_eq_true, if_false, if_true]
    cases ha : Dict.get u.dicts p with
    | none =>
      cases hb : Dict.get v.dicts p with
      | none => cases hr : reqParams.contains p <;> simp [has_false.2 ha, has_false.2 hb, eqDict]
      | some y =>
        have hb' : Dict.has v.dicts p = true := (has_iff _ _).2 (by rw [hb]; rfl)
        simp [hb', eqDict]
    | some d =>
      have ha' : Dict.has u.dicts p = true := (has_iff _ _).2 (by rw [ha]; rfl)
      simp only [ha', Bool.not_true, Bool.and_false, Bool.false_and, Bool.false_eq_true, if_false]
      rw [eqDict_true]
      simp
  · simp only [h1, h2, h3, Bool.false_eq_true, if_false, ite_self, Bool.or_self, false_implies, and_self]

/-- C93: `u == v` returns true exactly if the two objects agree in the sense of `Same`. Missing: `Same` leaves out
the statistics and the attributes outside `_all_params`, which the code never compares (see the findings). -/
theorem C93_eq_true_iff_partial (m : Cmp V) (u v : Obj V) : eq m u v = .ok true ↔ Same m u v := by
  unfold eq
  rw [eqLoop_true]
  constructor
  · intro h
    constructor
    · intro p hp
      have hpa : p ∈ allParams := (List.mem_filter.1 hp).1
      exact ((eqParam_true hpa).1 (h p hpa)).1 hp
    · intro p hp
      have hpa := dicts_all p hp
      exact ((eqParam_true hpa).1 (h p hpa)).2 hp
  · intro h p hp
    exact (eqParam_true hp).2 ⟨h.attrs p, h.dicts p⟩

/-- C93: an object that passes its check is equal to itself, provided its values are (no NaN anywhere in its arrays). -/
theorem C93_eq_refl (m : Cmp V) (c : Codec V) (u : Obj V) (hck : check c u false = .ok ())
    (hs : ∀ p v, (p, v) ∈ u.attrs → m.same v v = true ∧ m.close v v = some true)
    (hd : ∀ p d, Dict.get u.dicts p = some d → (d.map (·.1)).Nodup ∧ ∀ x ∈ d, m.close x.2 x.2 = some true) :
    eq m u u = .ok true := by
  rw [C93_eq_true_iff_partial]
  obtain ⟨hreq, -⟩ := check_ok hck
  constructor
  · intro p hp
    have hpa : p ∈ allParams := (List.mem_filter.1 hp).1
    cases h : Dict.get u.attrs p with
    | none =>
      left
      refine ⟨rfl, rfl, fun hr => ?_⟩
      have := hreq p hpa hr
      have hm := (List.mem_filter.1 hp).2
      unfold Obj.hasattr at this
      rcases classes p hpa with ⟨h1, h2, h3, h4⟩ | ⟨h1, h2, h3, h4⟩ | ⟨h1, h2, h3, h4⟩ | ⟨h1, h2, h3, h4⟩
      · rw [h3, h4] at this; simp [has_false.2 h] at this
      · rw [h3, h4] at this; simp [has_false.2 h] at this
      · rw [h1, h2] at hm; cases hm
      · rw [h1, h2] at hm; cases hm
    | some x =>
      right
      have := hs p x (Dict.mem_of_get h)
      exact ⟨x, x, rfl, rfl, by split <;> simp [this]⟩
  · intro p hp
    cases h : Dict.get u.dicts p with
    | none =>
      left
      refine ⟨rfl, rfl, fun hr => ?_⟩
      have := hreq p (dicts_all p hp) hr
      have hc : Params.dicts.contains p = true := by simpa using hp
      unfold Obj.hasattr at this
      rw [hc] at this
      simp [has_false.2 h] at this
    | some d =>
      right
      obtain ⟨h1, h2⟩ := hd p d h
      exact ⟨d, rfl, fun x hx => ⟨d, x.2, rfl, Dict.get_of_mem h1 hx, h2 x hx⟩⟩

theorem hasattr_congr (u : Obj V) (s : Option (Dict Str (Dict ℕ V))) {p : Str} (h : (p == n_stats_array) = false) :
    Obj.hasattr { u with stats := s } p = u.hasattr p := by
  simp [Obj.hasattr, h]

theorem eqLoop_congr {m : Cmp V} {u v u' v' : Obj V} : ∀ l, (∀ p ∈ l, eqParam m u v p = eqParam m u' v' p) →
    eqLoop m u v l = eqLoop m u' v' l := by
  intro l
  induction l with
  | nil => intro _; rfl
  | cons p l ih =>
    intro h
    unfold eqLoop
    rw [h p List.mem_cons_self, ih (fun q hq => h q (List.mem_cons_of_mem _ hq))]

/-- C93 finding: the statistics are never compared: replacing `stats_array` on either side by anything (or removing it) does not
change the result. -/
theorem C93_finding_stats_ignored (m : Cmp V) (u v : Obj V) (s t : Option (Dict Str (Dict ℕ V))) :
    eq m { u with stats := s } { v with stats := t } = eq m u v := by
  apply eqLoop_congr
  intro p hp
  rcases classes p hp with ⟨h1, h2, h3, h4⟩ | ⟨h1, h2, h3, h4⟩ | ⟨h1, h2, h3, h4⟩ | ⟨h1, h2, h3, h4⟩
  · unfold eqParam; rw [hasattr_congr u s h4, hasattr_congr v t h4]
  · unfold eqParam; rw [hasattr_congr u s h4, hasattr_congr v t h4]
  · unfold eqParam; rw [hasattr_congr u s h4, hasattr_congr v t h4]
  · unfold eqParam
    simp only [h1, h2, h3, Bool.false_eq_true, if_false, ite_self]

/-- C93 finding: attributes outside `_all_params` are never compared; `time_2_array` and `symmetric_taper` are among them although
both are listed as required. -/
theorem C93_finding_unlisted_ignored (m : Cmp V) (u v : Obj V) (k : Str) (hk : k ∉ allParams) (x y : V) :
    eq m (setAttr u k x) (setAttr v k y) = eq m u v := by
  have hget : ∀ (w : Obj V) (z : V) (p : Str), p ∈ allParams → Dict.get (setAttr w k z).attrs p = Dict.get w.attrs p := by
    intro w z p hp
    show Dict.get (Dict.set w.attrs k z) p = _
    rw [Dict.get_set, if_neg (fun h : k = p => hk (h ▸ hp))]
  have hhas : ∀ (w : Obj V) (z : V) (p : Str), p ∈ allParams → (setAttr w k z).hasattr p = w.hasattr p := by
    intro w z p hp
    unfold Obj.hasattr
    have : Dict.has (setAttr w k z).attrs p = Dict.has w.attrs p := by
      rw [Bool.eq_iff_iff, has_iff, has_iff, hget w z p hp]
    rw [this]; rfl
  apply eqLoop_congr
  intro p hp
  unfold eqParam attr
  rw [hhas u x p hp, hhas v y p hp, hget u x p hp, hget v y p hp]
  rfl

example : n_time_2_array ∉ allParams ∧ n_symmetric_taper ∉ allParams ∧ n_time_2_array ∈ reqParams ∧ n_symmetric_taper ∈ reqParams := by
  decide +kernel

/-- C93: an object equals what comes back from a file it was written to (values equal themselves, `r_params` was in normal form,
the per-window dictionaries have exactly the spectral windows of the object, both or neither covariance array are there, and the
bin arrays of the window functions are there if and only if the window functions are exact). Missing: the other direction of the claim and optional attributes: see the findings on what `==` does not compare. -/
theorem C93_round_trip_equal_partial {m : Cmp V} {c : Codec V} {u old : Obj V} {f : File V} (hw : writeGroup c u true = .ok f)
    (hc : ∀ k v, c.dec k (c.enc k v) = v) (htag : c.isTag c.tag = true) (hne : spwsOf c u ≠ [])
    (hs : ∀ v : V, m.same v v = true ∧ m.close v v = some true)
    (hrp : some (c.rp (readMeta c old f)) = Dict.get u.attrs n_r_params)
    (hd : ∀ p d, Dict.get u.dicts p = some d → (d.map (·.1)).Nodup ∧ ∀ x ∈ d, x.1 ∈ spwsOf c u)
    (hcov : Dict.has u.dicts n_cov_array_real = Dict.has u.dicts n_cov_array_imag)
    (hk1 : Dict.has u.dicts n_window_function_kperp = exactOf c u) (hk2 : Dict.has u.dicts n_window_function_kpara = exactOf c u) :
    ∃ r, readGroup c old f (full c) = .ok r ∧ eq m u r = .ok true := by
  obtain ⟨sp, ex, r, w, hexv, hspw, h0, hxs, hr, hl⟩ := read_full (old := old) hw hc htag hne
  refine ⟨r, hr, ?_⟩
  rw [C93_eq_true_iff_partial]
  have hrm := w.get_readMeta hc hxs old
  obtain ⟨hreq, -, -, -, -, -, -, -, hexw⟩ := check_ok ((written_of_write hw).1 rfl)
  have hga : ∀ p ∈ plain, Dict.get r.attrs p = Dict.get u.attrs p := by
    intro p hp
    have hcl : ∀ p ∈ plain, p ∈ metaAttrs ∨ (p ∈ metaDsets ∧ p ∈ allParams) := by decide +kernel
    rw [hl.attrs, Dict.get_set]
    split
    · rename_i h; subst h; exact hrp
    · rw [hrm]
      rcases hcl p hp with h | ⟨h, h2⟩
      · rw [if_pos h]
      · rw [if_neg (fun h' => metaAttrs_not_dsets p h' h), if_pos h, get_clear, if_pos h2]; simp
  constructor
  · intro p hp
    rw [hga p hp]
    have hpa : p ∈ allParams := (List.mem_filter.1 hp).1
    cases h : Dict.get u.attrs p with
    | none =>
      left
      refine ⟨rfl, rfl, fun hr => ?_⟩
      have := hreq p hpa hr
      have hm := (List.mem_filter.1 hp).2
      unfold Obj.hasattr at this
      rcases classes p hpa with ⟨h1, h2, h3, h4⟩ | ⟨h1, h2, h3, h4⟩ | ⟨h1, h2, h3, h4⟩ | ⟨h1, h2, h3, h4⟩
      · rw [h3, h4] at this; simp [has_false.2 h] at this
      · rw [h3, h4] at this; simp [has_false.2 h] at this
      · rw [h1, h2] at hm; cases hm
      · rw [h1, h2] at hm; cases hm
    | some x =>
      right
      have := hs x
      exact ⟨x, x, rfl, rfl, by split <;> simp [this]⟩
  · intro p hp
    have hnames : p ∈ (uNames u ex).map (·.1) ↔ Dict.has u.dicts p = true := by
      have hmn := mem_names (Dict.has u.dicts n_window_function_array) ex (Dict.has u.dicts n_cov_array_real)
      have hwe : (Dict.has u.dicts n_window_function_array && ex) = exactOf c u := by
        rw [hexv]
        cases hx : exactOf c u with
        | false => simp
        | true =>
          obtain ⟨-, sp', n', e', -, -, he', -, h3⟩ := check_ok ((written_of_write hw).1 rfl)
          have := (h3 (by simpa [exactOf, he'] using hx)).1
          simp [this]
      have hreqs : p ∈ required.map (·.1) → (p ∈ (uNames u ex).map (·.1) ↔ Dict.has u.dicts p = true) := by
        intro hp'
        have hm := required_sub (Dict.has u.dicts n_window_function_array) ex (Dict.has u.dicts n_cov_array_real) p hp'
        refine ⟨fun _ => ?_, fun _ => hm⟩
        obtain ⟨q, hq⟩ := mem_fst.1 hm
        obtain ⟨v, hv⟩ := w.arr _ hq 0 h0
        obtain ⟨e, he, -⟩ := fetchMem_ok.1 hv
        exact (has_iff _ _).2 (by rw [he]; rfl)
      have hcase : ∀ p ∈ Params.dicts, p ∈ required.map (·.1) ∨ p = n_window_function_array ∨ p = n_window_function_kperp ∨
          p = n_window_function_kpara ∨ p = n_cov_array_real ∨ p = n_cov_array_imag := by decide +kernel
      rcases hcase p hp with h | rfl | rfl | rfl | rfl | rfl
      · exact hreqs h
      · exact hmn.1
      · rw [hk1, ← hwe]; exact hmn.2.1
      · rw [hk2, ← hwe]; exact hmn.2.2.1
      · exact hmn.2.2.2.1
      · rw [← hcov]; exact hmn.2.2.2.2
    cases h : Dict.get u.dicts p with
    | none =>
      left
      have hnot : Dict.has u.dicts p = false := has_false.2 h
      refine ⟨rfl, ?_, fun hr => ?_⟩
      · rw [Dict.get_eq_none_iff]
        intro hk
        have hk' : p ∈ r.dicts.map (·.1) := hk
        rw [hl.keys, hnames, hnot] at hk'
        cases hk'
      · have := hreq p (dicts_all p hp) hr
        have hc : Params.dicts.contains p = true := by simpa using hp
        unfold Obj.hasattr at this
        rw [hc] at this
        simp [hnot] at this
    | some d =>
      right
      obtain ⟨h1, h2⟩ := hd p d h
      have hin := hnames.2 ((has_iff _ _).2 (by rw [h]; rfl))
      refine ⟨d, rfl, fun x hx => ?_⟩
      have hf : fetchMem u.dicts p x.1 = .ok x.2 := fetchMem_ok.2 ⟨d, h, Dict.get_of_mem h1 hx⟩
      obtain ⟨e, he, hv⟩ := (hl.arr p x.1 x.2).2 ⟨mem_fst.1 hin, hspw ▸ h2 x hx, hf⟩
      exact ⟨e, x.2, he, hv, (hs x.2).2⟩

/-! ### Asymmetry -/

/-- `np.isclose` on rationals with the default tolerances: `|a - b| ≤ atol + rtol * |b|`. -/
def iscloseQ (a b : ℚ) : Bool := decide (|a - b| ≤ 1 / 100000000 + 1 / 100000 * |b|)

/-- Comparisons of rationals. -/
def cmpQ : Cmp ℚ := ⟨fun a b => decide (a = b), fun _ => false, fun a b => some (iscloseQ a b)⟩

/-- An object with the given `freq_array` value and the given data dictionary, all other required attributes `0`. -/
def objQ (fr : ℚ) (d : Dict ℕ ℚ) : Obj ℚ where
  attrs := plain.map (fun k => (k, if k = n_freq_array then fr else 0))
  dicts := Params.dicts.map (fun k => (k, d))
  stats := none

/-- C93 finding: equality is not symmetric, because `np.isclose` is relative to its second argument. -/
theorem C93_finding_asymmetric : eq cmpQ (objQ 100000 []) (objQ (10000100001 / 100000) []) = .ok true ∧
    eq cmpQ (objQ (10000100001 / 100000) []) (objQ 100000 []) = .ok false := by decide +kernel

/-- C93 finding: spectral windows that only the second object has go unnoticed, those that only the first has raise `KeyError`. -/
theorem C93_finding_extra_windows : eq cmpQ (objQ 1 [(0, 5)]) (objQ 1 [(0, 5), (1, 7)]) = .ok true ∧
    eq cmpQ (objQ 1 [(0, 5), (1, 7)]) (objQ 1 [(0, 5)]) = .error .key := by decide +kernel

/-- C93 finding: a parameter that only one object has raises `AttributeError` instead of giving `False`. -/
theorem C93_finding_missing_raises :
    eq cmpQ { objQ 1 [(0, 5)] with dicts := (required.map (·.1)).map (fun k => (k, [(0, 5)])) } (objQ 1 [(0, 5)]) = .error .attribute := by
  decide +kernel

/-- Non-vacuity: two different objects that are equal, and two that are not. -/
example : eq cmpQ (objQ 100000 [(0, 5)]) (objQ (1000001 / 10) [(0, 5)]) = .ok true ∧ eq cmpQ (objQ 1 [(0, 5)]) (objQ 1 [(0, 6)]) = .ok false := by
  decide +kernel

end HeraPspec.UvpEq
