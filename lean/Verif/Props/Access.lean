import Verif.Model.Access
import Verif.Props.UVP
import Verif.Lemmas.Hdf5

/-!
C94: `omit_flags`; C95: statistics.
-/
namespace HeraPspec.Access
open HeraPspec.ArgParse (Str)
open HeraPspec.UVP

variable {D S : Type}

/-! ### Specification -/

/-- The integration time of a row in window `s` for the polarization pair `p`. -/
def integOf (o : Obj D ℚ) (s : ℕ) (p : ℤ) (m : Meas D ℚ) : Option ℚ := (o.pols.zip (m.itg s)).lookup p

/-- A row that was not completely flagged: its integration time is not zero (to within `1e-8`). -/
def live (o : Obj D ℚ) (s : ℕ) (p : ℤ) (m : Meas D ℚ) : Bool := ((integOf o s p m).map (fun x => decide (1 / 100000000 < |x|))).getD false

/-- The rows of a key, without the flagged ones if these are to be omitted. -/
def rowsOf (o : Obj D ℚ) (s : ℕ) (b p : ℤ) (omit_ : Bool) : List (Meas D ℚ) :=
  o.rows.filter (fun m => decide (m.blpair = b) && (!omit_ || live o s p m))

/-! ### Lemmas -/

theorem notZero_eq (x : ℚ) : notZero x = decide (1 / 100000000 < |x|) := by
  unfold notZero isclose
  rw [Bool.eq_iff_iff]
  simp

theorem filter_whereTrue (bs : List Bool) (q : ℕ → Bool) (cs : List Bool) (h : cs.length = bs.length)
    (hq : ∀ i : ℕ, bs[i]? = some true → (q i = true ↔ cs[i]? = some true)) (hc : ∀ i : ℕ, cs[i]? = some true → bs[i]? = some true) :
    (whereTrue bs).filter q = whereTrue cs := by
  apply sorted_ext ((whereTrue_sorted bs).filter q) (whereTrue_sorted cs)
  intro i
  rw [List.mem_filter, mem_whereTrue, mem_whereTrue]
  constructor
  · rintro ⟨h1, h2⟩; exact (hq i h1).1 h2
  · intro h1; exact ⟨hc i h1, (hq i (hc i h1)).2 h1⟩

theorem omit_spec {u : UVP D ℚ} {o : Obj D ℚ} (hr : Represents u o) (hv : Valid o) (hn : o.pols.Nodup) {s : ℕ} {b p : ℤ}
    (hs : s < o.nspw) (hb : ∃ m ∈ o.rows, m.blpair = b) (hp : p ∈ o.pols) (om : Bool) :
    ∃ i, keyToIndicesOmit u s b p om = .ok (s, whereTrue (o.rows.map (fun m => decide (m.blpair = b) && (!om || live o s p m))), i) ∧
      o.pols[i]? = some p := by
  obtain ⟨i, hk, hi⟩ := keyToIndices_spec hr hv hn hs hb hp
  refine ⟨i, ?_, hi⟩
  cases om with
  | false => simpa [keyToIndicesOmit] using hk
  | true =>
    unfold keyToIndicesOmit
    rw [hk]
    show dropFlagged u _ = _
    unfold dropFlagged
    rw [hr.integ, if_pos hs]
    simp only
    congr 3
    apply filter_whereTrue _ _ _ (by simp)
    · intro j hj
      rw [List.getElem?_map, Option.map_eq_some_iff] at hj
      obtain ⟨m, hm, hj⟩ := hj
      rw [List.getElem?_map, List.getElem?_map, hm]
      simp only [Option.map_some, Option.bind_some, hj, Bool.true_and, Bool.not_true, Bool.false_or, Option.some.injEq]
      unfold live integOf
      rw [lookup_zip_getElem hn hi]
      cases (m.itg s)[i]? with
      | none => simp
      | some x => simp [notZero_eq]
    · intro j hj
      rw [List.getElem?_map, Option.map_eq_some_iff] at hj ⊢
      obtain ⟨m, hm, hj⟩ := hj
      rw [Bool.and_eq_true] at hj
      exact ⟨m, hm, hj.1⟩

theorem take_rows {γ : Type} (o : Obj D ℚ) (q : Meas D ℚ → Bool) (g : Meas D ℚ → γ) :
    (whereTrue (o.rows.map q)).filterMap (fun i => (o.rows.map g)[i]?) = (o.rows.filter q).map g := by
  rw [filterMap_whereTrue _ _ (by simp), mask_map_filter]

/-- **C94** With `omit_flags` the accessors return exactly the rows of the baseline-pair whose integration time is not zero, in order,
and the spectra, the integration times (and likewise the other arrays) come from the same rows; without it, all rows. -/
theorem C94_omit_flags {u : UVP D ℚ} {o : Obj D ℚ} (hr : Represents u o) (hv : Valid o) (hn : o.pols.Nodup) (hf : o.folded = false)
    (s : ℕ) (b p : ℤ) (hs : s < o.nspw) (hb : ∃ m ∈ o.rows, m.blpair = b) (hp : p ∈ o.pols) (om : Bool) :
    getDataOmit u s b p om = .ok ((rowsOf o s b p om).map (fun m => (m.dat s).filterMap (fun d => (o.pols.zip d).lookup p))) ∧
    getIntegrations u s b p om = .ok ((rowsOf o s b p om).filterMap (integOf o s p)) := by
  obtain ⟨i, hk, hi⟩ := omit_spec hr hv hn hs hb hp om
  constructor
  · unfold getDataOmit
    rw [hk]
    show sliceData u u.data _ = _
    unfold sliceData
    rw [hr.data, if_pos hs, hr.folded, hf]
    simp only [Bool.false_eq_true, if_false]
    rw [take_rows, List.map_map]
    unfold rowsOf
    congr 1
    apply List.map_congr_left
    intro m _
    simp only [Function.comp_apply]
    congr 1
    funext d
    exact (lookup_zip_getElem hn hi d).symm
  · unfold getIntegrations
    rw [hk]
    show (match Dict.get u.integ s with | none => _ | some a => _) = _
    rw [hr.integ, if_pos hs]
    simp only
    rw [take_rows, List.filterMap_map]
    unfold rowsOf
    congr 1
    apply List.filterMap_congr
    intro m _
    exact (lookup_zip_getElem hn hi _).symm

/-- The number of positive delays of a window: the delays are centred, `N // 2` of them below the zero delay. -/
def nPositive (o : Obj D ℚ) (s : ℕ) : ℕ := (o.dlys.filter (fun c => decide (c.1 = s))).length -
  (o.dlys.filter (fun c => decide (c.1 = s))).length / 2 - 1

/-- **C94** On a folded object (with at least one positive delay) the same holds with the last, positive, delays of every spectrum. -/
theorem C94_omit_flags_folded {u : UVP D ℚ} {o : Obj D ℚ} (hr : Represents u o) (hv : Valid o) (hn : o.pols.Nodup) (hf : o.folded = true)
    (s : ℕ) (b p : ℤ) (hs : s < o.nspw) (hb : ∃ m ∈ o.rows, m.blpair = b) (hp : p ∈ o.pols) (om : Bool) (hpos : 0 < nPositive o s) :
    getDataOmit u s b p om = .ok ((rowsOf o s b p om).map (fun m =>
      ((m.dat s).drop ((m.dat s).length - nPositive o s)).filterMap (fun d => (o.pols.zip d).lookup p))) ∧
    getIntegrations u s b p om = .ok ((rowsOf o s b p om).filterMap (integOf o s p)) := by
  obtain ⟨i, hk, hi⟩ := omit_spec hr hv hn hs hb hp om
  constructor
  · unfold getDataOmit
    rw [hk]
    show sliceData u u.data _ = _
    unfold sliceData
    rw [hr.data, if_pos hs, hr.folded, hf]
    have hcount : u.spwDlyArray.count s = (o.dlys.filter (fun c => decide (c.1 = s))).length := by
      rw [hr.spwDly, List.count, List.countP_map, List.countP_eq_length_filter]
      congr 1
    simp only [if_true, hcount]
    rw [take_rows, List.map_map]
    unfold rowsOf
    congr 1
    apply List.map_congr_left
    intro m _
    simp only [Function.comp_apply]
    have : negSlice (m.dat s) (nPositive o s) = (m.dat s).drop ((m.dat s).length - nPositive o s) := by
      unfold negSlice; rw [if_neg (by omega)]
    rw [show (o.dlys.filter (fun c => decide (c.1 = s))).length - (o.dlys.filter (fun c => decide (c.1 = s))).length / 2 - 1 =
      nPositive o s from rfl, this]
    congr 1
    funext d
    exact (lookup_zip_getElem hn hi d).symm
  · unfold getIntegrations
    rw [hk]
    show (match Dict.get u.integ s with | none => _ | some a => _) = _
    rw [hr.integ, if_pos hs]
    simp only
    rw [take_rows, List.filterMap_map]
    unfold rowsOf
    congr 1
    apply List.filterMap_congr
    intro m _
    exact (lookup_zip_getElem hn hi _).symm

/-- **C94** Every row that `omit_flags` removes has a vanishing integration time, and one that is kept does not. -/
theorem C94_kept_rows (o : Obj D ℚ) (s : ℕ) (b p : ℤ) (hv : Valid o) (hs : s < o.nspw) (hp : p ∈ o.pols) (m : Meas D ℚ)
    (hm : m ∈ o.rows) (hb : m.blpair = b) :
    ∃ x, integOf o s p m = some x ∧ (m ∈ rowsOf o s b p true ↔ 1 / 100000000 < |x|) := by
  obtain ⟨i, hi⟩ := List.getElem?_of_mem hp
  have hlen := hv.itg m hm s hs
  have : ∃ x, integOf o s p m = some x := by
    unfold integOf
    rw [← Option.isSome_iff_exists, List.lookup_isSome_iff]
    have hi' : i < o.pols.length := (List.getElem?_eq_some_iff.1 hi).1
    refine ⟨(p, (m.itg s)[i]'(by omega)), ?_, by simp⟩
    have he := (List.getElem?_eq_some_iff.1 hi).2
    rw [← he]
    exact List.mem_iff_getElem.2 ⟨i, by simp [hlen]; omega, by simp⟩
  obtain ⟨x, hx⟩ := this
  refine ⟨x, hx, ?_⟩
  simp [rowsOf, live, hx, hm, hb]

/-! ### C95 -/

/-- The arrays of a statistic have the shape of the data: one list of delays per row, one entry per polarization pair. -/
def Conform (o : Obj D ℚ) (d : Dict ℕ (List (List (List S)))) : Prop :=
  ∀ s, s < o.nspw → ∃ a, Dict.get d s = some a ∧
    List.Forall₂ (fun (m : Meas D ℚ) row => row.length = (m.dat s).length ∧ ∀ x ∈ row, x.length = o.pols.length) o.rows a

theorem read_set (p : ℕ) : ∀ (row : List (List S)) (w : List S), row.length = w.length → (∀ d ∈ row, p < d.length) →
    (List.zipWith (fun d x => d.set p x) row w).filterMap (fun x => x[p]?) = w := by
  intro row
  induction row with
  | nil => intro w h _; cases w <;> simp_all
  | cons d row ih =>
    intro w h hd
    cases w with
    | nil => simp at h
    | cons x w =>
      simp only [List.zipWith_cons_cons, List.filterMap_cons]
      rw [List.getElem?_set_self (hd d List.mem_cons_self), ih w (by simpa using h) (fun d hd' => hd d (List.mem_cons_of_mem _ hd'))]

theorem read_set_ne {p q : ℕ} (hq : p ≠ q) : ∀ (row : List (List S)) (w : List S), row.length = w.length →
    (List.zipWith (fun d x => d.set p x) row w).filterMap (fun x => x[q]?) = row.filterMap (fun x => x[q]?) := by
  intro row
  induction row with
  | nil => intro w h; simp
  | cons d row ih =>
    intro w h
    cases w with
    | nil => simp at h
    | cons x w =>
      simp only [List.zipWith_cons_cons, List.filterMap_cons]
      rw [List.getElem?_set_ne hq, ih w (by simpa using h)]

theorem setRows_getElem (a : List (List (List S))) (is : List ℕ) (p : ℕ) (v : List (List S)) (i : ℕ) :
    (setRows a is p v)[i]? = a[i]?.map (fun row => if i ∈ is then List.zipWith (fun d x => d.set p x) row (v.getD (is.idxOf i) []) else row) := by
  unfold setRows
  rw [List.getElem?_mapIdx]

/-- Reading rows of an array at a polarization index. -/
def readRows (a : List (List (List S))) (is : List ℕ) (p : ℕ) : List (List S) :=
  (is.filterMap (fun i => a[i]?)).map (fun r => r.filterMap (fun x => x[p]?))

theorem filterMap_map_of {α β : Type} (f : α → Option β) (g : α → β) (l : List α) (h : ∀ x ∈ l, f x = some (g x)) :
    l.filterMap f = l.map g := by
  induction l with
  | nil => rfl
  | cons x l ih => rw [List.filterMap_cons, h x List.mem_cons_self, ih (fun y hy => h y (List.mem_cons_of_mem _ hy))]; rfl

theorem readRows_set {a : List (List (List S))} {is : List ℕ} {p : ℕ} {v : List (List S)} (hn : is.Nodup) (hlt : ∀ i ∈ is, i < a.length)
    (hsh : v.map List.length = (is.filterMap (fun i => a[i]?)).map List.length) (hp : ∀ row ∈ a, ∀ d ∈ row, p < d.length) :
    readRows (setRows a is p v) is p = v := by
  have h1 : ∀ i ∈ is, a[i]? = some (a.getD i []) := by
    intro i hi
    have := hlt i hi
    simp [List.getD, List.getElem?_eq_getElem this]
  have e1 : is.filterMap (fun i => a[i]?) = is.map (fun i => a.getD i []) := filterMap_map_of _ _ _ h1
  rw [e1, List.map_map] at hsh
  unfold readRows
  have e2 : is.filterMap (fun i => (setRows a is p v)[i]?) =
      is.map (fun i => List.zipWith (fun d x => d.set p x) (a.getD i []) (v.getD (is.idxOf i) [])) := by
    apply filterMap_map_of
    intro i hi
    rw [setRows_getElem, h1 i hi]
    simp [hi]
  rw [e2, List.map_map]
  have hlen : v.length = is.length := by simpa using congrArg List.length hsh
  apply List.ext_getElem (by simp [hlen])
  intro k hk1 hk2
  have hk : k < is.length := by simpa using hk1
  simp only [List.getElem_map, Function.comp_apply]
  rw [hn.idxOf_getElem k hk]
  have hv : v.getD k [] = v[k] := by simp [List.getD, List.getElem?_eq_getElem hk2]
  rw [hv]
  have hl : (a.getD is[k] []).length = (v[k]).length := by
    have := congrArg (fun l => l[k]?) hsh
    simp only [List.getElem?_map, List.getElem?_eq_getElem hk2, List.getElem?_eq_getElem hk, Option.map_some, Option.some.injEq,
      Function.comp_apply] at this
    exact this.symm
  apply read_set p _ _ hl
  intro d hd
  have hm : a.getD is[k] [] ∈ a := by
    have := hlt is[k] (List.getElem_mem hk)
    simp only [List.getD, List.getElem?_eq_getElem this, Option.getD_some]
    exact List.getElem_mem this
  exact hp _ hm d hd

/-- Rows or polarizations that were not addressed read as before. -/
theorem readRows_set_other {a : List (List (List S))} {is js : List ℕ} {p q : ℕ} {v : List (List S)} (hn : is.Nodup)
    (hlt : ∀ i ∈ is, i < a.length) (hsh : v.map List.length = (is.filterMap (fun i => a[i]?)).map List.length)
    (h : (∀ j ∈ js, j ∉ is) ∨ p ≠ q) : readRows (setRows a is p v) js q = readRows a js q := by
  unfold readRows
  rcases h with h | h
  · congr 1
    apply List.filterMap_congr
    intro j hj
    rw [setRows_getElem]
    simp [h j hj]
  · rw [List.map_filterMap, List.map_filterMap]
    apply List.filterMap_congr
    intro j hj
    rw [setRows_getElem]
    cases hrow : a[j]? with
    | none => rfl
    | some row =>
      simp only [Option.map_some, Option.some.injEq]
      by_cases hj : j ∈ is
      · rw [if_pos hj]
        apply read_set_ne h
        have h1 : ∀ i ∈ is, a[i]? = some (a.getD i []) := by
          intro i hi
          have := hlt i hi
          simp [List.getD, List.getElem?_eq_getElem this]
        rw [filterMap_map_of _ _ _ h1, List.map_map] at hsh
        have hk : is.idxOf j < is.length := List.idxOf_lt_length_iff.2 hj
        have hlen : v.length = is.length := by simpa using congrArg List.length hsh
        have := congrArg (fun l => l[is.idxOf j]?) hsh
        simp only [List.getElem?_map, List.getElem?_eq_getElem hk, Option.map_some,
          Function.comp_apply, List.getElem_idxOf hk] at this
        rw [List.getElem?_eq_getElem (by omega)] at this
        simp only [Option.map_some, Option.some.injEq] at this
        have hx : is.idxOf j < v.length := by omega
        simp only [List.getD, List.getElem?_eq_getElem hx, Option.getD_some, this]
        simp [hrow]
      · rw [if_neg hj]

/-- The spectra-shaped values a statistic that was never set has for a key. -/
def blank (nan : S) (o : Obj D ℚ) (s : ℕ) (b : ℤ) : List (List S) :=
  (o.rows.filter (fun m => decide (m.blpair = b))).map (fun m => (m.dat s).map (fun _ => nan))

/-- What a key shows of a statistic before it is set: its values, or not-a-number if the statistic does not exist yet. -/
def before (nan : S) (u : UVP D ℚ) (o : Obj D ℚ) (stats : Option (Stats S)) (stat : Str) (s : ℕ) (b p : ℤ) : Except Err (List (List S)) :=
  if stat ∈ ((stats.getD []).map (·.1)) then getStats u stats stat s b p false else .ok (blank nan o s b)

theorem getStats_eq {u : UVP D ℚ} (hf : u.folded = false) {st : Stats S} {stat : Str} {d : Dict ℕ (List (List (List S)))} {s i : ℕ}
    {b p : ℤ} {is : List ℕ} {a : List (List (List S))} (hk : keyToIndices u s b p = .ok (s, is, i)) (hd : Dict.get st stat = some d)
    (ha : Dict.get d s = some a) : getStats u (some st) stat s b p false = .ok (readRows a is i) := by
  unfold getStats
  simp only [hd]
  show (keyToIndices u s b p >>= sliceData u d) = _
  rw [hk]
  show sliceData u d _ = _
  unfold sliceData
  simp only [ha, hf, Bool.false_eq_true, if_false]
  rfl

theorem get_mapN {V V' : Type} (d : Dict ℕ V) (g : V → V') (k : ℕ) :
    Dict.get (d.map (fun e => (e.1, g e.2))) k = (Dict.get d k).map g := by
  induction d with
  | nil => simp
  | cons x d ih =>
    obtain ⟨k', v⟩ := x
    simp only [List.map_cons, Dict.get_cons, ih]
    split <;> simp

theorem forall₂_lens {o : Obj D ℚ} {s : ℕ} {n : ℕ} : ∀ {rows : List (Meas D ℚ)} {a : List (List (List S))},
    List.Forall₂ (fun (m : Meas D ℚ) row => row.length = (m.dat s).length ∧ ∀ x ∈ row, x.length = n) rows a →
    a.map List.length = rows.map (fun m => (m.dat s).length) := by
  intro rows a h
  induction h with
  | nil => rfl
  | cons h _ ih => rw [List.map_cons, List.map_cons, ih, h.1]

theorem forall₂_pols {s : ℕ} {n : ℕ} {rows : List (Meas D ℚ)} {a : List (List (List S))}
    (h : List.Forall₂ (fun (m : Meas D ℚ) row => row.length = (m.dat s).length ∧ ∀ x ∈ row, x.length = n) rows a) :
    ∀ row ∈ a, ∀ d ∈ row, d.length = n := by
  intro row hrow
  induction h with
  | nil => simp at hrow
  | cons h _ ih =>
    rcases List.mem_cons.1 hrow with rfl | h'
    · exact h.2
    · exact ih h'

theorem take_lens {γ : Type} {o : Obj D ℚ} {s : ℕ} {q : Meas D ℚ → Bool} {a : List (List γ)}
    (h : a.map List.length = o.rows.map (fun m => (m.dat s).length)) :
    ((whereTrue (o.rows.map q)).filterMap (fun i => a[i]?)).map List.length = (o.rows.filter q).map (fun m => (m.dat s).length) := by
  rw [← take_rows o q (fun m => (m.dat s).length), ← h, List.map_filterMap]
  simp

theorem fill_conform {u : UVP D ℚ} {o : Obj D ℚ} (hr : Represents u o) (hv : Valid o) (nan : S) :
    Conform o (u.data.map (fun e => (e.1, fillLike nan e.2))) := by
  intro s hs
  refine ⟨fillLike nan (o.rows.map (·.dat s)), ?_, ?_⟩
  · rw [get_mapN, hr.data, if_pos hs]; rfl
  · unfold fillLike
    rw [List.map_map, List.forall₂_map_right_iff, List.forall₂_same]
    intro m hm
    refine ⟨by simp, ?_⟩
    intro x hx
    simp only [Function.comp_apply, List.mem_map] at hx
    obtain ⟨d, hd, rfl⟩ := hx
    rw [List.length_map]
    exact hv.dat m hm s hs d hd

theorem conform_set {o : Obj D ℚ} {a : List (List (List S))} {s : ℕ} {is : List ℕ} {i : ℕ} {v : List (List S)}
    (hlt : ∀ k ∈ is, k < a.length) (hn : is.Nodup)
    (hsh : v.map List.length = (is.filterMap (fun i => a[i]?)).map List.length)
    (h : List.Forall₂ (fun (m : Meas D ℚ) row => row.length = (m.dat s).length ∧ ∀ x ∈ row, x.length = o.pols.length) o.rows a) :
    List.Forall₂ (fun (m : Meas D ℚ) row => row.length = (m.dat s).length ∧ ∀ x ∈ row, x.length = o.pols.length) o.rows
      (setRows a is i v) := by
  rw [List.forall₂_iff_get] at h ⊢
  obtain ⟨h1, h2⟩ := h
  refine ⟨by simpa [setRows] using h1, ?_⟩
  intro k hk1 hk2
  have hk : k < a.length := by simpa [setRows] using hk2
  obtain ⟨h3, h4⟩ := h2 k hk1 hk
  simp only [List.get_eq_getElem] at h3 h4 ⊢
  simp only [setRows, List.getElem_mapIdx]
  by_cases hm : k ∈ is
  · rw [if_pos hm]
    have e1 : ∀ i ∈ is, a[i]? = some (a.getD i []) := by
      intro i hi
      simp [List.getD, List.getElem?_eq_getElem (hlt i hi)]
    rw [filterMap_map_of _ _ _ e1, List.map_map] at hsh
    have hx : is.idxOf k < is.length := List.idxOf_lt_length_iff.2 hm
    have hlen : v.length = is.length := by simpa using congrArg List.length hsh
    have hxv : is.idxOf k < v.length := by omega
    have := congrArg (fun l => l[is.idxOf k]?) hsh
    simp only [List.getElem?_map, List.getElem?_eq_getElem hx, List.getElem?_eq_getElem hxv, Option.map_some,
      Function.comp_apply, List.getElem_idxOf hx, Option.some.injEq, List.getD, List.getElem?_eq_getElem hk, Option.getD_some] at this
    constructor
    · simp only [List.length_zipWith, List.getD, List.getElem?_eq_getElem hxv, Option.getD_some, this, Nat.min_self]
      exact h3
    · intro x hx
      obtain ⟨j, hj, rfl⟩ := List.getElem_of_mem hx
      simp only [List.getElem_zipWith, List.length_set]
      exact h4 _ (List.getElem_mem _)
  · rw [if_neg hm]; exact ⟨h3, h4⟩

/-- **C95** Setting a statistic for a key with an array of the shape of the data and reading the key back returns the array; every
other key of the statistic reads as before (not-a-number if the statistic is new) and no other statistic changes. Missing: folded objects, for
which it is false (`C95_finding_folded`). -/
theorem C95_set_then_get_partial (nan : S) {u : UVP D ℚ} {o : Obj D ℚ} (hr : Represents u o) (hv : Valid o) (hn : o.pols.Nodup)
    (hf : o.folded = false) (stats : Option (Stats S)) (stat : Str) (s : ℕ) (b p : ℤ) (v : List (List S)) (hs : s < o.nspw)
    (hb : ∃ m ∈ o.rows, m.blpair = b) (hp : p ∈ o.pols)
    (hst : ∀ d, Dict.get (stats.getD []) stat = some d → Conform o d)
    (hsh : v.map List.length = (o.rows.filter (fun m => decide (m.blpair = b))).map (fun m => (m.dat s).length)) :
    ∃ st', setStats nan u stats stat s b p v = .ok st' ∧ getStats u (some st') stat s b p false = .ok v ∧
      (∀ s' b' p', s' < o.nspw → (∃ m ∈ o.rows, m.blpair = b') → p' ∈ o.pols → (s', b', p') ≠ (s, b, p) →
        getStats u (some st') stat s' b' p' false = before nan u o stats stat s' b' p') ∧
      (∀ stat', stat' ≠ stat → Dict.get st' stat' = Dict.get (stats.getD []) stat') ∧
      (∀ d, Dict.get st' stat = some d → Conform o d) := by
  obtain ⟨i, hk, hi⟩ := keyToIndices_spec hr hv hn hs hb hp
  have huf : u.folded = false := by rw [hr.folded, hf]
  set old := (Dict.get (stats.getD []) stat).getD (u.data.map (fun e => (e.1, fillLike nan e.2))) with hold
  have hco : Conform o old := by
    rw [hold]
    cases h : Dict.get (stats.getD []) stat with
    | none => exact fill_conform hr hv nan
    | some d => exact hst d h
  obtain ⟨a, ha, hfa⟩ := hco s hs
  have hlen : a.length = o.rows.length := hfa.length_eq.symm
  set is := whereTrue (o.rows.map (fun m => decide (m.blpair = b))) with his
  have hlt : ∀ k ∈ is, k < a.length := by
    intro k hk
    rw [his, mem_whereTrue] at hk
    have := (List.getElem?_eq_some_iff.1 hk).1
    simpa [hlen] using this
  have hnd : is.Nodup := by
    rw [his]; exact (whereTrue_sorted _).nodup
  have hmask : v.map List.length = (is.filterMap (fun i => a[i]?)).map List.length := by
    rw [his, take_lens (forall₂_lens (o := o) hfa), hsh]
  have hset : setStats nan u stats stat s b p v = .ok (Dict.set (stats.getD []) stat (Dict.set old s (setRows a is i v))) := by
    unfold setStats
    rw [hk]
    show (match Dict.get u.data s with | none => _ | some a => _) = _
    rw [hr.data, if_pos hs]
    have : shapeOk (o.rows.map (·.dat s)) is v = true := by
      unfold shapeOk
      rw [decide_eq_true_iff, his, take_lens (s := s) (by rw [List.map_map]; rfl), hsh]
    simp only [this, if_true]
    rw [← hold, ha]
  have hnew : Dict.get (Dict.set (stats.getD []) stat (Dict.set old s (setRows a is i v))) stat = some (Dict.set old s (setRows a is i v)) := by
    rw [Dict.get_set, if_pos rfl]
  have hcn : Conform o (Dict.set old s (setRows a is i v)) := by
    intro s' hs'
    rw [Dict.get_set]
    by_cases h : s = s'
    · subst h
      rw [if_pos rfl]
      exact ⟨_, rfl, conform_set hlt hnd hmask hfa⟩
    · rw [if_neg h]; exact hco s' hs'
  refine ⟨_, hset, ?_, ?_, ?_, ?_⟩
  · rw [getStats_eq huf hk hnew (by rw [Dict.get_set, if_pos rfl])]
    congr 1
    apply readRows_set hnd hlt hmask
    intro row hrow d hd
    rw [forall₂_pols hfa row hrow d hd]
    exact (List.getElem?_eq_some_iff.1 hi).1
  · intro s' b' p' hs' hb' hp' hne
    obtain ⟨i', hk', hi'⟩ := keyToIndices_spec hr hv hn hs' hb' hp'
    obtain ⟨a', ha', hfa'⟩ := hco s' hs'
    have hbef : before nan u o stats stat s' b' p' =
        .ok (readRows a' (whereTrue (o.rows.map (fun m => decide (m.blpair = b')))) i') := by
      unfold before
      cases h : Dict.get (stats.getD []) stat with
      | some d =>
        have hmem : stat ∈ ((stats.getD []).map (·.1)) := List.mem_map.2 ⟨_, Dict.mem_of_get h, rfl⟩
        rw [if_pos hmem]
        cases stats with
        | none => simp at h
        | some st =>
          have : old = d := by rw [hold, h]; rfl
          rw [this] at ha'
          exact getStats_eq huf hk' h ha'
      | none =>
        have hmem : stat ∉ ((stats.getD []).map (·.1)) := by
          intro hm
          have := (Dict.get_isSome_iff (d := stats.getD []) (k := stat)).2 hm
          rw [h] at this
          simp at this
        rw [if_neg hmem]
        have : old = u.data.map (fun e => (e.1, fillLike nan e.2)) := by rw [hold, h]; rfl
        rw [this, get_mapN, hr.data, if_pos hs'] at ha'
        simp only [Option.map_some, Option.some.injEq] at ha'
        congr 1
        subst ha'
        unfold readRows blank fillLike
        rw [List.map_map, take_rows, List.map_map]
        apply List.map_congr_left
        intro m hm
        simp only [Function.comp_apply]
        rw [List.filterMap_map]
        symm
        apply filterMap_map_of
        intro d hd
        have hl := hv.dat m (List.mem_filter.1 hm).1 s' hs' d hd
        have hlt' := (List.getElem?_eq_some_iff.1 hi').1
        simp only [Function.comp_apply, List.getElem?_map]
        rw [List.getElem?_eq_getElem (by omega)]
        rfl
    rw [hbef]
    by_cases h : s = s'
    · subst h
      rw [getStats_eq huf hk' hnew (by rw [Dict.get_set, if_pos rfl])]
      congr 1
      rw [ha] at ha'
      cases ha'
      apply readRows_set_other hnd hlt hmask
      by_cases h2 : b = b'
      · right
        subst h2
        intro he
        apply hne
        rw [← he, hi] at hi'
        cases hi'
        rfl
      · left
        intro j hj hj'
        rw [mem_whereTrue, List.getElem?_map, Option.map_eq_some_iff] at hj
        rw [his, mem_whereTrue, List.getElem?_map, Option.map_eq_some_iff] at hj'
        obtain ⟨m, hm, e⟩ := hj
        obtain ⟨m', hm', e'⟩ := hj'
        rw [hm] at hm'; cases hm'
        simp only [decide_eq_true_eq] at e e'
        exact h2 (e'.symm.trans e)
    · rw [getStats_eq huf hk' hnew (by rw [Dict.get_set, if_neg h]; exact ha')]
  · intro stat' hne
    rw [Dict.get_set, if_neg (fun h : stat = stat' => hne h.symm)]
  · intro d hd
    rw [hnew] at hd
    cases hd
    exact hcn

/-- **C95** An array whose shape is not that of the data of the key is refused. -/
theorem C95_shape_refused (nan : S) {u : UVP D ℚ} {o : Obj D ℚ} (hr : Represents u o) (hv : Valid o) (hn : o.pols.Nodup)
    (stats : Option (Stats S)) (stat : Str) (s : ℕ) (b p : ℤ) (v : List (List S)) (hs : s < o.nspw)
    (hb : ∃ m ∈ o.rows, m.blpair = b) (hp : p ∈ o.pols)
    (hsh : v.map List.length ≠ (o.rows.filter (fun m => decide (m.blpair = b))).map (fun m => (m.dat s).length)) :
    setStats nan u stats stat s b p v = .error .value := by
  obtain ⟨i, hk, hi⟩ := keyToIndices_spec hr hv hn hs hb hp
  unfold setStats
  rw [hk]
  show (match Dict.get u.data s with | none => _ | some a => _) = _
  rw [hr.data, if_pos hs]
  have : shapeOk (o.rows.map (·.dat s)) (whereTrue (o.rows.map (fun m => decide (m.blpair = b)))) v = false := by
    unfold shapeOk
    rw [decide_eq_false_iff_not, take_lens (s := s) (by rw [List.map_map]; rfl)]
    exact hsh
  simp [this]

/-- **C95** A key that is not in the object is refused with the statistics unchanged; reading a statistic that does not exist too. -/
theorem C95_bad_key (nan : S) (u : UVP D ℚ) (stats : Option (Stats S)) (stat : Str) (s : ℕ) (b p : ℤ) (v : List (List S))
    (h : s ∉ u.spwFreqArray ∨ s ∉ u.spwDlyArray ∨ b ∉ u.blpairArray ∨ p ∉ u.polpairArray) :
    setStats nan u stats stat s b p v = .error .assertion := by
  have : keyToIndices u s b p = .error .assertion := by
    unfold keyToIndices
    by_cases h1 : s ∈ u.spwFreqArray ∧ s ∈ u.spwDlyArray
    · by_cases h2 : b ∈ u.blpairArray
      · have h3 : p ∉ u.polpairArray := by tauto
        simp [h1, h2, h3]
      · simp [h1, h2]
    · simp [h1]
  unfold setStats
  rw [this]
  rfl

end HeraPspec.Access
