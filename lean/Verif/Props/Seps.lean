import Verif.Props.Access
import Verif.Props.UVPRead

/-!
C96: baseline lengths of baseline-pairs; C95 (continued): `set_stats_slice`.
-/
namespace HeraPspec.Access
open HeraPspec.ArgParse (Str)
open HeraPspec.UVP

variable {D S : Type}

/-! ### Specification -/

/-- The length of a baseline: the number listed next to it. -/
def lengthOf (blArray : List ℤ) (lens : List ℚ) (b : ℤ) : Option ℚ := (blArray.zip lens).lookup b

/-- The separation of a measurement row: the mean of the lengths of its two baselines. -/
def sepOf (blArray : List ℤ) (lens : List ℚ) (m : Meas D ℚ) : ℚ :=
  ((lengthOf blArray lens m.bl1).getD 0 + (lengthOf blArray lens m.bl2).getD 0) / 2

/-! ### Lemmas -/

theorem blLen_ok {blArray : List ℤ} {lens : List ℚ} (hl : lens.length = blArray.length) {b : ℤ} (hb : b ∈ blArray) :
    ∃ x, blLen blArray lens b = .ok x ∧ lengthOf blArray lens b = some x := by
  unfold blLen lengthOf
  induction blArray generalizing lens with
  | nil => simp at hb
  | cons c l ih =>
    cases lens with
    | nil => simp at hl
    | cons y lens =>
      by_cases h : c = b
      · subst h
        exact ⟨y, by simp [List.idxOf?, List.findIdx?_cons], by simp⟩
      · obtain ⟨x, h1, h2⟩ := ih (by simpa using hl) (by simpa [h, Ne.symm h] using hb)
        refine ⟨x, ?_, ?_⟩
        · rw [List.idxOf?, List.findIdx?_cons]
          simp only [beq_iff_eq, h, if_false]
          rw [List.idxOf?] at h1
          cases hi : List.findIdx? (fun x => x == b) l with
          | none => rw [hi] at h1; simp at h1
          | some i => rw [hi] at h1; simpa using h1
        · rw [List.zip_cons_cons, List.lookup_cons]
          have : (b == c) = false := by simp [Ne.symm h]
          rw [this]; exact h2

theorem blLen_missing {blArray : List ℤ} {lens : List ℚ} {b : ℤ} (hb : b ∉ blArray) : blLen blArray lens b = .error .value := by
  unfold blLen
  have : blArray.idxOf? b = none := by simpa [List.idxOf?_eq_none_iff] using hb
  rw [this]

theorem split_blpair {m : Meas D ℚ} (h : 0 ≤ m.bl2 ∧ m.bl2 < 1000000) : m.blpair / 1000000 = m.bl1 ∧ m.blpair % 1000000 = m.bl2 := by
  unfold Meas.blpair; omega

theorem pairSep_ok {blArray : List ℤ} {lens : List ℚ} (hl : lens.length = blArray.length) {m : Meas D ℚ}
    (h : 0 ≤ m.bl2 ∧ m.bl2 < 1000000) (h1 : m.bl1 ∈ blArray) (h2 : m.bl2 ∈ blArray) :
    pairSep blArray lens m.blpair = .ok (sepOf blArray lens m) := by
  obtain ⟨e1, e2⟩ := split_blpair h
  obtain ⟨x, hx, hx'⟩ := blLen_ok hl h1
  obtain ⟨y, hy, hy'⟩ := blLen_ok hl h2
  unfold pairSep sepOf
  rw [e1, e2, hx, hy, hx', hy']
  rfl

theorem mem_ou (l : List ℤ) (b : ℤ) : b ∈ orderedUnique l ↔ b ∈ l := by
  rw [show orderedUnique l = l.foldl _ [] from rfl, (orderedUnique_aux l [] List.nodup_nil).2 b]; simp

theorem ou_nodup (l : List ℤ) : (orderedUnique l).Nodup := (orderedUnique_aux l [] List.nodup_nil).1

theorem sepLoop_ok {u : UVP D ℚ} {blArray : List ℤ} {lens : List ℚ} (f : ℤ → ℚ) : ∀ (bs : List ℤ) (out : List (Option ℚ)),
    out.length = u.blpairArray.length → (∀ b ∈ bs, b ∈ u.blpairArray ∧ pairSep blArray lens b = .ok (f b)) →
    sepLoop u blArray lens bs out = .ok (List.zipWith (fun b o => if b ∈ bs then some (f b) else o) u.blpairArray out) := by
  intro bs
  induction bs with
  | nil =>
    intro out hl _
    simp only [sepLoop, List.not_mem_nil, if_false]
    congr 1
    apply List.ext_getElem (by simp [hl])
    intro i _ _
    simp
  | cons b bs ih =>
    intro out hl h
    unfold sepLoop
    obtain ⟨hb, hs⟩ := h b List.mem_cons_self
    have hidx : blpairToIndices u [b] = .ok (whereTrue (u.blpairArray.map (fun x => decide (x ∈ [b])))) := by
      unfold blpairToIndices
      rw [if_pos (by simpa using hb)]
    rw [hs, hidx]
    show sepLoop u blArray lens bs _ = _
    rw [ih _ (by simp [assignRows, hl]) (fun c hc => h c (List.mem_cons_of_mem _ hc))]
    congr 1
    apply List.ext_getElem (by simp [assignRows])
    intro i h1 h2
    have hi : i < u.blpairArray.length := by simp [assignRows] at h1; exact h1.1
    simp only [List.getElem_zipWith, assignRows, List.getElem_mapIdx, mem_whereTrue, List.getElem?_map,
      List.getElem?_eq_getElem hi, Option.map_some, Option.some.injEq, decide_eq_true_eq, List.mem_cons, List.not_mem_nil, or_false]
    by_cases e : u.blpairArray[i] = b
    · by_cases e2 : b ∈ bs
      · simp [e, e2]
      · simp [e, e2]
    · simp [e]

/-- **C96** `get_blpair_seps` gives every row the mean of the lengths of its two baselines. -/
theorem C96_separations {u : UVP D ℚ} {o : Obj D ℚ} (hr : Represents u o) (hv : Valid o) (blArray : List ℤ) (lens : List ℚ)
    (hl : lens.length = blArray.length) (hbl : ∀ m ∈ o.rows, m.bl1 ∈ blArray ∧ m.bl2 ∈ blArray) :
    blpairSeps u blArray lens = .ok (o.rows.map (fun m => some (sepOf blArray lens m))) := by
  unfold blpairSeps
  rw [sepLoop_ok (fun b => (match pairSep blArray lens b with | .ok x => x | .error _ => 0)) _ _ (by simp)]
  · congr 1
    apply List.ext_getElem (by simp [hr.blpair])
    intro i h1 h2
    have hi : i < o.rows.length := by simpa using h2
    have hm : o.rows[i] ∈ o.rows := List.getElem_mem hi
    have e : u.blpairArray[i]'(by simp [hr.blpair, hi]) = o.rows[i].blpair := by simp [hr.blpair]
    simp only [List.getElem_zipWith, List.getElem_map, e]
    have hmem : o.rows[i].blpair ∈ orderedUnique u.blpairArray := by
      rw [mem_ou, hr.blpair]; exact List.mem_map_of_mem hm
    rw [if_pos hmem, pairSep_ok hl (hv.bl2 _ hm) (hbl _ hm).1 (hbl _ hm).2]
  · intro b hb
    rw [mem_ou] at hb
    refine ⟨hb, ?_⟩
    rw [hr.blpair] at hb
    obtain ⟨m, hm, rfl⟩ := List.mem_map.1 hb
    rw [pairSep_ok hl (hv.bl2 m hm) (hbl m hm).1 (hbl m hm).2]

theorem sepLoop_error {u : UVP D ℚ} {blArray : List ℤ} {lens : List ℚ} : ∀ (bs : List ℤ) (out : List (Option ℚ)),
    (∀ b ∈ bs, b ∈ u.blpairArray) → (∀ b ∈ bs, ∀ e, pairSep blArray lens b = .error e → e = .value) →
    (∃ b ∈ bs, pairSep blArray lens b = .error .value) → sepLoop u blArray lens bs out = .error .value := by
  intro bs
  induction bs with
  | nil => intro out _ _ h; simp at h
  | cons b bs ih =>
    intro out h1 h2 h3
    unfold sepLoop
    have hidx : blpairToIndices u [b] = .ok (whereTrue (u.blpairArray.map (fun x => decide (x ∈ [b])))) := by
      unfold blpairToIndices
      rw [if_pos (by simpa using h1 b List.mem_cons_self)]
    rw [hidx]
    cases hs : pairSep blArray lens b with
    | error e => rw [h2 b List.mem_cons_self e hs]
    | ok x =>
      apply ih _ (fun c hc => h1 c (List.mem_cons_of_mem _ hc)) (fun c hc => h2 c (List.mem_cons_of_mem _ hc))
      obtain ⟨c, hc, he⟩ := h3
      rcases List.mem_cons.1 hc with rfl | hc
      · rw [hs] at he; cases he
      · exact ⟨c, hc, he⟩

/-- **C96** If a baseline of some row is not listed in the object, `ValueError` is raised. -/
theorem C96_missing_baseline {u : UVP D ℚ} {o : Obj D ℚ} (hr : Represents u o) (hv : Valid o) (blArray : List ℤ) (lens : List ℚ)
    (hl : lens.length = blArray.length) (hbl : ∃ m ∈ o.rows, m.bl1 ∉ blArray ∨ m.bl2 ∉ blArray) :
    blpairSeps u blArray lens = .error .value := by
  have hval : ∀ b, (∃ x, blLen blArray lens b = .ok x) ∨ blLen blArray lens b = .error .value := by
    intro b
    by_cases hb : b ∈ blArray
    · left; obtain ⟨x, hx, _⟩ := blLen_ok hl hb; exact ⟨x, hx⟩
    · right; exact blLen_missing hb
  unfold blpairSeps
  apply sepLoop_error
  · intro b hb; rwa [mem_ou] at hb
  · intro b _ e he
    unfold pairSep at he
    rcases hval (b / 1000000) with ⟨x, hx⟩ | hx <;> rcases hval (b % 1000000) with ⟨y, hy⟩ | hy <;> rw [hx, hy] at he <;> cases he <;> rfl
  · obtain ⟨m, hm, h⟩ := hbl
    refine ⟨m.blpair, by rw [mem_ou, hr.blpair]; exact List.mem_map_of_mem hm, ?_⟩
    obtain ⟨e1, e2⟩ := split_blpair (hv.bl2 m hm)
    unfold pairSep
    rw [e1, e2]
    rcases h with h | h
    · rw [blLen_missing h]
    · rw [blLen_missing h]
      rcases hval m.bl1 with ⟨x, hx⟩ | hx <;> rw [hx]

/-- **C96** The separation of a pair does not depend on the order of its two baselines. -/
theorem C96_order_free (blArray : List ℤ) (lens : List ℚ) (m m' : Meas D ℚ) (h1 : m'.bl1 = m.bl2) (h2 : m'.bl2 = m.bl1) :
    sepOf blArray lens m' = sepOf blArray lens m := by
  unfold sepOf; rw [h1, h2, add_comm]

/-- **C96** `get_kperps` gives every row its separation times one factor for the window. -/
theorem C96_kperps {u : UVP D ℚ} {o : Obj D ℚ} (hr : Represents u o) (hv : Valid o) (blArray : List ℤ) (lens : List ℚ) (factor : ℚ)
    (hl : lens.length = blArray.length) (hbl : ∀ m ∈ o.rows, m.bl1 ∈ blArray ∧ m.bl2 ∈ blArray) :
    kperps u blArray lens factor = .ok (o.rows.map (fun m => some (sepOf blArray lens m * factor))) := by
  unfold kperps
  rw [C96_separations hr hv blArray lens hl hbl]
  simp only [Except.map, List.map_map]
  rfl

/-- The delays of a window in storage order. -/
def delaysOf (o : Obj D ℚ) (s : ℕ) : List ℚ := (o.dlys.filter (fun c => decide (c.1 = s))).map (·.2)

theorem getDlys_unfolded {u : UVP D ℚ} {o : Obj D ℚ} (hr : Represents u o) (hv : Valid o) (hf : o.folded = false) {s : ℕ} (hs : s < o.nspw) :
    getDlys u s = .ok (delaysOf o s) := by
  unfold getDlys spwToDlyIndices
  have h1 : s ∈ u.spwDlyArray := by
    rw [hr.spwDly]; obtain ⟨c, hc, e⟩ := hv.dlys_all s hs; exact List.mem_map.2 ⟨c, hc, e⟩
  rw [if_neg (by simp), if_pos (by simpa using h1)]
  show Except.ok _ = _
  congr 1
  rw [hr.folded, hf, hr.spwDly, hr.dly]
  have : (o.dlys.map (·.1)).zip (o.dlys.map (·.2)) = o.dlys := by
    rw [← List.unzip_fst, ← List.unzip_snd, List.zip_unzip]
  rw [this, filterMap_whereTrue _ _ (by simp), mask_map_filter]
  unfold delaysOf
  congr 1
  apply List.filter_congr
  intro c _
  simp

/-- **C96** `get_kparas` is one factor times the delays of the window, in order, or times the delays given by the caller. -/
theorem C96_kparas {u : UVP D ℚ} {o : Obj D ℚ} (hr : Represents u o) (hv : Valid o) (hf : o.folded = false) (s : ℕ) (factor : ℚ)
    (hs : s < o.nspw) (d : List ℚ) :
    kparas u s factor none = .ok ((delaysOf o s).map (· * factor)) ∧ kparas u s factor (some d) = .ok (d.map (· * factor)) := by
  refine ⟨?_, rfl⟩
  unfold kparas
  rw [getDlys_unfolded hr hv hf hs]
  rfl

/-! ### `set_stats_slice` -/

/-- Is a delay (in seconds) strictly beyond the line (in nanoseconds) on the requested side? -/
def beyond (line : ℚ) (above : Bool) (t : ℚ) : Prop := if above then line < |t| * 1000000000 else |t| * 1000000000 < line

instance (line : ℚ) (above : Bool) (t : ℚ) : Decidable (beyond line above t) := by unfold beyond; infer_instance

/-- What `set_stats_slice` should leave of a row. -/
def sliceRow (dlys : List ℚ) (line : ℚ) (above : Bool) (val : S) (row : List (List S)) : List (List S) :=
  List.zipWith (fun d t => if beyond line above t then d.map (fun _ => val) else d) row dlys

theorem mask_eq (dlys : List ℚ) (line : ℚ) (above : Bool) (val : S) (row : List (List S)) :
    List.zipWith (fun d m => if m then d.map (fun _ => val) else d) row (sliceMask dlys line above) = sliceRow dlys line above val row := by
  unfold sliceMask sliceRow
  rw [List.zipWith_map_right]
  congr 1
  funext d t
  have : |t * 1000000000| = |t| * 1000000000 := by rw [abs_mul, abs_of_pos (by norm_num : (0:ℚ) < 1000000000)]
  unfold beyond
  rw [this]
  cases above <;> simp

theorem filterMap_const {α β : Type} (l : List α) (x : β) (f : α → Option β) (h : ∀ a ∈ l, f a = some x) :
    l.filterMap f = List.replicate l.length x := by
  rw [filterMap_map_of f (fun _ => x) l h, List.map_const']

theorem meanAt_const {l : List (Option ℚ)} {is : List ℕ} {x : ℚ} (hne : is ≠ []) (h : ∀ i ∈ is, l[i]? = some (some x)) :
    meanAt l is = some x := by
  unfold meanAt
  rw [if_neg hne, if_pos (by
    rw [List.all_eq_true]
    intro i hi
    rw [h i hi]; rfl)]
  rw [filterMap_const is x _ (fun i hi => by rw [h i hi]; rfl), List.sum_replicate, nsmul_eq_mul]
  have : (is.length : ℚ) ≠ 0 := by
    have := List.length_pos_iff.2 hne
    positivity
  congr 1
  field_simp

theorem sliceLoop_ok {u : UVP D ℚ} {seps : List (Option ℚ)} {dlys : List ℚ} {m b : ℚ} {above : Bool} {val : S} (f : ℤ → ℚ)
    (hsep : ∀ (i : ℕ) (bp : ℤ), u.blpairArray[i]? = some bp → seps[i]? = some (some (f bp))) :
    ∀ (bs : List ℤ) (a : List (List (List S))), bs.Nodup → (∀ c ∈ bs, c ∈ u.blpairArray) → a.length = u.blpairArray.length →
    (∀ row ∈ a, row.length = dlys.length) →
    sliceLoop u seps dlys m b above val bs a =
      .ok (List.zipWith (fun bp row => if bp ∈ bs then sliceRow dlys (f bp * m + b) above val row else row) u.blpairArray a) := by
  intro bs
  induction bs with
  | nil =>
    intro a _ _ hl _
    simp only [sliceLoop, List.not_mem_nil, if_false]
    congr 1
    apply List.ext_getElem (by simp [hl])
    intro i _ _
    simp
  | cons c bs ih =>
    intro a hnd hmem hl hrow
    unfold sliceLoop
    have hidx : blpairToIndices u [c] = .ok (whereTrue (u.blpairArray.map (fun x => decide (x ∈ [c])))) := by
      unfold blpairToIndices
      rw [if_pos (by simpa using hmem c List.mem_cons_self)]
    rw [hidx]
    have hin : ∀ i : ℕ, i ∈ whereTrue (u.blpairArray.map (fun x => decide (x ∈ [c]))) ↔ u.blpairArray[i]? = some c := by
      intro i
      rw [mem_whereTrue, List.getElem?_map, Option.map_eq_some_iff]
      simp
    set is := whereTrue (u.blpairArray.map (fun x => decide (x ∈ [c]))) with his
    have hmean : meanAt seps is = some (f c) := by
      apply meanAt_const
      · obtain ⟨i, hi⟩ := List.getElem?_of_mem (hmem c List.mem_cons_self)
        intro h
        have := (hin i).2 hi
        rw [h] at this; simp at this
      · intro i hi
        exact hsep i c ((hin i).1 hi)
    simp only [hmean]
    have hmr : maskRows a is (sliceMask dlys (f c * m + b) above) val = .ok (a.mapIdx (fun i row => if i ∈ is then
        sliceRow dlys (f c * m + b) above val row else row)) := by
      unfold maskRows
      rw [if_pos (by
        rw [List.all_eq_true]
        intro i hi
        have hi' := (List.getElem?_eq_some_iff.1 ((hin i).1 hi)).1
        have hia : i < a.length := by omega
        rw [List.getElem?_eq_getElem hia]
        simp [sliceMask, hrow _ (List.getElem_mem hia)])]
      simp only [mask_eq]
    simp only [hmr]
    rw [ih _ (List.nodup_cons.1 hnd).2 (fun x hx => hmem x (List.mem_cons_of_mem _ hx)) (by simp [hl]) (by
      intro row hr'
      obtain ⟨i, hi, rfl⟩ := List.getElem_of_mem hr'
      simp only [List.getElem_mapIdx]
      have hia : i < a.length := by simpa using hi
      split
      · simp [sliceRow, hrow _ (List.getElem_mem hia)]
      · exact hrow _ (List.getElem_mem hia))]
    congr 1
    apply List.ext_getElem (by simp)
    intro i h1 h2
    have hi : i < u.blpairArray.length := by simp at h1; exact h1.1
    simp only [List.getElem_zipWith, List.getElem_mapIdx, hin, List.getElem?_eq_getElem hi, Option.some.injEq, List.mem_cons]
    by_cases e : u.blpairArray[i] = c
    · have : c ∉ bs := (List.nodup_cons.1 hnd).1
      simp [e, this]
    · simp [e]

/-- **C95** `set_stats_slice` replaces, in every row, exactly the delays strictly above (below) `bl_len * m + b` nanoseconds, for all
polarizations, with the length of the row's own baseline-pair, and leaves every other entry as it was.
Missing: folded objects, for which it is false (`C95_finding_slice_folded`). -/
theorem C95_slice_partial {u : UVP D ℚ} {o : Obj D ℚ} (hr : Represents u o) (hv : Valid o) (hf : o.folded = false) (blArray : List ℤ)
    (lens : List ℚ) (hl : lens.length = blArray.length) (hbl : ∀ m ∈ o.rows, m.bl1 ∈ blArray ∧ m.bl2 ∈ blArray)
    (s : ℕ) (hs : s < o.nspw) (m b : ℚ) (above : Bool) (val : S) (a : List (List (List S))) (ha : a.length = o.rows.length)
    (hrow : ∀ row ∈ a, row.length = (delaysOf o s).length) :
    setStatsSlice u blArray lens s m b above val a =
      .ok (List.zipWith (fun r row => sliceRow (delaysOf o s) (sepOf blArray lens r * m + b) above val row) o.rows a) := by
  unfold setStatsSlice
  rw [C96_separations hr hv blArray lens hl hbl, getDlys_unfolded hr hv hf hs]
  show sliceLoop _ _ _ _ _ _ _ _ _ = _
  have hps : ∀ r ∈ o.rows, pairSep blArray lens r.blpair = .ok (sepOf blArray lens r) :=
    fun r hr' => pairSep_ok hl (hv.bl2 r hr') (hbl r hr').1 (hbl r hr').2
  rw [sliceLoop_ok (fun c => (match pairSep blArray lens c with | .ok x => x | .error _ => 0)) _ _ _ (ou_nodup _)
    (fun c hc => (mem_ou _ _).1 hc) (by rw [ha, hr.blpair]; simp) hrow]
  · congr 1
    apply List.ext_getElem (by simp [hr.blpair])
    intro i h1 h2
    have hi : i < o.rows.length := by simp at h2; exact h2.1
    have hm : o.rows[i] ∈ o.rows := List.getElem_mem hi
    have e : u.blpairArray[i]'(by simp [hr.blpair, hi]) = o.rows[i].blpair := by simp [hr.blpair]
    have hmem : o.rows[i].blpair ∈ orderedUnique u.blpairArray := by
      rw [mem_ou, hr.blpair]; exact List.mem_map_of_mem hm
    simp only [List.getElem_zipWith, e, hmem, if_true, hps _ hm]
  · intro i bp hi
    rw [hr.blpair, List.getElem?_map, Option.map_eq_some_iff] at hi
    obtain ⟨r, hr', rfl⟩ := hi
    rw [List.getElem?_map, hr']
    have := hps r (List.mem_of_getElem? hr')
    simp [this]

/-! ### Concrete cases -/

/-- Two rows of one baseline-pair, the second completely flagged. -/
def exFlag : Obj Int ℚ where
  nspw := 1
  chans := [(0, 100), (0, 101)]
  dlys := [(0, -1 / 1000000), (0, 0)]
  folded := false
  pols := [1515]
  rows := [
    { bl1 := 101102, bl2 := 102103, t1 := 1, t2 := 2, tAvg := 3 / 2, l1 := 0, l2 := 0, lAvg := 0,
      dat := fun _ => [[1], [2]], itg := fun _ => [5] },
    { bl1 := 101102, bl2 := 102103, t1 := 2, t2 := 3, tAvg := 5 / 2, l1 := 0, l2 := 0, lAvg := 0,
      dat := fun _ => [[3], [4]], itg := fun _ => [0] }]

example : getDataOmit (store exFlag) 0 101102102103 1515 true = .ok [[1, 2]] ∧
    getDataOmit (store exFlag) 0 101102102103 1515 false = .ok [[1, 2], [3, 4]] := ⟨by decide +kernel, by decide +kernel⟩

/-- Reading back a statistic of a two-window object; the other polarization reads as not-a-number (here `-1`). -/
example : ∃ st, setStats (-1 : ℤ) (store exObj) none "err".toList 1 101102102103 1414 [[1, 2], [3, 4]] = .ok st ∧
    getStats (store exObj) (some st) "err".toList 1 101102102103 1414 false = .ok [[1, 2], [3, 4]] ∧
    getStats (store exObj) (some st) "err".toList 1 101102102103 1515 false = .ok [[-1, -1], [-1, -1]] :=
  ⟨_, rfl, rfl, rfl⟩

example : ([[1, 2], [3, 4]] : List (List ℤ)).map List.length =
    (exObj.rows.filter (fun m => decide (m.blpair = 101102102103))).map (fun m => (m.dat 1).length) := by decide +kernel

example : blpairSeps (store exObj) [101102, 102103, 103104, 104105] [10, 20, 30, 50] = .ok [some 15, some 15, some 40] := by decide +kernel

example : ([10, 20, 30, 50] : List ℚ).length = [101102, 102103, 103104, 104105].length ∧
    ∀ m ∈ exObj.rows, m.bl1 ∈ [101102, 102103, 103104, 104105] ∧ m.bl2 ∈ [101102, 102103, 103104, 104105] := by
  refine ⟨rfl, ?_⟩
  intro m hm
  simp only [exObj, List.mem_cons, List.not_mem_nil, or_false] at hm
  rcases hm with rfl | rfl | rfl <;> simp

/-- The delay of 1000 ns lies above a line at 30 ns, the delay 0 does not. -/
example : setStatsSlice (store exFlag) [101102, 102103] [10, 20] 0 1 15 true (9 : ℤ) [[[1], [2]], [[3], [4]]] =
    .ok [[[9], [2]], [[9], [4]]] := by decide +kernel

/-- **C95** finding: on a folded object `set_stats` demands all delays but `get_stats` returns only the positive ones, so that what
`get_stats` (or `get_data`) returns cannot be set. -/
theorem C95_finding_folded :
    (∃ st, setStats (-1 : ℤ) (store exFolded) none "err".toList 0 101102102103 1515 [[7, 8, 9]] = .ok st ∧
      getStats (store exFolded) (some st) "err".toList 0 101102102103 1515 false = .ok [[9]]) ∧
    setStats (-1 : ℤ) (store exFolded) none "err".toList 0 101102102103 1515 [[9]] = .error .value :=
  ⟨⟨_, rfl, rfl⟩, rfl⟩

/-- **C95** finding: on a folded object `set_stats_slice` raises `IndexError`: the mask covers only the positive delays. -/
theorem C95_finding_slice_folded : setStatsSlice (store exFolded) [101102, 102103] [10, 20] 0 1 15 true (9 : ℤ) [[[1], [2], [3]]] =
    .error .index := by decide +kernel

end HeraPspec.Access
