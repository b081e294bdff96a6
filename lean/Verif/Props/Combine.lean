import Verif.Lemmas.Combine3

/-!
C21-C24: `get_uvp_overlap`, `combine_uvpspec`, `_fast_lookup_blpairts`.
-/
namespace HeraPspec.Combine
open HeraPspec.UVP (Err)
variable {R M T Z S X C K V : Type}
variable [LinearOrder R] [LinearOrder T] [DecidableEq C] [DecidableEq K] [DecidableEq V]
variable {rangeOf : M → R} {rnd : T → T} {close : S → S → Bool}

/-- C21: `get_uvp_overlap` returns axis `ax` exactly if there are at least two objects, their fixed metadata agree, every
pair agrees on the two other axes and is apart on `ax` (and, along baseline-pair-times, the scalars agree). -/
theorem C21_overlap_iff (us : List (Obj M T Z S X C K V)) (ax : Axis) :
    (∃ s b p, overlap rangeOf close us = .ok (ax, s, b, p)) ↔ Combinable rangeOf close ax us := by
  constructor
  · rintro ⟨s, b, p, h⟩; exact (overlap_ok.1 h).1
  · intro h; exact ⟨_, _, _, overlap_ok.2 ⟨h, rfl, rfl, rfl⟩⟩

/-- C21: it raises exactly if there is no such axis. -/
theorem C21_overlap_raises (us : List (Obj M T Z S X C K V)) :
    (∃ e, overlap rangeOf close us = .error e) ↔ ∀ ax, ¬ Combinable rangeOf close ax us := by
  constructor
  · rintro ⟨e, h⟩ ax hc
    rw [overlap_ok.2 ⟨hc, rfl, rfl, rfl⟩] at h; cases h
  · intro h
    cases ho : overlap rangeOf close us with
    | error e => exact ⟨e, rfl⟩
    | ok r => obtain ⟨ax, s, b, p⟩ := r; exact absurd (overlap_ok.1 ho).1 (h ax)

/-- C21: the returned axis lists are the unions of the inputs' axes, without repetitions. -/
theorem C21_overlap_sets {us : List (Obj M T Z S X C K V)} {ax : Axis} {s : List R} {b : List (Int × T × T)} {p : List Int}
    (h : overlap rangeOf close us = .ok (ax, s, b, p)) :
    (s.Nodup ∧ ∀ x, x ∈ s ↔ ∃ u ∈ us, x ∈ u.spwMeta.map rangeOf) ∧ (b.Nodup ∧ ∀ x, x ∈ b ↔ ∃ u ∈ us, x ∈ u.blpts) ∧
    (p.Nodup ∧ ∀ x, x ∈ p ↔ ∃ u ∈ us, x ∈ u.pols) := by
  obtain ⟨_, rfl, rfl, rfl⟩ := overlap_ok.1 h
  refine ⟨⟨uniq_nodup _, fun x => ?_⟩, ⟨List.nodup_dedup _, fun x => ?_⟩, ⟨uniq_nodup _, fun x => ?_⟩⟩
  · rw [mem_uniq]; simp [Obj.spws]
  · simp
  · rw [mem_uniq]; simp

/-- C21: a pair that overlaps partially on some axis is rejected. -/
theorem C21_partial_overlap_rejected {us : List (Obj M T Z S X C K V)} {u v : Obj M T Z S X C K V}
    (hp : (us.Pairwise fun a b => ¬ (a = u ∧ b = v)) → False)
    (h : (∃ x, x ∈ u.pols ∧ x ∈ v.pols) ∧ ¬ Same u.pols v.pols ∨ (∃ x, x ∈ u.blpts ∧ x ∈ v.blpts) ∧ ¬ Same u.blpts v.blpts ∨
      (∃ x, x ∈ u.spwMeta.map rangeOf ∧ x ∈ v.spwMeta.map rangeOf) ∧ ¬ Same (u.spwMeta.map rangeOf) (v.spwMeta.map rangeOf)) :
    ∃ e, overlap rangeOf close us = .error e := by
  rw [C21_overlap_raises]
  intro ax hc
  apply hp
  refine hc.pair.imp ?_
  rintro a b hab ⟨rfl, rfl⟩
  obtain ⟨h1, h2, h3⟩ := hab
  rcases h with ⟨⟨x, hx, hx'⟩, hn⟩ | ⟨⟨x, hx, hx'⟩, hn⟩ | ⟨⟨x, hx, hx'⟩, hn⟩
  · split at h3
    · exact h3.1 x hx hx'
    · exact hn h3
  · split at h2
    · exact h2.1 x hx hx'
    · exact hn h2
  · split at h1
    · exact h1.1 x hx hx'
    · exact hn h1

/-- C22 (partial: see `Aligned`; the counterexamples below show that neither hypothesis can be dropped). The combined
object holds exactly the entries of its inputs, with their values and dataset names; windows, rows and polpairs are
sorted and unique; the row metadata come from an input; `r_params` are the union; the result is well-formed. Missing: inputs that are not `Aligned`, for which the claim is false of the code. -/
theorem C22_combine_partial {us : List (Obj M T Z S X C K V)} {ax : Axis} (hc : Combinable rangeOf close ax us)
    (hwf : ∀ v ∈ us, WF rangeOf v) (hal : Aligned rangeOf rnd ax us) (hr : Compatible (us.map (·.rparams))) :
    ∃ u, combine rangeOf rnd close us = .ok u ∧
      (∀ r b p x n1 n2, Has rangeOf u r b p x n1 n2 ↔ ∃ v ∈ us, Has rangeOf v r b p x n1 n2) ∧
      (∀ b z, HasRow u b z → ∃ v ∈ us, HasRow v b z) ∧
      ((u.spwMeta.map rangeOf).Pairwise (· < ·) ∧ ∀ r, r ∈ u.spwMeta.map rangeOf ↔ ∃ v ∈ us, r ∈ v.spwMeta.map rangeOf) ∧
      (u.blpts.Pairwise (fun a b => (toLex (a.1, toLex (a.2.1, a.2.2)) : Int ×ₗ T ×ₗ T) < toLex (b.1, toLex (b.2.1, b.2.2))) ∧
        ∀ b, b ∈ u.blpts ↔ ∃ v ∈ us, b ∈ v.blpts) ∧
      (u.pols.Nodup ∧ u.pols.Pairwise (fun a b => a.natAbs ≤ b.natAbs) ∧ ∀ p, p ∈ u.pols ↔ ∃ v ∈ us, p ∈ v.pols) ∧
      (∀ k v, Dict.get u.rparams k = some v ↔ ∃ w ∈ us, Dict.get w.rparams k = some v) ∧
      (∀ v ∈ us, u.static = v.static) ∧ WF rangeOf u := by
  obtain ⟨u, hu⟩ := combine_exists hc hwf hal hr
  obtain ⟨h1, h2, h3, h4, h5, h6, h7, h8, h9⟩ := combine_spec hc hwf hal hu
  refine ⟨u, hu, h1, h2, ?_, ?_, ?_, h7, h8, h9⟩
  · rw [h3]
    refine ⟨?_, fun r => mem_newSpws⟩
    exact (sorted_newSpws (rangeOf := rangeOf) (us := us)).imp₂ (fun a b h1 h2 => lt_of_le_of_ne h1 h2) nodup_newSpws
  · rw [h4]
    refine ⟨?_, fun r => mem_newBlpts⟩
    refine (sorted_newBlpts (us := us)).imp₂ (fun a b h1 h2 => lt_of_le_of_ne ((bleT_iff a b).1 h1) ?_) nodup_newBlpts
    intro e
    apply h2
    obtain ⟨a1, a2, a3⟩ := a; obtain ⟨b1, b2, b3⟩ := b
    simpa using e
  · rw [h5]
    exact ⟨nodup_newPols, sorted_newPols, fun r => mem_newPols⟩

/-- C22: conflicting `r_params` are refused. -/
theorem C22_conflict_raises {us : List (Obj M T Z S X C K V)} (h2 : 2 ≤ us.length) (hwf : ∀ v ∈ us, WF rangeOf v)
    (hr : ¬ Compatible (us.map (·.rparams))) : ∃ e, combine rangeOf rnd close us = .error e := by
  cases h : combine rangeOf rnd close us with
  | error e => exact ⟨e, rfl⟩
  | ok u =>
    obtain ⟨ax, u0, rows, _, _, hrp, _⟩ := (combine_iff h2).1 h
    have hrk : ∀ d ∈ us.map (·.rparams), d.keys.Nodup := by
      intro d hd; obtain ⟨v, hv, rfl⟩ := List.mem_map.1 hd; exact (hwf v hv).rkeys
    exact absurd ((mergeR_spec hrk).2.1 ⟨_, hrp⟩) hr

/-- C22: a single object is returned unchanged. -/
theorem C22_single (u : Obj M T Z S X C K V) : combine rangeOf rnd close [u] = .ok u := rfl

/-- C23: two orders of the same inputs that both combine give the same windows, rows and polpairs (positive polpair
integers) in the same order, and the same entries. Missing: inputs that are not `Aligned`, for which the claim is false of the code. -/
theorem C23_order_independent_partial {us us' : List (Obj M T Z S X C K V)} (hperm : us.Perm us') {ax : Axis}
    (hc : Combinable rangeOf close ax us) (hc' : Combinable rangeOf close ax us') (hwf : ∀ v ∈ us, WF rangeOf v)
    (hal : Aligned rangeOf rnd ax us) (hal' : Aligned rangeOf rnd ax us') (hpos : ∀ v ∈ us, ∀ p ∈ v.pols, 0 < p)
    {u u' : Obj M T Z S X C K V} (h : combine rangeOf rnd close us = .ok u) (h' : combine rangeOf rnd close us' = .ok u') :
    u.spwMeta.map rangeOf = u'.spwMeta.map rangeOf ∧ u.blpair = u'.blpair ∧ u.time1 = u'.time1 ∧ u.time2 = u'.time2 ∧
    u.pols = u'.pols ∧ u.labels = u'.labels ∧ u.static = u'.static ∧
    (∀ k, Dict.get u.rparams k = Dict.get u'.rparams k) ∧
    (∀ r b p x n1 n2, Has rangeOf u r b p x n1 n2 ↔ Has rangeOf u' r b p x n1 n2) := by
  have hwf' : ∀ v ∈ us', WF rangeOf v := fun v hv => hwf v (hperm.mem_iff.2 hv)
  have hex : ∀ P : Obj M T Z S X C K V → Prop, (∃ v ∈ us, P v) ↔ ∃ v ∈ us', P v := by
    intro P; exact exists_congr (fun v => by rw [hperm.mem_iff])
  obtain ⟨a1, a2, a3, a4, a5, a6, a7, a8, a9⟩ := combine_spec hc hwf hal h
  obtain ⟨b1, b2, b3, b4, b5, b6, b7, b8, b9⟩ := combine_spec hc' hwf' hal' h'
  have es : newSpws rangeOf us = newSpws rangeOf us' :=
    sorted_unique (le := (· ≤ ·)) (fun a b h1 h2 => le_antisymm h1 h2) sorted_newSpws sorted_newSpws nodup_newSpws
      nodup_newSpws (fun x => by rw [mem_newSpws, mem_newSpws, hex])
  have eb : newBlpts us = newBlpts us' :=
    sorted_unique (fun a b h1 h2 => bleT_antisymm h1 h2) sorted_newBlpts sorted_newBlpts nodup_newBlpts
      nodup_newBlpts (fun x => by rw [mem_newBlpts, mem_newBlpts, hex])
  have ep : newPols us = newPols us' := by
    have m : ∀ x, x ∈ newPols us ↔ x ∈ newPols us' := fun x => by rw [mem_newPols, mem_newPols, hex]
    have pos : ∀ x ∈ newPols us, 0 < x := fun x hx => by
      obtain ⟨v, hv, hx⟩ := mem_newPols.1 hx; exact hpos v hv x hx
    refine List.Perm.eq_of_pairwise (le := fun a b : Int => a.natAbs ≤ b.natAbs) ?_ sorted_newPols sorted_newPols
      ((List.perm_ext_iff_of_nodup nodup_newPols nodup_newPols).2 m)
    intro a b ha hb h1 h2
    have := pos a ha; have := pos b ((m b).2 hb); omega
  have el : newLabels us = newLabels us' := by
    have srt : ∀ w : List (Obj M T Z S X C K V), (newLabels w).Pairwise (fun a b : String => decide (a ≤ b) = true) :=
      fun w => pySorted_pairwise (by simp only [decide_eq_true_eq]; exact fun _ _ _ => le_trans)
        (by simp only [Bool.or_eq_true, decide_eq_true_eq]; exact le_total) _
    exact sorted_unique (fun a b h1 h2 => le_antisymm (by simpa using h1) (by simpa using h2)) (srt us) (srt us')
      nodup_newLabels nodup_newLabels (fun x => by rw [mem_newLabels, mem_newLabels, hex])
  have ebl : u.blpts = u'.blpts := by rw [a4, b4, eb]
  have unz : ∀ {w : Obj M T Z S X C K V}, WF rangeOf w → w.blpair = w.blpts.map (·.1) ∧ w.time1 = w.blpts.map (·.2.1) ∧
      w.time2 = w.blpts.map (·.2.2) := by
    intro w hw
    have e1 := hw.time1; have e2 := hw.time2
    refine ⟨?_, ?_, ?_⟩
    · rw [Obj.blpts, ← List.unzip_fst]; rw [List.unzip_zip_left]; simp; omega
    · have : w.blpts.map (·.2.1) = (w.blpts.map (·.2)).map (·.1) := by simp
      rw [this, Obj.blpts, List.map_snd_zip (by simp; omega), List.map_fst_zip (by omega)]
    · have : w.blpts.map (·.2.2) = (w.blpts.map (·.2)).map (·.2) := by simp
      rw [this, Obj.blpts, List.map_snd_zip (by simp; omega), List.map_snd_zip (by omega)]
  refine ⟨by rw [a3, b3, es], ?_, ?_, ?_, by rw [a5, b5, ep], by rw [a6, b6, el], ?_, ?_, ?_⟩
  · rw [(unz a9).1, (unz b9).1, ebl]
  · rw [(unz a9).2.1, (unz b9).2.1, ebl]
  · rw [(unz a9).2.2, (unz b9).2.2, ebl]
  · have hne : us ≠ [] := by rintro rfl; have := hc.two; simp at this
    obtain ⟨w, l, rfl⟩ := List.exists_cons_of_ne_nil hne
    rw [a8 w (by simp), b8 w (hperm.mem_iff.1 (by simp))]
  · intro k
    apply Option.ext
    intro v
    rw [a7, b7, hex]
  · intro r b p x n1 n2
    rw [a1, b1, hex]

/-- C23: if the inputs' scalars agree with each other, every order of combinable inputs is combinable. -/
theorem C23_every_order_combinable {us us' : List (Obj M T Z S X C K V)} (hperm : us.Perm us') {ax : Axis}
    (hc : Combinable rangeOf close ax us) (hs : ∀ u ∈ us, ∀ v ∈ us, ScalarsAgree close u.scalar v.scalar) :
    Combinable rangeOf close ax us' where
  two := by rw [← hperm.length_eq]; exact hc.two
  static := by
    intro u0 h0 u hu
    have m0 : u0 ∈ us := hperm.mem_iff.2 (List.mem_of_mem_head? h0)
    have mu := hperm.mem_iff.2 hu
    have hne : us ≠ [] := List.ne_nil_of_mem m0
    obtain ⟨w, l, rfl⟩ := List.exists_cons_of_ne_nil hne
    rw [hc.static w (by simp) u mu, hc.static w (by simp) u0 m0]
  pair := (hperm.pairwise_iff (fun h => h.symm)).1 hc.pair
  scalar := by
    intro _ u0 h0 u hu
    exact hs u0 (hperm.mem_iff.2 (List.mem_of_mem_head? h0)) u (hperm.mem_iff.2 (List.mem_of_mem_tail hu))

/-- C24 (partial: needs the source rows to differ in baseline-pair or rounded first time): the i-th returned index points
at a source row equal to the i-th query. Missing: tables with rows that differ only in the second time or by less than the rounding, for which the claim is false of the code. -/
theorem C24_lookup_partial {src query : List (Int × T × T)}
    (hk : src.Pairwise (fun a b => ¬ (a.1 = b.1 ∧ rnd a.2.1 = rnd b.2.1))) (hq : ∀ q ∈ query, q ∈ src) :
    (fastLookup rnd src query).length = query.length ∧
    ∀ (i : Nat) q, query[i]? = some q → ∃ n, (fastLookup rnd src query)[i]? = some n ∧ src[n]? = some q := by
  rw [fastLookup_eq hk hq]
  refine ⟨by simp, fun i q h => ⟨src.idxOf q, by simp [h], ?_⟩⟩
  rw [List.getElem?_eq_getElem (List.idxOf_lt_length_of_mem (hq q (List.mem_of_getElem? h)))]; simp

/-- C24: what the lookup computes for arbitrary tables: query by query, every source position with the same baseline-pair
and rounded first time, in increasing order. -/
theorem C24_lookup_general (src query : List (Int × T × T)) :
    ∃ groups : List (List Nat), fastLookup rnd src query = groups.flatten ∧ groups.length = query.length ∧
      ∀ (i : Nat) q g, query[i]? = some q → groups[i]? = some g →
        g.Pairwise (· < ·) ∧ ∀ n, n ∈ g ↔ ∃ s, src[n]? = some s ∧ s.1 = q.1 ∧ rnd s.2.1 = rnd q.2.1 := by
  refine ⟨query.map (fun q => UVP.whereTrue (src.map (fun s => decide (s.1 = q.1 ∧ rnd s.2.1 = rnd q.2.1)))), ?_, by simp, ?_⟩
  · rw [fastLookup, List.flatMap_def]
  · intro i q g hq hg
    rw [List.getElem?_map, hq] at hg
    cases hg
    refine ⟨UVP.whereTrue_sorted _, fun n => ?_⟩
    rw [UVP.mem_whereTrue, List.getElem?_map]
    cases src[n]? with
    | none => simp
    | some s => simp

/-- C24 counterexample: two rows with the same baseline-pair and first time but different second times. Every query occurs
in the source, yet four indices are returned and the second one points at the wrong row. -/
theorem C24_counterexample_second_time :
    let src : List (Int × Nat × Nat) := [(7, 1, 1), (7, 1, 2)]
    fastLookup id src src = [0, 1, 0, 1] := by decide

/-- C24 counterexample: a query missing from the source shifts all later indices. -/
theorem C24_counterexample_missing :
    let src : List (Int × Nat × Nat) := [(7, 1, 1), (8, 1, 1)]
    fastLookup id src [(6, 1, 1), (8, 1, 1)] = [1] := by decide

/-! ### Non-vacuity and counterexamples for C22 -/

/-- Concrete instance: windows and times are numbers. -/
abbrev Ex := Obj Nat Nat Unit Nat Nat Nat Nat Nat

/-- An object with one cell per (window, row, polpair). -/
def exObj (spws : List Nat) (rows : List (Int × Nat × Nat)) (pols : List Int) (f : Nat → (Int × Nat × Nat) → Int → Nat) : Ex where
  spwMeta := spws
  blpair := rows.map (·.1)
  time1 := rows.map (·.2.1)
  time2 := rows.map (·.2.2)
  rowMeta := rows.map (fun _ => ())
  pols := pols
  scalar := spws.map (fun _ => pols.map (fun _ => 1))
  data := spws.map (fun s => rows.map (fun b => pols.map (fun p => ⟨f s b p, 0, 0⟩)))
  labels := ["a"]
  rparams := [(1, 2)]
  static := 0

/-- The number stored for (window, row, polpair) encodes them. -/
def code (s : Nat) (b : Int × Nat × Nat) (p : Int) : Nat := 10000 * s + 100 * b.1.toNat + 10 * b.2.1 + p.toNat

theorem exObj_wf {spws rows pols f} (hs : spws.Nodup) (hr : rows.Nodup) (hp : pols.Nodup) (h1 : spws ≠ []) (h2 : pols ≠ []) :
    WF (id : Nat → Nat) (exObj spws rows pols f) := by
  have hb : (exObj spws rows pols f).blpts = rows := by
    simp only [exObj, Obj.blpts, List.zip_map']; simp
  constructor <;> first | rw [hb]; exact hr | simp [exObj, Dict.keys, *]
  · rintro s _ b x1 x2 x3 _ rfl; simp
  · rintro s _ b x1 x2 x3 _ rfl c hc
    obtain ⟨p, _, rfl⟩ := List.mem_map.1 hc; simp

/-- The hypotheses of C22 hold for two objects with different rows, and combining sorts them. -/
example : ∃ us : List Ex, Combinable id (fun a b => decide (a = b)) .blpairts us ∧ (∀ v ∈ us, WF id v) ∧
    Aligned id id .blpairts us ∧ Compatible (us.map (·.rparams)) ∧ us.length = 2 := by
  refine ⟨[exObj [1, 2] [(9, 1, 1), (7, 1, 1)] [5, 6] code, exObj [1, 2] [(8, 1, 1)] [5, 6] code], ?_, ?_, ?_, ?_, rfl⟩
  · apply (C21_overlap_iff (rangeOf := id) (close := fun a b => decide (a = b)) _ _).1
    exact ⟨_, _, _, rfl⟩
  · intro v hv
    simp only [List.mem_cons, List.not_mem_nil, or_false] at hv
    rcases hv with rfl | rfl <;> exact exObj_wf (by decide) (by decide) (by decide) (by decide) (by decide)
  · refine ⟨by simp, by simp, ?_⟩
    intro _ u0 h0; simp at h0; subst h0; simp [exObj]
  · constructor
    · intro d hd e he k v w h1 h2
      simp only [List.map_cons, List.map_nil, List.mem_cons, List.not_mem_nil, or_false] at hd he
      rcases hd with rfl | rfl <;> rcases he with rfl | rfl <;> (
        simp only [exObj] at h1 h2; rw [h1] at h2; cases h2; rfl)
    · right; intro d hd; simp [exObj] at hd; subst hd; simp

example : ((combine id id (fun a b => decide (a = b)) [exObj [1] [(9, 1, 1), (7, 1, 1)] [5, 6] code,
    exObj [1] [(8, 1, 1)] [5, 6] code]).map (fun u => (u.blpts, u.data.map (·.map (·.map (·.val)))))) =
    .ok ([(7, 1, 1), (8, 1, 1), (9, 1, 1)], [[[10715, 10716], [10815, 10816], [10915, 10916]]]) := by rfl

/-- C22 counterexample: unless windows are concatenated, the window metadata of the first object are copied unsorted while
the data are sorted by window. The inputs hold 20715 for window 2; the result holds 10715 for it. -/
theorem C22_counterexample_window_order :
    let us : List Ex := [exObj [2, 1] [(7, 1, 1)] [5] code, exObj [2, 1] [(8, 1, 1)] [5] code]
    (combine id id (fun a b => decide (a = b)) us).map (fun u => (u.spwMeta, u.blpts, u.data.map (·.map (·.map (·.val))))) =
      .ok ([2, 1], [(7, 1, 1), (8, 1, 1)], [[[10715], [10815]], [[20715], [20815]]]) := by rfl

/-- C22 counterexample: along polpairs, the rows' baseline-pairs are read from the first object with the row indices of the
object owning the first polpair; here the two objects store their rows in different orders. The inputs hold 10705 and
10805 for baseline-pairs 7 and 8 and polpair 5; the result swaps them. -/
theorem C22_counterexample_row_order :
    let us : List Ex := [exObj [1] [(8, 0, 0), (7, 0, 0)] [6] code, exObj [1] [(7, 0, 0), (8, 0, 0)] [5] code]
    (combine id id (fun a b => decide (a = b)) us).map (fun u => (u.blpts, u.pols, u.data.map (·.map (·.map (·.val))))) =
      .ok ([(8, 0, 0), (7, 0, 0)], [5, 6], [[[10705, 10706], [10805, 10806]]]) := by rfl

/-- C23 counterexample: with the same inputs in the other order the result is right, so the order of arguments matters. -/
theorem C23_counterexample_row_order :
    let us : List Ex := [exObj [1] [(7, 0, 0), (8, 0, 0)] [5] code, exObj [1] [(8, 0, 0), (7, 0, 0)] [6] code]
    (combine id id (fun a b => decide (a = b)) us).map (fun u => (u.blpts, u.pols, u.data.map (·.map (·.map (·.val))))) =
      .ok ([(7, 0, 0), (8, 0, 0)], [5, 6], [[[10705, 10706], [10805, 10806]]]) := by rfl

end HeraPspec.Combine
