import Verif.Model.AvgJoin
import Verif.Props.Combine
import Verif.Props.SelAvg
import Verif.Lemmas.SplitMerge

/-!
Property C168: averaging commutes with combining along windows or polarization pairs.
-/
namespace HeraPspec.AvgJoin
open HeraPspec.UVP (Err mapE mapE_ok_iff mapE_exists forall₂_getElem_left)
open HeraPspec.Combine
open HeraPspec.SelAvg (sel selCells pickO Shape Within)
open HeraPspec.FoldAvg (DObj)
variable {R M S C K V E : Type}
variable [LinearOrder R] [DecidableEq C] [DecidableEq K] [DecidableEq V]
variable {rangeOf : M → R} {rnd : ℝ → ℝ} {close : S → S → Bool} {nd : R → Nat} {names : C → List String} {exact : C → Bool}

theorem view_shape (u : CObj M S C K V E) : Shape (view rangeOf nd names exact u) u.pols.length := by
  refine ⟨?_, by simp [view], by simp [view]⟩
  intro ps hps
  obtain ⟨i, _, rfl⟩ := List.mem_map.1 hps
  simp

theorem view_cells (u : CObj M S C K V E) {i k : Nat} (hi : i < u.spwMeta.length) (hk : k < u.pols.length) :
    selCells (some [i]) (some [k]) (view rangeOf nd names exact u).u.cells = [[(List.range u.blpair.length).filterMap (fun j => payload u i j k)]] := by
  simp [selCells, pickO, SelAvg.pick, view, hi, hk]

theorem view_ndly (u : CObj M S C K V E) {i : Nat} {r : R} (hi : (u.spwMeta.map rangeOf)[i]? = some r) :
    (SelAvg.pick (u.spwMeta.map (fun m => nd (rangeOf m))) [i]) = [nd r] := by
  have e : u.spwMeta.map (fun m => nd (rangeOf m)) = (u.spwMeta.map rangeOf).map nd := by rw [List.map_map]; rfl
  rw [e]
  simp only [SelAvg.pick, List.filterMap_cons, List.getElem?_map, List.filterMap_nil]
  rw [List.getElem?_map] at hi
  rw [hi]; rfl

/-- The payload is what the object holds. -/
theorem payload_has {u : CObj M S C K V E} (hu : WF rangeOf u) {i j k : Nat} {r : R} {b : Int × ℝ × ℝ} {p : Int} (hi : (u.spwMeta.map rangeOf)[i]? = some r)
    (hj : u.blpts[j]? = some b) (hk : u.pols[k]? = some p) (x : Average.Cell E) : payload u i j k = some x ↔ HasVal rangeOf u r b p x := by
  constructor
  · intro h
    obtain ⟨c, hc, rfl⟩ := Option.map_eq_some_iff.1 h
    obtain ⟨a1, a2, a3⟩ := hu.cell_lt hc
    obtain ⟨c', hc', l1, l2⟩ := hu.cell_exists a1 a2 a3
    have hcc : cellAt u i j k = some c := hc
    rw [hcc] at hc'; cases hc'
    exact ⟨_, _, has_iff.2 ⟨i, j, k, c, hi, hj, hk, hc, rfl, List.getElem?_eq_getElem l1, List.getElem?_eq_getElem l2⟩⟩
  · rintro ⟨n1, n2, h⟩
    obtain ⟨i', j', k', c, e1, e2, e3, e4, e5, _⟩ := has_iff.1 h
    obtain rfl := nodup_idx hu.spws hi e1
    obtain rfl := nodup_idx hu.rows hj e2
    obtain rfl := nodup_idx hu.pols hk e3
    show (cellAt u i j k).map (·.val) = some x
    rw [e4, ← e5]; rfl

theorem filterMap_range_get {α : Type} {f : Nat → Option α} {n : Nat} (h : ∀ j < n, ∃ x, f j = some x) {j : Nat} (hj : j < n) : ((List.range n).filterMap f)[j]? = f j := by
  have hl : ∀ m ≤ n, ((List.range m).filterMap f).length = m := by
    intro m hm
    induction m with
    | zero => rfl
    | succ m ih =>
      obtain ⟨x, hx⟩ := h m (by omega)
      rw [List.range_succ, List.filterMap_append, List.length_append, ih (by omega)]
      simp [hx]
  have : ∀ m ≤ n, j < m → ((List.range m).filterMap f)[j]? = f j := by
    intro m hm hjm
    induction m with
    | zero => omega
    | succ m ih =>
      obtain ⟨x, hx⟩ := h m (by omega)
      rw [List.range_succ, List.filterMap_append]
      by_cases e : j = m
      · subst e
        rw [List.getElem?_append_right (by rw [hl j (by omega)]), hl j (by omega)]
        simp [hx]
      · rw [List.getElem?_append_left (by rw [hl m (by omega)]; omega)]
        exact ih (by omega) (by omega)
  exact this n (le_refl _) hj

/-- **C168** What `average_spectra` reads of an object is what the object holds: row `j` is the baseline-pair, times, average time and LSTs stored at `j`; the spectrum of row `j`
at a window and polarization pair is the value the object has there; the number of delays is that of the window; and the object is not folded. -/
theorem C168_reading {u : CObj M S C K V E} (hu : WF rangeOf u) :
    (view rangeOf nd names exact u).folded = false ∧
    (∀ (i : Nat) r, (u.spwMeta.map rangeOf)[i]? = some r → (view rangeOf nd names exact u).ndly[i]? = some (nd r) ∧ (view rangeOf nd names exact u).stored[i]? = some (nd r)) ∧
    (∀ (j : Nat) b t1 t2 ta l1 l2 la, u.blpair[j]? = some b → u.time1[j]? = some t1 → u.time2[j]? = some t2 → u.rowMeta[j]? = some (ta, l1, l2, la) →
      (view rangeOf nd names exact u).u.rows[j]? = some { blp := b.toNat, time1 := t1, time2 := t2, timeAvg := ta, lst1 := l1, lst2 := l2, lstAvg := la }) ∧
    ∀ (i j k : Nat) r b p x, (u.spwMeta.map rangeOf)[i]? = some r → u.blpts[j]? = some b → u.pols[k]? = some p →
      ((((view rangeOf nd names exact u).u.cells[i]?.bind (·[k]?)).bind (·[j]?)) = some x ↔ HasVal rangeOf u r b p x) := by
  have hlen : u.blpts.length = u.blpair.length := by
    have := hu.time1; have := hu.time2
    simp [Obj.blpts]; omega
  refine ⟨rfl, ?_, ?_, ?_⟩
  · intro i r hi
    have e : u.spwMeta.map (fun m => nd (rangeOf m)) = (u.spwMeta.map rangeOf).map nd := by rw [List.map_map]; rfl
    simp only [view, e, List.getElem?_map]
    rw [List.getElem?_map] at hi
    simp [hi]
  · intro j b t1 t2 ta l1 l2 la h1 h2 h3 h4
    have hj : j < u.blpair.length := (List.getElem?_eq_some_iff.1 h1).1
    simp only [view]
    rw [filterMap_range_get _ hj, h1, h2, h3, h4]
    · rfl
    · intro q hq
      have g := blpts_get.1 (List.getElem?_eq_getElem (show q < u.blpts.length by omega))
      have hz : q < u.rowMeta.length := by have := hu.rowMeta; omega
      rw [g.1, g.2.1, g.2.2, List.getElem?_eq_getElem hz]
      exact ⟨_, rfl⟩
  · intro i j k r b p x hi hj hk
    have li : i < u.spwMeta.length := by
      have := (List.getElem?_eq_some_iff.1 hi).1
      rwa [List.length_map] at this
    have lk : k < u.pols.length := (List.getElem?_eq_some_iff.1 hk).1
    have lj : j < u.blpair.length := by have := (List.getElem?_eq_some_iff.1 hj).1; omega
    rw [← payload_has hu hi hj hk]
    have e : ((view rangeOf nd names exact u).u.cells[i]?.bind (·[k]?)) = some ((List.range u.blpair.length).filterMap (fun j => payload u i j k)) := by
      simp [view, li, lk]
    rw [e, Option.bind_some, filterMap_range_get _ lj]
    intro q hq
    obtain ⟨c, hc, _⟩ := hu.cell_exists li hq lk
    exact ⟨c.val, by show (cellAt u i q k).map (·.val) = _; rw [hc]; rfl⟩

variable {us : List (CObj M S C K V E)} {ax : Axis}

/-- The rows of the combination are those of the inputs if these agree on them and store them in increasing order. -/
theorem rows_join (hc : Combinable rangeOf close ax us) (hal : Aligned rangeOf rnd ax us) (hwu : ∀ u ∈ us, WF rangeOf u)
    {out : CObj M S C K V E} (h : combine rangeOf rnd close us = .ok out) {B : List (Int × ℝ × ℝ)} {Z : List (ℝ × ℝ × ℝ × ℝ)}
    (hrows : ∀ u ∈ us, u.blpts = B ∧ u.rowMeta = Z) (hsort : B.Pairwise (fun a b => bleT a b = true)) : out.blpts = B ∧ out.rowMeta = Z := by
  obtain ⟨_, a2, _, a4, _, _, _, _, a9⟩ := combine_spec hc hwu hal h
  obtain ⟨u0, hu0⟩ : ∃ u, u ∈ us := by
    match us, hc.two with
    | a :: _, _ => exact ⟨a, List.mem_cons_self⟩
  have hn : B.Nodup := (hrows u0 hu0).1 ▸ (hwu u0 hu0).rows
  have hB : out.blpts = B := by
    rw [a4]
    refine sorted_unique (le := fun a b => bleT a b = true) (fun a b h1 h2 => bleT_antisymm h1 h2) sorted_newBlpts hsort nodup_newBlpts hn ?_
    intro b
    rw [mem_newBlpts]
    constructor
    · rintro ⟨v, hv, hb⟩; rwa [(hrows v hv).1] at hb
    · intro hb; exact ⟨u0, hu0, by rw [(hrows u0 hu0).1]; exact hb⟩
  refine ⟨hB, ?_⟩
  have len : ∀ {u : CObj M S C K V E}, WF rangeOf u → u.blpts.length = u.rowMeta.length := by
    intro u hu
    have := hu.time1; have := hu.time2; have := hu.rowMeta
    simp [Obj.blpts]; omega
  apply List.ext_getElem?
  intro j
  by_cases hj : j < out.rowMeta.length
  · have hj' : j < out.blpts.length := by rw [len a9]; exact hj
    have g1 := blpts_get.1 (List.getElem?_eq_getElem hj')
    obtain ⟨v, hv, j2, e1, e2, e3, e4⟩ := a2 (out.blpts[j]) (out.rowMeta[j]) ⟨j, g1.1, g1.2.1, g1.2.2, List.getElem?_eq_getElem hj⟩
    have hb2 : v.blpts[j2]? = some (out.blpts[j]) := blpts_get.2 ⟨e1, e2, e3⟩
    have hb1 : out.blpts[j]? = some (out.blpts[j]) := List.getElem?_eq_getElem hj'
    rw [(hrows v hv).1] at hb2
    have : B[j]? = some (out.blpts[j]) := by rw [← hb1, hB]
    obtain rfl := nodup_idx hn this hb2
    rw [List.getElem?_eq_getElem hj, ← e4, (hrows v hv).2]
  · have : Z.length = out.rowMeta.length := by
      rw [← len a9, hB, ← (hrows u0 hu0).1, ← (hrows u0 hu0).2, len (hwu u0 hu0)]
    rw [List.getElem?_eq_none (by omega), List.getElem?_eq_none (by omega)]

theorem view_rows {u v : CObj M S C K V E} (hu : WF rangeOf u) (hv : WF rangeOf v) (hb : u.blpts = v.blpts) (hz : u.rowMeta = v.rowMeta) :
    (view rangeOf nd names exact u).u.rows = (view rangeOf nd names exact v).u.rows := by
  have len : ∀ {u : CObj M S C K V E}, WF rangeOf u → u.blpts.length = u.blpair.length := by
    intro u hu
    have := hu.time1; have := hu.time2
    simp [Obj.blpts]; omega
  have hl : u.blpair.length = v.blpair.length := by rw [← len hu, ← len hv, hb]
  simp only [view]
  rw [hl]
  apply List.filterMap_congr
  intro j hj
  have hj := List.mem_range.1 hj
  have hju : j < u.blpts.length := by rw [hb, len hv]; exact hj
  have g1 := blpts_get.1 (List.getElem?_eq_getElem hju)
  have g2 : v.blpts[j]? = some u.blpts[j] := by rw [← hb]; exact List.getElem?_eq_getElem hju
  have g2 := blpts_get.1 g2
  rw [g1.1, g1.2.1, g1.2.2, g2.1, g2.2.1, g2.2.2, hz]

/-- **C168** The combination along windows or polarization pairs shows `average_spectra`, for every window and polarization pair of an input, exactly what the input shows: the
same rows and the same spectra, weights, times, samples, errors, covariances and windows. -/
theorem C168_same_view (hax : ax ≠ .blpairts) (hc : Combinable rangeOf close ax us) (hal : Aligned rangeOf rnd ax us) (hwu : ∀ u ∈ us, WF rangeOf u)
    {out : CObj M S C K V E} (h : combine rangeOf rnd close us = .ok out) {B : List (Int × ℝ × ℝ)} {Z : List (ℝ × ℝ × ℝ × ℝ)}
    (hrows : ∀ u ∈ us, u.blpts = B ∧ u.rowMeta = Z) (hsort : B.Pairwise (fun a b => bleT a b = true)) {u : CObj M S C K V E} (hu : u ∈ us) {i k i' k' : Nat} {r : R} {p : Int}
    (hi : (u.spwMeta.map rangeOf)[i]? = some r) (hk : u.pols[k]? = some p) (hi' : (out.spwMeta.map rangeOf)[i']? = some r) (hk' : out.pols[k']? = some p) :
    sel (some [i']) (some [k']) (view rangeOf nd names exact out) = sel (some [i]) (some [k]) (view rangeOf nd names exact u) := by
  obtain ⟨a1, _, _, _, _, _, _, a8, a9⟩ := combine_spec hc hwu hal h
  obtain ⟨hB, hZ⟩ := rows_join hc hal hwu h hrows hsort
  have wu := hwu u hu
  have hb : out.blpts = u.blpts := by rw [hB, (hrows u hu).1]
  have hz : out.rowMeta = u.rowMeta := by rw [hZ, (hrows u hu).2]
  have ltw : ∀ {v : CObj M S C K V E} {i r}, (v.spwMeta.map rangeOf)[i]? = some r → i < v.spwMeta.length := by
    intro v i r h
    have := (List.getElem?_eq_some_iff.1 h).1
    rwa [List.length_map] at this
  have ltp : ∀ {v : CObj M S C K V E} {k p}, v.pols[k]? = some p → k < v.pols.length := fun h => (List.getElem?_eq_some_iff.1 h).1
  have hl : out.blpair.length = u.blpair.length := by
    have e1 : out.blpts.length = out.blpair.length := by have := a9.time1; have := a9.time2; simp [Obj.blpts]; omega
    have e2 : u.blpts.length = u.blpair.length := by have := wu.time1; have := wu.time2; simp [Obj.blpts]; omega
    rw [← e1, ← e2, hb]
  have hcell : selCells (some [i']) (some [k']) (view rangeOf nd names exact out).u.cells = selCells (some [i]) (some [k]) (view rangeOf nd names exact u).u.cells := by
    rw [view_cells _ (ltw hi') (ltp hk'), view_cells _ (ltw hi) (ltp hk), hl]
    congr 2
    apply List.filterMap_congr
    intro j hj
    have hj := List.mem_range.1 hj
    obtain ⟨c, hcc, _⟩ := wu.cell_exists (ltw hi) hj (ltp hk)
    have hju : j < u.blpts.length := by have := wu.time1; have := wu.time2; simp [Obj.blpts]; omega
    have hgu := List.getElem?_eq_getElem hju
    have hpu : payload u i j k = some c.val := by show (cellAt u i j k).map (·.val) = _; rw [hcc]; rfl
    rw [hpu, payload_has a9 hi' (by rw [hb]; exact hgu) hk']
    obtain ⟨n1, n2, hh⟩ := (payload_has wu hi hgu hk c.val).1 hpu
    exact ⟨n1, n2, (a1 _ _ _ _ _ _).2 ⟨u, hu, hh⟩⟩
  have hr := view_rows (nd := nd) (names := names) (exact := exact) a9 wu hb hz
  have hn : (view rangeOf nd names exact out).u.statNames = (view rangeOf nd names exact u).u.statNames := by simp only [view, a8 u hu]
  have he : (view rangeOf nd names exact out).u.exact = (view rangeOf nd names exact u).u.exact := by simp only [view, a8 u hu]
  simp only [sel, hcell, hr, hn, he]
  congr 1
  · show (SelAvg.pick (out.spwMeta.map (fun m => nd (rangeOf m))) [i']).map _ = (SelAvg.pick (u.spwMeta.map (fun m => nd (rangeOf m))) [i]).map _
    rw [view_ndly out hi', view_ndly u hi]; rfl
  · show SelAvg.pick (out.spwMeta.map (fun m => nd (rangeOf m))) [i'] = SelAvg.pick (u.spwMeta.map (fun m => nd (rangeOf m))) [i]
    rw [view_ndly out hi', view_ndly u hi]

/-- The list of averaged spectra at a window and polarization pair. -/
def cellsAt (x : DObj E) (i k : Nat) : Option (List (Average.Cell E)) := (x.u.cells[i]?).bind (·[k]?)

theorem cellsAt_sel (x : DObj E) (i k : Nat) : cellsAt (sel (some [i]) (some [k]) x) 0 0 = cellsAt x i k := by
  simp only [cellsAt, sel, selCells, pickO, SelAvg.pick, List.filterMap_cons, List.filterMap_nil]
  cases x.u.cells[i]? with
  | none => rfl
  | some ps =>
    simp only [List.map_cons, List.getElem?_cons_zero, Option.bind_some, List.filterMap_cons, List.filterMap_nil]
    cases ps[k]? <;> rfl

variable [AddCommGroup E] [Module ℝ E]

/-- An average has a list of spectra for every window and polarization pair of the object. -/
theorem average_cells {circ : List ℝ → ℝ} {so : List Nat → List Nat} {a : Average.Args} {x y : DObj E} (h : FoldAvg.average circ so a x = .ok y) {i k : Nat}
    {ps : List (List (Average.Cell E))} (hi : x.u.cells[i]? = some ps) (hk : k < ps.length) : ∃ cs, cellsAt y i k = some cs := by
  unfold FoldAvg.average at h
  split at h
  · cases h
  · rename_i w hw
    cases h
    unfold Average.averageSpectra at hw
    split at hw
    · cases hw
    · split at hw
      · cases hw
      · split at hw
        · cases hw
        · rename_i blocks hbl
          split at hw
          · cases hw
          · cases hw
            have hi2 : ∃ ps', (FoldAvg.readObj x).cells[i]? = some ps' ∧ ps'.length = ps.length := by
              simp only [FoldAvg.readObj, List.getElem?_mapIdx, hi, Option.map_some]
              exact ⟨_, rfl, by simp⟩
            obtain ⟨ps', hp1, hp2⟩ := hi2
            have hlt : i < (FoldAvg.readObj x).cells.length := (List.getElem?_eq_some_iff.1 hp1).1
            obtain ⟨bs, hb, g⟩ := forall₂_getElem_left (mapE_ok_iff.1 hbl) (i := i) (List.getElem?_range hlt)
            have hkk : (List.range (((FoldAvg.readObj x).cells[i]?.map (·.length)).getD 0))[k]? = some k := by
              rw [hp1]; exact List.getElem?_range (by simpa [hp2] using hk)
            obtain ⟨c, hcc, _⟩ := forall₂_getElem_left (mapE_ok_iff.1 g) hkk
            refine ⟨c.flatten, ?_⟩
            simp only [cellsAt, List.getElem?_map, hb, Option.map_some, Option.bind_some, hcc]

/-- **C168** Averaging (over times, over baseline-pairs, with error weights, with any arguments) commutes with combining along windows or polarization pairs: the average of the
combination has the rows of the average of an input, and at every window and polarization pair of that input its averaged spectra. -/
theorem C168_average_join (circ : List ℝ → ℝ) (so : List Nat → List Nat) (a : Average.Args) (hax : ax ≠ .blpairts) (hc : Combinable rangeOf close ax us)
    (hal : Aligned rangeOf rnd ax us) (hwu : ∀ u ∈ us, WF rangeOf u) {out : CObj M S C K V E} (h : combine rangeOf rnd close us = .ok out) {B : List (Int × ℝ × ℝ)}
    {Z : List (ℝ × ℝ × ℝ × ℝ)} (hrows : ∀ u ∈ us, u.blpts = B ∧ u.rowMeta = Z) (hsort : B.Pairwise (fun a b => bleT a b = true))
    {y' : DObj E} (hy' : FoldAvg.average circ so a (view rangeOf nd names exact out) = .ok y') {u : CObj M S C K V E} (hu : u ∈ us) {y : DObj E}
    (hy : FoldAvg.average circ so a (view rangeOf nd names exact u) = .ok y) :
    y'.u.rows = y.u.rows ∧ ∀ i k i' k' r p, (u.spwMeta.map rangeOf)[i]? = some r → u.pols[k]? = some p → (out.spwMeta.map rangeOf)[i']? = some r → out.pols[k']? = some p →
      ∃ cs, cellsAt y' i' k' = some cs ∧ cellsAt y i k = some cs := by
  obtain ⟨a1, _, a3, _, a5, _, _, a8, a9⟩ := combine_spec hc hwu hal h
  have wu := hwu u hu
  have key : ∀ i k i' k' r p, (u.spwMeta.map rangeOf)[i]? = some r → u.pols[k]? = some p → (out.spwMeta.map rangeOf)[i']? = some r → out.pols[k']? = some p →
      sel (some [i']) (some [k']) y' = sel (some [i]) (some [k]) y := by
    intro i k i' k' r p hi hk hi' hk'
    have e := C168_same_view (nd := nd) (names := names) (exact := exact) hax hc hal hwu h hrows hsort hu hi hk hi' hk'
    have ltw : ∀ {v : CObj M S C K V E} {i r}, (v.spwMeta.map rangeOf)[i]? = some r → i < (view rangeOf nd names exact v).u.cells.length := by
      intro v i r h
      have := (List.getElem?_eq_some_iff.1 h).1
      rw [List.length_map] at this
      simpa [view] using this
    have ltp : ∀ {v : CObj M S C K V E} {k p}, v.pols[k]? = some p → k < v.pols.length := fun h => (List.getElem?_eq_some_iff.1 h).1
    have g1 := SelAvg.C150_average_partial circ so a (some [i']) (some [k']) _ y' _ (view_shape out) (by simpa [Within] using ltw hi') (by simpa [Within] using ltp hk') (.inl rfl) hy'
    have g2 := SelAvg.C150_average_partial circ so a (some [i]) (some [k]) _ y _ (view_shape u) (by simpa [Within] using ltw hi) (by simpa [Within] using ltp hk) (.inl rfl) hy
    rw [e, g2] at g1
    exact (Except.ok.inj g1).symm
  constructor
  · obtain ⟨m, hm⟩ := List.exists_mem_of_ne_nil _ wu.someSpw
    obtain ⟨p, hp⟩ := List.exists_mem_of_ne_nil _ wu.somePol
    have hr : rangeOf m ∈ u.spwMeta.map rangeOf := List.mem_map_of_mem hm
    obtain ⟨i, hi⟩ := List.mem_iff_getElem?.1 hr
    obtain ⟨k, hk⟩ := List.mem_iff_getElem?.1 hp
    obtain ⟨i', hi'⟩ := List.mem_iff_getElem?.1 (show rangeOf m ∈ out.spwMeta.map rangeOf by rw [a3]; exact mem_newSpws.2 ⟨u, hu, hr⟩)
    obtain ⟨k', hk'⟩ := List.mem_iff_getElem?.1 (show p ∈ out.pols by rw [a5]; exact mem_newPols.2 ⟨u, hu, hp⟩)
    exact congrArg (fun z => z.u.rows) (key i k i' k' _ _ hi hk hi' hk')
  · intro i k i' k' r p hi hk hi' hk'
    have e := congrArg (fun z => cellsAt z 0 0) (key i k i' k' r p hi hk hi' hk')
    simp only [cellsAt_sel] at e
    have li : i < u.spwMeta.length := by
      have := (List.getElem?_eq_some_iff.1 hi).1
      rwa [List.length_map] at this
    have lk : k < u.pols.length := (List.getElem?_eq_some_iff.1 hk).1
    have hcs : ∃ ps, (view rangeOf nd names exact u).u.cells[i]? = some ps ∧ k < ps.length := by
      simp only [view, List.getElem?_map, List.getElem?_range li, Option.map_some]
      exact ⟨_, rfl, by simpa using lk⟩
    obtain ⟨ps, h1, h2⟩ := hcs
    obtain ⟨cs, h3⟩ := average_cells hy h1 h2
    exact ⟨cs, by rw [e, h3], h3⟩

/-- When `average_spectra` succeeds. -/
theorem avg_ok {circ : List ℝ → ℝ} {so : List Nat → List Nat} {a : Average.Args} {x : Average.Obj E} : (∃ y, Average.averageSpectra circ so a x = .ok y) ↔
    ∃ gs, Average.groupsOf so a x = .ok gs ∧ (Average.statNames a).all (· ∈ x.statNames) = true ∧
      (∀ (s : Nat) (ps : List (List (Average.Cell E))), x.cells[s]? = some ps → ∀ p < ps.length, ∀ g ∈ gs, ∃ r, Average.groupRows a.errorWeights a.timeAvg a.normalize x s p g = .ok r) ∧
      ∀ g ∈ gs, ∃ m, Average.groupMeta circ a.timeAvg x g = .ok m := by
  constructor
  · rintro ⟨y, h⟩
    unfold Average.averageSpectra at h
    split at h
    · cases h
    · rename_i gs hgs
      split at h
      · cases h
      · rename_i hst
        split at h
        · cases h
        · rename_i blocks hbl
          split at h
          · cases h
          · rename_i ms hms
            refine ⟨gs, hgs, by simpa using hst, ?_, ?_⟩
            · intro s ps hs p hp g hg
              obtain ⟨_, _, g1⟩ := forall₂_getElem_left (mapE_ok_iff.1 hbl) (i := s) (List.getElem?_range (List.getElem?_eq_some_iff.1 hs).1)
              have hkk : (List.range ((x.cells[s]?.map (·.length)).getD 0))[p]? = some p := by
                rw [hs]; exact List.getElem?_range (by simpa using hp)
              obtain ⟨_, _, g2⟩ := forall₂_getElem_left (mapE_ok_iff.1 g1) hkk
              obtain ⟨i, hi⟩ := List.mem_iff_getElem?.1 hg
              obtain ⟨r, _, g3⟩ := forall₂_getElem_left (mapE_ok_iff.1 g2) hi
              exact ⟨r, g3⟩
            · intro g hg
              obtain ⟨i, hi⟩ := List.mem_iff_getElem?.1 hg
              obtain ⟨r, _, g3⟩ := forall₂_getElem_left (mapE_ok_iff.1 hms) hi
              exact ⟨r, g3⟩
  · rintro ⟨gs, hgs, hst, hc, hm⟩
    obtain ⟨ms, hms⟩ := mapE_exists hm
    obtain ⟨blocks, hbl⟩ : ∃ b, mapE (fun s => mapE (fun p => mapE (Average.groupRows a.errorWeights a.timeAvg a.normalize x s p) gs)
        (List.range ((x.cells[s]?.map (·.length)).getD 0))) (List.range x.cells.length) = .ok b := by
      apply mapE_exists
      intro s hs
      have hs' := List.getElem?_eq_getElem (List.mem_range.1 hs)
      rw [hs']
      apply mapE_exists
      intro p hp
      apply mapE_exists
      intro g hg
      exact hc s _ hs' p (by simpa using hp) g hg
    unfold Average.averageSpectra
    rw [hgs]
    simp only [hst, Bool.not_true, Bool.false_eq_true, if_false]
    rw [hbl]
    simp only [hms]
    exact ⟨_, rfl⟩

theorem groupRows_congr {ew : Option String} {t n : Bool} {x y : Average.Obj E} (hr : x.rows = y.rows) (he : x.exact = y.exact) {s p s' p' : Nat}
    (hc : (x.cells[s]?.bind (·[p]?)) = (y.cells[s']?.bind (·[p']?))) (g : List Nat × List ℝ) :
    Average.groupRows ew t n x s p g = Average.groupRows ew t n y s' p' g := by
  have h1 : Average.cellsOf x s p = Average.cellsOf y s' p' := by
    funext b
    simp only [Average.cellsOf, Average.indices, hr, hc]
  have h2 : Average.accsOf ew t x s p = Average.accsOf ew t y s' p' := by
    funext b
    simp only [Average.accsOf, h1]
  simp only [Average.groupRows, h2, he]

/-- **C168** The average of the combination succeeds if the averages of all inputs do. -/
theorem C168_average_succeeds (circ : List ℝ → ℝ) (so : List Nat → List Nat) (a : Average.Args) (hax : ax ≠ .blpairts) (hc : Combinable rangeOf close ax us)
    (hal : Aligned rangeOf rnd ax us) (hwu : ∀ u ∈ us, WF rangeOf u) {out : CObj M S C K V E} (h : combine rangeOf rnd close us = .ok out) {B : List (Int × ℝ × ℝ)}
    {Z : List (ℝ × ℝ × ℝ × ℝ)} (hrows : ∀ u ∈ us, u.blpts = B ∧ u.rowMeta = Z) (hsort : B.Pairwise (fun a b => bleT a b = true))
    (hy : ∀ u ∈ us, ∃ y, FoldAvg.average circ so a (view rangeOf nd names exact u) = .ok y) :
    ∃ y', FoldAvg.average circ so a (view rangeOf nd names exact out) = .ok y' := by
  obtain ⟨_, _, a3, _, a5, _, _, a8, a9⟩ := combine_spec hc hwu hal h
  have conv : ∀ v : CObj M S C K V E, (∃ y, FoldAvg.average circ so a (view rangeOf nd names exact v) = .ok y) ↔
      ∃ y, Average.averageSpectra circ so a (view rangeOf nd names exact v).u = .ok y := by
    intro v
    unfold FoldAvg.average
    rw [SelAvg.readObj_unfolded' (x := view rangeOf nd names exact v) rfl]
    cases Average.averageSpectra circ so a (view rangeOf nd names exact v).u with
    | error e => constructor <;> rintro ⟨_, h⟩ <;> cases h
    | ok y => exact ⟨fun _ => ⟨_, rfl⟩, fun _ => ⟨_, rfl⟩⟩
  have cells_at : ∀ (v : CObj M S C K V E) (i k : Nat), i < v.spwMeta.length → k < v.pols.length →
      ((view rangeOf nd names exact v).u.cells[i]?.bind (·[k]?)) = some ((List.range v.blpair.length).filterMap (fun j => payload v i j k)) := by
    intro v i k hi hk
    simp [view, hi, hk]
  obtain ⟨hB, hZ⟩ := rows_join hc hal hwu h hrows hsort
  obtain ⟨u0, hu0⟩ : ∃ u, u ∈ us := by
    match us, hc.two with
    | a :: _, _ => exact ⟨a, List.mem_cons_self⟩
  have hr : ∀ u ∈ us, (view rangeOf nd names exact out).u.rows = (view rangeOf nd names exact u).u.rows := fun u hu =>
    view_rows a9 (hwu u hu) (by rw [hB, (hrows u hu).1]) (by rw [hZ, (hrows u hu).2])
  have he : ∀ u ∈ us, (view rangeOf nd names exact out).u.exact = (view rangeOf nd names exact u).u.exact := fun u hu => by simp only [view, a8 u hu]
  have hn : ∀ u ∈ us, (view rangeOf nd names exact out).u.statNames = (view rangeOf nd names exact u).u.statNames := fun u hu => by simp only [view, a8 u hu]
  have hg : ∀ u ∈ us, Average.groupsOf so a (view rangeOf nd names exact out).u = Average.groupsOf so a (view rangeOf nd names exact u).u := by
    intro u hu
    simp only [Average.groupsOf, hr u hu, he u hu]
  have hm : ∀ u ∈ us, ∀ g, Average.groupMeta circ a.timeAvg (view rangeOf nd names exact out).u g = Average.groupMeta circ a.timeAvg (view rangeOf nd names exact u).u g := by
    intro u hu g
    simp only [Average.groupMeta, Average.indices, hr u hu]
  rw [conv, avg_ok]
  obtain ⟨gs, g1, g2, g3, g4⟩ := avg_ok.1 ((conv u0).1 (hy u0 hu0))
  refine ⟨gs, by rw [hg u0 hu0, g1], by rw [hn u0 hu0]; exact g2, ?_, ?_⟩
  · intro s ps hs p hp g hgg
    have hls : s < out.spwMeta.length := by
      have := (List.getElem?_eq_some_iff.1 hs).1
      simpa [view] using this
    have hlp : p < out.pols.length := by
      rw [show ps.length = out.pols.length from (view_shape out).pols ps (List.mem_of_getElem? hs)] at hp; exact hp
    have hls' : s < (out.spwMeta.map rangeOf).length := by rw [List.length_map]; exact hls
    have e1 := List.getElem?_eq_getElem hls'
    have e2 := List.getElem?_eq_getElem hlp
    generalize (out.spwMeta.map rangeOf)[s] = r at e1
    generalize out.pols[p] = q at e2
    have mr : r ∈ newSpws rangeOf us := by rw [← a3]; exact List.mem_of_getElem? e1
    have mq : q ∈ newPols us := by rw [← a5]; exact List.mem_of_getElem? e2
    obtain ⟨u, hu, h1, h2⟩ : ∃ u ∈ us, r ∈ u.spwMeta.map rangeOf ∧ q ∈ u.pols := by
      cases ax with
      | blpairts => exact absurd rfl hax
      | spw =>
        obtain ⟨u, hu, h1⟩ := mem_newSpws.1 mr
        exact ⟨u, hu, h1, (hc.mem_pols (by simp) hu).1 mq⟩
      | polpairs =>
        obtain ⟨u, hu, h1⟩ := mem_newPols.1 mq
        exact ⟨u, hu, (hc.mem_spws (by simp) hu).1 mr, h1⟩
    obtain ⟨i, hi⟩ := List.mem_iff_getElem?.1 h1
    obtain ⟨k, hk⟩ := List.mem_iff_getElem?.1 h2
    have li : i < u.spwMeta.length := by
      have := (List.getElem?_eq_some_iff.1 hi).1
      rwa [List.length_map] at this
    have lk : k < u.pols.length := (List.getElem?_eq_some_iff.1 hk).1
    have e := congrArg (fun z => cellsAt z 0 0) (C168_same_view (nd := nd) (names := names) (exact := exact) hax hc hal hwu h hrows hsort hu hi hk e1 e2)
    simp only [cellsAt_sel] at e
    rw [groupRows_congr (hr u hu) (he u hu) e g]
    obtain ⟨gs', g1', _, g3', _⟩ := avg_ok.1 ((conv u).1 (hy u hu))
    rw [← hg u hu, hg u0 hu0, g1] at g1'
    cases g1'
    have hcs : ∃ ps', (view rangeOf nd names exact u).u.cells[i]? = some ps' ∧ k < ps'.length := by
      simp only [view, List.getElem?_map, List.getElem?_range li, Option.map_some]
      exact ⟨_, rfl, by simpa using lk⟩
    obtain ⟨ps', h3, h4⟩ := hcs
    exact g3' i ps' h3 k h4 g hgg
  · intro g hgg
    rw [hm u0 hu0]; exact g4 g hgg

/-! ### Example: two objects with a window each and the same two rows. -/

/-- The object with window `w`. -/
noncomputable def exJ (w : Nat) : CObj Nat Nat Nat Nat Nat ℝ where
  spwMeta := [w]
  blpair := [5, 7]
  time1 := [0, 0]
  time2 := [1, 1]
  rowMeta := [(0, 0, 0, 0), (0, 0, 0, 0)]
  pols := [1]
  scalar := [[1]]
  data := [[[⟨SelAvg.exC w, 0, 0⟩], [⟨SelAvg.exC (w + 1), 0, 0⟩]]]
  labels := ["a"]
  rparams := []
  static := 0

theorem exJ_wf (w : Nat) : WF (id : Nat → Nat) (exJ w) := by
  constructor <;> simp [exJ, Obj.blpts, Dict.keys]

theorem exJ_average (w : Nat) : ∃ y, FoldAvg.average (fun _ => 0) id SelAvg.exA (view id (fun _ => 8) (fun _ => []) (fun _ => false) (exJ w)) = .ok y := by
  have h : ∃ r, Average.averageSpectra (fun _ => 0) id SelAvg.exA (view id (fun _ => 8) (fun _ => []) (fun _ => false) (exJ w)).u = .ok r := by
    simp [Average.averageSpectra, Average.groupsOf, SelAvg.exA, view, exJ, payload, rowOf, Average.weightsOf, (by decide : Combine.uniq [5, 7] = [5, 7]), UVP.mapE, Average.groupRows,
      Average.blpgWgts, Average.accsOf, Average.cellsOf, Average.indices, List.range_succ, Average.statNames, Average.sumCopies, Average.copies, Average.groupMeta,
      (by norm_num : ¬ ((1 : ℝ) ≤ 0)), (by norm_num : ¬ ((1 : ℝ) + 1 ≤ 0)), (by norm_num : (2 : ℝ) / (1 + 1) = 1)]
  obtain ⟨r, hr⟩ := h
  unfold FoldAvg.average
  rw [SelAvg.readObj_unfolded' rfl, hr]
  exact ⟨_, rfl⟩

/-- The hypotheses of the theorems hold for it. -/
example : ∃ us : List (CObj Nat Nat Nat Nat Nat ℝ), us.length = 2 ∧ Combinable id (fun _ _ => true) .spw us ∧ Aligned id id .spw us ∧ (∀ u ∈ us, WF id u) ∧
    (∀ u ∈ us, u.blpts = [(5, 0, 1), (7, 0, 1)] ∧ u.rowMeta = [(0, 0, 0, 0), (0, 0, 0, 0)]) ∧
    ([(5, 0, 1), (7, 0, 1)] : List (Int × ℝ × ℝ)).Pairwise (fun a b => bleT a b = true) ∧
    (∃ out, combine id id (fun _ _ => true) us = .ok out) ∧
    ∀ u ∈ us, ∃ y, FoldAvg.average (fun _ => 0) id SelAvg.exA (view id (fun _ => 8) (fun _ => []) (fun _ => false) u) = .ok y := by
  have hc : Combinable id (fun _ _ => true) .spw [exJ 1, exJ 2] := by
    refine ⟨by simp, by simp [exJ], ?_, by simp⟩
    simp only [List.pairwise_cons, List.mem_cons, List.not_mem_nil, or_false, forall_eq, List.Pairwise.nil, and_true, false_implies, implies_true]
    refine ⟨?_, fun _ => Iff.rfl, fun _ => Iff.rfl⟩
    rw [if_pos rfl]
    refine ⟨by simp [exJ], fun h => ?_⟩
    have := (h 1).1 (by simp [exJ])
    simp [exJ] at this
  have hal : Aligned id id .spw [exJ 1, exJ 2] := by
    refine ⟨?_, ?_, by simp⟩
    · intro _ v hv
      simp only [List.mem_cons, List.not_mem_nil, or_false] at hv
      rcases hv with rfl | rfl <;> simp [Keyed, exJ, Obj.blpts]
    · intro _ u0 h0 v hv
      simp at h0; subst h0
      simp only [List.mem_cons, List.not_mem_nil, or_false] at hv
      rcases hv with rfl | rfl <;> rfl
  have hwf : ∀ u ∈ [exJ 1, exJ 2], WF id u := by
    intro v hv
    simp only [List.mem_cons, List.not_mem_nil, or_false] at hv
    rcases hv with rfl | rfl <;> exact exJ_wf _
  refine ⟨[exJ 1, exJ 2], rfl, hc, hal, hwf, ?_, ?_, ?_, ?_⟩
  · intro v hv
    simp only [List.mem_cons, List.not_mem_nil, or_false] at hv
    rcases hv with rfl | rfl <;> exact ⟨rfl, rfl⟩
  · simp [bleT]
  · obtain ⟨out, h, _⟩ := C22_combine_partial hc hwf hal (by
      constructor
      · intro d hd e he k v w h1 h2
        simp [exJ] at hd; subst hd
        simp [Dict.get] at h1
      · left; intro d hd; simpa [exJ] using hd)
    exact ⟨out, h⟩
  · intro v hv
    simp only [List.mem_cons, List.not_mem_nil, or_false] at hv
    rcases hv with rfl | rfl <;> exact exJ_average _

end HeraPspec.AvgJoin
