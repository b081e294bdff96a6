import Verif.Spec.PspecCall
import Verif.Props.PspecLoop
import Verif.Props.Antnums
import Verif.Props.Polpair
import Verif.Lemmas.UVPRead

/-! Lemmas on the result of `pspec`. -/
namespace HeraPspec.PspecCall
open HeraPspec.UVP
open HeraPspec.Validate (Item Pol)

variable {D W : Type}

theorem mapE_map {α β γ ε : Type} (f : β → Except ε γ) (g : α → β) (l : List α) : mapE f (l.map g) = mapE (fun a => f (g a)) l := by
  induction l with
  | nil => rfl
  | cons a l ih => simp only [List.map_cons, mapE, ih]

theorem mapE_ok_map {α β ε : Type} {f : α → Except ε β} {l : List α} {g : α → β} (h : ∀ a ∈ l, f a = .ok (g a)) : mapE f l = .ok (l.map g) := by
  induction l with
  | nil => rfl
  | cons a l ih =>
    simp only [mapE, h a List.mem_cons_self, ih (fun a ha => h a (List.mem_cons_of_mem _ ha)), List.map_cons]

theorem mapE_mem {α β ε : Type} {f : α → Except ε β} {l : List α} {m : List β} (h : mapE f l = .ok m) : ∀ a ∈ l, ∃ b, f a = .ok b := by
  induction l generalizing m with
  | nil => intro a ha; cases ha
  | cons x l ih =>
    simp only [mapE] at h
    split at h
    · cases h
    · rename_i b hb
      split at h
      · cases h
      · rename_i bs hbs
        intro a ha
        rcases List.mem_cons.1 ha with rfl | ha
        · exact ⟨b, hb⟩
        · exact ih hbs a ha

/-- The arguments of the loops. -/
def timesOf (w : World D W) (b : Blp) : List ((Obs × ℕ) × (Obs × ℕ)) := (w.obs b).zipIdx.map (fun o => (o, o))

/-- One entry of the loops. -/
def mkOf (w : World D W) (i : ℕ) (p : ℤ × ℤ) (b : Blp) (t : (Obs × ℕ) × (Obs × ℕ)) : Except Err (Entry D W) :=
  (w.val i p b).bind (fun l => match l[t.1.2]? with | some e => .ok e | none => .error .value)

theorem table_some {w : World D W} {nspw : ℕ} {blps : List Blp} (hr : Regular w nspw blps) {i : ℕ} (hi : i < nspw) {p : ℤ × ℤ} {b : Blp} (hb : b ∈ blps)
    {l : List (Entry D W)} (hv : w.val i p b = .ok l) :
    (w.obs b).zipIdx.map (fun o => mkOf w i p b (o, o)) = l.map Except.ok := by
  apply List.ext_getElem?
  intro j
  simp only [List.getElem?_map, List.getElem?_zipIdx]
  have hl := (hr.len i hi p b hb l hv).1
  by_cases hj : j < l.length
  · rw [List.getElem?_eq_getElem hj, List.getElem?_eq_getElem (by omega)]
    simp [mkOf, hv, Except.bind, List.getElem?_eq_getElem hj]
  · rw [List.getElem?_eq_none (by omega), List.getElem?_eq_none (by omega)]; rfl

theorem table_ok {w : World D W} {i : ℕ} {p : ℤ × ℤ} {b : Blp} {l : List (Entry D W)} (hv : w.val i p b = .ok l) : table w i p b = l := by
  simp [table, hv, Except.toOption]

/-- All rows of one window and polarization. -/
theorem rows_ok {w : World D W} {nspw : ℕ} {blps : List Blp} (hr : Regular w nspw blps) {i : ℕ} (hi : i < nspw) {p : ℤ × ℤ}
    (hv : ∀ b ∈ blps, ∃ l, w.val i p b = .ok l) :
    (blps.flatMap (fun b => (timesOf w b).map (fun t => (b, t.1, t.2)))).map (fun m => mkOf w i p m.1 m.2) =
      (blps.flatMap (table w i p)).map Except.ok := by
  have h : ∀ bs : List Blp, (∀ b ∈ bs, b ∈ blps) →
      (bs.flatMap (fun b => (timesOf w b).map (fun t => (b, t.1, t.2)))).map (fun m => mkOf w i p m.1 m.2) =
      (bs.flatMap (table w i p)).map Except.ok := by
    intro bs
    induction bs with
    | nil => intro _; rfl
    | cons b bs ih =>
      intro hb
      have hbm := hb b List.mem_cons_self
      obtain ⟨l, hl⟩ := hv b hbm
      simp only [List.flatMap_cons, List.map_append]
      rw [ih (fun b' h => hb b' (List.mem_cons_of_mem _ h)), table_ok hl, ← table_some hr hi hbm hl]
      simp only [timesOf, List.map_map, Function.comp_def]
  exact h blps (fun _ h => h)

/-- Entries by position. -/
theorem rows_get {w : World D W} {nspw : ℕ} {blps : List Blp} (hr : Regular w nspw blps) {i : ℕ} (hi : i < nspw) {p : ℤ × ℤ}
    (hv : ∀ b ∈ blps, ∃ l, w.val i p b = .ok l) :
    (blps.flatMap (table w i p)).map some = (rowsOf w blps).map (fun m => (table w i p m.1)[m.2.2]?) := by
  have h : ∀ bs : List Blp, (∀ b ∈ bs, b ∈ blps) →
      (bs.flatMap (table w i p)).map some = (rowsOf w bs).map (fun m => (table w i p m.1)[m.2.2]?) := by
    intro bs
    unfold rowsOf
    induction bs with
    | nil => intro _; rfl
    | cons b bs ih =>
      intro hb
      have hbm := hb b List.mem_cons_self
      obtain ⟨l, hl⟩ := hv b hbm
      simp only [List.flatMap_cons, List.map_append]
      rw [ih (fun b' h => hb b' (List.mem_cons_of_mem _ h)), table_ok hl]
      congr 1
      apply List.ext_getElem?
      intro j
      simp only [List.map_map, List.getElem?_map, List.getElem?_zipIdx]
      have hlen := (hr.len i hi p b hbm l hl).1
      by_cases hj : j < l.length
      · rw [List.getElem?_eq_getElem hj, List.getElem?_eq_getElem (by omega)]
        simp [table_ok hl, List.getElem?_eq_getElem hj]
      · rw [List.getElem?_eq_none (by omega), List.getElem?_eq_none (by omega)]; rfl
  exact h blps (fun _ h => h)

theorem rows_getElem {w : World D W} {nspw : ℕ} {blps : List Blp} (hr : Regular w nspw blps) {i : ℕ} (hi : i < nspw) {p : ℤ × ℤ}
    (hv : ∀ b ∈ blps, ∃ l, w.val i p b = .ok l) (j : ℕ) :
    (blps.flatMap (table w i p))[j]? = ((rowsOf w blps)[j]?).bind (fun m => (table w i p m.1)[m.2.2]?) := by
  have h := congrArg (fun l => l[j]?) (rows_get hr hi hv)
  simp only [List.getElem?_map] at h
  cases h1 : (blps.flatMap (table w i p))[j]? with
  | none =>
    rw [h1] at h
    cases h2 : (rowsOf w blps)[j]? with
    | none => rfl
    | some m => rw [h2] at h; simp at h
  | some e =>
    rw [h1] at h
    cases h2 : (rowsOf w blps)[j]? with
    | none => rw [h2] at h; simp at h
    | some m => rw [h2] at h; simp at h; simp [h]

theorem rows_length {w : World D W} {nspw : ℕ} {blps : List Blp} (hr : Regular w nspw blps) {i : ℕ} (hi : i < nspw) {p : ℤ × ℤ}
    (hv : ∀ b ∈ blps, ∃ l, w.val i p b = .ok l) : (blps.flatMap (table w i p)).length = (rowsOf w blps).length := by
  have := congrArg List.length (rows_get hr hi hv)
  simpa using this

theorem spec_length {w : World D W} {nspw : ℕ} {blps : List Blp} (hr : Regular w nspw blps) {i : ℕ} (hi : i < nspw) {p : ℤ × ℤ}
    (hv : ∀ b ∈ blps, ∃ l, w.val i p b = .ok l) {e : Entry D W} (he : e ∈ blps.flatMap (table w i p)) : e.spec.length = (w.dlys i).length := by
  obtain ⟨b, hb, he⟩ := List.mem_flatMap.1 he
  obtain ⟨l, hl⟩ := hv b hb
  rw [table_ok hl] at he
  exact (hr.len i hi p b hb l hl).2 e he

/-- The array of one window. -/
def winOf (w : World D W) (pols : List (ℤ × ℤ)) (blps : List Blp) (i : ℕ) : List (List (Entry D W)) := pols.map (fun p => blps.flatMap (table w i p))

theorem rect_win {w : World D W} {nspw : ℕ} {pols : List (ℤ × ℤ)} {blps : List Blp} (hr : Regular w nspw blps) {i : ℕ} (hi : i < nspw)
    (hv : ∀ p ∈ pols, ∀ b ∈ blps, ∃ l, w.val i p b = .ok l) : rectangular (winOf w pols blps i) = true := by
  unfold rectangular winOf
  cases pols with
  | nil => rfl
  | cons p0 ps =>
    simp only [List.map_cons]
    rw [Bool.and_eq_true, List.all_eq_true, List.all_eq_true]
    have hp0 := hv p0 List.mem_cons_self
    constructor
    · intro a ha
      rw [← List.map_cons (f := fun p => blps.flatMap (table w i p))] at ha
      obtain ⟨p, hp, rfl⟩ := List.mem_map.1 ha
      apply decide_eq_true
      rw [rows_length hr hi (hv p hp), rows_length hr hi hp0]
    · intro a ha
      rw [← List.map_cons (f := fun p => blps.flatMap (table w i p))] at ha
      obtain ⟨p, hp, rfl⟩ := List.mem_map.1 ha
      rw [List.all_eq_true]
      intro e he
      apply decide_eq_true
      rw [spec_length hr hi (hv p hp) he]
      have hpos : 0 < (blps.flatMap (table w i p0)).length := by
        rw [rows_length hr hi hp0, ← rows_length hr hi (hv p hp)]; exact List.length_pos_of_mem he
      obtain ⟨e0, l0, h0⟩ := List.exists_cons_of_ne_nil (List.ne_nil_of_length_pos hpos)
      rw [h0, List.head?_cons, Option.map_some, spec_length hr hi hp0 (e := e0) (by rw [h0]; exact List.mem_cons_self)]

theorem moveData_win {w : World D W} {nspw : ℕ} {pols : List (ℤ × ℤ)} {blps : List Blp} (hr : Regular w nspw blps) {i : ℕ} (hi : i < nspw)
    (hne : pols ≠ []) (hv : ∀ p ∈ pols, ∀ b ∈ blps, ∃ l, w.val i p b = .ok l) :
    moveData (winOf w pols blps i) = (content w nspw pols blps).rows.map (·.dat i) := by
  obtain ⟨p0, ps, rfl⟩ := List.exists_cons_of_ne_nil hne
  have hp0 := hv p0 List.mem_cons_self
  have e1 : moveData (winOf w (p0 :: ps) blps i) = (List.range (blps.flatMap (table w i p0)).length).map (fun j =>
      (List.range (((blps.flatMap (table w i p0)).head?.map (·.spec.length)).getD 0)).map (fun d =>
        (winOf w (p0 :: ps) blps i).filterMap (fun p => (p[j]?).bind (fun e => e.spec[d]?)))) := rfl
  rw [e1]
  simp only [content, List.map_map, Function.comp_def]
  apply List.ext_getElem?
  intro j
  rw [List.getElem?_map, List.getElem?_map]
  by_cases hj : j < (rowsOf w blps).length
  · have hj' : j < (blps.flatMap (table w i p0)).length := by rw [rows_length hr hi hp0]; exact hj
    rw [List.getElem?_range hj', List.getElem?_eq_getElem hj, Option.map_some, Option.map_some]
    congr 1
    have hd : (((blps.flatMap (table w i p0)).head?.map (·.spec.length)).getD 0) = (w.dlys i).length := by
      obtain ⟨e0, l0, h0⟩ := List.exists_cons_of_ne_nil (List.ne_nil_of_length_pos (Nat.lt_of_le_of_lt (Nat.zero_le _) hj'))
      rw [h0, List.head?_cons, Option.map_some, Option.getD_some, spec_length hr hi hp0 (e := e0) (by rw [h0]; exact List.mem_cons_self)]
    rw [hd]
    apply List.map_congr_left
    intro d _
    unfold winOf
    rw [List.filterMap_map]
    apply List.filterMap_congr
    intro p hp
    simp only [Function.comp_apply]
    rw [rows_getElem hr hi (hv p hp), List.getElem?_eq_getElem hj, Option.bind_some]
  · rw [List.getElem?_eq_none (by rw [List.length_range, rows_length hr hi hp0]; omega), List.getElem?_eq_none (by omega)]; rfl

theorem moveInts_win {w : World D W} {nspw : ℕ} {pols : List (ℤ × ℤ)} {blps : List Blp} (hr : Regular w nspw blps) {i : ℕ} (hi : i < nspw)
    (hne : pols ≠ []) (hv : ∀ p ∈ pols, ∀ b ∈ blps, ∃ l, w.val i p b = .ok l) :
    moveInts (winOf w pols blps i) = (content w nspw pols blps).rows.map (·.itg i) := by
  obtain ⟨p0, ps, rfl⟩ := List.exists_cons_of_ne_nil hne
  have hp0 := hv p0 List.mem_cons_self
  have e1 : moveInts (winOf w (p0 :: ps) blps i) = (List.range (blps.flatMap (table w i p0)).length).map (fun j =>
      (winOf w (p0 :: ps) blps i).filterMap (fun p => (p[j]?).map (·.integ))) := rfl
  rw [e1]
  simp only [content, List.map_map, Function.comp_def]
  apply List.ext_getElem?
  intro j
  rw [List.getElem?_map, List.getElem?_map]
  by_cases hj : j < (rowsOf w blps).length
  · have hj' : j < (blps.flatMap (table w i p0)).length := by rw [rows_length hr hi hp0]; exact hj
    rw [List.getElem?_range hj', List.getElem?_eq_getElem hj, Option.map_some, Option.map_some]
    congr 1
    unfold winOf
    rw [List.filterMap_map]
    apply List.filterMap_congr
    intro p hp
    simp only [Function.comp_apply]
    rw [rows_getElem hr hi (hv p hp), List.getElem?_eq_getElem hj, Option.bind_some]
  · rw [List.getElem?_eq_none (by rw [List.length_range, rows_length hr hi hp0]; omega), List.getElem?_eq_none (by omega)]; rfl

/-- The result, given what the loops returned. -/
def outOf (w : World D W) (c : Call) (n : Norm) (r : PspecLoop.Result Blp (Obs × ℕ) (ℤ × ℤ) (Except Err (Entry D W))) (data : List (List (List (Entry D W)))) : Out D W :=
  let dlys := spwAxis n.spws.length w.dlys
  let freqs := spwAxis n.spws.length w.freqs
  let nspws := (dlys.map (·.1)).dedup.length
  let nrows := (r.metaRows.map (fun m => (m.1, m.2.1.1.t1, m.2.2.1.t2))).dedup.length
  let ls := outLabels n.label1 n.label2
  { u := {
      spwArray := List.range nspws
      spwFreqArray := freqs.map (·.1), freqArray := freqs.map (·.2)
      spwDlyArray := dlys.map (·.1), dlyArray := dlys.map (·.2)
      folded := false
      blpairArray := r.metaRows.map (fun m => Antnums.antnumsToBlpair m.1)
      time1 := r.metaRows.map (fun m => m.2.1.1.t1)
      time2 := r.metaRows.map (fun m => m.2.2.1.t2)
      timeAvg := r.metaRows.map (fun m => (m.2.1.1.t1 + m.2.2.1.t2) / 2)
      lst1 := r.metaRows.map (fun m => m.2.1.1.l1)
      lst2 := r.metaRows.map (fun m => m.2.2.1.l2)
      lstAvg := r.metaRows.map (fun m => w.circ m.2.1.1.l1 m.2.2.1.l2)
      polpairArray := r.polpairs.map Polpair.tuple2int
      data := data.zipIdx.map (fun a => (a.2, moveData a.1))
      integ := data.zipIdx.map (fun a => (a.2, moveInts a.1))
      label1 := labelArray nspws nrows r.polpairs.length (ls.idxOf n.label1) }
    labels := ls
    label1 := labelArray nspws nrows r.polpairs.length (ls.idxOf n.label1)
    label2 := labelArray nspws nrows r.polpairs.length (ls.idxOf n.label2)
    visUnits := (units w.visUnits w.beam c.littleH).1
    normUnits := (units w.visUnits w.beam c.littleH).2
    norm := if c.returnQ then "Unnormalized" else c.norm
    history := w.histories
    hasCov := n.storeCov
    stats := if n.storeDiag then some [w.covModel ++ "_diag"] else none
    hasWindow := n.storeWindow }

theorem pspec_iff {w : World D W} {c : Call} {out : Out D W} : pspec w c = .ok out ↔ ∃ n blps r data,
    normalise w.polnum w.labels w.nfreqs w.posOk c = .ok n ∧ onlyPairs n.pairs = .ok blps ∧ n.spws ≠ [] ∧
    PspecLoop.pspecRows w.polOk (timesOf w) blps (mkOf w) n.pols n.spws.length = .ok r ∧
    mapE (mapE (mapE id)) r.data = .ok data ∧ data.all rectangular = true ∧ out = outOf w c n r data := by
  have e : pspec w c = (do
    let n ← normalise w.polnum w.labels w.nfreqs w.posOk c
    let blps ← onlyPairs n.pairs
    if n.spws = [] then .error .name
    let r ← (match PspecLoop.pspecRows w.polOk (timesOf w) blps (mkOf w) n.pols n.spws.length with
      | .ok r => .ok r
      | .error _ => .error .value)
    let data ← mapE (mapE (mapE id)) r.data
    if ¬ data.all rectangular then .error .value
    .ok (outOf w c n r data)) := rfl
  rw [e]
  simp only [bind, Except.bind, pure, Except.pure]
  cases h1 : normalise w.polnum w.labels w.nfreqs w.posOk c with
  | error e => simp
  | ok n =>
    simp only []
    cases h2 : onlyPairs n.pairs with
    | error e =>
      simp only [reduceCtorEq, false_iff]
      rintro ⟨n', b, r, d, e1, e2, _⟩; cases e1; rw [h2] at e2; cases e2
    | ok blps =>
      simp only []
      by_cases h3 : n.spws = []
      · simp only [h3, if_true, reduceCtorEq, false_iff]
        rintro ⟨n', b, r, d, e1, e2, e3, _⟩; cases e1; exact e3 h3
      · simp only [h3, if_false]
        cases h4 : PspecLoop.pspecRows w.polOk (timesOf w) blps (mkOf w) n.pols n.spws.length with
        | error e =>
          simp only [reduceCtorEq, false_iff]
          rintro ⟨n', b, r, d, e1, e2, e3, e4, _⟩; cases e1; rw [h2] at e2; cases e2; rw [h4] at e4; cases e4
        | ok r =>
          simp only []
          cases h5 : mapE (mapE (mapE id)) r.data with
          | error e =>
            simp only [reduceCtorEq, false_iff]
            rintro ⟨n', b, r', d, e1, e2, e3, e4, e5, _⟩; cases e1; rw [h2] at e2; cases e2; rw [h4] at e4; cases e4; rw [h5] at e5; cases e5
          | ok data =>
            simp only []
            by_cases h6 : data.all rectangular = true
            · rw [if_neg (by simpa using h6)]
              simp only [Except.ok.injEq]
              constructor
              · rintro rfl; exact ⟨n, blps, r, data, rfl, h2, h3, h4, h5, h6, rfl⟩
              · rintro ⟨n', b, r', d, e1, e2, e3, e4, e5, _, e7⟩
                cases e1; rw [h2] at e2; cases e2; rw [h4] at e4; cases e4; rw [h5] at e5; cases e5; exact e7.symm
            · rw [if_pos h6]
              simp only [reduceCtorEq, false_iff]
              rintro ⟨n', b, r', d, e1, e2, e3, e4, e5, e6, _⟩
              cases e1; rw [h2] at e2; cases e2; rw [h4] at e4; cases e4; rw [h5] at e5; cases e5; exact h6 e6

theorem filterMap_full {α β : Type} {f : α → Option β} {l : List α} (h : ∀ a ∈ l, (f a).isSome) : (l.filterMap f).length = l.length := by
  induction l with
  | nil => rfl
  | cons a l ih =>
    obtain ⟨b, hb⟩ := Option.isSome_iff_exists.1 (h a List.mem_cons_self)
    rw [List.filterMap_cons_some hb, List.length_cons, List.length_cons, ih (fun a ha => h a (List.mem_cons_of_mem _ ha))]

theorem axis_count (n : ℕ) (vals : ℕ → List ℚ) (h : ∀ i < n, vals i ≠ []) : ((spwAxis n vals).map (·.1)).dedup.length = n := by
  rw [← List.card_toFinset]
  have : ((spwAxis n vals).map (·.1)).toFinset = Finset.range n := by
    ext i
    simp only [spwAxis, List.mem_toFinset, List.mem_map, List.mem_flatMap, List.mem_range, Finset.mem_range]
    constructor
    · rintro ⟨a, ⟨j, hj, v, _, rfl⟩, rfl⟩; exact hj
    · intro hi
      obtain ⟨v, l, hv⟩ := List.exists_cons_of_ne_nil (h i hi)
      exact ⟨(i, v), ⟨i, hi, v, by rw [hv]; exact List.mem_cons_self, rfl⟩, rfl⟩
  rw [this, Finset.card_range]

theorem meta_eq (w : World D W) (blps : List Blp) :
    blps.flatMap (fun b => (timesOf w b).map (fun t => (b, t.1, t.2))) = (rowsOf w blps).map (fun m => (m.1, (m.2.1, m.2.2), (m.2.1, m.2.2))) := by
  simp only [rowsOf, List.map_flatMap, timesOf, List.map_map, Function.comp_def]

theorem rowsOf_mem {w : World D W} {blps : List Blp} {m : Blp × Obs × ℕ} (h : m ∈ rowsOf w blps) : m.1 ∈ blps := by
  simp only [rowsOf, List.mem_flatMap, List.mem_map] at h
  obtain ⟨b, hb, o, _, rfl⟩ := h
  exact hb

theorem lookup_zipIdx {α β : Type} (l : List α) (f : α → β) (s : ℕ) :
    Dict.get (l.zipIdx.map (fun a => (a.2, f a.1))) s = (l[s]?).map f := by
  have h : ∀ (l : List α) (k : ℕ), Dict.get ((l.zipIdx k).map (fun a => (a.2, f a.1))) s = if k ≤ s then (l[s - k]?).map f else none := by
    intro l
    induction l with
    | nil => intro k; simp [Dict.get]
    | cons a l ih =>
      intro k
      simp only [List.zipIdx_cons, List.map_cons, Dict.get_cons]
      by_cases hk : k = s
      · subst hk; simp
      · rw [if_neg hk, ih]
        by_cases h1 : k ≤ s
        · rw [if_pos (by omega), if_pos h1]
          have : s - k = (s - (k + 1)) + 1 := by omega
          rw [this, List.getElem?_cons_succ]
        · rw [if_neg (by omega), if_neg h1]
  have := h l 0
  simpa using this

/-- What the loops return. -/
def loopOf (w : World D W) (n : Norm) (blps : List Blp) : PspecLoop.Result Blp (Obs × ℕ) (ℤ × ℤ) (Except Err (Entry D W)) where
  polpairs := n.pols.filter w.polOk
  metaRows := blps.flatMap (fun b => (timesOf w b).map (fun t => (b, t.1, t.2)))
  data := (List.range n.spws.length).map (fun i => (n.pols.filter w.polOk).map (fun q =>
          (blps.flatMap (fun b => (timesOf w b).map (fun t => (b, t.1, t.2)))).map (fun m => mkOf w i q m.1 m.2)))

/-- The result of an accepted call holds the content of the specification. -/
theorem pspec_content {w : World D W} {c : Call} {out : Out D W} (h : pspec w c = .ok out) {n : Norm} {blps : List Blp}
    (hn : normalise w.polnum w.labels w.nfreqs w.posOk c = .ok n) (hb : onlyPairs n.pairs = .ok blps)
    (hp : ∃ p, n.pols.head? = some p ∧ w.polOk p = true) (hr : Regular w n.spws.length blps) :
    (∀ i < n.spws.length, ∀ p ∈ n.pols.filter w.polOk, ∀ b ∈ blps, ∃ l, w.val i p b = .ok l) ∧
    Represents out.u (content w n.spws.length (n.pols.filter w.polOk) blps) ∧
    Valid (content w n.spws.length (n.pols.filter w.polOk) blps) ∧
    out = outOf w c n (loopOf w n blps)
      ((List.range n.spws.length).map (winOf w (n.pols.filter w.polOk) blps)) := by
  obtain ⟨n', blps', r, data, h1, h2, h3, h4, h5, h6, rfl⟩ := pspec_iff.1 h
  rw [hn] at h1; cases h1
  rw [hb] at h2; cases h2
  obtain ⟨p, hp1, hp2⟩ := hp
  obtain ⟨ps, hps⟩ : ∃ ps, n.pols = p :: ps := by
    cases hh : n.pols with
    | nil => rw [hh] at hp1; cases hp1
    | cons a l => rw [hh] at hp1; cases hp1; exact ⟨l, rfl⟩
  have hlen : n.spws.length ≠ 0 := by simpa using h3
  rw [hps] at h4
  obtain ⟨q1, q2, q3⟩ := PspecLoop.C57_rows_match_partial w.polOk (timesOf w) blps (mkOf w) p ps hp2 _ hlen r h4
  rw [← hps] at q1
  have hvne : n.pols.filter w.polOk ≠ [] := by
    rw [hps, List.filter_cons, hp2]; simp
  have hval : ∀ i < n.spws.length, ∀ p ∈ n.pols.filter w.polOk, ∀ b ∈ blps, ∃ l, w.val i p b = .ok l := by
    intro i hi p hp b hbm
    rw [q3] at h5
    obtain ⟨x, hx⟩ := mapE_mem h5 _ (List.mem_map.2 ⟨i, List.mem_range.2 hi, rfl⟩)
    obtain ⟨y, hy⟩ := mapE_mem hx _ (List.mem_map.2 ⟨p, by rw [q1]; exact hp, rfl⟩)
    obtain ⟨o, l0, h0⟩ := List.exists_cons_of_ne_nil (hr.obs b hbm)
    obtain ⟨e, he⟩ := mapE_mem hy (mkOf w i p b ((o, 0), (o, 0))) (by
      rw [q2]
      refine List.mem_map.2 ⟨(b, (o, 0), (o, 0)), List.mem_flatMap.2 ⟨b, hbm, List.mem_map.2 ⟨((o, 0), (o, 0)), ?_, rfl⟩⟩, rfl⟩
      unfold timesOf
      refine List.mem_map.2 ⟨(o, 0), ?_, rfl⟩
      rw [h0]; simp [List.zipIdx_cons])
    unfold mkOf at he
    simp only [id] at he
    cases hv : w.val i p b with
    | ok l => exact ⟨l, rfl⟩
    | error e => rw [hv] at he; cases he
  have hdata : data = (List.range n.spws.length).map (winOf w (n.pols.filter w.polOk) blps) := by
    rw [q3] at h5
    rw [mapE_map] at h5
    rw [mapE_ok_map (g := winOf w (n.pols.filter w.polOk) blps)] at h5
    · exact (Except.ok.inj h5).symm
    · intro i hi
      have hi := List.mem_range.1 hi
      rw [mapE_map, q1]
      unfold winOf
      apply mapE_ok_map
      intro p hp
      rw [q2, rows_ok hr hi (hval i hi p hp), mapE_map]
      have := mapE_ok_map (ε := Err) (f := fun a : Entry D W => id (Except.ok a)) (l := blps.flatMap (table w i p)) (g := id) (fun _ _ => rfl)
      simpa using this
  have hr' : r = loopOf w n blps := by
    unfold loopOf
    cases r
    simp only at q1 q2 q3
    subst q1; subst q2; subst q3; rfl
  refine ⟨hval, ?_, ?_, ?_⟩
  · rw [hr', hdata]
    have hc := axis_count _ _ hr.dlys
    have hbl : ∀ m : Blp, Antnums.antnumsToBlpair m = blCode m.1 * 1000000 + blCode m.2 := by
      intro m; rw [Antnums.antnumsToBlpair_eq]; unfold blCode; ring
    refine ⟨?_, ?_, ?_, ?_, ?_, rfl, ?_, ?_, ?_, ?_, ?_, ?_, ?_, ?_, ?_, ?_⟩
    · simp only [outOf, hc, content]
    · rfl
    · rfl
    · rfl
    · rfl
    · simp only [outOf, loopOf, meta_eq, content, List.map_map, Function.comp_def, Meas.blpair, hbl]
    all_goals try simp only [outOf, loopOf, meta_eq, content, List.map_map, Function.comp_def]
    · rfl
    · intro s
      rw [lookup_zipIdx, List.getElem?_map]
      by_cases hs : s < n.spws.length
      · rw [List.getElem?_range hs, if_pos hs, Option.map_some, Option.map_some, moveData_win hr hs hvne (hval s hs)]
        simp only [content, List.map_map, Function.comp_def]
      · rw [List.getElem?_eq_none (by simpa using hs), if_neg hs]; rfl
    · intro s
      rw [lookup_zipIdx, List.getElem?_map]
      by_cases hs : s < n.spws.length
      · rw [List.getElem?_range hs, if_pos hs, Option.map_some, Option.map_some, moveInts_win hr hs hvne (hval s hs)]
        simp only [content, List.map_map, Function.comp_def]
      · rw [List.getElem?_eq_none (by simpa using hs), if_neg hs]; rfl
  · have hent : ∀ m ∈ rowsOf w blps, ∀ s < n.spws.length, ∀ p ∈ n.pols.filter w.polOk, ∃ e, (table w s p m.1)[m.2.2]? = some e ∧ e.spec.length = (w.dlys s).length := by
      intro m hm s hs p hp
      have hm1 := rowsOf_mem hm
      obtain ⟨l, hl⟩ := hval s hs p hp m.1 hm1
      have hlen := hr.len s hs p m.1 hm1 l hl
      have : m.2.2 < (w.obs m.1).length := by
        simp only [rowsOf, List.mem_flatMap, List.mem_map] at hm
        obtain ⟨b, hb, o, ho, rfl⟩ := hm
        have := List.mem_zipIdx ho
        simpa using this.2.1
      rw [table_ok hl, List.getElem?_eq_getElem (by omega)]
      exact ⟨_, rfl, hlen.2 _ (List.getElem_mem _)⟩
    refine ⟨?_, ?_, ?_, ?_, ?_, ?_, ?_⟩
    · intro x hx
      simp only [content, List.mem_flatMap, List.mem_map, List.mem_range] at hx
      obtain ⟨i, hi, v, _, rfl⟩ := hx
      exact hi
    · intro x hx
      simp only [content, List.mem_flatMap, List.mem_map, List.mem_range] at hx
      obtain ⟨i, hi, v, _, rfl⟩ := hx
      exact hi
    · intro s hs
      obtain ⟨v, l, hv⟩ := List.exists_cons_of_ne_nil (hr.freqs s hs)
      exact ⟨(s, v), List.mem_flatMap.2 ⟨s, List.mem_range.2 hs, List.mem_map.2 ⟨v, by rw [hv]; exact List.mem_cons_self, rfl⟩⟩, rfl⟩
    · intro s hs
      obtain ⟨v, l, hv⟩ := List.exists_cons_of_ne_nil (hr.dlys s hs)
      exact ⟨(s, v), List.mem_flatMap.2 ⟨s, List.mem_range.2 hs, List.mem_map.2 ⟨v, by rw [hv]; exact List.mem_cons_self, rfl⟩⟩, rfl⟩
    · intro m hm
      simp only [content, List.mem_map] at hm
      obtain ⟨m', hm', rfl⟩ := hm
      obtain ⟨-, -, a3, a4⟩ := hr.ants _ (rowsOf_mem hm')
      simp only [blCode, GoodAnt] at *
      omega
    · intro m hm s hs d hd
      simp only [content, List.mem_map] at hm
      obtain ⟨m', hm', rfl⟩ := hm
      simp only [List.mem_map, List.mem_range] at hd
      obtain ⟨k, hk, rfl⟩ := hd
      simp only [content, List.length_map]
      rw [filterMap_full]
      intro p hp
      obtain ⟨e, he, hel⟩ := hent m' hm' s hs p hp
      rw [he, Option.bind_some, List.getElem?_eq_getElem (by omega)]; rfl
    · intro m hm s hs
      simp only [content, List.mem_map] at hm
      obtain ⟨m', hm', rfl⟩ := hm
      simp only [content, List.length_map]
      rw [filterMap_full]
      intro p hp
      obtain ⟨e, he, hel⟩ := hent m' hm' s hs p hp
      rw [he]; rfl
  · rw [← hr', ← hdata]

theorem mapE_forall₂ {α β ε : Type} {f : α → Except ε β} {l : List α} {m : List β} : mapE f l = .ok m ↔ List.Forall₂ (fun a b => f a = .ok b) l m := by
  induction l generalizing m with
  | nil => simp [mapE, eq_comm]
  | cons a l ih =>
    simp only [mapE, List.forall₂_cons_left_iff]
    cases h : f a with
    | error e => simp
    | ok b =>
      simp only
      cases h2 : mapE f l with
      | error e =>
        simp only [reduceCtorEq, false_iff]
        rintro ⟨b', u, e1, e2, _⟩; rw [← ih] at e2; rw [h2] at e2; cases e2
      | ok bs =>
        simp only [Except.ok.injEq]
        constructor
        · rintro rfl; exact ⟨b, bs, rfl, ih.1 h2, rfl⟩
        · rintro ⟨b', u, rfl, e2, rfl⟩
          rw [← ih, h2] at e2; cases e2; rfl

theorem pyGet_iff {α : Type} {l : List α} {n : ℤ} {x : α} : pyGet l n = .ok x ↔ IsAt l n x := by
  unfold pyGet IsAt
  have key : (if 0 ≤ n then l[n.toNat]? else if -(l.length : ℤ) ≤ n then l[(l.length + n).toNat]? else none) = some x ↔
      ∃ k : ℕ, l[k]? = some x ∧ (n = k ∨ n = k - l.length) := by
    by_cases h0 : 0 ≤ n
    · rw [if_pos h0]
      constructor
      · intro h; exact ⟨n.toNat, h, .inl (by omega)⟩
      · rintro ⟨k, hk, rfl | hn⟩
        · simpa using hk
        · have := (List.getElem?_eq_some_iff.1 hk).1; omega
    · rw [if_neg h0]
      by_cases h1 : -(l.length : ℤ) ≤ n
      · rw [if_pos h1]
        constructor
        · intro h; exact ⟨_, h, .inr (by omega)⟩
        · rintro ⟨k, hk, hn | hn⟩
          · omega
          · have : ((l.length : ℤ) + n).toNat = k := by omega
            rw [this]; exact hk
      · rw [if_neg h1]
        simp only [reduceCtorEq, false_iff]
        rintro ⟨k, hk, hn | hn⟩ <;> omega
  rw [← key]
  generalize (if 0 ≤ n then l[n.toNat]? else if -(l.length : ℤ) ≤ n then l[(l.length + n).toNat]? else none) = z
  cases z <;> simp

theorem dsetPair_iff {l : List DsetArg} {a b : ℤ} : dsetPair l = .ok (a, b) ↔ l = [.int a, .int b] := by
  constructor
  · intro h
    unfold dsetPair at h
    split at h
    · cases h; rfl
    · cases h
  · rintro rfl; rfl

theorem onlyPairs_iff {l : List Item} {ps : List Blp} : onlyPairs l = .ok ps ↔ l = ps.map Item.pair := by
  induction l generalizing ps with
  | nil => simp only [onlyPairs, Except.ok.injEq]; cases ps <;> simp
  | cons x l ih =>
    cases x with
    | group g =>
      simp only [onlyPairs, reduceCtorEq, false_iff]
      cases ps <;> simp
    | pair p =>
      simp only [onlyPairs]
      cases h : onlyPairs l with
      | error e =>
        simp only [reduceCtorEq, false_iff]
        cases ps with
        | nil => simp
        | cons q ps =>
          simp only [List.map_cons, List.cons.injEq, not_and]
          intro _ h2; rw [← ih, h] at h2; cases h2
      | ok qs =>
        simp only [Except.ok.injEq]
        have := ih.1 h
        constructor
        · rintro rfl; rw [this]; rfl
        · cases ps with
          | nil => simp
          | cons q ps =>
            simp only [List.map_cons, List.cons.injEq, Item.pair.injEq]
            rintro ⟨rfl, h2⟩
            rw [this] at h2
            refine ⟨rfl, ?_⟩
            exact List.map_injective_iff.2 (fun a b hab => by cases hab; rfl) h2

theorem pairUp_iff {a b : BlArg} {p : Blp} : pairUp a b = .ok (.pair p) ↔ PairFor a b p := by
  cases a with
  | one a =>
    cases b with
    | one b => simp [pairUp, PairFor, eq_comm]
    | many m => simp [pairUp, PairFor]
  | many l =>
    cases b with
    | one b =>
      have : ¬ PairFor (.many l) (.one b) p := by unfold PairFor; simp
      simp only [pairUp, this, iff_false]; split <;> simp
    | many m =>
      unfold pairUp PairFor
      rcases l with _ | ⟨a, _ | ⟨a', l⟩⟩ <;> rcases m with _ | ⟨b, _ | ⟨b', m⟩⟩ <;> simp [eq_comm]
      all_goals (try split) <;> simp

theorem lists_iff {α : Type} {d : List α} {a : OneMany α} {l : List α} : Lists d a l ↔ a.get d = l := by
  unfold Lists
  cases a <;> simp [OneMany.get, eq_comm]

theorem polInt_iff {f : String → Option ℤ} {p : Pol} {n : ℤ} : polInt f p = .ok n ↔ NumFor f p n := by
  cases p with
  | int m => simp [polInt, NumFor]
  | str s => simp only [polInt, NumFor]; cases f s <;> simp

theorem polPair_iff {f : String → Option ℤ} {a : PolArg} {p : ℤ × ℤ} : polPair f a = .ok p ↔ PolFor f a p := by
  obtain ⟨p1, p2⟩ := p
  cases a with
  | str s =>
    simp only [polPair, PolFor, polInt]
    cases f s <;> simp
  | pair x y =>
    simp only [polPair, PolFor, ← polInt_iff]
    cases polInt f x <;> cases polInt f y <;> simp

theorem blPairs_iff {x y : List BlArg} {ps : List Blp} : blPairs x y = .ok (ps.map Item.pair) ↔
    x ≠ [] ∧ x.length = ps.length ∧ y.length = ps.length ∧ ∀ (i : ℕ) a b p, x[i]? = some a → y[i]? = some b → ps[i]? = some p → PairFor a b p := by
  unfold blPairs
  by_cases h : x.length = y.length ∧ x ≠ []
  · rw [if_pos h, mapE_forall₂, List.forall₂_iff_get]
    simp only [List.length_zip, List.length_map, List.get_eq_getElem, List.getElem_zip, List.getElem_map, pairUp_iff]
    constructor
    · rintro ⟨h1, h2⟩
      have e1 : x.length = ps.length := by omega
      have e2 : y.length = ps.length := by omega
      refine ⟨h.2, e1, e2, ?_⟩
      intro i a b p ha hb hp
      obtain ⟨la, rfl⟩ := List.getElem?_eq_some_iff.1 ha
      obtain ⟨lb, rfl⟩ := List.getElem?_eq_some_iff.1 hb
      obtain ⟨lp, rfl⟩ := List.getElem?_eq_some_iff.1 hp
      exact h2 i (by omega) lp
    · rintro ⟨h1, h2, h3, h4⟩
      refine ⟨by omega, ?_⟩
      intro i hi1 hi2
      exact h4 i _ _ _ (List.getElem?_eq_getElem _) (List.getElem?_eq_getElem _) (List.getElem?_eq_getElem _)
  · rw [if_neg h]
    simp only [reduceCtorEq, false_iff]
    rintro ⟨h1, h2, h3, _⟩
    exact h ⟨by omega, h1⟩

/-- What the first part of `pspec` computes from the arguments. -/
theorem normalise_iff {w : World D W} {c : Call} {n : Norm} : normalise w.polnum w.labels w.nfreqs w.posOk c = .ok n ↔
    dsetPair c.dsets = .ok (n.d1, n.d2) ∧ pyGet w.labels n.d1 = .ok n.label1 ∧ pyGet w.labels n.d2 = .ok n.label2 ∧
    blPairs c.bls1 c.bls2 = .ok n.pairs ∧ w.posOk n.pairs = true ∧ n.spws = c.spws.get [(0, w.nfreqs)] ∧
    n.exts = c.exts.get (n.spws.map (fun _ => (0, 0))) ∧ n.spws.length = n.exts.length ∧
    n.ndlys = c.ndlys.get (n.spws.map (fun _ => none)) ∧ n.spws.length = n.ndlys.length ∧ polPairs w.polnum c.pols = .ok n.pols ∧
    n.storeCov = (c.storeCov && !c.storeDiag) ∧ n.storeDiag = c.storeDiag ∧ n.storeWindow = (c.storeWindow || c.exactWindows) := by
  obtain ⟨d1, d2, l1, l2, ps, sp, ex, nd, pl, sc, sd, sw⟩ := n
  simp only [normalise, bind, Except.bind]
  cases h1 : dsetPair c.dsets with
  | error e => simp
  | ok d =>
    obtain ⟨a, b⟩ := d
    simp only
    cases h2 : pyGet w.labels a with
    | error e =>
      simp only [reduceCtorEq, false_iff]
      rintro ⟨e1, e2, _⟩; cases e1; rw [h2] at e2; cases e2
    | ok x =>
      simp only
      cases h3 : pyGet w.labels b with
      | error e =>
        simp only [reduceCtorEq, false_iff]
        rintro ⟨e1, e2, e3, _⟩; cases e1; rw [h3] at e3; cases e3
      | ok y =>
        simp only
        cases h4 : blPairs c.bls1 c.bls2 with
        | error e => simp
        | ok q =>
          simp only
          by_cases h5 : w.posOk q = true
          · rw [if_neg (by simpa using h5)]
            by_cases h6 : (c.spws.get [(0, w.nfreqs)]).length = (c.exts.get ((c.spws.get [(0, w.nfreqs)]).map (fun _ => (0, 0)))).length
            · rw [if_neg (by simpa using h6)]
              by_cases h7 : (c.spws.get [(0, w.nfreqs)]).length = (c.ndlys.get ((c.spws.get [(0, w.nfreqs)]).map (fun _ => none))).length
              · rw [if_neg (by simpa using h7)]
                cases h8 : polPairs w.polnum c.pols with
                | error e => simp
                | ok z =>
                  simp only [Except.ok.injEq, Norm.mk.injEq, Prod.mk.injEq]
                  constructor
                  · rintro ⟨rfl, rfl, rfl, rfl, rfl, rfl, rfl, rfl, rfl, rfl, rfl, rfl⟩
                    exact ⟨⟨rfl, rfl⟩, h2, h3, rfl, h5, rfl, rfl, h6, rfl, h7, rfl, rfl, rfl, rfl⟩
                  · rintro ⟨⟨rfl, rfl⟩, e2, e3, rfl, _, rfl, rfl, _, rfl, _, rfl, rfl, rfl, rfl⟩
                    rw [h2] at e2; cases e2; rw [h3] at e3; cases e3
                    exact ⟨rfl, rfl, rfl, rfl, rfl, rfl, rfl, rfl, rfl, rfl, rfl, rfl⟩
              · rw [if_pos h7]
                simp only [reduceCtorEq, false_iff]
                rintro ⟨-, -, -, -, -, rfl, -, -, rfl, e, -⟩
                exact h7 e
            · rw [if_pos h6]
              simp only [reduceCtorEq, false_iff]
              rintro ⟨-, -, -, -, -, rfl, rfl, e, -⟩
              exact h6 e
          · rw [if_pos h5]
            simp only [reduceCtorEq, false_iff, Except.ok.injEq]
            rintro ⟨-, -, -, rfl, e, -⟩
            exact h5 e

/-- A well formed call: the normal form agrees with what the call asks for. -/
theorem asks_iff {w : World D W} {c : Call} {m : Meaning} : Asks w c m ↔ ∃ n, normalise w.polnum w.labels w.nfreqs w.posOk c = .ok n ∧
    n.pairs = m.blps.map Item.pair ∧ n.label1 = m.label1 ∧ n.label2 = m.label2 ∧ n.spws = m.spws ∧ n.pols = m.pols := by
  have hpl : ∀ l, polPairs w.polnum c.pols = .ok l ↔ List.Forall₂ (PolFor w.polnum) c.pols.list l := by
    intro l
    have : polPairs w.polnum c.pols = mapE (polPair w.polnum) c.pols.list := by cases c.pols <;> rfl
    rw [this, mapE_forall₂]
    simp only [polPair_iff]
  constructor
  · rintro ⟨⟨a, b, h1, h2, h3⟩, h4, h5, h6, h7, h8, h9, ⟨e, he, hel⟩, ⟨k, hk, hkl⟩, h12⟩
    rw [lists_iff] at h9 he hk
    refine ⟨⟨a, b, m.label1, m.label2, m.blps.map Item.pair, m.spws, e, k, m.pols, c.storeCov && !c.storeDiag, c.storeDiag, c.storeWindow || c.exactWindows⟩, ?_, rfl, rfl, rfl, rfl, rfl⟩
    rw [normalise_iff]
    refine ⟨dsetPair_iff.2 h1, pyGet_iff.2 h2, pyGet_iff.2 h3, blPairs_iff.2 ⟨h4, h5, h6, h7⟩, h8, h9.symm, ?_, hel.symm, ?_, hkl.symm, (hpl _).2 h12, rfl, rfl, rfl⟩
    · simp only [List.map_const']; exact he.symm
    · simp only [List.map_const']; exact hk.symm
  · rintro ⟨n, hn, h1, h2, h3, h4, h5⟩
    rw [normalise_iff] at hn
    obtain ⟨e1, e2, e3, e4, e5, e6, e7, e8, e9, e10, e11, -⟩ := hn
    rw [h1] at e4 e5
    rw [blPairs_iff] at e4
    rw [h2] at e2; rw [h3] at e3; rw [h4] at e6 e7 e8 e9 e10; rw [h5] at e11
    simp only [List.map_const'] at e7 e9
    exact ⟨⟨n.d1, n.d2, dsetPair_iff.1 e1, pyGet_iff.1 e2, pyGet_iff.1 e3⟩, e4.1, e4.2.1, e4.2.2.1, e4.2.2.2, e5, lists_iff.2 e6.symm,
      ⟨n.exts, lists_iff.2 e7.symm, e8.symm⟩, ⟨n.ndlys, lists_iff.2 e9.symm, e10.symm⟩, (hpl _).1 e11⟩

end HeraPspec.PspecCall
