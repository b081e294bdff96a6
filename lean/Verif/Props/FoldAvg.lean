import Verif.Lemmas.FoldAvg
import Mathlib.Tactic.NormNum
import Mathlib.Tactic.IntervalCases

/-!
C142: window functions of folded spectra. C143: folding and averaging commute, in any order of any number of averages.
-/
namespace HeraPspec.FoldAvg
open HeraPspec.UVP (Err)
open HeraPspec.Average
variable {E : Type} [AddCommGroup E] [Module ℝ E]

/-! ### Vocabulary -/

/-- An object that has not been folded: every window stores all the delays listed for it, at least three. -/
structure Unfolded (x : DObj E) : Prop where
  flag : x.folded = false
  stored : x.stored = x.ndly
  windows : x.ndly.length = x.u.cells.length
  three : ∀ n ∈ x.ndly, 3 ≤ n
  approx : x.u.exact = false

/-- All integration times and sample counts of the object are zero or well above zero (`SaneCell`). -/
def Sane (x : DObj E) : Prop := ∀ ps ∈ x.u.cells, ∀ cs ∈ ps, ∀ c ∈ cs, SaneCell c

/-- Two objects have the same rows (baseline-pairs, times, LSTs) and every reading method returns the same for both. -/
structure SameReads (x y : DObj E) : Prop where
  rows : x.u.rows = y.u.rows
  folded : x.folded = y.folded
  delays : x.ndly = y.ndly
  stats : x.u.statNames = y.u.statNames
  data : ∀ s p b, getData x s p b = getData y s p b
  cov : ∀ s p b, getCov x s p b = getCov y s p b
  win : ∀ s p b, getWin x s p b = getWin y s p b
  ints : ∀ s p b, getIntegrations x s p b = getIntegrations y s p b
  nsmp : ∀ s p b, getNsamples x s p b = getNsamples y s p b

/-- Two computations both succeed with objects that read the same, or both raise the same exception. -/
def SameOutcome (e e' : Except Err (DObj E)) : Prop :=
  (∃ x y, e = .ok x ∧ e' = .ok y ∧ SameReads x y) ∨ ∃ k, e = .error k ∧ e' = .error k

/-! ### Proof -/

/-- Folded objects that read the same, cell by cell. -/
structure Sim (x y : DObj E) : Prop where
  rows : x.u.rows = y.u.rows
  names : x.u.statNames = y.u.statNames
  ex : x.u.exact = false
  ey : y.u.exact = false
  fx : x.folded = true
  fy : y.folded = true
  dly : x.ndly = y.ndly
  len : x.ndly.length = x.u.cells.length
  len2 : x.stored.length = x.ndly.length ∧ y.stored.length = y.ndly.length
  three : ∀ n ∈ x.ndly, 3 ≤ n
  sx : ∀ s n m : Nat, x.ndly[s]? = some n → x.stored[s]? = some m → npos n ≤ m
  sy : ∀ s n m : Nat, y.ndly[s]? = some n → y.stored[s]? = some m → npos n ≤ m
  cells : CellsRel (fun _ => EqC) (readObj x).cells (readObj y).cells

theorem npos_pos {n : Nat} (h : 3 ≤ n) : npos n ≠ 0 := by unfold npos; omega

theorem Sim.axis {x y : DObj E} (h : Sim x y) (s : Nat) : axis x s = axis y s := by
  unfold FoldAvg.axis readLen
  rw [h.fx, h.fy, ← h.dly]
  cases hn : x.ndly[s]? with
  | none =>
    have h1 : x.stored[s]? = none := by rw [List.getElem?_eq_none_iff] at hn ⊢; rw [h.len2.1]; exact hn
    have h2 : y.stored[s]? = none := by
      rw [List.getElem?_eq_none_iff] at hn ⊢; rw [h.len2.2, ← h.dly]; exact hn
    simp [List.getD_eq_getElem?_getD, hn, h1, h2]
  | some n =>
    have hl := (List.getElem?_eq_some_iff.1 hn).1
    have h1 : x.stored[s]? = some (x.stored[s]'(by rw [h.len2.1]; exact hl)) := List.getElem?_eq_getElem _
    have h2 : y.stored[s]? = some (y.stored[s]'(by rw [h.len2.2, ← h.dly]; exact hl)) := List.getElem?_eq_getElem _
    have a1 := h.sx s _ _ hn h1
    have a2 := h.sy s _ _ (h.dly ▸ hn) h2
    have a3 := npos_pos (h.three n (List.mem_of_getElem? hn))
    simp only [List.getD_eq_getElem?_getD, hn, h1, h2, Option.getD_some, a3, ne_eq, not_false_eq_true, and_self, if_true]
    rw [min_eq_right a1, min_eq_right a2]

theorem Sim.reads {x y : DObj E} (h : Sim x y) : SameReads x y := by
  have key : ∀ s p b, RelE (List.Forall₂ EqC) (cellsOf (readObj x) s p b) (cellsOf (readObj y) s p b) := fun s p b =>
    cellsOf_rel (R := fun _ => EqC) (by exact h.rows) h.cells s p b
  have lift : ∀ {β : Type} (f : Cell E → β) (s p b : Nat), (∀ c c', EqC c c' → f c = f c') →
      (cellsOf (readObj x) s p b).map (fun cs => cs.map f) = (cellsOf (readObj y) s p b).map (fun cs => cs.map f) := by
    intro β f s p b hf
    have := key s p b
    cases h1 : cellsOf (readObj x) s p b <;> cases h2 : cellsOf (readObj y) s p b <;> rw [h1, h2] at this <;> simp only [RelE] at this
    · rw [this]
    · simp only [Except.map]; rw [map_eq_of_forall₂ hf this]
  refine ⟨h.rows, by rw [h.fx, h.fy], h.dly, h.names, fun s p b => ?_, fun s p b => ?_, fun s p b => ?_, fun s p b => ?_, fun s p b => ?_⟩
  · unfold getData; rw [h.axis s]; exact lift _ s p b (fun c c' H => by rw [H.data])
  · unfold getCov; rw [h.axis s]; exact lift _ s p b (fun c c' H => by rw [H.cov])
  · unfold getWin; rw [h.axis s]; exact lift _ s p b (fun c c' H => by rw [H.win])
  · exact lift _ s p b (fun c c' H => by rw [H.ints])
  · exact lift _ s p b (fun c c' H => by rw [H.nsmp])

theorem shift_zero (c : Cell E) : shiftCell 0 c = c := rfl

theorem eqC_refl (c : Cell E) : EqC c c := ⟨rfl, rfl, rfl, rfl, rfl, rfl⟩

/-- A folded and then averaged object stores exactly what is read. -/
theorem readObj_averaged {x : DObj E} {v : Obj E} (hf : x.folded = true) (hl : x.stored.length = x.ndly.length)
    (hs : ∀ s n m : Nat, x.ndly[s]? = some n → x.stored[s]? = some m → npos n ≤ m) (h3 : ∀ n ∈ x.ndly, 3 ≤ n) (hc : x.ndly.length = v.cells.length) :
    readObj (⟨v, x.folded, x.ndly, x.stored.mapIdx (fun s n => readLen x.folded (x.ndly.getD s 0) n)⟩ : DObj E) = v := by
  unfold readObj
  have : v.cells.mapIdx (fun s ps => ps.map (fun cs => cs.map (shiftCell (offset x.folded (x.ndly.getD s 0)
      ((x.stored.mapIdx (fun s n => readLen x.folded (x.ndly.getD s 0) n)).getD s 0))))) = v.cells := by
    apply List.ext_getElem?
    intro s
    rw [List.getElem?_mapIdx]
    cases hv : v.cells[s]? with
    | none => rfl
    | some ps =>
      have hlt := (List.getElem?_eq_some_iff.1 hv).1
      have hn : x.ndly[s]? = some (x.ndly[s]'(by omega)) := List.getElem?_eq_getElem _
      have hm : x.stored[s]? = some (x.stored[s]'(by omega)) := List.getElem?_eq_getElem _
      have a1 := hs s _ _ hn hm
      have a2 := npos_pos (h3 _ (List.mem_of_getElem? hn))
      have e : offset x.folded (x.ndly.getD s 0) ((x.stored.mapIdx (fun s n => readLen x.folded (x.ndly.getD s 0) n)).getD s 0) = 0 := by
        rw [hf]
        simp only [List.getD_eq_getElem?_getD, List.getElem?_mapIdx, hn, hm, Option.map_some, Option.getD_some, offset, readLen]
        simp only [a2, ne_eq, not_false_eq_true, and_self, if_true]
        rw [min_eq_right a1]; simp
      rw [e]
      have : (shiftCell 0 : Cell E → Cell E) = id := by funext c; rfl
      simp [this]
  rw [this]

theorem average_sim {x y : DObj E} (h : Sim x y) (circ : List ℝ → ℝ) (so : List Nat → List Nat) (a : Args) (ha : a.errorWeights = none) :
    RelE Sim (average circ so a x) (average circ so a y) := by
  have hl' : (readObj x).cells.length = x.u.cells.length := by simp [readObj]
  have H := averageSpectra_rel (exact := false) (fun _ => respects_eq (E := E) false) (u := readObj x) (u' := readObj y) (by exact h.rows) (by exact h.names)
    (by exact h.ex) (by exact h.ey) h.cells circ so a ha
  unfold average
  cases h1 : averageSpectra circ so a (readObj x) <;> cases h2 : averageSpectra circ so a (readObj y) <;> rw [h1, h2] at H <;>
    simp only [RelE] at H
  · exact H
  · rename_i v v'
    obtain ⟨e1, e2, e3, e4, e5, e6⟩ := H
    have hc : x.ndly.length = v.cells.length := by rw [e5, hl']; exact h.len
    simp only [RelE]
    refine ⟨e1, e2, e3, e4, h.fx, h.fy, h.dly, hc, ⟨by simp [h.len2.1], by simp [h.len2.2]⟩, h.three, ?_, ?_, ?_⟩
    · intro s n m g1 g2
      simp only [List.getElem?_mapIdx, Option.map_eq_some_iff] at g1 g2
      obtain ⟨k, g2, rfl⟩ := g2
      have := h.sx s n k g1 g2
      simp only [List.getD_eq_getElem?_getD, g1, Option.getD_some, readLen, h.fx]
      split <;> omega
    · intro s n m g1 g2
      simp only [List.getElem?_mapIdx, Option.map_eq_some_iff] at g1 g2
      obtain ⟨k, g2, rfl⟩ := g2
      have := h.sy s n k g1 g2
      simp only [List.getD_eq_getElem?_getD, g1, Option.getD_some, readLen, h.fy]
      split <;> omega
    · rw [readObj_averaged h.fx h.len2.1 h.sx h.three hc,
        readObj_averaged h.fy h.len2.2 h.sy (h.dly ▸ h.three) (by rw [← h.dly, hc, e6.1])]
      exact e6

theorem averages_sim {x y : DObj E} (h : Sim x y) (circ : List ℝ → ℝ) (so : List Nat → List Nat) (as : List Args)
    (ha : ∀ a ∈ as, a.errorWeights = none) : RelE Sim (averages circ so as x) (averages circ so as y) := by
  induction as generalizing x y with
  | nil => exact h
  | cons a as ih =>
    have H := average_sim h circ so a (ha a List.mem_cons_self)
    unfold averages
    cases h1 : average circ so a x <;> cases h2 : average circ so a y <;> rw [h1, h2] at H <;> simp only [RelE] at H
    · exact H
    · exact ih H (fun b hb => ha b (List.mem_cons_of_mem _ hb))

/-- Reading the fold of one row. -/
theorem read_fold (nan : E) (hs : Bool) (N : Nat) (h3 : 3 ≤ N) (c : Cell E) (hc : SaneCell c) :
    FC (N / 2) c (shiftCell (offset true N N) (foldCell nan hs false N c)) := by
  have hk : offset true N N = N / 2 + 1 := by
    unfold offset
    rw [if_pos ⟨rfl, npos_pos h3⟩]; unfold npos; omega
  rw [hk]
  have e1 : ∀ d, 2 * (N / 2) - (d + (N / 2 + 1)) = N / 2 - 1 - d := fun d => by omega
  have hb : ∀ (C : Nat → Nat → ℝ) (d e : Nat), foldBlock (N / 2) C (d + (N / 2 + 1)) (e + (N / 2 + 1)) = quarter (N / 2) C d e := by
    intro C d e
    unfold foldBlock quarter
    rw [if_neg (by omega), if_pos (by omega), e1, e1]
  refine ⟨fun d => ?_, rfl, rfl, ?_, fun d e => hb _ d e, fun d e => ?_, hc⟩
  · simp only [shiftCell, foldCell]
    rw [if_neg (by omega), if_neg (by omega), e1]
  · simp only [shiftCell, foldCell]; ring
  · simp only [shiftCell, foldCell, Bool.false_eq_true, if_false]; exact hb _ d e

theorem forall₂_map_self {α β : Type} {R : α → β → Prop} (f : α → β) {l : List α} (h : ∀ a ∈ l, R a (f a)) :
    List.Forall₂ R l (l.map f) := by
  rw [List.forall₂_map_right_iff, List.forall₂_same]; exact h

/-- The cells read from the fold of an unfolded object. -/
theorem fold_cells {x y : DObj E} (hu : Unfolded x) (hs : Sane x) (nan : E) (h : foldSpectra nan x = .ok y) :
    CellsRel (fun s => FC ((x.ndly.getD s 0) / 2)) x.u.cells (readObj y).cells ∧ y.folded = true ∧ y.ndly = x.ndly ∧ y.stored = x.ndly ∧
      y.u.rows = x.u.rows ∧ y.u.statNames = x.u.statNames ∧ y.u.exact = false ∧ y.u.cells.length = x.u.cells.length := by
  unfold foldSpectra at h
  rw [hu.flag] at h
  simp only [Bool.false_eq_true, if_false, Except.ok.injEq] at h
  subst h
  refine ⟨⟨by simp [readObj], ?_⟩, rfl, rfl, hu.stored, rfl, rfl, hu.approx, by simp⟩
  intro s ps ps' e1 e2
  simp only [readObj, List.getElem?_mapIdx, e1, Option.map_some, Option.some.injEq] at e2
  subst e2
  have hlt := (List.getElem?_eq_some_iff.1 e1).1
  have hn : x.ndly[s]? = some (x.ndly[s]'(by rw [hu.windows]; exact hlt)) := List.getElem?_eq_getElem _
  have h3 := hu.three _ (List.mem_of_getElem? hn)
  rw [List.map_map]
  refine forall₂_map_self _ (fun cs hcs => ?_)
  simp only [Function.comp_def, List.map_map]
  refine forall₂_map_self _ (fun c hc => ?_)
  rw [hu.stored, hu.approx]
  simp only [List.getD_eq_getElem?_getD, hn, Option.getD_some]
  exact read_fold nan _ _ h3 c (hs ps (List.mem_of_getElem? e1) cs hcs c hc)

theorem readObj_unfolded {x : DObj E} (h : x.folded = false) : readObj x = x.u := by
  unfold readObj
  have : (shiftCell 0 : Cell E → Cell E) = id := by funext c; rfl
  have e : ∀ n m : Nat, offset x.folded n m = 0 := fun n m => by rw [h]; simp [offset]
  simp only [e, this, List.map_id_fun, id_eq, List.map_id_fun']
  congr 1
  apply List.ext_getElem?
  intro s; rw [List.getElem?_mapIdx]; cases x.u.cells[s]? <;> simp

theorem fc_unique {h : Nat} {c c1 c2 : Cell E} (h1 : FC h c c1) (h2 : FC h c c2) : EqC c1 c2 where
  data := by funext d; rw [h1.data, h2.data]
  wgts := by rw [h1.wgts, h2.wgts]
  ints := by rw [h1.ints, h2.ints]
  nsmp := by rw [h1.nsmp, h2.nsmp]
  cov := by funext d e; rw [h1.cov, h2.cov]
  win := by funext d e; rw [h1.win, h2.win]

theorem forall₂_join {α β γ : Type} {R : α → β → Prop} {S : α → γ → Prop} {T : β → γ → Prop} (h : ∀ a b c, R a b → S a c → T b c)
    {l : List α} {r : List β} {q : List γ} (h1 : List.Forall₂ R l r) (h2 : List.Forall₂ S l q) : List.Forall₂ T r q := by
  induction h1 generalizing q with
  | nil => cases h2; exact .nil
  | cons a1 a2 ih => cases h2 with | cons b1 b2 => exact .cons (h _ _ _ a1 b1) (ih b2)

/-- Averaging an unfolded object gives an unfolded object. -/
theorem average_unfolded {x y : DObj E} (hu : Unfolded x) (circ : List ℝ → ℝ) (so : List Nat → List Nat) (a : Args)
    (ha : a.errorWeights = none) (h : average circ so a x = .ok y) : Unfolded y := by
  unfold average at h
  rw [readObj_unfolded hu.flag] at h
  have H := averageSpectra_rel (exact := false) (fun _ => respects_eq (E := E) false) (u := x.u) (u' := x.u) rfl rfl hu.approx hu.approx
    ⟨rfl, fun s ps ps' e1 e2 => by
      rw [e1] at e2; cases e2
      exact List.forall₂_same.2 (fun cs _ => List.forall₂_same.2 (fun c _ => eqC_refl c))⟩ circ so a ha
  cases h1 : averageSpectra circ so a x.u with
  | error e => rw [h1] at h; cases h
  | ok v =>
    rw [h1] at h H
    simp only [RelE] at H
    cases h
    refine ⟨hu.flag, ?_, by rw [H.2.2.2.2.1]; exact hu.windows, hu.three, H.2.2.1⟩
    simp only [hu.flag]
    have : ∀ (n m : Nat), readLen false n m = m := fun n m => by simp [readLen]
    simp only [this]
    rw [← hu.stored]
    apply List.ext_getElem?
    intro s; rw [List.getElem?_mapIdx]; cases x.stored[s]? <;> simp

/-- One average commutes with folding. -/
theorem fold_average {x y : DObj E} (hu : Unfolded x) (hs : Sane x) (nan : E) (hy : foldSpectra nan x = .ok y) (circ : List ℝ → ℝ)
    (so : List Nat → List Nat) (a : Args) (ha : a.errorWeights = none) :
    RelE (fun z w => Sane z ∧ ∃ z', foldSpectra nan z = .ok z' ∧ Sim w z') (average circ so a x) (average circ so a y) := by
  obtain ⟨f1, f2, f3, f4, f5, f6, f7, f8⟩ := fold_cells hu hs nan hy
  have H := averageSpectra_rel (exact := false) (fun s => respects_fold (E := E) ((x.ndly.getD s 0) / 2)) (u := x.u) (u' := readObj y) f5.symm f6.symm
    hu.approx f7 f1 circ so a ha
  have hav : ∀ z, average circ so a x = .ok z → Unfolded z := fun z hz => average_unfolded hu circ so a ha hz
  unfold average at hav ⊢
  rw [readObj_unfolded hu.flag] at hav ⊢
  cases h1 : averageSpectra circ so a x.u <;> cases h2 : averageSpectra circ so a (readObj y) <;> rw [h1, h2] at H <;>
    simp only [RelE] at H
  · exact H
  · rename_i v w
    obtain ⟨e1, e2, e3, e4, e5, e6⟩ := H
    simp only [RelE]
    rw [h1] at hav
    have hz := hav _ rfl
    set z : DObj E := ⟨v, x.folded, x.ndly, x.stored.mapIdx (fun s n => readLen x.folded (x.ndly.getD s 0) n)⟩ with hzd
    have hsz : Sane z := by
      intro ps hps cs hcs c hc
      obtain ⟨s, hs1, rfl⟩ := List.mem_iff_getElem.1 hps
      have g1 : v.cells[s]? = some v.cells[s] := List.getElem?_eq_getElem hs1
      have g2 : w.cells[s]? = some (w.cells[s]'(e6.1 ▸ hs1)) := List.getElem?_eq_getElem _
      have g3 := e6.2 s _ _ g1 g2
      obtain ⟨i, hi, rfl⟩ := List.mem_iff_getElem.1 hcs
      obtain ⟨cs', _, g4⟩ := HeraPspec.UVP.forall₂_getElem_left g3 (List.getElem?_eq_getElem hi)
      obtain ⟨j, hj, rfl⟩ := List.mem_iff_getElem.1 hc
      obtain ⟨c', _, g5⟩ := HeraPspec.UVP.forall₂_getElem_left g4 (List.getElem?_eq_getElem hj)
      exact g5.sane
    refine ⟨hsz, ?_⟩
    obtain ⟨z', hz'⟩ : ∃ z', foldSpectra nan z = .ok z' := by
      unfold foldSpectra; rw [hz.flag]; exact ⟨_, rfl⟩
    refine ⟨z', hz', ?_⟩
    obtain ⟨k1, k2, k3, k4, k5, k6, k7, k8⟩ := fold_cells hz hsz nan hz'
    have hnd : z.ndly = x.ndly := rfl
    have hcl : x.ndly.length = w.cells.length := by rw [hu.windows, ← e5, e6.1]
    have hst : ∀ s n m : Nat, y.ndly[s]? = some n → y.stored[s]? = some m → npos n ≤ m := by
      intro s n m g1 g2
      rw [f3] at g1; rw [f4, g1] at g2; cases g2; unfold npos; omega
    have hlen : y.stored.length = y.ndly.length := by rw [f4, f3]
    have h3y : ∀ n ∈ y.ndly, 3 ≤ n := by rw [f3]; exact hu.three
    refine ⟨?_, ?_, e4, k7, f2, k2, ?_, ?_, ⟨?_, ?_⟩, ?_, ?_, ?_, ?_⟩
    · rw [k5]; exact e1.symm
    · rw [k6]; exact e2.symm
    · rw [k3]; exact f3
    · simp only [f3]; exact hcl
    · simp [hlen]
    · rw [k4, k3]
    · exact h3y
    · intro s n m g1 g2
      simp only [List.getElem?_mapIdx, Option.map_eq_some_iff] at g1 g2
      obtain ⟨q, g2, rfl⟩ := g2
      have := hst s n q g1 g2
      simp only [List.getD_eq_getElem?_getD, g1, Option.getD_some, readLen, f2]
      split <;> omega
    · intro s n m g1 g2
      rw [k3] at g1; rw [k4, g1] at g2; cases g2; unfold npos; omega
    · rw [readObj_averaged f2 hlen hst h3y (by rw [f3]; exact hcl)]
      refine ⟨by rw [← e6.1, k1.1], ?_⟩
      intro s ps ps' g1 g2
      have hlt : s < v.cells.length := by rw [e6.1]; exact (List.getElem?_eq_some_iff.1 g1).1
      have g3 : v.cells[s]? = some v.cells[s] := List.getElem?_eq_getElem hlt
      have a1 := e6.2 s _ _ g3 g1
      have a2 := k1.2 s _ _ g3 g2
      rw [hnd] at a2
      exact forall₂_join (R := List.Forall₂ (FC (x.ndly.getD s 0 / 2))) (S := List.Forall₂ (FC (x.ndly.getD s 0 / 2)))
        (T := List.Forall₂ EqC) (fun _ _ _ => forall₂_join (R := FC (x.ndly.getD s 0 / 2)) (S := FC (x.ndly.getD s 0 / 2)) (T := EqC)
          (fun _ _ _ b1 b2 => fc_unique b1 b2)) a1 a2

theorem relE_trans {R S T : DObj E → DObj E → Prop} (h : ∀ a b c, R a b → S b c → T a c) {x y z : Except Err (DObj E)}
    (h1 : RelE R x y) (h2 : RelE S y z) : RelE T x z := by
  cases x <;> cases y <;> cases z <;> simp only [RelE] at *
  · rw [h1, h2]
  · exact h _ _ _ h1 h2

theorem sim_trans {x y z : DObj E} (h1 : Sim x y) (h2 : Sim y z) : Sim x z where
  rows := h1.rows.trans h2.rows
  names := h1.names.trans h2.names
  ex := h1.ex
  ey := h2.ey
  fx := h1.fx
  fy := h2.fy
  dly := h1.dly.trans h2.dly
  len := h1.len
  len2 := ⟨h1.len2.1, h2.len2.2⟩
  three := h1.three
  sx := h1.sx
  sy := h2.sy
  cells := by
    refine ⟨h1.cells.1.trans h2.cells.1, ?_⟩
    intro s ps ps' e1 e2
    have hlt : s < (readObj y).cells.length := by rw [h2.cells.1]; exact (List.getElem?_eq_some_iff.1 e2).1
    have g := List.getElem?_eq_getElem hlt
    have a1 := h1.cells.2 s _ _ e1 g
    have a2 := h2.cells.2 s _ _ g e2
    have flip : ∀ {α β : Type} {R : α → β → Prop} {l r}, List.Forall₂ R l r → List.Forall₂ (fun b a => R a b) r l := fun h => h.flip
    refine forall₂_join (R := fun a b => List.Forall₂ EqC b a) (S := List.Forall₂ EqC) (T := List.Forall₂ EqC) (fun _ _ _ b1 b2 =>
      forall₂_join (R := fun a b => EqC b a) (S := EqC) (T := EqC) (fun (a b c) (c1 : EqC b a) (c2 : EqC a c) => ?_) (flip b1) b2) (flip a1) a2
    exact ⟨c1.data.trans c2.data, c1.wgts.trans c2.wgts, c1.ints.trans c2.ints, c1.nsmp.trans c2.nsmp, c1.cov.trans c2.cov, c1.win.trans c2.win⟩

theorem sim_self {x y : DObj E} (hu : Unfolded x) (hs : Sane x) (nan : E) (hy : foldSpectra nan x = .ok y) : Sim y y := by
  obtain ⟨f1, f2, f3, f4, f5, f6, f7, f8⟩ := fold_cells hu hs nan hy
  have hst : ∀ s n m : Nat, y.ndly[s]? = some n → y.stored[s]? = some m → npos n ≤ m := by
    intro s n m g1 g2
    rw [f3] at g1; rw [f4, g1] at g2; cases g2; unfold npos; omega
  refine ⟨rfl, rfl, f7, f7, f2, f2, rfl, by rw [f3, f8]; exact hu.windows, by rw [f4, f3]; simp, by rw [f3]; exact hu.three, hst, hst, rfl, ?_⟩
  intro s ps ps' e1 e2
  rw [e1] at e2; cases e2
  exact List.forall₂_same.2 (fun cs _ => List.forall₂_same.2 (fun c _ => eqC_refl c))

theorem fold_averages (nan : E) (circ : List ℝ → ℝ) (so : List Nat → List Nat) (bs : List Args) (hb : ∀ a ∈ bs, a.errorWeights = none)
    {x y : DObj E} (hu : Unfolded x) (hs : Sane x) (hy : foldSpectra nan x = .ok y) :
    RelE Sim (averages circ so bs y) ((averages circ so bs x).bind (foldSpectra nan)) := by
  induction bs generalizing x y with
  | nil => simp only [averages, Except.bind, hy]; exact sim_self hu hs nan hy
  | cons b bs ih =>
    have H := fold_average hu hs nan hy circ so b (hb b List.mem_cons_self)
    have hav : ∀ z, average circ so b x = .ok z → Unfolded z := fun z hz => average_unfolded hu circ so b (hb b List.mem_cons_self) hz
    unfold averages
    cases h1 : average circ so b x <;> cases h2 : average circ so b y <;> rw [h1, h2] at H <;> simp only [RelE] at H
    · exact H.symm
    · rename_i z w
      obtain ⟨hsz, z', hz', hsim⟩ := H
      have hbs := fun a ha => hb a (List.mem_cons_of_mem _ ha)
      exact relE_trans (R := Sim) (S := Sim) (T := Sim) (fun _ _ _ h1 h2 => sim_trans h1 h2) (averages_sim hsim circ so bs hbs) (ih hbs (hav z h1) hsz hz')

theorem averages_sane (nan : E) (circ : List ℝ → ℝ) (so : List Nat → List Nat) (as : List Args) (ha : ∀ a ∈ as, a.errorWeights = none)
    {x z : DObj E} (hu : Unfolded x) (hs : Sane x) (h : averages circ so as x = .ok z) : Unfolded z ∧ Sane z := by
  induction as generalizing x with
  | nil => cases h; exact ⟨hu, hs⟩
  | cons a as ih =>
    unfold averages at h
    obtain ⟨y, hy⟩ : ∃ y, foldSpectra nan x = .ok y := by unfold foldSpectra; rw [hu.flag]; exact ⟨_, rfl⟩
    have H := fold_average hu hs nan hy circ so a (ha a List.mem_cons_self)
    cases h1 : average circ so a x with
    | error e => rw [h1] at h; cases h
    | ok z' =>
      rw [h1] at h H
      cases h2 : average circ so a y <;> rw [h2] at H <;> simp only [RelE] at H
      exact ih (fun b hb => ha b (List.mem_cons_of_mem _ hb)) (average_unfolded hu circ so a (ha a List.mem_cons_self) h1) H.1 h

theorem averages_append (circ : List ℝ → ℝ) (so : List Nat → List Nat) (as bs : List Args) (x : DObj E) :
    averages circ so (as ++ bs) x = (averages circ so as x).bind (averages circ so bs) := by
  induction as generalizing x with
  | nil => rfl
  | cons a as ih =>
    rw [List.cons_append]
    unfold averages
    cases average circ so a x with
    | error e => rfl
    | ok y => exact ih y

/-! ### C143 -/

/-- C143: whether the spectra are folded before, between or after any number of averages, with the default weights, makes no
difference to what is read: data, covariances, window functions, integration times, numbers of samples, rows. -/
theorem C143_fold_anywhere (nan : E) (circ : List ℝ → ℝ) (so : List Nat → List Nat) (as bs : List Args)
    (hab : ∀ a ∈ as ++ bs, a.errorWeights = none) {x : DObj E} (hu : Unfolded x) (hs : Sane x) :
    SameOutcome (((averages circ so as x).bind (foldSpectra nan)).bind (averages circ so bs))
      ((averages circ so (as ++ bs) x).bind (foldSpectra nan)) := by
  rw [averages_append]
  cases h1 : averages circ so as x with
  | error e => right; exact ⟨e, rfl, rfl⟩
  | ok z =>
    obtain ⟨huz, hsz⟩ := averages_sane nan circ so as (fun a ha => hab a (List.mem_append_left _ ha)) hu hs h1
    obtain ⟨y, hy⟩ : ∃ y, foldSpectra nan z = .ok y := by unfold foldSpectra; rw [huz.flag]; exact ⟨_, rfl⟩
    have H := fold_averages nan circ so bs (fun a ha => hab a (List.mem_append_right _ ha)) huz hsz hy
    change SameOutcome ((foldSpectra nan z).bind (averages circ so bs)) ((averages circ so bs z).bind (foldSpectra nan))
    rw [hy]
    change SameOutcome (averages circ so bs y) _
    revert H
    generalize averages circ so bs y = A
    generalize (averages circ so bs z).bind (foldSpectra nan) = B
    intro H
    cases A <;> cases B <;> simp only [RelE] at H
    · right; exact ⟨_, rfl, by rw [H]⟩
    · left; exact ⟨_, _, rfl, rfl, H.reads⟩

/-- The mean of a spectrum with its mirror image in delay, at positive delays only; index `length / 2` is delay zero. -/
noncomputable def mirrorMean (r : List E) : List E :=
  (List.range (npos r.length)).map (fun d => (1 / 2 : ℝ) • (r.getD (r.length / 2 - 1 - d) 0 + r.getD (r.length / 2 + 1 + d) 0))

/-- A quarter of the four mirror images of a matrix over delays, at positive delays only. -/
noncomputable def mirrorBlock (C : List (List ℝ)) : List (List ℝ) :=
  (List.range (npos C.length)).map (fun d => (List.range (npos C.length)).map (fun e =>
    ((C.getD (C.length / 2 - 1 - d) []).getD (C.length / 2 - 1 - e) 0 + (C.getD (C.length / 2 - 1 - d) []).getD (C.length / 2 + 1 + e) 0 +
      (C.getD (C.length / 2 + 1 + d) []).getD (C.length / 2 - 1 - e) 0 + (C.getD (C.length / 2 + 1 + d) []).getD (C.length / 2 + 1 + e) 0) / 4))

theorem getD_range_map {α : Type} (n i : Nat) (f : Nat → α) (z : α) (h : i < n) : ((List.range n).map f).getD i z = f i := by
  simp [List.getD_eq_getElem?_getD, List.getElem?_map, h]

theorem mirrorMean_range (N : Nat) (f : Nat → E) : mirrorMean ((List.range N).map f) =
    (List.range (npos N)).map (fun d => (1 / 2 : ℝ) • (f (N / 2 - 1 - d) + f (d + (N / 2 + 1)))) := by
  unfold mirrorMean
  simp only [List.length_map, List.length_range]
  refine List.map_congr_left (fun d hd => ?_)
  have hd := List.mem_range.1 hd
  unfold npos at hd
  rw [getD_range_map _ _ _ _ (by omega), getD_range_map _ _ _ _ (by omega), Nat.add_comm d]

theorem mirrorBlock_range (N : Nat) (C : Nat → Nat → ℝ) : mirrorBlock ((List.range N).map (fun d => (List.range N).map (C d))) =
    (List.range (npos N)).map (fun d => (List.range (npos N)).map (quarter (N / 2) C d)) := by
  unfold mirrorBlock
  simp only [List.length_map, List.length_range]
  refine List.map_congr_left (fun d hd => ?_)
  refine List.map_congr_left (fun e he => ?_)
  have hd := List.mem_range.1 hd
  have he := List.mem_range.1 he
  unfold npos at hd he
  unfold quarter
  rw [getD_range_map _ (N / 2 - 1 - d) _ _ (by omega), getD_range_map _ (N / 2 + 1 + d) _ _ (by omega), getD_range_map _ _ _ _ (by omega), getD_range_map _ _ _ _ (by omega),
    getD_range_map _ _ _ _ (by omega), getD_range_map _ _ _ _ (by omega), Nat.add_comm d, Nat.add_comm e]

theorem fold_axes {x y : DObj E} (hu : Unfolded x) (nan : E) (h : foldSpectra nan x = .ok y) (s : Nat) (hs : s < x.u.cells.length) :
    axis x s = x.ndly.getD s 0 ∧ axis y s = npos (x.ndly.getD s 0) := by
  unfold foldSpectra at h
  rw [hu.flag] at h
  simp only [Bool.false_eq_true, if_false, Except.ok.injEq] at h
  subst h
  have hn : x.ndly[s]? = some (x.ndly[s]'(by rw [hu.windows]; exact hs)) := List.getElem?_eq_getElem _
  have h3 := hu.three _ (List.mem_of_getElem? hn)
  unfold axis readLen
  rw [hu.flag, hu.stored]
  simp only [List.getD_eq_getElem?_getD, hn, Option.getD_some, Bool.false_eq_true, false_and, if_false, true_and, ne_eq, npos_pos h3,
    not_false_eq_true, if_true, true_and]
  unfold npos; omega

/-- C143: what is read from the folded object is computed from what was read from the object before folding: the mean over
opposite delays of the data, a quarter of the four mirrored covariances, the same integration times, twice the samples. -/
theorem C143_fold_reads (nan : E) {x y : DObj E} (hu : Unfolded x) (hs : Sane x) (h : foldSpectra nan x = .ok y) (s p b : Nat) :
    getData y s p b = (getData x s p b).map (List.map mirrorMean) ∧
    getCov y s p b = (getCov x s p b).map (List.map mirrorBlock) ∧
    getWin y s p b = (getWin x s p b).map (List.map mirrorBlock) ∧
    getIntegrations y s p b = getIntegrations x s p b ∧
    getNsamples y s p b = (getNsamples x s p b).map (List.map (fun n => 2 * n)) := by
  obtain ⟨f1, f2, f3, f4, f5, f6, f7, f8⟩ := fold_cells hu hs nan h
  have key : RelE (List.Forall₂ (FC (x.ndly.getD s 0 / 2))) (cellsOf (readObj x) s p b) (cellsOf (readObj y) s p b) := by
    rw [readObj_unfolded hu.flag]
    exact cellsOf_rel (R := fun s => FC (x.ndly.getD s 0 / 2)) (u := x.u) (u' := readObj y) (by exact f5.symm) f1 s p b
  have ax := fold_axes hu nan h s
  have lt : ∀ cs, cellsOf (readObj x) s p b = .ok cs → cs ≠ [] → s < x.u.cells.length := by
    intro cs hcs hne
    rw [readObj_unfolded hu.flag] at hcs
    by_contra hge
    have : x.u.cells[s]? = none := List.getElem?_eq_none_iff.2 (by omega)
    unfold cellsOf at hcs
    rw [this] at hcs
    cases hi : indices x.u b with
    | error e => rw [hi] at hcs; cases hcs
    | ok is =>
      rw [hi] at hcs
      cases is with
      | nil => simp only [UVP.mapE] at hcs; cases hcs; exact hne rfl
      | cons i is => simp [UVP.mapE] at hcs
  have lift : ∀ {β : Type} (f g : Cell E → β) (k : β → β), (s < x.u.cells.length → ∀ c c', FC (x.ndly.getD s 0 / 2) c c' → g c' = k (f c)) →
      (cellsOf (readObj y) s p b).map (fun cs => cs.map g) = ((cellsOf (readObj x) s p b).map (fun cs => cs.map f)).map (List.map k) := by
    intro β f g k hk
    have := key
    cases h1 : cellsOf (readObj x) s p b <;> cases h2 : cellsOf (readObj y) s p b <;> rw [h1, h2] at this <;> simp only [RelE] at this
    · rw [this]; rfl
    · rename_i cs cs'
      simp only [Except.map, List.map_map]
      by_cases hne : cs = []
      · subst hne; cases this; rfl
      · have hk := hk (lt cs h1 hne)
        refine congrArg _ ?_
        clear h1 h2 hne
        induction this with
        | nil => rfl
        | cons a1 _ ih => rw [List.map_cons, List.map_cons, ih, hk _ _ a1]; rfl
  refine ⟨lift _ _ mirrorMean ?_, lift _ _ mirrorBlock ?_, lift _ _ mirrorBlock ?_, ?_, lift _ _ _ ?_⟩
  · intro hlt c c' H
    rw [(ax hlt).1, (ax hlt).2, mirrorMean_range]
    exact List.map_congr_left (fun d _ => H.data d)
  · intro hlt c c' H
    rw [(ax hlt).1, (ax hlt).2, mirrorBlock_range]
    exact List.map_congr_left (fun d _ => List.map_congr_left (fun e _ => H.cov d e))
  · intro hlt c c' H
    rw [(ax hlt).1, (ax hlt).2, mirrorBlock_range]
    exact List.map_congr_left (fun d _ => List.map_congr_left (fun e _ => H.win d e))
  · have := lift (fun c => c.ints) (fun c => c.ints) id (fun _ c c' H => H.ints)
    unfold getIntegrations
    rw [this]
    cases cellsOf (readObj x) s p b <;> simp [Except.map]
  · intro _ c c' H; exact H.nsmp

/-- The inverse variance that belongs to an error bar; an infinite one (`none`) has inverse variance zero. -/
noncomputable def invVar : Option ℝ → ℝ
  | none => 0
  | some a => 1 / a ^ 2

/-- An error bar is infinite or positive. -/
def PosErr (a : Option ℝ) : Prop := ∀ v, a = some v → 0 < v

/-- `r'` are the folded error bars of a row with error bars `r`: at every positive delay the inverse variances of the two mirrored delays add up. -/
def FoldedErrs (r r' : List (Option ℝ)) : Prop :=
  r'.length = npos r.length ∧ ∀ d, d < npos r.length → ∃ a b s, r[r.length / 2 - 1 - d]? = some a ∧ r[r.length / 2 + 1 + d]? = some b ∧
    r'[d]? = some s ∧ (PosErr a → PosErr b → PosErr s ∧ invVar s = invVar a + invVar b)

theorem foldStat2_inv (a b : Option ℝ) (ha : PosErr a) (hb : PosErr b) : PosErr (foldStat2 a b) ∧ invVar (foldStat2 a b) = invVar a + invVar b := by
  cases a with
  | none => cases b with
    | none => exact ⟨fun v h => (by cases h), by simp [foldStat2, invVar]⟩
    | some b =>
      have := hb b rfl
      refine ⟨fun v h => ?_, by simp [foldStat2, invVar]⟩
      simp only [foldStat2, Option.some.injEq] at h
      rw [← h]; positivity
  | some a => cases b with
    | none =>
      have := ha a rfl
      refine ⟨fun v h => ?_, by simp [foldStat2, invVar]⟩
      simp only [foldStat2, Option.some.injEq] at h
      rw [← h]; positivity
    | some b =>
      have h1 := ha a rfl
      have h2 := hb b rfl
      have hs : foldStat2 (some a) (some b) = some ((1 / a ^ 2 + 1 / b ^ 2) ^ (-(1 / 2 : ℝ))) := by
        simp only [foldStat2]
        rw [if_neg (by rintro (h | h) <;> linarith)]
      have hp : 0 < 1 / a ^ 2 + 1 / b ^ 2 := by positivity
      rw [hs]
      refine ⟨fun v h => ?_, ?_⟩
      · rw [← Option.some.inj h]; exact Real.rpow_pos_of_pos hp _
      · have e : ((1 / a ^ 2 + 1 / b ^ 2) ^ (-(1 / 2 : ℝ))) ^ 2 = (1 / a ^ 2 + 1 / b ^ 2)⁻¹ := by
          rw [← Real.rpow_natCast, ← Real.rpow_mul hp.le, ← Real.rpow_neg_one]
          norm_num
        show 1 / _ ^ 2 = 1 / a ^ 2 + 1 / b ^ 2
        rw [e, one_div, inv_inv]

/-- Reading a statistic of a row of the folded object. -/
theorem read_fold_stat (nan : E) (hs ex : Bool) (N : Nat) (h3 : 3 ≤ N) (c : Cell E) (name : String) (d : Nat) :
    (shiftCell (offset true N N) (foldCell nan hs ex N c)).stat name d = foldStat2 (c.stat name (N / 2 - 1 - d)) (c.stat name (N / 2 + 1 + d)) := by
  have hk : offset true N N = N / 2 + 1 := by
    unfold offset
    rw [if_pos ⟨rfl, npos_pos h3⟩]; unfold npos; omega
  simp only [shiftCell, foldCell, hk]
  rw [if_neg (by omega), show 2 * (N / 2) - (d + (N / 2 + 1)) = N / 2 - 1 - d by omega, Nat.add_comm d]

/-- C143: the error bars read from the folded object are the inverse-quadrature sums of those at opposite delays. -/
theorem C143_fold_stats (nan : E) {x y : DObj E} (hu : Unfolded x) (h : foldSpectra nan x = .ok y) (name : String) (s p b : Nat)
    (rx : List (List (Option ℝ))) (hx : getStats x name s p b = .ok rx) :
    ∃ ry, getStats y name s p b = .ok ry ∧ List.Forall₂ FoldedErrs rx ry := by
  let R : Nat → Cell E → Cell E → Prop := fun s c c' => s < x.u.cells.length ∧
    ∀ d, c'.stat name d = foldStat2 (c.stat name (x.ndly.getD s 0 / 2 - 1 - d)) (c.stat name (x.ndly.getD s 0 / 2 + 1 + d))
  have ax := fold_axes hu nan h s
  unfold foldSpectra at h
  rw [hu.flag] at h
  simp only [Bool.false_eq_true, if_false, Except.ok.injEq] at h
  have hrows : x.u.rows = (readObj y).rows := by rw [← h]; rfl
  have hc : CellsRel R x.u.cells (readObj y).cells := by
    subst h
    refine ⟨by simp [readObj], ?_⟩
    intro s ps ps' e1 e2
    simp only [readObj, List.getElem?_mapIdx, e1, Option.map_some, Option.some.injEq] at e2
    subst e2
    have hlt := (List.getElem?_eq_some_iff.1 e1).1
    have hn : x.ndly[s]? = some (x.ndly[s]'(by rw [hu.windows]; exact hlt)) := List.getElem?_eq_getElem _
    have h3 := hu.three _ (List.mem_of_getElem? hn)
    rw [List.map_map]
    refine forall₂_map_self _ (fun cs _ => ?_)
    simp only [Function.comp_def, List.map_map]
    refine forall₂_map_self _ (fun c _ => ⟨hlt, fun d => ?_⟩)
    rw [hu.stored]
    simp only [List.getD_eq_getElem?_getD, hn, Option.getD_some]
    exact read_fold_stat nan _ _ _ h3 c name d
  have key : RelE (List.Forall₂ (R s)) (cellsOf (readObj x) s p b) (cellsOf (readObj y) s p b) := by
    rw [readObj_unfolded hu.flag]
    exact cellsOf_rel (u := x.u) (u' := readObj y) hrows hc s p b
  unfold getStats at hx ⊢
  cases h1 : cellsOf (readObj x) s p b with
  | error e => rw [h1] at hx; cases hx
  | ok cs =>
    cases h2 : cellsOf (readObj y) s p b with
    | error e => rw [h1, h2] at key; exact key.elim
    | ok cs' =>
      rw [h1, h2] at key
      rw [h1] at hx
      simp only [Except.map, Except.ok.injEq] at hx ⊢
      refine ⟨_, rfl, ?_⟩
      rw [← hx, List.forall₂_map_left_iff, List.forall₂_map_right_iff]
      refine List.Forall₂.imp ?_ key
      rintro c c' ⟨hlt, H⟩
      obtain ⟨a1, a2⟩ := ax hlt
      rw [a1, a2]
      refine ⟨by simp, fun d hd => ?_⟩
      simp only [List.length_map, List.length_range] at hd ⊢
      have hd' := hd
      unfold npos at hd'
      refine ⟨c.stat name (x.ndly.getD s 0 / 2 - 1 - d), c.stat name (x.ndly.getD s 0 / 2 + 1 + d), c'.stat name d, ?_, ?_, ?_, ?_⟩
      · rw [List.getElem?_map, List.getElem?_range (by omega)]; rfl
      · rw [List.getElem?_map, List.getElem?_range (by omega)]; rfl
      · rw [List.getElem?_map, List.getElem?_range (by omega)]; rfl
      · rw [H]; exact foldStat2_inv _ _

/-- C143: what folding leaves in the arrays at delays that are no longer read: covariances and window functions vanish at negative delays and
are untouched where one of the delays is zero and the other is not negative; so is the data at delay zero, and error bars at all delays that are not positive. -/
theorem C143_fold_stored (nan : E) (hasStats : Bool) (N : Nat) (c : Cell E) (d e : Nat) :
    (d < N / 2 ∨ e < N / 2 → (foldCell nan hasStats false N c).cov d e = 0 ∧ (foldCell nan hasStats false N c).win d e = 0) ∧
    (N / 2 ≤ d → N / 2 ≤ e → d = N / 2 ∨ e = N / 2 → (foldCell nan hasStats false N c).cov d e = c.cov d e ∧ (foldCell nan hasStats false N c).win d e = c.win d e) ∧
    (foldCell nan hasStats false N c).data (N / 2) = c.data (N / 2) ∧
    (d < N / 2 → (foldCell nan hasStats false N c).data d = if hasStats then nan else 0) ∧
    (d ≤ N / 2 → ∀ name, (foldCell nan hasStats false N c).stat name d = c.stat name d) := by
  refine ⟨fun h => ?_, fun h1 h2 h => ?_, ?_, fun h => ?_, fun h name => by simp [foldCell, h]⟩
  · simp [foldCell, foldBlock, h]
  · have : ¬ (d < N / 2 ∨ e < N / 2) := by omega
    have h3 : ¬ (N / 2 < d ∧ N / 2 < e) := by omega
    simp only [foldCell, foldBlock, Bool.false_eq_true, if_false]
    rw [if_neg this, if_neg h3, if_neg this, if_neg h3]; exact ⟨rfl, rfl⟩
  · simp [foldCell]
  · simp [foldCell, h]

/-- A row of three delays observed for 10 s with one sample. -/
noncomputable def exCell : Cell ℝ where
  data := fun d => d
  wgts := fun _ => 1
  ints := 10
  nsmp := 1
  stat := fun _ _ => some 1
  cov := fun d e => if d = e then 1 else 0
  win := fun d e => if d = e then 1 else 0

/-- One window of three delays, one polarization pair, one baseline-pair at two times. -/
noncomputable def exObj : DObj ℝ where
  u := { rows := [⟨5, 0, 0, 0, 0, 0, 0⟩, ⟨5, 1, 1, 1, 1, 1, 1⟩], cells := [[[exCell, exCell]]], statNames := [], exact := false }
  folded := false
  ndly := [3]
  stored := [3]

/-- The average over time, without groups. -/
def exArgs : Args := ⟨none, none, true, [], none, true⟩

example : Unfolded exObj ∧ Sane exObj ∧ (∀ a ∈ [exArgs] ++ [exArgs], a.errorWeights = none) ∧
    ∃ y, averages (fun _ => 0) id ([exArgs] ++ [exArgs]) exObj = .ok y := by
  refine ⟨⟨rfl, rfl, rfl, by simp [exObj], rfl⟩, ?_, by simp [exArgs], ?_⟩
  · intro ps hps cs hcs c hc
    simp only [exObj, List.mem_singleton] at hps
    subst hps
    simp only [List.mem_singleton] at hcs
    subst hcs
    simp only [List.mem_cons, List.not_mem_nil, or_false, or_self] at hc
    subst hc
    norm_num [SaneCell, exCell]
  · have h1 : ∀ (m m' : Meta) (c c' : Cell ℝ), m.blp = 5 → m'.blp = 5 → ∃ r d, averageSpectra (fun _ => 0) id exArgs ⟨[m, m'], [[[c, c']]], [], false⟩ =
        .ok (⟨[r], [[[d]]], [], false⟩ : Obj ℝ) ∧ r.blp = 5 := by
      intro m m' c c' hm hm'
      simp [averageSpectra, groupsOf, exArgs, (by decide : Combine.uniq [5, 5] = [5]), (by decide : Combine.uniq [5] = [5]), hm, hm', UVP.mapE, groupRows, blpgWgts, accsOf, cellsOf, indices, List.range_succ, statNames,
        sumCopies, copies, groupMeta, (by norm_num : ¬ ((1 : ℝ) ≤ 0))]
    have h2 : ∀ (m : Meta) (c : Cell ℝ), m.blp = 5 → ∃ r d, averageSpectra (fun _ => 0) id exArgs ⟨[m], [[[c]]], [], false⟩ =
        .ok (⟨[r], [[[d]]], [], false⟩ : Obj ℝ) := by
      intro m c hm
      simp [averageSpectra, groupsOf, exArgs, (by decide : Combine.uniq [5, 5] = [5]), (by decide : Combine.uniq [5] = [5]), hm, UVP.mapE, groupRows, blpgWgts, accsOf, cellsOf, indices, List.range_succ, statNames,
        sumCopies, copies, groupMeta, (by norm_num : ¬ ((1 : ℝ) ≤ 0))]
    obtain ⟨r, d, e1, e2⟩ := h1 ⟨5, 0, 0, 0, 0, 0, 0⟩ ⟨5, 1, 1, 1, 1, 1, 1⟩ exCell exCell rfl rfl
    obtain ⟨r', d', e3⟩ := h2 r d e2
    have a1 : readObj exObj = exObj.u := readObj_unfolded rfl
    have b1 : average (fun _ => 0) id exArgs exObj = .ok ⟨⟨[r], [[[d]]], [], false⟩, false, [3], [3]⟩ := by
      unfold average; rw [a1]; unfold exObj at *; simp only at *; rw [e1]; rfl
    have b2 : average (fun _ => 0) id exArgs ⟨⟨[r], [[[d]]], [], false⟩, false, [3], [3]⟩ = .ok ⟨⟨[r'], [[[d']]], [], false⟩, false, [3], [3]⟩ := by
      unfold average; rw [readObj_unfolded rfl]; rw [e3]; rfl
    simp only [List.singleton_append, averages, b1, b2]
    exact ⟨_, rfl⟩

/-- Three delays with error bars `1`, `1` and `σ`, data `0`, `0` and `v`. -/
noncomputable def exErr (σ v : ℝ) : Cell ℝ :=
  { exCell with data := fun d => if d = 2 then v else 0, stat := fun _ d => if d = 2 then some σ else some 1 }

/-- C143 finding: with `error_weights` the order matters. Two baseline-pairs in one group, with error bars `(1, 1, 1)` and
`(1, 1, 1/2)`: averaging and then folding gives 2/5 at the positive delay (index 2), folding and then averaging 5/14. -/
theorem C143_finding_error_weights :
    (foldCell 0 true false 3 (groupMean false ([exErr 1 0, exErr (1 / 2) 1].map (prep (some "P_N"))))).data 2 = 2 / 5 ∧
    (groupMean false (([exErr 1 0, exErr (1 / 2) 1].map (foldCell 0 true false 3)).map (prep (some "P_N")))).data 2 = 5 / 14 := by
  have h : ∀ x : ℝ, 0 ≤ x → (x ^ (-(1 / 2 : ℝ))) ^ 2 = x⁻¹ := by
    intro x hx
    rw [← Real.rpow_natCast, ← Real.rpow_mul hx]
    norm_num [Real.rpow_neg_one]
  have t : ∀ x : ℝ, 1 / 10 ^ 6 ≤ x → max x tiny = x := fun x hx => max_eq_left (le_trans (by unfold tiny; norm_num) hx)
  have h2 := h 2 (by norm_num)
  have h5 := h 5 (by norm_num)
  constructor
  · simp only [foldCell, groupMean, prep, exErr, exCell, weight, clipTiny, List.map_cons, List.map_nil]
    norm_num [t]
  · simp only [foldCell, groupMean, prep, exErr, exCell, weight, clipTiny, List.map_cons, List.map_nil, foldStat2]
    norm_num [t] at h2 h5 ⊢
    rw [h2, h5]
    norm_num [t]

/-! ### C142 -/

/-- The bandpower that a row of a window function predicts for true powers `P`. -/
noncomputable def predicts (row : List ℝ) (P : Nat → ℝ) : ℝ := ((List.range row.length).map (fun e => row.getD e 0 * P e)).sum

/-- C142, exact window functions, any number `M` of columns: the row stored for a positive delay predicts, whatever the
power, the mean of what the rows of the two opposite delays predicted. -/
theorem C142_exact (nan : E) (hasStats : Bool) (N : Nat) (c : Cell E) (d : Nat) (hd : N / 2 < d) (M : Nat) (P : Nat → ℝ) :
    predicts ((List.range M).map ((foldCell nan hasStats true N c).win d)) P =
      (predicts ((List.range M).map (c.win (2 * (N / 2) - d))) P + predicts ((List.range M).map (c.win d)) P) / 2 := by
  unfold predicts
  simp only [List.length_map, List.length_range]
  rw [eq_div_iff (two_ne_zero), ← List.sum_map_add, ← List.sum_map_mul_right]
  refine congrArg _ (List.map_congr_left (fun e he => ?_))
  have he := List.mem_range.1 he
  rw [getD_range_map _ _ _ _ he, getD_range_map _ _ _ _ he, getD_range_map _ _ _ _ he]
  simp only [foldCell, if_true, foldRows]
  rw [if_neg (by omega), if_neg (by omega)]
  ring

/-- C142, exact window functions: normalised rows stay normalised. -/
theorem C142_exact_normalised (nan : E) (hasStats : Bool) (N : Nat) (c : Cell E) (M : Nat)
    (h1 : ∀ d < N, predicts ((List.range M).map (c.win d)) (fun _ => 1) = 1) (d : Nat) (hd : N / 2 < d) (hN : d < N) :
    predicts ((List.range M).map ((foldCell nan hasStats true N c).win d)) (fun _ => 1) = 1 := by
  rw [C142_exact nan hasStats N c d hd, h1 d hN, h1 _ (by omega)]; norm_num

theorem sum_range_mirror (f : Nat → ℝ) (h : Nat) : ((List.range (2 * h + 1)).map f).sum =
    f h + ((List.range h).map (fun i => f (h - 1 - i) + f (i + (h + 1)))).sum := by
  induction h generalizing f with
  | zero => simp
  | succ h ih =>
    have e : List.range (2 * (h + 1) + 1) = 0 :: ((List.range (2 * h + 1)).map (· + 1) ++ [2 * h + 2]) := by
      rw [show 2 * (h + 1) + 1 = (2 * h + 2) + 1 by ring, List.range_succ_eq_map, show 2 * h + 2 = (2 * h + 1) + 1 by ring, List.range_succ]
      simp
    rw [e, List.map_cons, List.sum_cons, List.map_append, List.sum_append, List.map_map]
    have := ih (fun i => f (i + 1))
    simp only [Function.comp_def]
    rw [this, List.range_succ, List.map_append, List.sum_append]
    have e2 : (List.range h).map (fun i => f (h - 1 - i + 1) + f (i + (h + 1) + 1)) =
        (List.range h).map (fun i => f (h + 1 - 1 - i) + f (i + (h + 1 + 1))) := by
      refine List.map_congr_left (fun i hi => ?_)
      have := List.mem_range.1 hi
      rw [show h - 1 - i + 1 = h + 1 - 1 - i by omega, show i + (h + 1) + 1 = i + (h + 1 + 1) by omega]
    rw [e2]
    simp only [List.map_cons, List.map_nil, List.sum_cons, List.sum_nil, show h + 1 - 1 - h = 0 by omega, show h + (h + 1 + 1) = 2 * h + 2 by ring]
    ring

theorem sum_range_even (f : Nat → ℝ) (h : Nat) : ((List.range (2 * h + 2)).map f).sum =
    f 0 + f (h + 1) + ((List.range h).map (fun i => f (h + 1 - 1 - i) + f (i + (h + 1 + 1)))).sum := by
  rw [show 2 * h + 2 = (2 * h + 1) + 1 by ring, List.range_succ_eq_map, List.map_cons, List.sum_cons, List.map_map]
  have := sum_range_mirror (fun i => f (i + 1)) h
  simp only [Function.comp_def, Nat.succ_eq_add_one]
  rw [this, show (List.range h).map (fun i => f (h - 1 - i + 1) + f (i + (h + 1) + 1)) =
        (List.range h).map (fun i => f (h + 1 - 1 - i) + f (i + (h + 1 + 1))) from List.map_congr_left (fun i hi => by
      have := List.mem_range.1 hi
      rw [show h - 1 - i + 1 = h + 1 - 1 - i by omega, show i + (h + 1) + 1 = i + (h + 1 + 1) by omega])]
  ring

/-- C142, approximate window functions. `W` is the matrix read before folding, `mirrorBlock W` the one read afterwards
(`C143_fold_reads`), `P` a power that is the same at opposite delays. Wanted: the folded row predicts the mean of the predictions of
the rows of the two opposite delays. Proved instead, for every `W`: it predicts HALF of that mean, less the share of delay
zero (and of the most negative delay, when the number of delays is even).
Missing: the claim itself is false of the code (`C142_counterexample`): grouping.py L1483 and L1567 have 0.25 for 0.5. -/
theorem C142_approx_half_partial (W : List (List ℝ)) (hsq : ∀ r ∈ W, r.length = W.length) (P : Nat → ℝ)
    (hP : ∀ i < npos W.length, P (W.length / 2 - 1 - i) = P (W.length / 2 + 1 + i)) (d : Nat) (hd : d < npos W.length) :
    (predicts (W.getD (W.length / 2 - 1 - d) []) P + predicts (W.getD (W.length / 2 + 1 + d) []) P) / 2 =
      2 * predicts ((mirrorBlock W).getD d []) (fun e => P (W.length / 2 + 1 + e)) +
      ((W.getD (W.length / 2 - 1 - d) []).getD (W.length / 2) 0 + (W.getD (W.length / 2 + 1 + d) []).getD (W.length / 2) 0) / 2 * P (W.length / 2) +
      (if W.length % 2 = 0 then ((W.getD (W.length / 2 - 1 - d) []).getD 0 0 + (W.getD (W.length / 2 + 1 + d) []).getD 0 0) / 2 * P 0 else 0) := by
  have hlen : ∀ k < W.length, (W.getD k []).length = W.length := by
    intro k hk
    rw [List.getD_eq_getElem?_getD, List.getElem?_eq_getElem hk]
    exact hsq _ (List.getElem_mem hk)
  unfold mirrorBlock
  rw [getD_range_map _ _ _ _ hd]
  unfold predicts
  have hd' := hd
  unfold npos at hd'
  rw [hlen _ (by omega), hlen _ (by omega)]
  generalize W.getD (W.length / 2 - 1 - d) [] = A at *
  generalize W.getD (W.length / 2 + 1 + d) [] = B at *
  simp only [List.length_map, List.length_range]
  rw [← List.sum_map_add]
  have key : ((List.range (npos W.length)).map (fun i => (A.getD (W.length / 2 - 1 - i) 0 * P (W.length / 2 - 1 - i) + B.getD (W.length / 2 - 1 - i) 0 * P (W.length / 2 - 1 - i)) +
      (A.getD (i + (W.length / 2 + 1)) 0 * P (i + (W.length / 2 + 1)) + B.getD (i + (W.length / 2 + 1)) 0 * P (i + (W.length / 2 + 1))))).sum =
      4 * ((List.range (npos W.length)).map (fun e => ((List.range (npos W.length)).map (fun e =>
        (A.getD (W.length / 2 - 1 - e) 0 + A.getD (W.length / 2 + 1 + e) 0 + B.getD (W.length / 2 - 1 - e) 0 + B.getD (W.length / 2 + 1 + e) 0) / 4)).getD e 0 *
          P (W.length / 2 + 1 + e))).sum := by
    rw [← List.sum_map_mul_left]
    refine congrArg _ (List.map_congr_left (fun i hi => ?_))
    have hi := List.mem_range.1 hi
    rw [getD_range_map _ _ _ _ hi, hP i hi, Nat.add_comm i]
    ring
  rcases Nat.even_or_odd' W.length with ⟨h, hh | hh⟩
  · obtain ⟨k, rfl⟩ : ∃ k, h = k + 1 := ⟨h - 1, by omega⟩
    have e1 : W.length / 2 = k + 1 := by omega
    have e2 : npos W.length = k := by unfold npos; omega
    rw [if_pos (by omega)]
    rw [e1, e2] at key ⊢
    rw [show W.length = 2 * k + 2 by omega, sum_range_even, key]
    ring
  · have e1 : W.length / 2 = h := by omega
    have e2 : npos W.length = h := by unfold npos; omega
    rw [if_neg (by omega)]
    rw [e1, e2] at key ⊢
    rw [hh, sum_range_mirror, key]
    ring

/-- C142 is false for approximate window functions: for five delays and perfectly localised windows (the identity), the folded
window of the first positive delay predicts half the (constant) power that is there. -/
theorem C142_counterexample :
    let W : List (List ℝ) := [[1, 0, 0, 0, 0], [0, 1, 0, 0, 0], [0, 0, 1, 0, 0], [0, 0, 0, 1, 0], [0, 0, 0, 0, 1]]
    (∀ d < 5, predicts (W.getD d []) (fun _ => 1) = 1) ∧ predicts ((mirrorBlock W).getD 0 []) (fun _ => 1) = 1 / 2 := by
  refine ⟨?_, ?_⟩
  · intro d hd
    interval_cases d <;> norm_num [predicts, List.range_succ]
  · norm_num [predicts, mirrorBlock, npos, List.range_succ]

end HeraPspec.FoldAvg
