import Verif.Model.PlotWedge
import Mathlib.Data.List.GetD
import Mathlib.Data.List.Sort
import Mathlib.Tactic.Linarith
import Mathlib.Tactic.NormNum
import Mathlib.Tactic.Push

/-!
C127: in a wedge plot every averaged baseline-pair is drawn at its own separation and every delay at its own place, in the requested component.
-/
namespace HeraPspec.PlotWedge

/-! ### Specification -/

/-- Position `x` lies within cell `i` of a list of cell edges. -/
def Covers (e : List ℝ) (i : ℕ) (x : ℝ) : Prop := i + 1 < e.length ∧ e.getD i 0 ≤ x ∧ x ≤ e.getD (i + 1) 0

/-- The edges along the baseline axis. -/
def blEdges (a : Args) (m : Mesh) : List ℝ := if a.rotate then m.xEdges else m.yEdges

/-- The edges along the delay axis. -/
def dlyEdges (a : Args) (m : Mesh) : List ℝ := if a.rotate then m.yEdges else m.xEdges

/-- The colour of the cell in baseline place `i` and delay place `d`; rows of the matrix run along the vertical axis. -/
def colour (a : Args) (m : Mesh) (i d : ℕ) : ℝ := if a.rotate then (m.vals.getD d []).getD i 0 else (m.vals.getD i []).getD d 0

/-- The component by name. -/
def Shows : Component → ℂ → ℝ → Prop
  | .real, z, v => v = z.re
  | .imag, z, v => v = z.im
  | .absReal, z, v => 0 ≤ v ∧ v ^ 2 = z.re ^ 2
  | .absImag, z, v => 0 ≤ v ∧ v ^ 2 = z.im ^ 2
  | .abs, z, v => 0 ≤ v ∧ v ^ 2 = z.re ^ 2 + z.im ^ 2

theorem comp_shows (c : Component) (z : ℂ) : Shows c z (comp c z) := by
  cases c
  · rfl
  · exact ⟨abs_nonneg _, sq_abs _⟩
  · rfl
  · exact ⟨abs_nonneg _, sq_abs _⟩
  · refine ⟨norm_nonneg _, ?_⟩
    show ‖z‖ ^ 2 = _
    rw [Complex.sq_norm, Complex.normSq_apply]; ring

/-! ### Edges -/

theorem diff_length (x : List ℝ) : (diff x).length = x.length - 1 := by simp [diff]

theorem diff_get (x : List ℝ) (i : ℕ) (hi : i + 1 < x.length) : (diff x)[i]? = some (x.getD (i + 1) 0 - x.getD i 0) := by
  unfold diff
  rw [List.getElem?_zipWith, List.getElem?_tail, List.getElem?_eq_getElem (by omega : i < x.length), List.getElem?_eq_getElem hi,
    List.getD_eq_getElem _ _ hi, List.getD_eq_getElem _ _ (by omega : i < x.length)]

theorem edges_length (x : List ℝ) (h : 1 ≤ x.length) : (edges x).length = x.length + 1 := by
  simp [edges, diff_length]; omega

theorem edges_first (x : List ℝ) (h : 2 ≤ x.length) : (edges x).getD 0 0 = x.getD 0 0 - (x.getD 1 0 - x.getD 0 0) / 2 := by
  have hd : (diff x).headD 0 = x.getD 1 0 - x.getD 0 0 := by
    rw [List.headD_eq_head?_getD, List.head?_eq_getElem?, diff_get x 0 (by omega)]; rfl
  unfold edges
  simp only [List.cons_append, List.nil_append, List.getD_cons_zero, hd]
  congr 1
  cases x with
  | nil => simp at h
  | cons a l => rfl

theorem edges_mid (x : List ℝ) (i : ℕ) (hi : i + 1 < x.length) : (edges x).getD (i + 1) 0 = x.getD i 0 + (x.getD (i + 1) 0 - x.getD i 0) / 2 := by
  unfold edges
  simp only [List.cons_append, List.nil_append, List.getD_cons_succ]
  rw [List.getD_append _ _ _ _ (by simp [diff_length]; omega), List.getD_eq_getElem?_getD, List.getElem?_zipWith, diff_get x i hi,
    List.getElem?_dropLast, if_pos (by omega), List.getElem?_eq_getElem (by omega : i < x.length), List.getD_eq_getElem _ _ (by omega : i < x.length)]
  rfl

theorem edges_last (x : List ℝ) (h : 2 ≤ x.length) : (edges x).getD x.length 0
    = x.getD (x.length - 1) 0 + (x.getD (x.length - 1) 0 - x.getD (x.length - 2) 0) / 2 := by
  have hne : x ≠ [] := by rintro rfl; simp at h
  have hdl := diff_length x
  have hd : (diff x).getLastD 0 = x.getD (x.length - 1) 0 - x.getD (x.length - 2) 0 := by
    rw [List.getLastD_eq_getLast?, List.getLast?_eq_getElem?, hdl]
    rw [diff_get x (x.length - 1 - 1) (by omega)]
    simp only [Option.getD_some]
    congr 2; congr 1; omega
  have hl : x.getLastD 0 = x.getD (x.length - 1) 0 := by
    rw [List.getLastD_eq_getLast?, List.getLast?_eq_getElem?, List.getD_eq_getElem?_getD]
  unfold edges
  rw [hd, hl, List.getD_append_right _ _ _ _ (by simp [diff_length]; omega)]
  have : x.length - ([x.headD 0 - (diff x).headD 0 / 2] ++ List.zipWith (fun a d => a + d / 2) x.dropLast (diff x)).length = 0 := by
    simp [diff_length]; omega
  rw [this]; rfl

theorem mono_get {x : List ℝ} (hx : x.Pairwise (· ≤ ·)) {i j : ℕ} (h : i ≤ j) (hj : j < x.length) : x.getD i 0 ≤ x.getD j 0 := by
  rw [List.getD_eq_getElem _ _ hj, List.getD_eq_getElem _ _ (by omega : i < x.length)]
  rcases h.eq_or_lt with rfl | h
  · exact le_refl _
  · exact List.pairwise_iff_getElem.1 hx _ _ _ _ h

theorem edges_cover {x : List ℝ} (hx : x.Pairwise (· ≤ ·)) (h : 2 ≤ x.length) (i : ℕ) (hi : i < x.length) : Covers (edges x) i (x.getD i 0) := by
  refine ⟨by rw [edges_length x (by omega)]; omega, ?_, ?_⟩
  · cases i with
    | zero =>
      rw [edges_first x h]
      have := mono_get hx (show 0 ≤ 1 by omega) (by omega)
      linarith
    | succ i =>
      rw [edges_mid x i hi]
      have := mono_get hx (show i ≤ i + 1 by omega) hi
      linarith
  · by_cases hl : i + 1 < x.length
    · rw [edges_mid x i hl]
      have := mono_get hx (show i ≤ i + 1 by omega) hl
      linarith
    · have e : i + 1 = x.length := by omega
      rw [e, edges_last x h]
      have e2 : x.length - 1 = i := by omega
      have := mono_get hx (show x.length - 2 ≤ i by omega) hi
      rw [e2]
      linarith

/-! ### Sorting -/

theorem argsort_perm (x : List ℝ) : (argsort x).Perm (List.range x.length) := pySorted_perm _ _

theorem argsort_length (x : List ℝ) : (argsort x).length = x.length := by rw [(argsort_perm x).length_eq]; simp

theorem argsort_lt (x : List ℝ) (i : ℕ) (hi : i ∈ argsort x) : i < x.length := by
  simpa using (argsort_perm x).mem_iff.1 hi

theorem sortedSeps_length (rows : List Row) : (sortedSeps rows).length = rows.length := by simp [sortedSeps, argsort_length]

theorem sortedSeps_sorted (rows : List Row) : (sortedSeps rows).Pairwise (· ≤ ·) := by
  unfold sortedSeps
  rw [List.pairwise_map]
  have := pySorted_pairwise (le := fun i j => open Classical in decide ((rows.map (·.sep)).getD i 0 ≤ (rows.map (·.sep)).getD j 0))
    (by intro a b c; simp only [decide_eq_true_eq]; exact le_trans)
    (by intro a b; simp only [Bool.or_eq_true, decide_eq_true_eq]; exact le_total _ _) (List.range (rows.map (·.sep)).length)
  exact this.imp (fun h => by simpa using h)

theorem sortedSeps_perm (rows : List Row) : (sortedSeps rows).Perm (rows.map (·.sep)) := by
  unfold sortedSeps
  refine ((argsort_perm _).map _).trans ?_
  have : (List.range (rows.map (·.sep)).length).map (fun i => (rows.map (·.sep)).getD i 0) = rows.map (·.sep) := by
    apply List.ext_getElem
    · simp
    · intro i h1 h2
      rw [List.getElem_map, List.getElem_range, List.getD_eq_getElem _ _ h2]
  rw [this]

/-- Row number `k` of the object is found at some place of the sorted rows, with its separation and its data. -/
theorem place (rows : List Row) (huniq : (rows.map (·.blp)).Nodup) (r : Row) (hr : r ∈ rows) :
    ∃ i < rows.length, (sortedSeps rows).getD i 0 = r.sep ∧ ∀ c, (matrix c rows).getD i [] = r.spec.map (comp c) := by
  obtain ⟨k, hk, rfl⟩ := List.mem_iff_getElem.1 hr
  have hmem : k ∈ argsort (rows.map (·.sep)) := (argsort_perm _).mem_iff.2 (by simpa using hk)
  obtain ⟨i, hi, hik⟩ := List.mem_iff_getElem.1 hmem
  have hi' : i < rows.length := by rw [argsort_length] at hi; simpa using hi
  refine ⟨i, hi', ?_, fun c => ?_⟩
  · rw [List.getD_eq_getElem _ _ (by rw [sortedSeps_length]; exact hi')]
    unfold sortedSeps
    rw [List.getElem_map, hik, List.getD_eq_getElem _ _ (by simpa using hk), List.getElem_map]
  · have hb : (sortedBlps rows)[i]'(by unfold sortedBlps; simpa using hi) = rows[k].blp := by
      unfold sortedBlps
      rw [List.getElem_map, hik, List.getD_eq_getElem _ _ (by simpa using hk), List.getElem_map]
    have hg : getData rows rows[k].blp = rows[k].spec := by
      unfold getData
      cases hf : rows.find? (fun s => decide (s.blp = rows[k].blp)) with
      | none =>
        have := List.find?_eq_none.1 hf _ hr
        simp at this
      | some s =>
        have h1 : s.blp = rows[k].blp := by simpa using List.find?_some hf
        have h2 : s = rows[k] := List.inj_on_of_nodup_map huniq (List.mem_of_find?_eq_some hf) hr h1
        rw [h2]; rfl
    unfold matrix
    rw [List.getD_eq_getElem _ _ (by rw [List.length_map]; unfold sortedBlps; simpa using hi), List.getElem_map, hb, hg]

/-! ### Rotation -/

/-- Flipping the columns and turning by 90 degrees is the transpose. -/
theorem rot_get (m : List (List ℝ)) (n : ℕ) (hm : m ≠ []) (hn : ∀ r ∈ m, r.length = n) (i d : ℕ) (hi : i < m.length) (hd : d < n) :
    ((rot90 (flipCols m)).getD d []).getD i 0 = (m.getD i []).getD d 0 := by
  have hh : ((flipCols m).headD []).length = n := by
    cases m with
    | nil => exact absurd rfl hm
    | cons r m => simp only [flipCols, List.map_cons, List.headD_cons, List.length_reverse]; exact hn r List.mem_cons_self
  unfold rot90
  have e : ((List.range n).map (fun i => (flipCols m).map (fun r => r.getD (n - 1 - i) 0))).getD d [] = (flipCols m).map (fun r => r.getD (n - 1 - d) 0) := by
    rw [List.getD_eq_getElem _ _ (by simpa using hd), List.getElem_map, List.getElem_range]
  rw [hh, e]
  have hl : i < ((flipCols m).map (fun r => r.getD (n - 1 - d) 0)).length := by simpa [flipCols] using hi
  rw [List.getD_eq_getElem _ _ hl, List.getElem_map]
  unfold flipCols
  rw [List.getElem_map, List.getD_eq_getElem m _ hi]
  have hr := hn _ (List.getElem_mem hi)
  rw [List.getD_eq_getElem _ _ (by rw [List.length_reverse, hr]; omega), List.getElem_reverse, List.getD_eq_getElem _ _ (by rw [hr]; exact hd)]
  congr 1; omega

theorem fixNeg_get (m : List (List ℝ)) (i d : ℕ) : ((fixNeg m).getD i []).getD d 0
    = if (m.getD i []).getD d 0 < 0 then minAbs m * (1 / 10 ^ 6) + 1 / 10 ^ 10 else (m.getD i []).getD d 0 := by
  unfold fixNeg
  set F := fun x : ℝ => if x < 0 then minAbs m * (1 / 10 ^ 6) + 1 / 10 ^ 10 else x with hF
  have e1 : (m.map (fun r => r.map F)).getD i [] = (m.getD i []).map F := by
    have := List.getD_map (l := m) (d := []) (n := i) (fun r : List ℝ => r.map F)
    exact this
  have e2 : ((m.getD i []).map F).getD d 0 = F ((m.getD i []).getD d 0) := by
    have := List.getD_map (l := m.getD i []) (d := 0) (n := d) F
    rw [← this]; simp [hF]
  rw [e1, e2]

theorem matrix_rows (c : Component) (rows : List Row) (n : ℕ) (huniq : (rows.map (·.blp)).Nodup) (hs : ∀ r ∈ rows, r.spec.length = n) :
    (matrix c rows).length = rows.length ∧ ∀ r ∈ matrix c rows, r.length = n := by
  constructor
  · simp [matrix, sortedBlps, argsort_length]
  · intro v hv
    obtain ⟨b, hb, rfl⟩ := List.mem_map.1 hv
    rw [List.length_map]
    unfold sortedBlps at hb
    obtain ⟨k, hk, rfl⟩ := List.mem_map.1 hb
    have hk' : k < rows.length := by simpa using argsort_lt _ _ hk
    rw [List.getD_eq_getElem _ _ (by simpa using hk'), List.getElem_map]
    unfold getData
    cases hf : rows.find? (fun s => decide (s.blp = rows[k].blp)) with
    | none =>
      have := List.find?_eq_none.1 hf _ (List.getElem_mem hk')
      simp at this
    | some s => exact hs s (List.mem_of_find?_eq_some hf)

theorem colours_shape (a : Args) (rows : List Row) (n : ℕ) (huniq : (rows.map (·.blp)).Nodup) (hs : ∀ r ∈ rows, r.spec.length = n) :
    (colours a rows).length = rows.length ∧ ∀ r ∈ colours a rows, r.length = n := by
  have := matrix_rows a.component rows n huniq hs
  unfold colours
  split
  · constructor
    · simp [fixNeg, this.1]
    · intro r hr
      obtain ⟨q, hq, rfl⟩ := List.mem_map.1 hr
      rw [List.length_map]; exact this.2 q hq
  · exact this

/-- The general statement: `g` turns separations into positions. -/
theorem cells (a : Args) (rows : List Row) (g : ℝ → ℝ) (hg : Monotone g) (hax : blAxis a rows = (sortedSeps rows).map g)
    (hx : (dlyAxis a).Pairwise (· ≤ ·)) (h2 : 2 ≤ rows.length) (hn : 2 ≤ a.dlys.length) (huniq : (rows.map (·.blp)).Nodup)
    (hs : ∀ r ∈ rows, r.spec.length = a.dlys.length) :
    ∃ m, wedge a rows = .ok m ∧ ∀ r ∈ rows, ∃ i < rows.length, Covers (blEdges a m) i (g r.sep) ∧
      ∀ d < a.dlys.length, Covers (dlyEdges a m) d ((dlyAxis a).getD d 0) ∧
        colour a m i d = if needsFix a.component a.log10 = true ∧ comp a.component (r.spec.getD d 0) < 0
          then minAbs (matrix a.component rows) * (1 / 10 ^ 6) + 1 / 10 ^ 10 else comp a.component (r.spec.getD d 0) := by
  have hbl : (blAxis a rows).length = rows.length := by rw [hax, List.length_map, sortedSeps_length]
  have hdl : (dlyAxis a).length = a.dlys.length := by unfold dlyAxis; split <;> simp
  have hbs : (blAxis a rows).Pairwise (· ≤ ·) := by
    rw [hax, List.pairwise_map]
    exact (sortedSeps_sorted rows).imp (fun h => hg h)
  have hshape := colours_shape a rows _ huniq hs
  have hne : colours a rows ≠ [] := by
    intro e; rw [e] at hshape; simp at hshape; omega
  have hval : ∀ r ∈ rows, ∃ i < rows.length, (sortedSeps rows).getD i 0 = r.sep ∧ ∀ d < a.dlys.length, ((colours a rows).getD i []).getD d 0
      = if needsFix a.component a.log10 = true ∧ comp a.component (r.spec.getD d 0) < 0
          then minAbs (matrix a.component rows) * (1 / 10 ^ 6) + 1 / 10 ^ 10 else comp a.component (r.spec.getD d 0) := by
    intro r hr
    obtain ⟨i, hi, hsep, hm⟩ := place rows huniq r hr
    refine ⟨i, hi, hsep, fun d hd => ?_⟩
    have hv : ((matrix a.component rows).getD i []).getD d 0 = comp a.component (r.spec.getD d 0) := by
      rw [hm, List.getD_eq_getElem _ _ (by rw [List.length_map, hs r hr]; exact hd), List.getElem_map, List.getD_eq_getElem _ _ (by rw [hs r hr]; exact hd)]
    unfold colours
    by_cases hf : needsFix a.component a.log10 = true
    · rw [if_pos hf, fixNeg_get, hv]
      simp [hf]
    · rw [if_neg hf, hv]
      simp [hf]
  have hcov : ∀ i < rows.length, Covers (edges (blAxis a rows)) i (g ((sortedSeps rows).getD i 0)) := by
    intro i hi
    have := edges_cover hbs (by omega) i (by omega)
    rw [hax, List.getD_eq_getElem _ _ (by rw [List.length_map, sortedSeps_length]; exact hi), List.getElem_map] at this
    rw [List.getD_eq_getElem _ _ (by rw [sortedSeps_length]; exact hi)]
    rw [hax]; exact this
  have hcovd : ∀ d < a.dlys.length, Covers (edges (dlyAxis a)) d ((dlyAxis a).getD d 0) := fun d hd => edges_cover hx (by omega) d (by omega)
  unfold wedge
  rw [if_neg (by omega), if_neg (by omega)]
  refine ⟨_, rfl, fun r hr => ?_⟩
  obtain ⟨i, hi, hsep, hc⟩ := hval r hr
  refine ⟨i, hi, ?_, fun d hd => ⟨?_, ?_⟩⟩
  · unfold blEdges
    by_cases hrot : a.rotate = true
    · simp only [hrot, if_true]; rw [← hsep]; exact hcov i hi
    · simp only [hrot]; rw [← hsep]; exact hcov i hi
  · unfold dlyEdges
    by_cases hrot : a.rotate = true
    · simp only [hrot, if_true]; exact hcovd d hd
    · simp only [hrot]; exact hcovd d hd
  · unfold colour
    by_cases hrot : a.rotate = true
    · simp only [hrot, if_true]
      rw [rot_get _ _ hne hshape.2 i d (by rw [hshape.1]; exact hi) hd]
      exact hc d hd
    · simp only [hrot]
      exact hc d hd

/-! ### C127 -/

/-- Missing: in cosmological units this needs the averaged object to list its baseline-pairs by separation (`C127_cosmological_partial`,
`C127_counterexample_kperp_order`), and `blpairs` alone selects nothing (`C127_finding_blpairs_ignored`).

Delay units: every averaged baseline-pair has a place along the baseline axis whose cells enclose its separation, the cells of place `d` along the delay axis
enclose the delay number `d` in ns, and the colour there is the requested component of the baseline-pair's spectrum at that delay (with a logarithmic scale,
negative real or imaginary parts excepted), whether or not the plot is rotated. -/
theorem C127_delay_partial (a : Args) (rows : List Row) (hdelay : a.delay = true) (hasc : a.dlys.Pairwise (· < ·)) (h2 : 2 ≤ rows.length)
    (hn : 2 ≤ a.dlys.length) (huniq : (rows.map (·.blp)).Nodup) (hs : ∀ r ∈ rows, r.spec.length = a.dlys.length) :
    ∃ m, wedge a rows = .ok m ∧ (blEdges a m).length = rows.length + 1 ∧ (dlyEdges a m).length = a.dlys.length + 1 ∧
      ∀ r ∈ rows, ∃ i, Covers (blEdges a m) i r.sep ∧
      ∀ d < a.dlys.length, Covers (dlyEdges a m) d (a.dlys.getD d 0 * 10 ^ 9) ∧
        ((a.log10 = false ∨ 0 ≤ comp a.component (r.spec.getD d 0)) → Shows a.component (r.spec.getD d 0) (colour a m i d)) := by
  have hax : blAxis a rows = (sortedSeps rows).map id := by rw [List.map_id]; unfold blAxis; rw [if_pos hdelay]
  have hda : dlyAxis a = a.dlys.map (fun t => t * 10 ^ 9) := by unfold dlyAxis; rw [if_pos hdelay]
  have hx : (dlyAxis a).Pairwise (· ≤ ·) := by
    rw [hda, List.pairwise_map]
    exact hasc.imp (fun h => by nlinarith)
  obtain ⟨m, hm, hcell⟩ := cells a rows id monotone_id hax hx h2 hn huniq hs
  have hl : (blEdges a m).length = rows.length + 1 ∧ (dlyEdges a m).length = a.dlys.length + 1 := by
    unfold wedge at hm
    rw [if_neg (by omega), if_neg (by omega)] at hm
    have hm := Except.ok.inj hm
    have l1 : (edges (blAxis a rows)).length = rows.length + 1 := by
      rw [hax, edges_length _ (by rw [List.length_map, sortedSeps_length]; omega), List.length_map, sortedSeps_length]
    have l2 : (edges (dlyAxis a)).length = a.dlys.length + 1 := by
      rw [hda, edges_length _ (by rw [List.length_map]; omega), List.length_map]
    unfold blEdges dlyEdges
    by_cases hrot : a.rotate = true
    · simp only [hrot, if_true] at hm ⊢
      rw [← hm]; exact ⟨l1, l2⟩
    · simp only [hrot] at hm ⊢
      rw [← hm]; exact ⟨l1, l2⟩
  refine ⟨m, hm, hl.1, hl.2, fun r hr => ?_⟩
  obtain ⟨i, _, hc, hrest⟩ := hcell r hr
  refine ⟨i, hc, fun d hd => ⟨?_, fun hpos => ?_⟩⟩
  · have := (hrest d hd).1
    rw [hda, List.getD_eq_getElem _ _ (by rw [List.length_map]; exact hd), List.getElem_map] at this
    rw [List.getD_eq_getElem _ _ hd]; exact this
  · rw [(hrest d hd).2, if_neg]
    · exact comp_shows _ _
    · rintro ⟨hf, hneg⟩
      rcases hpos with h | h
      · rw [needsFix, h, Bool.and_false] at hf; cases hf
      · exact absurd hneg (not_lt.2 h)

/-- Cosmological units, for an averaged object which lists its baseline-pairs by increasing separation: as for delays, with k_perp and k_parallel. Missing: other
orders (`C127_counterexample_kperp_order`). -/
theorem C127_cosmological_partial (a : Args) (rows : List Row) (hdelay : a.delay = false) (hb : 0 < a.blToK) (ht : 0 < a.tauToK)
    (hord : rows.Pairwise (fun r s => r.sep ≤ s.sep)) (hasc : a.dlys.Pairwise (· < ·)) (h2 : 2 ≤ rows.length)
    (hn : 2 ≤ a.dlys.length) (huniq : (rows.map (·.blp)).Nodup) (hs : ∀ r ∈ rows, r.spec.length = a.dlys.length) :
    ∃ m, wedge a rows = .ok m ∧ ∀ r ∈ rows, ∃ i, Covers (blEdges a m) i (r.sep * a.blToK) ∧
      ∀ d < a.dlys.length, Covers (dlyEdges a m) d (a.dlys.getD d 0 * a.tauToK) ∧
        ((a.log10 = false ∨ 0 ≤ comp a.component (r.spec.getD d 0)) → Shows a.component (r.spec.getD d 0) (colour a m i d)) := by
  have hsort : sortedSeps rows = rows.map (·.sep) := by
    refine (sortedSeps_perm rows).eq_of_pairwise (fun x y _ _ h1 h2 => le_antisymm h1 h2) (sortedSeps_sorted rows) ?_
    rw [List.pairwise_map]; exact hord
  have hax : blAxis a rows = (sortedSeps rows).map (fun s => s * a.blToK) := by
    rw [hsort, List.map_map]; unfold blAxis; simp [hdelay, Function.comp_def]
  have hda : dlyAxis a = a.dlys.map (fun t => t * a.tauToK) := by unfold dlyAxis; simp [hdelay]
  have hx : (dlyAxis a).Pairwise (· ≤ ·) := by
    rw [hda, List.pairwise_map]
    exact hasc.imp (fun h => mul_le_mul_of_nonneg_right h.le ht.le)
  obtain ⟨m, hm, hcell⟩ := cells a rows (fun s => s * a.blToK) (fun x y h => mul_le_mul_of_nonneg_right h hb.le) hax hx h2 hn huniq hs
  refine ⟨m, hm, fun r hr => ?_⟩
  obtain ⟨i, _, hc, hrest⟩ := hcell r hr
  refine ⟨i, hc, fun d hd => ⟨?_, fun hpos => ?_⟩⟩
  · have := (hrest d hd).1
    rw [hda, List.getD_eq_getElem _ _ (by rw [List.length_map]; exact hd), List.getElem_map] at this
    rw [List.getD_eq_getElem _ _ hd]; exact this
  · rw [(hrest d hd).2, if_neg]
    · exact comp_shows _ _
    · rintro ⟨hf, hneg⟩
      rcases hpos with h | h
      · rw [needsFix, h, Bool.and_false] at hf; cases hf
      · exact absurd hneg (not_lt.2 h)

/-- Fewer than two averaged baseline-pairs are refused. -/
theorem C127_needs_two (a : Args) (rows : List Row) (h : rows.length < 2) : wedge a rows = .error .value := by
  unfold wedge; rw [if_pos h]

/-- The horizon line of a baseline-pair spans its own cells, at its light travel time in ns, in delay units. -/
theorem C127_horizon (a : Args) (rows : List Row) (hdelay : a.delay = true) (h2 : 2 ≤ rows.length) (hn : 2 ≤ a.dlys.length)
    (huniq : (rows.map (·.blp)).Nodup) : ∃ m, wedge a rows = .ok m ∧ m.horizons.length = rows.length ∧
      ∀ r ∈ rows, ∃ i lo hi, m.horizons[i]? = some (r.sep / a.c * 10 ^ 9, lo, hi) ∧ lo = (blEdges a m).getD i 0 ∧ hi = (blEdges a m).getD (i + 1) 0 ∧
        Covers (blEdges a m) i r.sep := by
  have hax : blAxis a rows = sortedSeps rows := by unfold blAxis; rw [if_pos hdelay]
  have hed : ∀ m, wedge a rows = .ok m → blEdges a m = edges (sortedSeps rows) ∧ m.horizons = horizonLines a rows (edges (sortedSeps rows)) := by
    intro m hm
    unfold wedge at hm
    rw [if_neg (by omega), if_neg (by omega), hax] at hm
    have hm := Except.ok.inj hm
    unfold blEdges
    by_cases hrot : a.rotate = true
    · simp only [hrot, if_true] at hm ⊢
      rw [← hm]; exact ⟨rfl, rfl⟩
    · simp only [hrot] at hm ⊢
      rw [← hm]; exact ⟨rfl, rfl⟩
  obtain ⟨m, hm⟩ : ∃ m, wedge a rows = .ok m := by
    unfold wedge
    rw [if_neg (by omega), if_neg (by omega)]
    exact ⟨_, rfl⟩
  obtain ⟨e1, e2⟩ := hed m hm
  refine ⟨m, hm, by rw [e2]; simp [horizonLines], fun r hr => ?_⟩
  obtain ⟨i, hi, hsep, _⟩ := place rows huniq r hr
  refine ⟨i, _, _, ?_, rfl, rfl, ?_⟩
  · rw [e1, e2]
    unfold horizonLines
    rw [List.getElem?_map, List.getElem?_range hi]
    simp only [Option.map_some, hsep]
    unfold horizon
    rw [if_pos hdelay]
  · rw [e1, ← hsep]
    exact edges_cover (sortedSeps_sorted rows) (by rw [sortedSeps_length]; exact h2) i (by rw [sortedSeps_length]; exact hi)

/-- In cosmological units: the line is at the k_parallel of the light travel time, over the cells of the baseline-pair's own k_perp, when the averaged object lists its
baseline-pairs by increasing separation. Missing: other orders (`C127_counterexample_kperp_order`). -/
theorem C127_horizon_cosmological_partial (a : Args) (rows : List Row) (hdelay : a.delay = false) (hb : 0 < a.blToK) (hord : rows.Pairwise (fun r s => r.sep ≤ s.sep))
    (h2 : 2 ≤ rows.length) (hn : 2 ≤ a.dlys.length) (huniq : (rows.map (·.blp)).Nodup) : ∃ m, wedge a rows = .ok m ∧ m.horizons.length = rows.length ∧
      ∀ r ∈ rows, ∃ i lo hi, m.horizons[i]? = some (r.sep / a.c * a.tauToK, lo, hi) ∧ lo = (blEdges a m).getD i 0 ∧ hi = (blEdges a m).getD (i + 1) 0 ∧
        Covers (blEdges a m) i (r.sep * a.blToK) := by
  have hsort : sortedSeps rows = rows.map (·.sep) := by
    refine (sortedSeps_perm rows).eq_of_pairwise (fun x y _ _ h1 h2 => le_antisymm h1 h2) (sortedSeps_sorted rows) ?_
    rw [List.pairwise_map]; exact hord
  have hax : blAxis a rows = (sortedSeps rows).map (fun s => s * a.blToK) := by
    rw [hsort, List.map_map]; unfold blAxis; simp [hdelay, Function.comp_def]
  obtain ⟨m, hm, e1, e2⟩ : ∃ m, wedge a rows = .ok m ∧ blEdges a m = edges (blAxis a rows) ∧ m.horizons = horizonLines a rows (edges (blAxis a rows)) := by
    unfold wedge
    rw [if_neg (by omega), if_neg (by omega)]
    refine ⟨_, rfl, ?_, ?_⟩
    · unfold blEdges; by_cases hrot : a.rotate = true <;> simp [hrot]
    · by_cases hrot : a.rotate = true <;> simp [hrot]
  refine ⟨m, hm, by rw [e2]; simp [horizonLines], fun r hr => ?_⟩
  obtain ⟨i, hi, hsep, _⟩ := place rows huniq r hr
  refine ⟨i, _, _, ?_, rfl, rfl, ?_⟩
  · rw [e1, e2]
    unfold horizonLines
    rw [List.getElem?_map, List.getElem?_range hi]
    simp only [Option.map_some, hsep]
    unfold horizon
    simp only [hdelay]
    congr 2
    simp only [Bool.false_eq_true, if_false]
    ring
  · have hl : i < (blAxis a rows).length := by rw [hax, List.length_map, sortedSeps_length]; exact hi
    have hv : (blAxis a rows).getD i 0 = r.sep * a.blToK := by
      rw [← hsep, List.getD_eq_getElem _ _ hl]
      simp only [hax, List.getElem_map]
      rw [List.getD_eq_getElem _ _ (by rw [sortedSeps_length]; exact hi)]
    rw [e1, ← hv]
    refine edges_cover ?_ (by rw [hax, List.length_map, sortedSeps_length]; exact h2) i hl
    rw [hax, List.pairwise_map]
    exact (sortedSeps_sorted rows).imp (fun h => mul_le_mul_of_nonneg_right h hb.le)

/-- The requested times and baseline-pairs are those used, if times are given. -/
theorem C127_selection (avg : Bool → List Raw → List Row) (a : Args) (b : List ℕ) (ts : List ℝ) (rows : List Raw) :
    ∃ used : List Raw, delayWedge avg a (some b) (some ts) rows = wedge a (avg (a.deltasq && !a.delay) used) ∧
      used.Sublist rows ∧ ∀ r, r ∈ used ↔ r ∈ rows ∧ r.time ∈ ts ∧ r.blp ∈ b := by
  refine ⟨pick (some b) (some ts) rows, rfl, List.filter_sublist, fun r => ?_⟩
  simp [pick]

/-- The `blpairs` argument is ignored unless times are given as well. -/
theorem C127_finding_blpairs_ignored (avg : Bool → List Raw → List Row) (a : Args) (b : Option (List ℕ)) (rows : List Raw) :
    delayWedge avg a b none rows = delayWedge avg a none none rows := rfl

/-- Delta^2 is ignored in delay units, as documented; but the colour bar still says Delta^2. -/
theorem C127_finding_deltasq_label (avg : Bool → List Raw → List Row) (a : Args) (hd : a.delay = true) (b : Option (List ℕ)) (ts : Option (List ℝ)) (rows : List Raw)
    (m : Mesh) (h : delayWedge avg { a with deltasq := true } b ts rows = .ok m) :
    m.saysDeltaSq = true ∧ ∃ m', delayWedge avg { a with deltasq := false } b ts rows = .ok m' ∧ m'.vals = m.vals ∧ m'.saysDeltaSq = false := by
  unfold delayWedge wedge at h ⊢
  simp only [hd, Bool.not_true, Bool.and_false] at h ⊢
  split at h
  · cases h
  rename_i h1
  split at h
  · cases h
  rename_i h2
  have h := (Except.ok.inj h)
  rw [if_neg h1, if_neg h2]
  by_cases hr : a.rotate = true
  · simp only [hr, if_true] at h ⊢
    rw [← h]
    exact ⟨rfl, _, rfl, rfl, rfl⟩
  · simp only [hr] at h ⊢
    rw [← h]
    exact ⟨rfl, _, rfl, rfl, rfl⟩

/-! ### Concrete cases -/

/-- Two baseline-pairs of 15.4 m and 14.6 m, in this order: the order in which `get_blvec_reds` (utils.py L1080-1085) lists two groups with tags `015_010` and
`015_020`, i.e. lengths that round to the same metre, if the tolerance is below 0.8 m. -/
noncomputable def exRows : List Row := [⟨1, 77 / 5, [1, 2]⟩, ⟨2, 73 / 5, [3, 4]⟩]

noncomputable def exArgs (delay rotate : Bool) : Args := ⟨delay, rotate, true, false, .absReal, [0, 1], 1, 1, 1⟩

/-- The hypotheses of the delay theorem are met. -/
example : ∃ m, wedge (exArgs true true) exRows = .ok m := by
  obtain ⟨m, h, _⟩ := C127_delay_partial (exArgs true true) exRows rfl (by simp [exArgs]) (by simp [exRows]) (by simp [exArgs]) (by simp [exRows])
    (by simp [exRows, exArgs])
  exact ⟨m, h⟩

/-- And those of the cosmological theorem, for the other order. -/
example : ∃ m, wedge (exArgs false true) exRows.reverse = .ok m := by
  obtain ⟨m, h, _⟩ := C127_cosmological_partial (exArgs false true) exRows.reverse rfl (by simp [exArgs]) (by simp [exArgs])
    (by simp [exRows]; norm_num) (by simp [exArgs]) (by simp [exRows]) (by simp [exArgs]) (by simp [exRows]) (by simp [exRows, exArgs])
  exact ⟨m, h⟩

theorem ex_argsort : argsort [77 / 5, 73 / 5] = [1, 0] := by
  unfold argsort
  simp only [List.length_cons, List.length_nil, List.range_succ, List.range_zero, List.nil_append, List.cons_append, pySorted, insertBy]
  norm_num

/-- In cosmological units the rows are sorted by separation but the k_perp axis is not: the spectrum of the 14.6 m pair is drawn at the k_perp of the 15.4 m
pair and vice versa. -/
theorem C127_counterexample_kperp_order : ∃ m, wedge (exArgs false false) exRows = .ok m ∧
    m.vals = [[3, 4], [1, 2]] ∧ m.yEdges = [77 / 5 + 2 / 5, 15, 73 / 5 - 2 / 5] := by
  have hs : sortedBlps exRows = [2, 1] := by
    unfold sortedBlps
    have : exRows.map (·.sep) = [77 / 5, 73 / 5] := rfl
    rw [this, ex_argsort]
    rfl
  refine ⟨_, rfl, ?_, ?_⟩
  · show colours (exArgs false false) exRows = _
    unfold colours matrix
    rw [hs]
    simp [exArgs, needsFix, getData, exRows, comp]
  · show edges (blAxis (exArgs false false) exRows) = _
    simp [edges, blAxis, exArgs, exRows, diff]
    norm_num

/-- With a logarithmic scale negative values are meant to be drawn below all others, but for data smaller than 1e-10 they are drawn above: spectra 1e-12 and -1e-12. -/
theorem C127_counterexample_negative : ∃ m lo hi, wedge { exArgs true false with component := .real }
    [⟨1, 14, [1 / 10 ^ 12, 1]⟩, ⟨2, 15, [-(1 / 10 ^ 12), 1]⟩] = .ok m ∧ m.logScale = true ∧
    (m.vals.getD 0 []).getD 0 0 = lo ∧ (m.vals.getD 1 []).getD 0 0 = hi ∧ lo = 1 / 10 ^ 12 ∧ lo < hi := by
  set rows : List Row := [⟨1, 14, [1 / 10 ^ 12, 1]⟩, ⟨2, 15, [-(1 / 10 ^ 12), 1]⟩] with hrows
  have hs : sortedBlps rows = [1, 2] := by
    unfold sortedBlps
    have : rows.map (·.sep) = [14, 15] := rfl
    have ha : argsort [14, 15] = [0, 1] := by
      unfold argsort
      simp only [List.length_cons, List.length_nil, List.range_succ, List.range_zero, List.nil_append, List.cons_append, pySorted, insertBy]
      norm_num
    rw [this, ha]; rfl
  have hm : matrix .real rows = [[1 / 10 ^ 12, 1], [-(1 / 10 ^ 12), 1]] := by
    unfold matrix
    rw [hs]
    have h12 : ((1 : ℂ) / 10 ^ 12).re = 1 / 10 ^ 12 := by
      have : ((1 : ℂ) / 10 ^ 12) = (((1 : ℝ) / 10 ^ 12 : ℝ) : ℂ) := by push_cast; rfl
      rw [this, Complex.ofReal_re]
    simp only [getData, hrows, List.map_cons, List.map_nil, List.find?_cons, comp, decide_true, Option.map_some, Option.getD_some,
      show decide ((1 : ℕ) = 2) = false from rfl, Complex.neg_re, h12, Complex.one_re]
  have hmin : minAbs (matrix .real rows) = 1 / 10 ^ 12 := by
    rw [hm]
    unfold minAbs
    simp only [List.flatten_cons, List.flatten_nil, List.cons_append, List.nil_append, List.map_cons, List.map_nil, List.foldl_cons, List.foldl_nil,
      List.headD_cons, List.append_nil, abs_neg, abs_one]
    norm_num
  refine ⟨_, _, _, rfl, rfl, rfl, rfl, ?_⟩
  show ((colours { exArgs true false with component := .real } rows).getD 0 []).getD 0 0 = _ ∧
    ((colours { exArgs true false with component := .real } rows).getD 0 []).getD 0 0 < ((colours { exArgs true false with component := .real } rows).getD 1 []).getD 0 0
  have hc : colours { exArgs true false with component := .real } rows = fixNeg (matrix .real rows) := by
    unfold colours; rfl
  rw [hc, fixNeg_get, fixNeg_get, hmin, hm]
  norm_num

end HeraPspec.PlotWedge
