import Verif.Model.Interp
import Verif.Props.Cosmo
import Mathlib.Tactic.Ring
import Mathlib.Tactic.FieldSimp
import Mathlib.Tactic.NormNum
import Mathlib.Tactic.Linarith

/-! C105: interpolation of the beam transform. C106: the k_perp grids. -/
namespace HeraPspec.Interp

/-! Specification. -/

/-- Bilinear interpolation of the four corners of a cell, at fractions `s` and `t`. -/
def Bilinear (v00 v01 v10 v11 s t : ℝ) : ℝ := (1 - s) * ((1 - t) * v00 + t * v01) + s * ((1 - t) * v10 + t * v11)

/-- The grid ascends on its first `n` entries. -/
def Asc (k : ℕ → ℝ) (n : ℕ) : Prop := ∀ i, i + 1 < n → k i < k (i + 1)

/-- Position of `x` in cell `i` of the grid, as a fraction. -/
def IsFrac (k : ℕ → ℝ) (i : ℕ) (x s : ℝ) : Prop := x = (1 - s) * k i + s * k (i + 1)

theorem Asc.mono {k : ℕ → ℝ} {n : ℕ} (h : Asc k n) {i j : ℕ} (hij : i ≤ j) (hj : j < n) : k i ≤ k j := by
  induction j, hij using Nat.le_induction with
  | base => exact le_refl _
  | succ j _ ih => exact (ih (by omega)).trans (h j hj).le

theorem cell_le {k : ℕ → ℝ} {n : ℕ} {x : ℝ} : cell k n x ≤ n - 2 := by
  classical
  unfold cell
  exact Nat.findGreatest_le _

theorem cell_spec {k : ℕ → ℝ} {n : ℕ} {x : ℝ} (h : Asc k n) (hn : 2 ≤ n) (h0 : k 0 ≤ x) (h1 : x ≤ k (n - 1)) :
    k (cell k n x) ≤ x ∧ x ≤ k (cell k n x + 1) := by
  classical
  constructor
  · have := Nat.findGreatest_spec (P := fun i => k i ≤ x) (m := 0) (n := n - 2) (by omega) h0
    exact this
  · by_contra hc
    push Not at hc
    have hle : cell k n x ≤ n - 2 := cell_le
    rcases Nat.lt_or_ge (cell k n x + 1) (n - 1) with hlt | hge
    · have := Nat.findGreatest_is_greatest (P := fun i => k i ≤ x) (n := n - 2) (k := cell k n x + 1)
        (by show cell k n x < _; omega) (by omega)
      exact this hc.le
    · have : cell k n x + 1 = n - 1 := by omega
      rw [this] at hc
      linarith

theorem cell_next {k : ℕ → ℝ} {n : ℕ} {x : ℝ} (hn : 2 ≤ n) : cell k n x + 1 < n := by
  have : cell k n x ≤ n - 2 := cell_le
  omega

theorem frac_bounds {k : ℕ → ℝ} {i : ℕ} {x : ℝ} (h : k i < k (i + 1)) (h0 : k i ≤ x) (h1 : x ≤ k (i + 1)) :
    0 ≤ frac k i x ∧ frac k i x ≤ 1 ∧ IsFrac k i x (frac k i x) := by
  unfold frac IsFrac
  have hd : 0 < k (i + 1) - k i := by linarith
  refine ⟨div_nonneg (by linarith) hd.le, (div_le_one hd).2 (by linarith), ?_⟩
  field_simp
  ring

theorem Asc.strict {k : ℕ → ℝ} {n : ℕ} (h : Asc k n) {i j : ℕ} (hij : i < j) (hj : j < n) : k i < k j :=
  (h i (by omega)).trans_le (h.mono (by omega) hj)

theorem cell_greatest {k : ℕ → ℝ} {n : ℕ} {x : ℝ} {j : ℕ} (hj : j ≤ n - 2) (h : k j ≤ x) : j ≤ cell k n x := by
  classical
  unfold cell
  exact Nat.le_findGreatest hj h

private theorem inside {k : ℕ → ℝ} {n : ℕ} (h : Asc k n) {i : ℕ} {x s : ℝ} (hi : i + 1 < n) (hs : 0 ≤ s ∧ s ≤ 1 ∧ IsFrac k i x s) :
    (k 0 ≤ x ∧ x ≤ k (n - 1)) ∧
      ((cell k n x = i ∧ frac k (cell k n x) x = s) ∨ (cell k n x = i + 1 ∧ frac k (cell k n x) x = 0 ∧ s = 1)) := by
  have hn : 2 ≤ n := by omega
  obtain ⟨s0, s1, hx⟩ := hs
  have hki := h i hi
  unfold IsFrac at hx
  have l0 : k i ≤ x := by nlinarith
  have l1 : x ≤ k (i + 1) := by nlinarith
  have g0 : k 0 ≤ x := (h.mono (Nat.zero_le _) (by omega)).trans l0
  have g1 : x ≤ k (n - 1) := l1.trans (h.mono (by omega) (by omega))
  refine ⟨⟨g0, g1⟩, ?_⟩
  obtain ⟨c0, c1⟩ := cell_spec h hn g0 g1
  have hc := cell_next (k := k) (x := x) hn
  have hg : i ≤ cell k n x := cell_greatest (by omega) l0
  generalize cell k n x = c at c0 c1 hc hg ⊢
  rcases hg.eq_or_lt with heq | hgt
  · left
    refine ⟨heq.symm, ?_⟩
    subst heq
    unfold frac
    rw [hx, div_eq_iff (by linarith)]
    ring
  · right
    have e := h.mono (show i + 1 ≤ c by omega) (by omega)
    have ex : x = k (i + 1) := le_antisymm l1 (e.trans c0)
    have hci : c = i + 1 := by
      by_contra hne
      have := h.strict (show i + 1 < c by omega) (by omega)
      linarith
    refine ⟨hci, ?_, ?_⟩
    · subst hci
      unfold frac
      rw [ex]
      simp
    · have : (1 - s) * (k (i + 1) - k i) = 0 := by linarith
      rcases mul_eq_zero.1 this with h' | h' <;> linarith

/-- The value of the interpolator inside the grid is the bilinear one of any cell that contains the point (cells share edges). -/
theorem interp_eq {k : ℕ → ℝ} {n : ℕ} (h : Asc k n) (V : ℕ → ℕ → ℝ) {x y : ℝ} {i j : ℕ} (hi : i + 1 < n) (hj : j + 1 < n)
    {s t : ℝ} (hs : 0 ≤ s ∧ s ≤ 1 ∧ IsFrac k i x s) (ht : 0 ≤ t ∧ t ≤ 1 ∧ IsFrac k j y t) :
    interp k n V x y = Bilinear (V i j) (V i (j + 1)) (V (i + 1) j) (V (i + 1) (j + 1)) s t := by
  obtain ⟨⟨a0, a1⟩, ha⟩ := inside h hi hs
  obtain ⟨⟨b0, b1⟩, hb⟩ := inside h hj ht
  unfold interp
  rw [if_pos ⟨a0, a1, b0, b1⟩]
  unfold Bilinear
  rcases ha with ⟨e1, e2⟩ | ⟨e1, e2, e3⟩ <;> rcases hb with ⟨g1, g2⟩ | ⟨g1, g2, g3⟩ <;> rw [e2, g2, e1, g1]
  · ring
  · subst g3; ring
  · subst e3; ring
  · subst e3 g3; ring

theorem interp_outside {k : ℕ → ℝ} {n : ℕ} (V : ℕ → ℕ → ℝ) {x y : ℝ} (h : x < k 0 ∨ k (n - 1) < x ∨ y < k 0 ∨ k (n - 1) < y) :
    interp k n V x y = 0 := by
  unfold interp
  rw [if_neg]
  rintro ⟨h1, h2, h3, h4⟩
  rcases h with h | h | h | h <;> linarith

/-- The entry of the interpolated beam at grid point (row `a`, column `b`). -/
theorem plane_get (k : ℕ → ℝ) (n : ℕ) (V : ℕ → ℕ → ℝ) (kgrid : List ℝ) (a b : ℕ) (y : ℝ) (ha : a < kgrid.length) (hb : kgrid[b]? = some y) :
    ∃ r, (plane k n V kgrid)[a]? = some r ∧ r[b]? = some (interp k n V y y) := by
  unfold plane evalPoints
  refine ⟨_, by rw [List.getElem?_map, List.getElem?_eq_getElem ha]; rfl, ?_⟩
  rw [List.getElem?_map, hb]
  rfl

/-- **C105** (partial). On the diagonal of the k_perp grid (the same k_perp along both axes) the interpolated beam is the bilinear
interpolation of the beam transform, in whichever cell of the beam's grid the point lies.

Missing: off the diagonal the value is wrong, see `C105_finding_rows_equal`. -/
theorem C105_diagonal_partial (k : ℕ → ℝ) (n : ℕ) (h : Asc k n) (V : ℕ → ℕ → ℝ) (kgrid : List ℝ) (a : ℕ) (x : ℝ) (ha : kgrid[a]? = some x)
    (i : ℕ) (hi : i + 1 < n) (s : ℝ) (hs : 0 ≤ s ∧ s ≤ 1 ∧ IsFrac k i x s) :
    ∃ r, (plane k n V kgrid)[a]? = some r ∧ r[a]? = some (Bilinear (V i i) (V i (i + 1)) (V (i + 1) i) (V (i + 1) (i + 1)) s s) := by
  have hal : a < kgrid.length := (List.getElem?_eq_some_iff.1 ha).1
  obtain ⟨r, h1, h2⟩ := plane_get k n V kgrid a a x hal ha
  exact ⟨r, h1, by rw [h2, interp_eq h V hi hi hs hs]⟩

/-- At a node of the beam's grid the interpolated value is the beam's, and outside the grid it is 0. -/
theorem C105_nodes_and_outside (k : ℕ → ℝ) (n : ℕ) (h : Asc k n) (hn : 2 ≤ n) (V : ℕ → ℕ → ℝ) :
    (∀ i j, i < n → j < n → interp k n V (k i) (k j) = V i j) ∧
    (∀ x y, (x < k 0 ∨ k (n - 1) < x ∨ y < k 0 ∨ k (n - 1) < y) → interp k n V x y = 0) := by
  refine ⟨fun i j hi hj => ?_, fun x y hxy => interp_outside V hxy⟩
  have node : ∀ i, i < n → ∃ c s, c + 1 < n ∧ (0 ≤ s ∧ s ≤ 1 ∧ IsFrac k c (k i) s) ∧ ((c = i ∧ s = 0) ∨ (c + 1 = i ∧ s = 1)) := by
    intro i hi
    by_cases h1 : i + 1 < n
    · exact ⟨i, 0, h1, ⟨le_refl _, by norm_num, by unfold IsFrac; ring⟩, .inl ⟨rfl, rfl⟩⟩
    · refine ⟨i - 1, 1, by omega, ⟨by norm_num, le_refl _, ?_⟩, .inr ⟨by omega, rfl⟩⟩
      unfold IsFrac
      rw [show i - 1 + 1 = i by omega]
      ring
  obtain ⟨c, s, hc, hs, hcs⟩ := node i hi
  obtain ⟨d, t, hd, ht, hdt⟩ := node j hj
  rw [interp_eq h V hc hd hs ht]
  unfold Bilinear
  rcases hcs with ⟨rfl, rfl⟩ | ⟨rfl, rfl⟩ <;> rcases hdt with ⟨rfl, rfl⟩ | ⟨rfl, rfl⟩ <;> ring

/-- Interpolation does not overshoot: inside the grid the value lies between any bounds of the beam transform. -/
theorem C105_bounds (k : ℕ → ℝ) (n : ℕ) (h : Asc k n) (hn : 2 ≤ n) (V : ℕ → ℕ → ℝ) (lo hi : ℝ)
    (hV : ∀ i j, i < n → j < n → lo ≤ V i j ∧ V i j ≤ hi) (x y : ℝ) (hx : k 0 ≤ x ∧ x ≤ k (n - 1)) (hy : k 0 ≤ y ∧ y ≤ k (n - 1)) :
    lo ≤ interp k n V x y ∧ interp k n V x y ≤ hi := by
  have cellOf : ∀ x, k 0 ≤ x ∧ x ≤ k (n - 1) → ∃ i s, i + 1 < n ∧ (0 ≤ s ∧ s ≤ 1 ∧ IsFrac k i x s) := by
    intro x hx
    obtain ⟨c0, c1⟩ := cell_spec h hn hx.1 hx.2
    have hc := cell_next (k := k) (x := x) hn
    exact ⟨_, _, hc, frac_bounds (h _ hc) c0 c1⟩
  obtain ⟨i, s, hi', hs⟩ := cellOf x hx
  obtain ⟨j, t, hj, ht⟩ := cellOf y hy
  rw [interp_eq h V hi' hj hs ht]
  have v00 := hV i j (by omega) (by omega)
  have v01 := hV i (j + 1) (by omega) hj
  have v10 := hV (i + 1) j hi' (by omega)
  have v11 := hV (i + 1) (j + 1) hi' hj
  have mix : ∀ a b u : ℝ, (lo ≤ a ∧ a ≤ hi) → (lo ≤ b ∧ b ≤ hi) → 0 ≤ u → u ≤ 1 → lo ≤ (1 - u) * a + u * b ∧ (1 - u) * a + u * b ≤ hi := by
    intro a b u ha hb h0 h1
    constructor <;> nlinarith [mul_nonneg h0 (sub_nonneg.2 hb.1), mul_nonneg h0 (sub_nonneg.2 hb.2),
      mul_nonneg (sub_nonneg.2 h1) (sub_nonneg.2 ha.1), mul_nonneg (sub_nonneg.2 h1) (sub_nonneg.2 ha.2)]
  exact mix _ _ s (mix _ _ t v00 v01 ht.1 ht.2.1) (mix _ _ t v10 v11 ht.1 ht.2.1) hs.1 hs.2.1

/-- Finding: all rows of the interpolated beam are equal: it depends on one of the two k_perp coordinates only, being the beam's values
along the diagonal. -/
theorem C105_finding_rows_equal (k : ℕ → ℝ) (n : ℕ) (V : ℕ → ℕ → ℝ) (kgrid : List ℝ) (a a' : ℕ) (ha : a < kgrid.length)
    (ha' : a' < kgrid.length) : (plane k n V kgrid)[a]? = (plane k n V kgrid)[a']? := by
  unfold plane
  rw [List.getElem?_map, List.getElem?_map, List.getElem?_eq_getElem ha, List.getElem?_eq_getElem ha']
  rfl

/-- For a beam transform that is linear in k_perp, `V = p + q * kx + r * ky`, the right value at (kx, ky) is that expression; the value
found is `p + (q + r) * ky`. -/
theorem C105_finding_linear_beam (k : ℕ → ℝ) (n : ℕ) (h : Asc k n) (hn : 2 ≤ n) (p q r : ℝ) (kgrid : List ℝ) (a b : ℕ) (x y : ℝ)
    (ha : kgrid[a]? = some x) (hb : kgrid[b]? = some y) (hx : k 0 ≤ x ∧ x ≤ k (n - 1)) (hy : k 0 ≤ y ∧ y ≤ k (n - 1)) :
    interp k n (fun i j => p + q * k i + r * k j) x y = p + q * x + r * y ∧
    ∃ row, (plane k n (fun i j => p + q * k i + r * k j) kgrid)[a]? = some row ∧ row[b]? = some (p + (q + r) * y) := by
  have lin : ∀ x y, (k 0 ≤ x ∧ x ≤ k (n - 1)) → (k 0 ≤ y ∧ y ≤ k (n - 1)) →
      interp k n (fun i j => p + q * k i + r * k j) x y = p + q * x + r * y := by
    intro x y hx hy
    obtain ⟨c0, c1⟩ := cell_spec h hn hx.1 hx.2
    obtain ⟨d0, d1⟩ := cell_spec h hn hy.1 hy.2
    have hc := cell_next (k := k) (x := x) hn
    have hd := cell_next (k := k) (x := y) hn
    have f1 := frac_bounds (h _ hc) c0 c1
    have f2 := frac_bounds (h _ hd) d0 d1
    rw [interp_eq h _ hc hd f1 f2]
    have e1 := f1.2.2
    have e2 := f2.2.2
    unfold IsFrac at e1 e2
    unfold Bilinear
    linear_combination (-q) * e1 + (-r) * e2
  refine ⟨lin x y hx hy, ?_⟩
  obtain ⟨row, h1, h2⟩ := plane_get k n (fun i j => p + q * k i + r * k j) kgrid a b y (List.getElem?_eq_some_iff.1 ha).1 hb
  refine ⟨row, h1, ?_⟩
  rw [h2, lin y y hy hy]
  congr 1
  ring

/-- Counterexample: a beam transform equal to `kx` on the grid 0, 1, 2 has the value 2 at (0, 2) after interpolation, not 0. -/
theorem C105_counterexample : ∃ row, (plane (fun i => (i : ℝ)) 3 (fun i _ => (i : ℝ)) [0, 1, 2])[0]? = some row ∧ row[2]? = some 2 ∧
    interp (fun i => (i : ℝ)) 3 (fun i _ => (i : ℝ)) 0 2 = 0 := by
  have h : Asc (fun i => (i : ℝ)) 3 := by intro i _; push_cast; linarith
  have e := C105_finding_linear_beam (fun i => (i : ℝ)) 3 h (by norm_num) 0 1 0 [0, 1, 2] 0 2 0 2 rfl rfl (by norm_num) (by norm_num)
  simp only [zero_add, one_mul, zero_mul, add_zero, mul_zero] at e
  obtain ⟨e1, row, e2, e3⟩ := e
  exact ⟨row, e2, e3, e1⟩

/-! C106. -/

/-- Distance between neighbours of the beam's k_perp grid at a frequency. -/
noncomputable def spacing (e : Env) (freq : ℝ) : ℝ := 2 * Real.pi / Cosmo.DM e.cosmo (Cosmo.f2z freq false) e.littleH / (2 * e.mapsize)

/-- k_perp of a baseline at a frequency, per axis. -/
noncomputable def blCentre (e : Env) (freq bl : ℝ) : ℝ := Cosmo.blToKperp e.cosmo (Cosmo.f2z freq false) e.littleH * bl / Real.sqrt 2

theorem foldr_max_ge (l : List ℝ) (d : ℝ) : (∀ x ∈ l, x ≤ l.foldr max d) ∧ d ≤ l.foldr max d := by
  induction l with
  | nil => simp
  | cons a l ih =>
    simp only [List.foldr_cons, List.mem_cons]
    refine ⟨?_, ih.2.trans (le_max_right _ _)⟩
    rintro x (rfl | hx)
    · exact le_max_left _ _
    · exact (ih.1 x hx).trans (le_max_right _ _)

theorem foldr_min_le (l : List ℝ) (d : ℝ) : (∀ x ∈ l, l.foldr min d ≤ x) ∧ l.foldr min d ≤ d := by
  induction l with
  | nil => simp
  | cons a l ih =>
    simp only [List.foldr_cons, List.mem_cons]
    refine ⟨?_, (min_le_right _ _).trans ih.2⟩
    rintro x (rfl | hx)
    · exact min_le_left _ _
    · exact (min_le_right _ _).trans (ih.1 x hx)

theorem foldr_max_mem (l : List ℝ) (d : ℝ) : l.foldr max d ∈ d :: l := by
  induction l with
  | nil => simp
  | cons a l ih =>
    simp only [List.foldr_cons]
    rcases max_choice a (l.foldr max d) with h | h <;> rw [h]
    · simp
    · simp only [List.mem_cons] at ih ⊢; tauto

theorem foldr_min_mem (l : List ℝ) (d : ℝ) : l.foldr min d ∈ d :: l := by
  induction l with
  | nil => simp
  | cons a l ih =>
    simp only [List.foldr_cons]
    rcases min_choice a (l.foldr min d) with h | h <;> rw [h]
    · simp
    · simp only [List.mem_cons] at ih ⊢; tauto

/-- Every frequency of the window from 1 MHz on is accepted; frequencies below 1 MHz or outside the band are refused. -/
theorem C106_accepts (e : Env) (bl : ℝ) (n : ℕ) (freq : ℝ) :
    (freq ∈ e.freqs → 1e6 ≤ freq → ∃ k, kperp4bl e freq bl n = .ok k) ∧
    (freq < 1e6 → kperp4bl e freq bl n = .error .value) ∧
    (e.freqs ≠ [] → ((∀ g ∈ e.freqs, g < freq) ∨ (∀ g ∈ e.freqs, freq < g)) → kperp4bl e freq bl n = .error .value) := by
  have h6 : freq / 1e6 < 1 ↔ freq < 1e6 := by rw [div_lt_one (by norm_num)]
  unfold kperp4bl
  refine ⟨fun hm h => ?_, fun h => ?_, fun hne h => ?_⟩
  · rw [if_neg (by rw [h6]; linarith), if_neg]
    · exact ⟨_, rfl⟩
    · rw [not_not]
      exact ⟨(foldr_min_le _ _).1 _ hm, (foldr_max_ge _ _).1 _ hm⟩
  · rw [if_pos (h6.2 h)]
  · by_cases hf : freq / 1e6 < 1
    · rw [if_pos hf]
    · rw [if_neg hf, if_pos]
      rintro ⟨h1, h2⟩
      have hd : e.freqs.headD 0 ∈ e.freqs := by
        cases hl : e.freqs with
        | nil => exact absurd hl hne
        | cons a l => simp
      have m1 : e.fmax ∈ e.freqs := by
        have := foldr_max_mem e.freqs (e.freqs.headD 0)
        simp only [List.mem_cons] at this
        rcases this with h | h
        · unfold Env.fmax; rw [h]; exact hd
        · exact h
      have m2 : e.fmin ∈ e.freqs := by
        have := foldr_min_mem e.freqs (e.freqs.headD 0)
        simp only [List.mem_cons] at this
        rcases this with h | h
        · unfold Env.fmin; rw [h]; exact hd
        · exact h
      rcases h with h | h
      · linarith [h _ m1]
      · linarith [h _ m2]

private theorem kperp_ok {e : Env} {freq bl : ℝ} {n : ℕ} {k : List ℝ} (h : kperp4bl e freq bl n = .ok k) :
    1e6 ≤ freq ∧ k = ((List.range n).map (fun j => kEntry e freq bl n j)).reverse := by
  unfold kperp4bl at h
  by_cases h1 : freq / 1e6 < 1
  · rw [if_pos h1] at h; cases h
  · rw [if_neg h1] at h
    by_cases h2 : ¬ (e.fmin ≤ freq ∧ freq ≤ e.fmax)
    · rw [if_pos h2] at h; cases h
    · rw [if_neg h2] at h
      injection h with h
      refine ⟨?_, h.symm⟩
      rw [div_lt_one (by norm_num)] at h1
      linarith

private theorem centre_eq (e : Env) (freq bl : ℝ) (hf : 0 < freq) :
    2 * Real.pi / Cosmo.DM e.cosmo (Cosmo.f2z freq false) e.littleH * (freq * bl / Cosmo.c / Real.sqrt 2) = blCentre e freq bl := by
  unfold blCentre Cosmo.blToKperp Cosmo.dRperp
  rw [Cosmo.C68_freq_round_trip freq hf false]
  have := Cosmo.c_pos.ne'
  have := hf.ne'
  have h2 : Real.sqrt 2 ≠ 0 := by positivity
  by_cases hd : Cosmo.DM e.cosmo (Cosmo.f2z freq false) e.littleH = 0
  · rw [hd]; simp
  · field_simp

/-- **C106** (partial). The k_perp grid given to the beam transform at a frequency: entry `j` is the k_perp of the baseline at that frequency (per
axis) plus a whole number of grid steps, increasing by one step per pixel; the middle pixel (`ngrid // 2`, the zero of the transform)
of an odd grid is exactly at the k_perp of the baseline.

Missing: on an even grid it is one step off (`C106_finding_even_grid`). -/
theorem C106_grid_partial (e : Env) (freq bl : ℝ) (n : ℕ) (k : List ℝ) (h : kperp4bl e freq bl n = .ok k) :
    k.length = n ∧
    (∀ (j : ℕ), j < n → k[j]? = some (blCentre e freq bl + ((j : ℝ) - ((n - 1 - n / 2 : ℕ) : ℝ)) * spacing e freq)) ∧
    (n % 2 = 1 → k[n / 2]? = some (blCentre e freq bl)) := by
  obtain ⟨hf, rfl⟩ := kperp_ok h
  have hf0 : 0 < freq := by linarith
  have main : ∀ (j : ℕ), j < n → (((List.range n).map (fun j => kEntry e freq bl n j)).reverse)[j]?
      = some (blCentre e freq bl + ((j : ℝ) - ((n - 1 - n / 2 : ℕ) : ℝ)) * spacing e freq) := by
    intro j hj
    rw [List.getElem?_reverse (by simpa using hj)]
    simp only [List.length_map, List.length_range]
    rw [List.getElem?_map, List.getElem?_range (by omega)]
    simp only [Option.map_some]
    congr 1
    unfold kEntry qEntry
    rw [mul_sub, centre_eq e freq bl hf0]
    unfold spacing
    have hn : (n : ℝ) ≠ 0 := by
      have : 0 < n := by omega
      exact_mod_cast this.ne'
    have h1 : ((n - 1 - j : ℕ) : ℝ) = (n : ℝ) - 1 - j := by
      rw [Nat.cast_sub (by omega), Nat.cast_sub (by omega)]; norm_num
    have h2 : ((n - 1 - n / 2 : ℕ) : ℝ) = (n : ℝ) - 1 - ((n / 2 : ℕ) : ℝ) := by
      rw [Nat.cast_sub (by omega), Nat.cast_sub (by omega)]; norm_num
    rw [h1, h2]
    generalize ((n / 2 : ℕ) : ℝ) = c
    rw [div_mul_cancel₀ _ hn]
    ring
  refine ⟨by simp, main, fun hodd => ?_⟩
  rw [main (n / 2) (by omega), show n - 1 - n / 2 = n / 2 by omega]
  simp

/-- For a positive distance and map size the grid ascends, so the interpolation of C105 applies to it. -/
theorem C106_ascending (e : Env) (freq bl : ℝ) (n : ℕ) (k : List ℝ) (h : kperp4bl e freq bl n = .ok k)
    (hd : 0 < Cosmo.DM e.cosmo (Cosmo.f2z freq false) e.littleH) (hm : 0 < e.mapsize) : Asc (fun j => k.getD j 0) n := by
  obtain ⟨h1, h2, _⟩ := C106_grid_partial e freq bl n k h
  intro i hi
  simp only [List.getD, h2 i (by omega), h2 (i + 1) hi, Option.getD_some]
  have : 0 < spacing e freq := by unfold spacing; have := Real.pi_pos; positivity
  push_cast
  nlinarith

/-- Finding: on a grid with an even number of pixels the zero of the beam transform (pixel `ngrid // 2`) is placed one grid step above
the k_perp of the baseline. -/
theorem C106_finding_even_grid (e : Env) (freq bl : ℝ) (n : ℕ) (k : List ℝ) (h : kperp4bl e freq bl n = .ok k) (hn : n % 2 = 0)
    (h0 : 0 < n) : k[n / 2]? = some (blCentre e freq bl + spacing e freq) := by
  rw [(C106_grid_partial e freq bl n k h).2.1 (n / 2) (by omega)]
  have : ((n / 2 : ℕ) : ℝ) = ((n - 1 - n / 2 : ℕ) : ℝ) + 1 := by
    have : n / 2 = (n - 1 - n / 2) + 1 := by omega
    rw [this]; push_cast; congr 2; rw [← this]
  rw [this]
  congr 1
  ring

/-- The mean frequency of the window. -/
noncomputable def meanFreq (e : Env) : ℝ := e.freqs.sum / e.freqs.length

/-- The step of the regular grid is the spacing of the beam's grid at the highest frequency. -/
theorem C106_step (e : Env) (F : ℝ) (hF : F ∈ e.freqs) (hmax : ∀ g ∈ e.freqs, g ≤ F) : gridStep e = spacing e F := by
  have : e.fmax = F := by
    unfold Env.fmax
    apply le_antisymm
    · have hd : e.freqs.headD 0 ≤ F := by
        cases hl : e.freqs with
        | nil => rw [hl] at hF; cases hF
        | cons a l => exact hmax a (by rw [hl]; simp)
      have := foldr_max_mem e.freqs (e.freqs.headD 0)
      simp only [List.mem_cons] at this
      rcases this with h | h
      · rw [h]; exact hd
      · exact hmax _ h
    · exact (foldr_max_ge _ _).1 _ hF
  unfold gridStep spacing Cosmo.dRperp
  rw [this]
  ring

/-- The regular grid of a baseline: it starts at `centre - width`, where the centre is the k_perp of the baseline per axis at the mean
frequency, steps by `dk`, stays below `centre + width` and ends within one step of it; a width not larger than a step is refused. The
norms are those of the points of the square grid. -/
theorem C106_regular_grid (e : Env) (bl width : ℝ) (hs : 0 < gridStep e) :
    (width ≤ gridStep e → getKgrid e bl width = .error .value) ∧
    (gridStep e < width → ∃ g norms, getKgrid e bl width = .ok (g, norms) ∧
      (∀ (m : ℕ) (x : ℝ), g[m]? = some x → x = blCentre e (meanFreq e) bl - width + m * gridStep e ∧ x < blCentre e (meanFreq e) bl + width) ∧
      g ≠ [] ∧ blCentre e (meanFreq e) bl + width ≤ blCentre e (meanFreq e) bl - width + g.length * gridStep e ∧
      norms.length = g.length ∧
      (∀ (a b : ℕ) (x y : ℝ), g[a]? = some x → g[b]? = some y → ∃ r, norms[a]? = some r ∧ ∃ z, r[b]? = some z ∧ 0 ≤ z ∧ z ^ 2 = x ^ 2 + y ^ 2)) := by
  have hc : kpCentre e bl = blCentre e (meanFreq e) bl := rfl
  unfold getKgrid
  rw [hc]
  generalize blCentre e (meanFreq e) bl = C
  refine ⟨fun h => by rw [if_pos h], fun h => ?_⟩
  rw [if_neg (not_le.2 h)]
  refine ⟨_, _, rfl, ?_, ?_, ?_, by simp, ?_⟩
  · intro m x hx
    unfold arange at hx
    rw [List.getElem?_map] at hx
    by_cases hm : m < ⌈(C + width - (C - width)) / gridStep e⌉₊
    · rw [List.getElem?_range hm] at hx
      simp only [Option.map_some, Option.some.injEq] at hx
      subst hx
      refine ⟨rfl, ?_⟩
      rw [Nat.lt_ceil, lt_div_iff₀ hs] at hm
      linarith
    · rw [List.getElem?_eq_none (by simpa using hm)] at hx
      cases hx
  · unfold arange
    rw [ne_eq, List.map_eq_nil_iff, List.range_eq_nil]
    have : 0 < ⌈(C + width - (C - width)) / gridStep e⌉₊ := by
      rw [Nat.ceil_pos]
      apply div_pos _ hs
      linarith
    omega
  · unfold arange
    simp only [List.length_map, List.length_range]
    have := Nat.le_ceil ((C + width - (C - width)) / gridStep e)
    rw [div_le_iff₀ hs] at this
    linarith
  · intro a b x y hx hy
    refine ⟨_, by rw [List.getElem?_map, hx]; rfl, _, by rw [List.getElem?_map, hy]; rfl, Real.sqrt_nonneg _, ?_⟩
    exact Real.sq_sqrt (by positivity)

theorem planes_ok {e : Env} {bl : ℝ} {n : ℕ} {kgrid : List ℝ} {l : List (ℝ × (ℕ → ℕ → ℝ))} {ps : List (List (List ℝ))}
    (h : planes e bl n kgrid l = .ok ps) :
    ps.length = l.length ∧ ∀ (i : ℕ) (f : ℝ) (V : ℕ → ℕ → ℝ), l[i]? = some (f, V) →
      ∃ k, kperp4bl e f bl n = .ok k ∧ ps[i]? = some (plane (fun j => k.getD j 0) n V kgrid) := by
  induction l generalizing ps with
  | nil => simp only [planes, Except.ok.injEq] at h; subst h; simp
  | cons x l ih =>
    obtain ⟨f0, V0⟩ := x
    unfold planes planeOf at h
    cases hk : kperp4bl e f0 bl n with
    | error err => rw [hk] at h; cases h
    | ok k =>
      rw [hk] at h
      simp only at h
      cases hp : planes e bl n kgrid l with
      | error err => rw [hp] at h; cases h
      | ok ps' =>
        rw [hp] at h
        injection h with h
        subst h
        obtain ⟨i1, i2⟩ := ih hp
        refine ⟨by simp [i1], fun i f V hi => ?_⟩
        cases i with
        | zero =>
          simp only [List.getElem?_cons_zero, Option.some.injEq, Prod.mk.injEq] at hi
          obtain ⟨rfl, rfl⟩ := hi
          exact ⟨k, hk, rfl⟩
        | succ i => simpa using i2 i f V (by simpa using hi)

/-- The whole array: one plane per frequency of the window, each interpolated on the beam grid of its own frequency; a beam with
another number of planes is refused. At row `a`, column `b` the value is the beam's at (kgrid[b], kgrid[b]). -/
theorem C105_array (e : Env) (bl : ℝ) (n : ℕ) (beam : List (ℕ → ℕ → ℝ)) :
    (beam.length ≠ e.freqs.length → interpolateFtBeam e bl n beam = .error .value) ∧
    (∀ ps norms, interpolateFtBeam e bl n beam = .ok (ps, norms) → ps.length = e.freqs.length ∧
      ∃ g, getKgrid e bl 0.020 = .ok (g, norms) ∧
        ∀ (i : ℕ) (f : ℝ) (V : ℕ → ℕ → ℝ), e.freqs[i]? = some f → beam[i]? = some V →
          ∃ k p, kperp4bl e f bl n = .ok k ∧ ps[i]? = some p ∧ p.length = g.length ∧
            ∀ (a b : ℕ) (y : ℝ), a < g.length → g[b]? = some y →
              ∃ r, p[a]? = some r ∧ r.length = g.length ∧ r[b]? = some (interp (fun j => k.getD j 0) n V y y)) := by
  unfold interpolateFtBeam
  refine ⟨fun h => by rw [if_pos h], fun ps norms h => ?_⟩
  by_cases hl : beam.length ≠ e.freqs.length
  · rw [if_pos hl] at h; cases h
  rw [if_neg hl] at h
  rw [not_not] at hl
  cases hg : getKgrid e bl 0.020 with
  | error err => rw [hg] at h; cases h
  | ok gn =>
    obtain ⟨g, nn⟩ := gn
    rw [hg] at h
    simp only at h
    cases hp : planes e bl n g (e.freqs.zip beam) with
    | error err => rw [hp] at h; cases h
    | ok ps' =>
      rw [hp] at h
      simp only [Except.ok.injEq, Prod.mk.injEq] at h
      obtain ⟨rfl, rfl⟩ := h
      obtain ⟨p1, p2⟩ := planes_ok hp
      refine ⟨by rw [p1, List.length_zip, hl, Nat.min_self], g, rfl, fun i f V hf hV => ?_⟩
      obtain ⟨k, k1, k2⟩ := p2 i f V (by rw [List.getElem?_zip_eq_some]; exact ⟨hf, hV⟩)
      refine ⟨k, _, k1, k2, by simp [plane], fun a b y ha hb => ?_⟩
      unfold plane evalPoints
      refine ⟨_, by rw [List.getElem?_map, List.getElem?_eq_getElem ha]; rfl, by simp, ?_⟩
      rw [List.getElem?_map, hb]
      rfl

/-- It succeeds for every beam with one plane per frequency, if all frequencies are at least 1 MHz and the grid step is below 0.02. -/
theorem C105_succeeds (e : Env) (bl : ℝ) (n : ℕ) (beam : List (ℕ → ℕ → ℝ)) (hl : beam.length = e.freqs.length)
    (hf : ∀ f ∈ e.freqs, 1e6 ≤ f) (hs : gridStep e < 0.020) : ∃ r, interpolateFtBeam e bl n beam = .ok r := by
  have main : ∀ (g : List ℝ) (l : List (ℝ × (ℕ → ℕ → ℝ))), (∀ x ∈ l, x.1 ∈ e.freqs) → ∃ ps, planes e bl n g l = .ok ps := by
    intro g l
    induction l with
    | nil => intro _; exact ⟨[], rfl⟩
    | cons x l ih =>
      intro h
      obtain ⟨ps, hps⟩ := ih (fun y hy => h y (by simp [hy]))
      have hx := h x (by simp)
      obtain ⟨k, hk⟩ := (C106_accepts e bl n x.1).1 hx (hf _ hx)
      refine ⟨plane (fun j => k.getD j 0) n x.2 g :: ps, ?_⟩
      obtain ⟨f0, V0⟩ := x
      unfold planes planeOf
      simp only [hk, hps]
  unfold interpolateFtBeam
  rw [if_neg (by rw [hl]; simp)]
  unfold getKgrid
  rw [if_neg (not_le.2 hs)]
  simp only
  obtain ⟨ps, hps⟩ := main (arange (kpCentre e bl - 0.020) (kpCentre e bl + 0.020) (gridStep e)) (e.freqs.zip beam)
    (fun x hx => (List.of_mem_zip hx).1)
  rw [hps]
  exact ⟨_, rfl⟩

/-! The hypotheses are met: a de Sitter cosmology, where distances are proportional to redshift. -/

/-- A de Sitter cosmology and two frequencies, for examples. -/
noncomputable def exEnv : Env := { cosmo := ⟨1, 0, 0, 0, 0, 100⟩, littleH := true, mapsize := 1, freqs := [1e8, 1.01e8] }

theorem ex_DM (z : ℝ) : Cosmo.DM exEnv.cosmo z true = z * Cosmo.ckm / 100 := by
  unfold Cosmo.DM Cosmo.DC Cosmo.E exEnv
  simp

theorem ex_max : exEnv.fmax = 1.01e8 := by
  unfold Env.fmax exEnv
  norm_num

theorem ex_step : 0 < gridStep exEnv ∧ gridStep exEnv < 0.020 := by
  have e : gridStep exEnv = Real.pi / ((1.420405751e9 / 1.01e8 - 1) * (2.99792458e8 / 1e3) / 100) := by
    unfold gridStep Cosmo.dRperp
    rw [show exEnv.littleH = true from rfl, ex_DM, ex_max]
    unfold Cosmo.f2z Cosmo.f21 Cosmo.ckm Cosmo.c
    simp only [exEnv, Bool.false_eq_true, if_false]
    ring
  rw [e]
  have := Real.pi_pos
  have h4 := Real.pi_le_four
  constructor
  · apply div_pos this; norm_num
  · rw [div_lt_iff₀ (by norm_num)]
    norm_num
    linarith

example : ∃ r, interpolateFtBeam exEnv 14.6 301 [fun i j => (i : ℝ) + j, fun i j => (i : ℝ) * j] = .ok r :=
  C105_succeeds exEnv 14.6 301 _ rfl (by intro f hf; simp only [exEnv, List.mem_cons, List.not_mem_nil, or_false] at hf; rcases hf with rfl | rfl <;> norm_num) ex_step.2

example : 0 < gridStep exEnv ∧ 0 < Cosmo.DM exEnv.cosmo (Cosmo.f2z 1e8 false) exEnv.littleH := by
  refine ⟨ex_step.1, ?_⟩
  rw [show exEnv.littleH = true from rfl, ex_DM]
  unfold Cosmo.f2z Cosmo.f21 Cosmo.ckm Cosmo.c
  simp only [Bool.false_eq_true, if_false]
  norm_num

end HeraPspec.Interp
