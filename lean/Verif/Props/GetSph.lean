import Verif.Lemmas.GetSph

/-!
C126: `get_spherical_wf` accepts only consistent baselines and equally spaced bins in units of the dimension of the object's, sorts each (baseline, delay) pair and each
(kperp, kpara) cell into the bin it lies in, and returns the weighted mean window per bin.
-/
namespace HeraPspec.GetSph
open HeraPspec.Window
open HeraPspec.KBins (diffs maxOf minOf)
open HeraPspec.Interp (arange)
open Finset (range)

/-- Everything a success says about the arguments. -/
theorem success {o : Obj} {kb : KArr} {lens : List ℝ} {wg : Option (List ℝ)} {kp kl : Option KArr} {r : List (List ℝ) × List ℝ}
    (h : getSphericalWf o kb lens wg kp kl = .ok r) :
    ∃ w xp xl ls, weightsOf lens.length wg = .ok w ∧ checkedBins o.kunits (o.defPerp lens) kp = .ok xp ∧ lens ≠ [] ∧
      checkedBins o.kunits o.defPara kl = .ok xl ∧ checkKbins o.kunits kb = .ok () ∧ UVP.mapE (blModes o xp xl) (lens.zip w) = .ok ls ∧
      kb.vals.length + 1 ≤ (edgesOf kb.vals).length ∧
      r = (sphWf (xmin kb.vals) (step kb.vals) kb.vals.length (ktotOf xp xl) ls.flatten,
        (List.range kb.vals.length).map (weightedK (xmin kb.vals) (step kb.vals) ls.flatten)) := by
  unfold getSphericalWf at h
  split at h
  · cases h
  rename_i w hw
  split at h
  · cases h
  rename_i xp hp
  split at h
  · cases h
  rename_i hl
  split at h
  · cases h
  rename_i xl hxl
  split at h
  · cases h
  rename_i hk
  unfold compute at h
  split at h
  · cases h
  rename_i ls hls
  unfold toSpherical at h
  split at h
  · cases h
  rename_i he
  exact ⟨w, xp, xl, ls, hw, hp, hl, hxl, hk, hls, by omega, (Except.ok.inj h).symm⟩

/-- What `weightsOf` gives. -/
theorem weights_len {n : ℕ} {wg : Option (List ℝ)} {w : List ℝ} (h : weightsOf n wg = .ok w) : w.length = n := by
  cases wg with
  | none => cases h; simp
  | some v =>
    unfold weightsOf at h
    simp only at h
    split at h
    · cases h
    · cases h; rename_i hn; push Not at hn; exact hn

theorem units_ok {own : KUnit} {a : KArr} {u : Unit} (h : checkKunits own a = .ok u) :
    ∃ v, a.unit = some v ∧ v.mpc = own.mpc ∧ v.h = own.h := by
  unfold checkKunits at h
  split at h
  · cases h
  · rename_i v hv
    split at h
    · rename_i hh; exact ⟨v, hv, hh.1.symm, hh.2.symm⟩
    · cases h

theorem linear_ok {x : List ℝ} {u : Unit} (h : checkLinear x = .ok u) :
    2 ≤ x.length ∧ ∀ i, i + 1 < x.length → |(x.getD (i + 1) 0 - x.getD i 0) - (x.getD 1 0 - x.getD 0 0)| ≤ 1e-8 + 1e-5 * |x.getD 1 0 - x.getD 0 0| := by
  unfold checkLinear at h
  split at h
  · cases h
  · rename_i d0 ds hd
    have hlen := diffs_length x
    rw [hd] at hlen
    simp only [List.length_cons] at hlen
    have h2 : 2 ≤ x.length := by omega
    refine ⟨h2, fun i hi => ?_⟩
    split at h
    · rename_i hh
      have hget : ∀ i, i + 1 < x.length → (diffs x)[i]? = some (x.getD (i + 1) 0 - x.getD i 0) := by
        intro i hi
        unfold diffs
        rw [List.getElem?_zipWith, List.getElem?_tail, List.getElem?_eq_getElem (by omega : i < x.length), List.getElem?_eq_getElem hi]
        rw [List.getD_eq_getElem _ _ hi, List.getD_eq_getElem _ _ (by omega : i < x.length)]
      have h0 := hget 0 (by omega)
      have h1 := hget i hi
      rw [hd] at h0 h1
      simp only [List.getElem?_cons_zero, Option.some.injEq] at h0
      have := hh _ (List.mem_of_getElem? h1)
      rw [h0] at this
      norm_num at this ⊢
      exact this
    · cases h

/-- What a returned result says about the arguments: as many weights as baselines (if given), at least one baseline, at least two |k| bins, all given
arrays carry a unit of the dimension of the object's; the result is square with one row, and one |k|, per bin. -/
theorem C126_accepted {o : Obj} {kb : KArr} {lens : List ℝ} {wg : Option (List ℝ)} {kp kl : Option KArr} {r : List (List ℝ) × List ℝ}
    (h : getSphericalWf o kb lens wg kp kl = .ok r) :
    lens ≠ [] ∧ (∀ w, wg = some w → w.length = lens.length) ∧ 2 ≤ kb.vals.length ∧
      (∀ a, (a = kb ∨ kp = some a ∨ kl = some a) → a.vals ≠ [] → ∃ u, a.unit = some u ∧ u.mpc = o.kunits.mpc ∧ u.h = o.kunits.h) ∧
      r.1.length = kb.vals.length ∧ (∀ row ∈ r.1, row.length = kb.vals.length) ∧ r.2.length = kb.vals.length := by
  obtain ⟨w, xp, xl, ls, hw, hp, hl, hxl, hk, hls, he, rfl⟩ := success h
  have hkb : (∃ u, kb.unit = some u ∧ u.mpc = o.kunits.mpc ∧ u.h = o.kunits.h) ∧ 2 ≤ kb.vals.length := by
    unfold checkKbins at hk
    split at hk
    · cases hk
    rename_i hu
    split at hk
    · cases hk
    · exact ⟨units_ok hu, by omega⟩
  have hcyl : ∀ (d : Except Err (List ℝ)) (a : KArr) (x : List ℝ), checkedBins o.kunits d (some a) = .ok x → a.vals ≠ [] →
      ∃ u, a.unit = some u ∧ u.mpc = o.kunits.mpc ∧ u.h = o.kunits.h := by
    intro d a x hx hne
    unfold checkedBins at hx
    split at hx
    · cases hx
    rename_i y hy
    unfold cylBins at hy
    simp only [List.length_eq_zero_iff, hne, if_false] at hy
    split at hy
    · cases hy
    · rename_i hu; exact units_ok hu
  refine ⟨hl, ?_, hkb.2, ?_, by simp [sphWf], ?_, by simp⟩
  · rintro v rfl
    unfold weightsOf at hw
    simp only at hw
    split at hw
    · cases hw
    · rename_i hn; push Not at hn; exact hn
  · rintro a (rfl | rfl | rfl) hne
    · exact hkb.1
    · exact hcyl _ _ _ hp hne
    · exact hcyl _ _ _ hxl hne
  · intro row hrow
    obtain ⟨m1, _, rfl⟩ := List.mem_map.1 hrow
    unfold sphRow normRow rawRow
    split
    · split <;> simp
    · simp

/-- The |k| bins of a returned result are equally spaced up to the tolerance of `np.allclose`, and go upwards: descending or equal bins never give
a result. -/
theorem C126_spacing {o : Obj} {kb : KArr} {lens : List ℝ} {wg : Option (List ℝ)} {kp kl : Option KArr} {r : List (List ℝ) × List ℝ}
    (h : getSphericalWf o kb lens wg kp kl = .ok r) :
    (∀ i, i + 1 < kb.vals.length → |(kb.vals.getD (i + 1) 0 - kb.vals.getD i 0) - (kb.vals.getD 1 0 - kb.vals.getD 0 0)|
      ≤ 1e-8 + 1e-5 * |kb.vals.getD 1 0 - kb.vals.getD 0 0|) ∧ kb.vals.getD 0 0 < kb.vals.getD (kb.vals.length - 1) 0 := by
  have h2 := (C126_accepted h).2.2.1
  obtain ⟨w, xp, xl, ls, hw, hp, hl, hxl, hk, hls, he, rfl⟩ := success h
  constructor
  · unfold checkKbins at hk
    split at hk
    · cases hk
    split at hk
    · cases hk
    split at hk
    · cases hk
    · rename_i u hlin
      exact (linear_ok hlin).2
  · have hs := step_pos_of_edges h2 he
    rw [step_eq _ (by intro e; rw [e] at h2; simp at h2)] at hs
    unfold Spec.width at hs
    have h1 : (2 : ℝ) ≤ kb.vals.length := by exact_mod_cast h2
    rcases div_pos_iff.1 hs with h | h
    · linarith [h.1]
    · linarith [h.2]

/-- For ascending bins the edges are the borders of the bins of the specification: one more than bins, adjacent ones `width` apart, the first half a
width below the first centre and the last half a width above the last centre. -/
theorem C126_edges {x : List ℝ} (hx : x.Pairwise (· < ·)) (h : 2 ≤ x.length) :
    (edgesOf x).length = x.length + 1 ∧
      ∀ (m : ℕ), m ≤ x.length → (edgesOf x)[m]? = some (x.getD 0 0 + (m - 1 / 2) * Spec.width x) ∧
        x.getD 0 0 + (((x.length - 1 : ℕ) : ℝ)) * Spec.width x = x.getD (x.length - 1) 0 := by
  have hne : x ≠ [] := by rintro rfl; simp at h
  have hlen := edges_length hx h
  refine ⟨hlen, fun m hm => ⟨?_, ?_⟩⟩
  · unfold edgesOf at hlen ⊢
    rw [KBins.arange_length] at hlen
    rw [KBins.arange_get _ _ _ _ (by omega), xmin_asc hx hne, step_eq x hne]
    congr 1; ring
  · have h1 : (2 : ℝ) ≤ x.length := by exact_mod_cast h
    unfold Spec.width
    rw [Nat.cast_sub (by omega), Nat.cast_one, mul_div_cancel₀ _ (by linarith)]
    ring

/-- Every centre lies in its own bin, for at most 10000 accepted bins at least 0.001 apart. -/
theorem C126_centre_in_own_bin {x : List ℝ} {u : Unit} (hlin : checkLinear x = .ok u) (hd : 1e-3 ≤ x.getD 1 0 - x.getD 0 0)
    (hn : x.length ≤ 10000) (i : ℕ) (hi : i < x.length) : Spec.InBin x i (x.getD i 0) := by
  obtain ⟨h2, hl⟩ := linear_ok hlin
  set D := x.getD 1 0 - x.getD 0 0 with hD
  have habs : |D| = D := abs_of_nonneg (by norm_num at hd; linarith)
  have htol : ∀ i, i + 1 < x.length → |(x.getD (i + 1) 0 - x.getD i 0) - D| ≤ 2e-5 * D := by
    intro i hi
    refine (hl i hi).trans ?_
    rw [habs]
    norm_num at hd ⊢
    linarith
  have hdev : ∀ i, i < x.length → |x.getD i 0 - (x.getD 0 0 + i * D)| ≤ i * (2e-5 * D) := by
    intro i
    induction i with
    | zero => intro _; simp
    | succ i ih =>
      intro hi
      have a := abs_le.1 (ih (by omega))
      have b := abs_le.1 (htol i hi)
      rw [abs_le]
      push_cast
      constructor
      · linarith [a.1, b.1]
      · linarith [a.2, b.2]
  have hDpos : 0 < D := by norm_num at hd; linarith
  have hNr : (x.length : ℝ) ≤ 10000 := by exact_mod_cast hn
  have h1 : (2 : ℝ) ≤ x.length := by exact_mod_cast h2
  have hlast := abs_le.1 (hdev (x.length - 1) (by omega))
  rw [Nat.cast_sub (by omega), Nat.cast_one] at hlast
  have hN1 : (0 : ℝ) < (x.length : ℝ) - 1 := by linarith
  have hw : |Spec.width x - D| ≤ 2e-5 * D := by
    unfold Spec.width
    rw [abs_le]
    constructor
    · rw [neg_le_sub_iff_le_add, ← sub_le_iff_le_add, le_div_iff₀ hN1]
      nlinarith [hlast.1]
    · rw [sub_le_iff_le_add, div_le_iff₀ hN1]
      nlinarith [hlast.2]
  have hw' := abs_le.1 hw
  have hi' : (i : ℝ) ≤ 10000 := by
    have : (i : ℝ) ≤ x.length := by exact_mod_cast hi.le
    linarith
  have hi0 : (0 : ℝ) ≤ i := Nat.cast_nonneg _
  have hd' := abs_le.1 (hdev i hi)
  have hm1 : (i : ℝ) * (2e-5 * D) ≤ 10000 * (2e-5 * D) := mul_le_mul_of_nonneg_right hi' (by positivity)
  have hm2 : (i : ℝ) * (Spec.width x - D) ≤ i * (2e-5 * D) := mul_le_mul_of_nonneg_left hw'.2 hi0
  have hm3 : (i : ℝ) * (-(2e-5 * D)) ≤ i * (Spec.width x - D) := mul_le_mul_of_nonneg_left hw'.1 hi0
  unfold Spec.InBin
  constructor <;> norm_num at * <;> nlinarith

/-! ### The values -/

theorem edge_iff {x : List ℝ} (hx : x.Pairwise (· < ·)) (h : 2 ≤ x.length) (m : ℕ) (k : ℝ) :
    (edge (xmin x) (step x) m ≤ k ∧ k < edge (xmin x) (step x) (m + 1)) ↔ Spec.InBin x m k := by
  have hne : x ≠ [] := by rintro rfl; simp at h
  unfold edge Spec.InBin
  rw [xmin_asc hx hne, step_eq x hne]
  push_cast
  constructor
  · rintro ⟨a, b⟩; constructor <;> linarith
  · rintro ⟨a, b⟩; constructor <;> linarith

open Classical in
/-- Sums over the modes of a bin are the sums of the specification. -/
theorem row_sum {o : Obj} {x xp xl : List ℝ} (hx : x.Pairwise (· < ·)) (h : 2 ≤ x.length) (W : ℝ → ℕ → ℕ → ℕ → ℝ) (m : ℕ) (g : Mode → ℝ) (g' : ℝ × ℝ → ℕ → ℝ)
    (bls : List (ℝ × ℝ)) (ls : List (List Mode)) (hW : ∀ b ∈ bls, o.cyl b.1 xp xl = .ok (W b.1)) (hls : UVP.mapE (blModes o xp xl) bls = .ok ls)
    (hg : ∀ b ∈ bls, ∀ d : ℕ, g ⟨Spec.kmag o.blToK o.tauToK b.1 (o.dlys.getD d 0), b.2, fun c => W b.1 d (c / xl.length) (c % xl.length)⟩ = g' b d) :
    ((inRow (xmin x) (step x) m ls.flatten).map g).sum
      = Spec.pairSum x m bls o.dlys.length (fun l d => Spec.kmag o.blToK o.tauToK l (o.dlys.getD d 0)) g' := by
  unfold inRow Spec.pairSum
  rw [filter_sum (fun p : Mode => edge (xmin x) (step x) m ≤ p.kmag ∧ p.kmag < edge (xmin x) (step x) (m + 1))]
  rw [UVP.mapE_ok_iff] at hls
  induction hls with
  | nil => rfl
  | @cons b l bls ls h1 h2 ih =>
    rw [List.flatten_cons, List.map_append, List.sum_append, List.map_cons, List.sum_cons,
      ih (fun c hc => hW c (List.mem_cons_of_mem _ hc)) (fun c hc => hg c (List.mem_cons_of_mem _ hc))]
    congr 1
    unfold blModes at h1
    rw [hW b List.mem_cons_self] at h1
    rw [← Except.ok.inj h1]
    unfold modesOf
    rw [List.map_map, sum_list_range]
    refine Finset.sum_congr rfl (fun d _ => ?_)
    simp only [Function.comp, edge_iff hx h]
    rw [← hg b List.mem_cons_self d]
    rfl

open Classical in
theorem binMean_cells {x : List ℝ} (hx : x.Pairwise (· < ·)) (h : 2 ≤ x.length) (xp xl : List ℝ) (hl : 0 < xl.length) (m : ℕ) (t : ℕ → ℕ → ℝ) :
    binMean (xmin x) (step x) m ((List.range (ktotOf xp xl).length).map (fun c : ℕ => ((ktotOf xp xl).getD c 0, t (c / xl.length) (c % xl.length))))
      = Spec.cellMean x m xp.length xl.length (fun i j => Real.sqrt (xp.getD i 0 ^ 2 + xl.getD j 0 ^ 2)) t := by
  have key : ∀ (f : ℝ × ℝ → ℝ) (F : ℕ → ℕ → ℝ), (∀ c : ℕ, f ((ktotOf xp xl).getD c 0, t (c / xl.length) (c % xl.length)) = F (c / xl.length) (c % xl.length)) →
      (((((List.range (ktotOf xp xl).length).map (fun c : ℕ => ((ktotOf xp xl).getD c 0, t (c / xl.length) (c % xl.length)))).filter
        (fun p => decide (edge (xmin x) (step x) m ≤ p.1 ∧ p.1 < edge (xmin x) (step x) (m + 1))))).map f).sum
      = ∑ i ∈ range xp.length, ∑ j ∈ range xl.length, if Spec.InBin x m (Real.sqrt (xp.getD i 0 ^ 2 + xl.getD j 0 ^ 2)) then F i j else 0 := by
    intro f F hf
    rw [filter_sum (fun p : ℝ × ℝ => edge (xmin x) (step x) m ≤ p.1 ∧ p.1 < edge (xmin x) (step x) (m + 1)), List.map_map, sum_list_range, ktot_length,
      ← sum_grid _ _ hl (fun i j => if Spec.InBin x m (Real.sqrt (xp.getD i 0 ^ 2 + xl.getD j 0 ^ 2)) then F i j else 0)]
    refine Finset.sum_congr rfl (fun c hc => ?_)
    simp only [Function.comp, edge_iff hx h]
    rw [← hf c, ktot_get _ _ _ (Finset.mem_range.1 hc)]
  have k1 := key (fun p => p.2) t (fun _ => rfl)
  have k2 := key (fun _ => 1) (fun _ _ => 1) (fun _ => rfl)
  have k3 : ∀ l : List (ℝ × ℝ), (l.map (fun _ => (1 : ℝ))).sum = l.length := by intro l; simp
  rw [k3] at k2
  unfold binMean Spec.cellMean
  rw [← k1, ← k2]
  split
  · rename_i he; rw [he]; simp
  · unfold Window.mean; rw [List.length_map]

open Classical in
/-- Missing: bins given in another unit of the same dimension are not converted (`C126_counterexample_units`); here the numbers are taken as they are. The returned window function. With `k` the |k| of a (baseline, delay) pair and `K` that of a cell, row `m1` is obtained from the weighted mean, over the
pairs of bin `m1`, of their cylindrical windows: its entry `m` is the mean of it over the cells of bin `m`, divided by the sum of these means; the row is zero if that
weighted mean has no positive sum. -/
theorem C126_value_partial {o : Obj} {kb : KArr} {lens w : List ℝ} {kp kl : KArr} {r : List (List ℝ) × List ℝ}
    (h : getSphericalWf o kb lens (some w) (some kp) (some kl) = .ok r) (hx : kb.vals.Pairwise (· < ·)) (hp : kp.vals ≠ []) (hl : kl.vals ≠ [])
    (W : ℝ → ℕ → ℕ → ℕ → ℝ) (hW : ∀ b ∈ lens, o.cyl b kp.vals kl.vals = .ok (W b)) (m1 m : ℕ) (hm1 : m1 < kb.vals.length) (hm : m < kb.vals.length) :
    let k := fun (len : ℝ) (d : ℕ) => Spec.kmag o.blToK o.tauToK len (o.dlys.getD d 0)
    let K := fun (i j : ℕ) => Real.sqrt (kp.vals.getD i 0 ^ 2 + kl.vals.getD j 0 ^ 2)
    let np := kp.vals.length
    let nl := kl.vals.length
    let row := Spec.rowWindow kb.vals m1 (lens.zip w) o.dlys.length k W
    let mean := fun q => Spec.cellMean kb.vals q np nl K row
    (r.1.getD m1 []).getD m 0 = if 0 < ∑ i ∈ range np, ∑ j ∈ range nl, row i j then
        (if ∑ q ∈ range kb.vals.length, mean q = 0 then mean m else mean m / ∑ q ∈ range kb.vals.length, mean q) else 0 := by
  intro k K np nl row mean
  have h2 := (C126_accepted h).2.2.1
  obtain ⟨w', xp, xl, ls, hw', hxp, hne, hxl, hk, hls, he, rfl⟩ := success h
  have ew : w' = w := by
    unfold weightsOf at hw'
    simp only at hw'
    split at hw'
    · cases hw'
    · exact (Except.ok.inj hw').symm
  have hbin : ∀ (d : Except Err (List ℝ)) (a : KArr) (y : List ℝ), checkedBins o.kunits d (some a) = .ok y → a.vals ≠ [] → y = a.vals := by
    intro d a y hy hn
    unfold checkedBins cylBins at hy
    simp only [List.length_eq_zero_iff, hn, if_false] at hy
    split at hy
    · cases hy
    rename_i z hz
    split at hz
    · cases hz
    have := Except.ok.inj hz
    subst this
    split at hy
    · cases hy
    split at hy
    · cases hy
    exact (Except.ok.inj hy).symm
  have exp := hbin _ _ _ hxp hp
  have exl := hbin _ _ _ hxl hl
  subst ew exp exl
  have hW' : ∀ b ∈ lens.zip w', o.cyl b.1 kp.vals kl.vals = .ok (W b.1) := fun b hb => hW _ (List.of_mem_zip hb).1
  have hnl : 0 < kl.vals.length := List.length_pos_iff.2 hl
  have htemp : ∀ c : ℕ, wfTemp (inRow (xmin kb.vals) (step kb.vals) m1 ls.flatten) c = row (c / nl) (c % nl) := by
    intro c
    unfold wfTemp
    rw [row_sum hx h2 W m1 (fun p => p.wf c * p.wgt) (fun b d => W b.1 d (c / nl) (c % nl) * b.2) _ _ hW' hls (fun _ _ _ => rfl),
      row_sum hx h2 W m1 (fun p => p.wgt) (fun b _ => b.2) _ _ hW' hls (fun _ _ _ => rfl)]
    rfl
  have hsum : ((List.range (ktotOf kp.vals kl.vals).length).map (wfTemp (inRow (xmin kb.vals) (step kb.vals) m1 ls.flatten))).sum
      = ∑ i ∈ range np, ∑ j ∈ range nl, row i j := by
    rw [sum_list_range, ktot_length, ← sum_grid _ _ hnl row]
    exact Finset.sum_congr rfl (fun c _ => htemp c)
  have hraw : rawRow (xmin kb.vals) (step kb.vals) kb.vals.length (ktotOf kp.vals kl.vals) (wfTemp (inRow (xmin kb.vals) (step kb.vals) m1 ls.flatten))
      = (List.range kb.vals.length).map mean := by
    unfold rawRow
    refine List.map_congr_left (fun q _ => ?_)
    rw [show (fun c : ℕ => ((ktotOf kp.vals kl.vals).getD c 0, wfTemp (inRow (xmin kb.vals) (step kb.vals) m1 ls.flatten) c))
      = (fun c : ℕ => ((ktotOf kp.vals kl.vals).getD c 0, row (c / nl) (c % nl))) from funext (fun c => by rw [htemp c])]
    exact binMean_cells hx h2 _ _ hnl q row
  have hrow : (sphWf (xmin kb.vals) (step kb.vals) kb.vals.length (ktotOf kp.vals kl.vals) ls.flatten).getD m1 []
      = sphRow (xmin kb.vals) (step kb.vals) kb.vals.length (ktotOf kp.vals kl.vals) ls.flatten m1 := by
    unfold sphWf
    rw [List.getD_eq_getElem _ _ (by simpa using hm1)]
    simp
  show ((sphWf (xmin kb.vals) (step kb.vals) kb.vals.length (ktotOf kp.vals kl.vals) ls.flatten).getD m1 []).getD m 0 = _
  rw [hrow]
  unfold sphRow
  rw [hsum, hraw]
  by_cases hpos : 0 < ∑ i ∈ range np, ∑ j ∈ range nl, row i j
  · have hin : inRow (xmin kb.vals) (step kb.vals) m1 ls.flatten ≠ [] := by
      intro hin
      have : ∀ i j, row i j = 0 := by
        intro i j
        show Spec.pairSum _ _ _ _ _ _ / _ = 0
        have := row_sum (o := o) hx h2 W m1 (fun p => p.wgt) (fun b _ => b.2) _ _ hW' hls (fun _ _ _ => rfl)
        rw [hin] at this
        simp only [List.map_nil, List.sum_nil] at this
        rw [← this, div_zero]
      simp [this] at hpos
    rw [if_pos ⟨hin, hpos⟩, if_pos hpos]
    unfold normRow
    rw [sum_list_range]
    by_cases hs : ∑ q ∈ range kb.vals.length, mean q = 0
    · rw [if_neg (by simpa using hs), if_pos hs, List.getD_eq_getElem _ _ (by simpa using hm)]; simp
    · rw [if_pos hs, if_neg hs, List.getD_eq_getElem _ _ (by simpa using hm)]; simp
  · rw [if_neg (fun hh => hpos hh.2), if_neg hpos, List.getD_eq_getElem _ _ (by simpa using hm)]; simp

open Classical in
/-- The returned |k| of a bin is the plain mean of the |k| of the (baseline, delay) pairs in it (0 if there is none), and then lies in the bin. -/
theorem C126_weighted_k {o : Obj} {kb : KArr} {lens w : List ℝ} {kp kl : Option KArr} {r : List (List ℝ) × List ℝ}
    (h : getSphericalWf o kb lens (some w) kp kl = .ok r) (hx : kb.vals.Pairwise (· < ·)) (m1 : ℕ) (hm1 : m1 < kb.vals.length) :
    let k := fun (len : ℝ) (d : ℕ) => Spec.kmag o.blToK o.tauToK len (o.dlys.getD d 0)
    r.2.getD m1 0 = Spec.pairSum kb.vals m1 (lens.zip w) o.dlys.length k (fun b d => k b.1 d)
        / Spec.pairSum kb.vals m1 (lens.zip w) o.dlys.length k (fun _ _ => 1) ∧
      ((∃ len ∈ lens, ∃ d < o.dlys.length, Spec.InBin kb.vals m1 (k len d)) → Spec.InBin kb.vals m1 (r.2.getD m1 0)) := by
  intro k
  have h2 := (C126_accepted h).2.2.1
  have hwl := (C126_accepted h).2.1 w rfl
  obtain ⟨w', xp, xl, ls, hw', hxp, hne, hxl, hk, hls, he, rfl⟩ := success h
  have ew : w' = w := by
    unfold weightsOf at hw'
    simp only at hw'
    split at hw'
    · cases hw'
    · exact (Except.ok.inj hw').symm
  subst ew
  have hcyl : ∀ b ∈ lens.zip w', ∃ W, o.cyl b.1 xp xl = .ok W := by
    intro b hb
    obtain ⟨i, hi⟩ := List.mem_iff_getElem?.1 hb
    obtain ⟨l, _, hbl⟩ := UVP.forall₂_getElem_left (UVP.mapE_ok_iff.1 hls) hi
    unfold blModes at hbl
    split at hbl
    · cases hbl
    · rename_i W hW; exact ⟨W, hW⟩
  have hex : ∃ W : ℝ → ℕ → ℕ → ℕ → ℝ, ∀ b ∈ lens.zip w', o.cyl b.1 xp xl = .ok (W b.1) := by
    refine ⟨fun len => match o.cyl len xp xl with | .ok W => W | .error _ => fun _ _ _ => 0, fun b hb => ?_⟩
    obtain ⟨W, hW⟩ := hcyl b hb
    simp [hW]
  obtain ⟨W, hW⟩ := hex
  have hget : ((List.range kb.vals.length).map (weightedK (xmin kb.vals) (step kb.vals) ls.flatten)).getD m1 0
      = weightedK (xmin kb.vals) (step kb.vals) ls.flatten m1 := by
    rw [List.getD_eq_getElem _ _ (by simpa using hm1)]; simp
  have s1 := row_sum (o := o) hx h2 W m1 (fun p => p.kmag) (fun b d => k b.1 d) _ _ hW hls (fun _ _ _ => rfl)
  have s2 := row_sum (o := o) hx h2 W m1 (fun _ => 1) (fun _ _ => 1) _ _ hW hls (fun _ _ _ => rfl)
  have k3 : ∀ l : List Mode, (l.map (fun _ => (1 : ℝ))).sum = l.length := by intro l; simp
  rw [k3] at s2
  show ((List.range kb.vals.length).map (weightedK (xmin kb.vals) (step kb.vals) ls.flatten)).getD m1 0 = _ ∧
    (_ → Spec.InBin kb.vals m1 (((List.range kb.vals.length).map (weightedK (xmin kb.vals) (step kb.vals) ls.flatten)).getD m1 0))
  rw [hget]
  constructor
  · rw [← s1, ← s2]
    unfold weightedK
    split
    · rename_i hn; rw [hn]; simp
    · unfold Window.mean; rw [List.length_map]
  · rintro ⟨len, hlen, d, hd, hin⟩
    have hmem : ∀ p ∈ inRow (xmin kb.vals) (step kb.vals) m1 ls.flatten, Spec.InBin kb.vals m1 p.kmag := by
      intro p hp
      have := (List.mem_filter.1 hp).2
      rw [decide_eq_true_eq, edge_iff hx h2] at this
      exact this
    have hnil : inRow (xmin kb.vals) (step kb.vals) m1 ls.flatten ≠ [] := by
      obtain ⟨i, hi⟩ := List.mem_iff_getElem?.1 hlen
      have hi' : i < lens.length := (List.getElem?_eq_some_iff.1 hi).1
      have hz : (lens.zip w')[i]? = some (len, w'[i]'(by omega)) := by
        rw [List.zip, List.getElem?_zipWith, hi, List.getElem?_eq_getElem (by omega)]
      obtain ⟨l, hl, hbl⟩ := UVP.forall₂_getElem_left (UVP.mapE_ok_iff.1 hls) hz
      unfold blModes at hbl
      rw [hW _ (List.mem_of_getElem? hz)] at hbl
      have hbl := Except.ok.inj hbl
      have : (⟨k len d, w'[i]'(by omega), fun c => W len d (c / xl.length) (c % xl.length)⟩ : Mode) ∈ ls.flatten := by
        refine List.mem_flatten.2 ⟨l, List.mem_of_getElem? hl, ?_⟩
        rw [← hbl]
        exact List.mem_map.2 ⟨d, List.mem_range.2 hd, rfl⟩
      intro e
      have hm : (⟨k len d, w'[i]'(by omega), fun c => W len d (c / xl.length) (c % xl.length)⟩ : Mode) ∈ inRow (xmin kb.vals) (step kb.vals) m1 ls.flatten := by
        refine List.mem_filter.2 ⟨this, ?_⟩
        rw [decide_eq_true_eq, edge_iff hx h2]
        exact hin
      rw [e] at hm
      cases hm
    unfold weightedK
    rw [if_neg hnil]
    unfold Window.mean
    rw [List.length_map]
    have hpos : (0 : ℝ) < (inRow (xmin kb.vals) (step kb.vals) m1 ls.flatten).length := by
      exact_mod_cast List.length_pos_iff.2 hnil
    have hlo : ∀ (q : List Mode), q ≠ [] → (∀ p ∈ q, Spec.InBin kb.vals m1 p.kmag) →
        (q.length : ℝ) * (kb.vals.getD 0 0 + (m1 - 1 / 2) * Spec.width kb.vals) ≤ (q.map (fun p => p.kmag)).sum ∧
        (q.map (fun p => p.kmag)).sum < (q.length : ℝ) * (kb.vals.getD 0 0 + (m1 + 1 / 2) * Spec.width kb.vals) := by
      intro q
      induction q with
      | nil => intro h; exact absurd rfl h
      | cons p q ih =>
        intro _ hq
        have hp := hq p List.mem_cons_self
        unfold Spec.InBin at hp
        by_cases hqn : q = []
        · subst hqn
          simp only [List.map_cons, List.map_nil, List.sum_cons, List.sum_nil, List.length_cons, List.length_nil]
          push_cast
          constructor <;> linarith [hp.1, hp.2]
        · have := ih hqn (fun p hp => hq p (List.mem_cons_of_mem _ hp))
          simp only [List.map_cons, List.sum_cons, List.length_cons]
          push_cast
          constructor <;> linarith [hp.1, hp.2, this.1, this.2]
    have hb := hlo _ hnil hmem
    constructor
    · rw [le_div_iff₀ hpos]; linarith [hb.1]
    · rw [div_lt_iff₀ hpos]; linarith [hb.2]

/-- The order in which the baselines are listed (with their weights) does not matter, for given cylindrical bins. -/
theorem C126_order {o : Obj} {kb : KArr} {lens w lens' w' : List ℝ} {kp : KArr} {kl : Option KArr} (hp : kp.vals ≠ [])
    (h1 : w.length = lens.length) (h2 : w'.length = lens'.length) (hperm : (lens.zip w).Perm (lens'.zip w')) {r : List (List ℝ) × List ℝ}
    (h : getSphericalWf o kb lens (some w) (some kp) kl = .ok r) : getSphericalWf o kb lens' (some w') (some kp) kl = .ok r := by
  obtain ⟨v, xp, xl, ls, hw, hxp, hne, hxl, hk, hls, he, hr⟩ := success h
  have ew : v = w := by
    unfold weightsOf at hw
    simp only at hw
    split at hw
    · cases hw
    · exact (Except.ok.inj hw).symm
  subst ew
  have hlen : lens.length = lens'.length := by
    have := hperm.length_eq
    simp only [List.length_zip, h1, h2, Nat.min_self] at this
    exact this
  have hw' : weightsOf lens'.length (some w') = .ok w' := by simp [weightsOf, h2]
  have hne' : lens' ≠ [] := by
    intro e; rw [e] at hlen; exact hne (List.length_eq_zero_iff.1 hlen)
  have hxp' : checkedBins o.kunits (o.defPerp lens') (some kp) = .ok xp := by
    unfold checkedBins cylBins at hxp ⊢
    simp only [List.length_eq_zero_iff, hp, if_false] at hxp ⊢
    exact hxp
  obtain ⟨ls', hls', hpl⟩ := mapE_perm hperm hls
  have hfl : ls.flatten.Perm ls'.flatten := hpl.flatten
  unfold getSphericalWf compute toSpherical
  simp only [hw', hxp', hne', hxl, hk, hls', if_false]
  rw [if_neg (by omega), hr, sphWf_perm _ _ _ _ hfl]
  congr 2
  exact List.map_congr_left (fun m _ => (weightedK_perm _ _ hfl m).symm)

/-- No weights means weights of one. -/
theorem C126_no_weights (o : Obj) (kb : KArr) (lens : List ℝ) (kp kl : Option KArr) :
    getSphericalWf o kb lens none kp kl = getSphericalWf o kb lens (some (lens.map (fun _ => 1))) kp kl := by
  have : weightsOf lens.length (some (lens.map (fun _ => (1 : ℝ)))) = weightsOf lens.length none := by
    simp [weightsOf]
  unfold getSphericalWf
  rw [this]

/-- Only the numbers of the bins are used: two arrays with the same numbers and any two accepted units give the same result. -/
theorem C126_finding_units_ignored (o : Obj) (x : List ℝ) (u v : KUnit) (hu : u.mpc = o.kunits.mpc ∧ u.h = o.kunits.h)
    (hv : v.mpc = o.kunits.mpc ∧ v.h = o.kunits.h) (lens : List ℝ) (wg : Option (List ℝ)) (kp kl : Option KArr) :
    getSphericalWf o ⟨x, some u⟩ lens wg kp kl = getSphericalWf o ⟨x, some v⟩ lens wg kp kl := by
  have : checkKbins o.kunits ⟨x, some u⟩ = checkKbins o.kunits ⟨x, some v⟩ := by
    unfold checkKbins checkKunits
    simp only [hu.1, hu.2, hv.1, hv.2, and_self, if_true]
  unfold getSphericalWf
  rw [this]

/-- Ascending, equally spaced (to the tolerance) bins, at least two. -/
def Good (x : List ℝ) : Prop := x.Pairwise (· < ·) ∧ 2 ≤ x.length ∧
  ∀ i, i + 1 < x.length → |(x.getD (i + 1) 0 - x.getD i 0) - (x.getD 1 0 - x.getD 0 0)| ≤ 1e-8 + 1e-5 * |x.getD 1 0 - x.getD 0 0|

theorem good_checks {x : List ℝ} (h : Good x) : checkLinear x = .ok () ∧ checkEdges x = .ok () := by
  obtain ⟨hx, h2, hl⟩ := h
  have hne : x ≠ [] := by rintro rfl; simp at h2
  constructor
  · unfold checkLinear
    have hget : ∀ i, i + 1 < x.length → (diffs x)[i]? = some (x.getD (i + 1) 0 - x.getD i 0) := by
      intro i hi
      unfold diffs
      rw [List.getElem?_zipWith, List.getElem?_tail, List.getElem?_eq_getElem (by omega : i < x.length), List.getElem?_eq_getElem hi]
      rw [List.getD_eq_getElem _ _ hi, List.getD_eq_getElem _ _ (by omega : i < x.length)]
    have hlen := diffs_length x
    split
    · rename_i hd; rw [hd] at hlen; simp at hlen; omega
    · rename_i d0 ds hd
      have h0 := hget 0 (by omega)
      rw [hd] at h0
      simp only [List.getElem?_cons_zero, Option.some.injEq] at h0
      rw [if_pos]
      intro d hdm
      rw [← hd] at hdm
      obtain ⟨i, hi⟩ := List.mem_iff_getElem?.1 hdm
      have hi' := (List.getElem?_eq_some_iff.1 hi).1
      rw [hlen] at hi'
      rw [hget i (by omega)] at hi
      have := hl i (by omega)
      rw [← Option.some.inj hi, h0]
      norm_num at this ⊢
      exact this
  · unfold checkEdges
    have hs : step x ≠ 0 := by rw [step_eq x hne]; exact (width_pos hx h2).ne'
    have he : edgesOf x ≠ [] := by
      intro e
      have := edges_length hx h2
      rw [e] at this; simp at this
    rw [if_neg hs, if_neg he]

/-- A documented call succeeds: at least one baseline, matching weights, good bins with units of the right dimension, and a window for each baseline. -/
theorem C126_succeeds {o : Obj} {kb kp kl : KArr} {lens w : List ℝ} (hw : w.length = lens.length) (hne : lens ≠ [])
    (hu : ∀ a ∈ [kb, kp, kl], Good a.vals ∧ ∃ u, a.unit = some u ∧ u.mpc = o.kunits.mpc ∧ u.h = o.kunits.h)
    (hcyl : ∀ len ∈ lens, ∃ W, o.cyl len kp.vals kl.vals = .ok W) :
    ∃ r, getSphericalWf o kb lens (some w) (some kp) (some kl) = .ok r := by
  have hunit : ∀ a ∈ [kb, kp, kl], checkKunits o.kunits a = .ok () := by
    intro a ha
    obtain ⟨_, u, h1, h2, h3⟩ := hu a ha
    unfold checkKunits
    simp [h1, h2, h3]
  have hb : ∀ (d : Except Err (List ℝ)), ∀ a ∈ [kb, kp, kl], checkedBins o.kunits d (some a) = .ok a.vals := by
    intro d a ha
    have hg := good_checks (hu a ha).1
    have hn : a.vals.length ≠ 0 := by have := (hu a ha).1.2.1; omega
    unfold checkedBins cylBins
    simp [hunit a ha, hg.1, hg.2, hn]
  have hk : checkKbins o.kunits kb = .ok () := by
    have hg := good_checks (hu kb (by simp)).1
    have h2 := (hu kb (by simp)).1.2.1
    unfold checkKbins
    simp only [hunit kb (by simp), hg.1, hg.2]
    rw [if_neg (by omega)]
  obtain ⟨ls, hls⟩ : ∃ ls, UVP.mapE (blModes o kp.vals kl.vals) (lens.zip w) = .ok ls := by
    refine UVP.mapE_exists (fun b hb => ?_)
    obtain ⟨W, hW⟩ := hcyl b.1 (List.of_mem_zip hb).1
    exact ⟨modesOf o kl.vals.length b.1 b.2 W, by unfold blModes; rw [hW]⟩
  have hkg := (hu kb (by simp)).1
  have hel := edges_length hkg.1 hkg.2.1
  unfold getSphericalWf compute toSpherical
  simp only [weightsOf, hw, ne_eq, not_true_eq_false, if_false, hb _ kp (by simp), hb _ kl (by simp), hne, hk, hls]
  rw [if_neg (by omega)]
  exact ⟨_, rfl⟩

/-! ### Concrete cases -/

/-- An object with one delay (0), where a baseline of length `l` probes |k| = `l`, and all windows are one. -/
noncomputable def exObj : Obj := ⟨⟨-1, 1, 1⟩, 1, 1, [0], fun _ => .error .value, .error .value, fun _ _ _ => .ok (fun _ _ _ => 1)⟩

theorem good_pair (a b : ℝ) (h : a < b) : Good [a, b] := by
  refine ⟨by simp [h], by simp, fun i hi => ?_⟩
  have : i = 0 := by simp at hi; omega
  subst this
  simp only [List.getD_cons_zero, List.getD_cons_succ, zero_add, sub_self, abs_zero]
  positivity

/-- The hypotheses of the theorems are met: two baselines, two bins per axis. -/
theorem ex_ok (s a b : ℝ) (hab : a < b) : ∃ r, getSphericalWf exObj ⟨[a, b], some ⟨-1, 1, s⟩⟩ [1, 2] (some [1, 3]) (some ⟨[1, 2], some ⟨-1, 1, 1⟩⟩)
    (some ⟨[1, 2], some ⟨-1, 1, 1⟩⟩) = .ok r := by
  refine C126_succeeds rfl (by simp) ?_ (fun _ _ => ⟨_, rfl⟩)
  intro c hc
  simp only [List.mem_cons, List.not_mem_nil, or_false] at hc
  rcases hc with rfl | rfl | rfl
  · exact ⟨good_pair a b hab, _, rfl, rfl, rfl⟩
  · exact ⟨good_pair 1 2 (by norm_num), _, rfl, rfl, rfl⟩
  · exact ⟨good_pair 1 2 (by norm_num), _, rfl, rfl, rfl⟩

theorem kmag_len (l : ℝ) (h : 0 ≤ l) : Spec.kmag 1 1 l 0 = l := by
  unfold Spec.kmag
  simp [Real.sqrt_sq h]

theorem inBin_pair (a b : ℝ) (m : ℕ) (k : ℝ) : Spec.InBin [a, b] m k ↔ a + (m - 1 / 2) * (b - a) ≤ k ∧ k < a + (m + 1 / 2) * (b - a) := by
  unfold Spec.InBin Spec.width
  norm_num

/-- Units of the right dimension but another size are accepted and ignored. The bins 1 and 2 (in the object's unit), given as 0.001 and 0.002 in a unit a thousand times
larger (1/kpc for 1/Mpc), are the same physical bins, but the baseline probing |k| = 1 is in the first bin for one and in none for the other. -/
theorem C126_counterexample_units : ∃ r r',
    getSphericalWf exObj ⟨[1, 2], some ⟨-1, 1, 1⟩⟩ [1, 2] (some [1, 3]) (some ⟨[1, 2], some ⟨-1, 1, 1⟩⟩) (some ⟨[1, 2], some ⟨-1, 1, 1⟩⟩) = .ok r ∧
    getSphericalWf exObj ⟨[1 / 1000, 2 / 1000], some ⟨-1, 1, 1000⟩⟩ [1, 2] (some [1, 3]) (some ⟨[1, 2], some ⟨-1, 1, 1⟩⟩) (some ⟨[1, 2], some ⟨-1, 1, 1⟩⟩)
      = .ok r' ∧
    Spec.inOwnUnit 1 1000 [1 / 1000, 2 / 1000] = Spec.inOwnUnit 1 1 [1, 2] ∧ r.2.getD 0 0 = 1 ∧ r'.2.getD 0 0 = 0 := by
  obtain ⟨r, hr⟩ := ex_ok 1 1 2 (by norm_num)
  obtain ⟨r', hr'⟩ := ex_ok 1000 (1 / 1000) (2 / 1000) (by norm_num)
  refine ⟨r, r', hr, hr', by norm_num [Spec.inOwnUnit], ?_, ?_⟩
  · rw [(C126_weighted_k hr (by norm_num) 0 (by simp)).1]
    simp only [Spec.pairSum, exObj, List.zip_cons_cons, List.zip_nil_right, List.map_cons, List.map_nil, List.length_cons, List.length_nil, List.sum_cons,
      List.sum_nil, zero_add, Finset.sum_range_one, List.getD_cons_zero, inBin_pair, kmag_len 1 (by norm_num), kmag_len 2 (by norm_num)]
    norm_num
  · rw [(C126_weighted_k hr' (by norm_num) 0 (by simp)).1]
    simp only [Spec.pairSum, exObj, List.zip_cons_cons, List.zip_nil_right, List.map_cons, List.map_nil, List.length_cons, List.length_nil, List.sum_cons,
      List.sum_nil, zero_add, Finset.sum_range_one, List.getD_cons_zero, inBin_pair, kmag_len 1 (by norm_num), kmag_len 2 (by norm_num)]
    norm_num

/-- The returned "weighted" |k| ignores the weights: bins 1 and 3, baselines probing 1 and 1.5 with weights 1 and 0: the window of the first bin is that of
the first baseline alone, but its |k| is 1.25. -/
theorem C126_counterexample_weighted_k : ∃ r,
    getSphericalWf exObj ⟨[1, 3], some ⟨-1, 1, 1⟩⟩ [1, 3 / 2] (some [1, 0]) (some ⟨[1, 2], some ⟨-1, 1, 1⟩⟩) (some ⟨[1, 2], some ⟨-1, 1, 1⟩⟩) = .ok r ∧
    r.2.getD 0 0 = 5 / 4 := by
  have : ∃ r, getSphericalWf exObj ⟨[1, 3], some ⟨-1, 1, 1⟩⟩ [1, 3 / 2] (some [1, 0]) (some ⟨[1, 2], some ⟨-1, 1, 1⟩⟩) (some ⟨[1, 2], some ⟨-1, 1, 1⟩⟩) = .ok r := by
    refine C126_succeeds rfl (by simp) ?_ (fun _ _ => ⟨_, rfl⟩)
    intro c hc
    simp only [List.mem_cons, List.not_mem_nil, or_false] at hc
    rcases hc with rfl | rfl | rfl
    · exact ⟨good_pair 1 3 (by norm_num), _, rfl, rfl, rfl⟩
    · exact ⟨good_pair 1 2 (by norm_num), _, rfl, rfl, rfl⟩
    · exact ⟨good_pair 1 2 (by norm_num), _, rfl, rfl, rfl⟩
  obtain ⟨r, hr⟩ := this
  refine ⟨r, hr, ?_⟩
  rw [(C126_weighted_k hr (by norm_num) 0 (by simp)).1]
  simp only [Spec.pairSum, exObj, List.zip_cons_cons, List.zip_nil_right, List.map_cons, List.map_nil, List.length_cons, List.length_nil, List.sum_cons,
      List.sum_nil, zero_add, Finset.sum_range_one, List.getD_cons_zero, inBin_pair, kmag_len 1 (by norm_num), kmag_len (3 / 2) (by norm_num)]
  norm_num

/-- Arrays without a unit are refused. -/
theorem C126_unit_required (o : Obj) (x : List ℝ) (lens : List ℝ) (wg : Option (List ℝ)) (kp kl : Option KArr) :
    ∃ e, getSphericalWf o ⟨x, none⟩ lens wg kp kl = .error e := by
  cases h : getSphericalWf o ⟨x, none⟩ lens wg kp kl with
  | error e => exact ⟨e, rfl⟩
  | ok r =>
    have h2 := (C126_accepted h).2.2.1
    obtain ⟨u, hu, _⟩ := (C126_accepted h).2.2.2.1 _ (Or.inl rfl) (by intro e; have e : x = [] := e; subst e; simp at h2)
    cases hu

end HeraPspec.GetSph
