import Verif.Model.GetSph
import Verif.Spec.GetSph
import Verif.Lemmas.MapE
import Verif.Lemmas.Window
import Verif.Props.KBins
import Mathlib.Data.List.GetD
import Mathlib.Algebra.BigOperators.Field
import Mathlib.Algebra.Order.Floor.Semiring

namespace HeraPspec.GetSph
open HeraPspec.Window
open HeraPspec.KBins (diffs maxOf minOf)
open HeraPspec.Interp (arange)
open Finset (range)

theorem diffs_cons2 (a b : ℝ) (l : List ℝ) : diffs (a :: b :: l) = (b - a) :: diffs (b :: l) := rfl

theorem diffs_length (x : List ℝ) : (diffs x).length = x.length - 1 := by
  simp [diffs]

theorem xmin_asc {x : List ℝ} (hx : x.Pairwise (· < ·)) (h : x ≠ []) : xmin x = x.getD 0 0 := by
  cases x with
  | nil => exact absurd rfl h
  | cons a l =>
    have hs := KBins.minOf_spec a l
    have : xmin (a :: l) = minOf a l := rfl
    rw [this]
    simp only [List.getD_cons_zero]
    refine le_antisymm (hs.1 a (by simp)) ?_
    rcases List.mem_cons.1 hs.2 with h | h
    · exact h.ge
    · exact ((List.pairwise_cons.1 hx).1 _ h).le

theorem getD_last {a : ℝ} {l : List ℝ} : (a :: l).getD ((a :: l).length - 1) 0 = (a :: l).getLast (by simp) := by
  rw [List.getLast_eq_getElem, List.getD_eq_getElem _ _ (by simp)]

theorem xmax_asc {x : List ℝ} (hx : x.Pairwise (· < ·)) (h : x ≠ []) : xmax x = x.getD (x.length - 1) 0 := by
  cases x with
  | nil => exact absurd rfl h
  | cons a l =>
    have hs := KBins.maxOf_spec a l
    have : xmax (a :: l) = maxOf a l := rfl
    rw [this, getD_last]
    refine le_antisymm ?_ (hs.1 _ (List.getLast_mem _))
    obtain ⟨i, hi, he⟩ := List.mem_iff_getElem.1 hs.2
    rw [← he, List.getLast_eq_getElem]
    rcases Nat.lt_or_ge i ((a :: l).length - 1) with hlt | hge
    · exact (List.pairwise_iff_getElem.1 hx _ _ _ _ hlt).le
    · have : i = (a :: l).length - 1 := by omega
      subst this; exact le_refl _

theorem step_eq (x : List ℝ) (h : x ≠ []) : step x = Spec.width x := by
  cases x with
  | nil => exact absurd rfl h
  | cons a l =>
    unfold step Spec.width
    rw [KBins.diffs_sum, getD_last, diffs_length]
    simp

theorem width_pos {x : List ℝ} (hx : x.Pairwise (· < ·)) (h : 2 ≤ x.length) : 0 < Spec.width x := by
  unfold Spec.width
  have h1 : (2 : ℝ) ≤ x.length := by exact_mod_cast h
  refine div_pos ?_ (by linarith)
  rw [List.getD_eq_getElem _ _ (by omega), List.getD_eq_getElem _ _ (by omega)]
  exact sub_pos.2 (List.pairwise_iff_getElem.1 hx _ _ _ _ (by omega))

theorem edges_length {x : List ℝ} (hx : x.Pairwise (· < ·)) (h : 2 ≤ x.length) : (edgesOf x).length = x.length + 1 := by
  have hne : x ≠ [] := by rintro rfl; simp at h
  have hw := width_pos hx h
  unfold edgesOf
  rw [KBins.arange_length, xmin_asc hx hne, xmax_asc hx hne, step_eq x hne]
  have h1 : (2 : ℝ) ≤ x.length := by exact_mod_cast h
  have hsp : x.getD (x.length - 1) 0 - x.getD 0 0 = Spec.width x * ((x.length : ℝ) - 1) := by
    unfold Spec.width
    rw [div_mul_cancel₀ _ (by linarith)]
  have : (x.getD (x.length - 1) 0 + Spec.width x - (x.getD 0 0 - Spec.width x / 2)) / Spec.width x = x.length + 1 / 2 := by
    rw [div_eq_iff hw.ne']; linarith
  rw [this, Nat.ceil_eq_iff (by omega)]
  push_cast
  constructor <;> norm_num

/-- A missing edge is impossible only for a positive step. -/
theorem step_pos_of_edges {x : List ℝ} (h2 : 2 ≤ x.length) (h : x.length + 1 ≤ (edgesOf x).length) : 0 < step x := by
  by_contra hn
  push Not at hn
  have hne : x ≠ [] := by rintro rfl; simp at h2
  have hmm : xmin x ≤ xmax x := by
    cases x with
    | nil => exact absurd rfl hne
    | cons a l => exact (KBins.minOf_spec a l).1 _ (KBins.maxOf_spec a l).2
  unfold edgesOf at h
  rw [KBins.arange_length] at h
  have : (2 : ℕ) < ⌈(xmax x + step x - (xmin x - step x / 2)) / step x⌉₊ := by omega
  rw [Nat.lt_ceil] at this
  rcases hn.lt_or_eq with hlt | he
  · rw [lt_div_iff_of_neg hlt] at this
    push_cast at this
    linarith
  · rw [he] at this; norm_num at this

theorem filter_sum {α : Type} (p : α → Prop) [DecidablePred p] (g : α → ℝ) (l : List α) :
    ((l.filter (fun a => decide (p a))).map g).sum = (l.map (fun a => if p a then g a else 0)).sum := by
  induction l with
  | nil => rfl
  | cons a l ih => by_cases h : p a <;> simp [h, ih]

theorem filter_len {α : Type} (p : α → Prop) [DecidablePred p] (l : List α) :
    ((l.filter (fun a => decide (p a))).length : ℝ) = (l.map (fun a => if p a then (1 : ℝ) else 0)).sum := by
  rw [← filter_sum]; simp

theorem sum_list_range (n : ℕ) (f : ℕ → ℝ) : ((List.range n).map f).sum = ∑ i ∈ range n, f i := by
  induction n with
  | zero => rfl
  | succ n ih => rw [List.range_succ, Finset.sum_range_succ]; simp [ih]

theorem sum_grid (np nl : ℕ) (hl : 0 < nl) (F : ℕ → ℕ → ℝ) :
    ∑ c ∈ range (np * nl), F (c / nl) (c % nl) = ∑ i ∈ range np, ∑ j ∈ range nl, F i j := by
  induction np with
  | zero => simp
  | succ np ih =>
    rw [Nat.succ_mul, Finset.sum_range_add, ih, Finset.sum_range_succ]
    congr 1
    refine Finset.sum_congr rfl (fun j hj => ?_)
    have hj := Finset.mem_range.1 hj
    rw [Nat.mul_comm np nl, Nat.mul_add_div hl, Nat.mul_add_mod, Nat.div_eq_of_lt hj, Nat.mod_eq_of_lt hj, Nat.add_zero]

theorem ktot_length (kp kl : List ℝ) : (ktotOf kp kl).length = kp.length * kl.length := by
  unfold ktotOf
  induction kp with
  | nil => simp
  | cons a kp ih => rw [List.flatMap_cons, List.length_append, ih]; simp [Nat.succ_mul]; ring

theorem ktot_get (kp kl : List ℝ) (c : ℕ) (hc : c < kp.length * kl.length) :
    (ktotOf kp kl).getD c 0 = Real.sqrt (kp.getD (c / kl.length) 0 ^ 2 + kl.getD (c % kl.length) 0 ^ 2) := by
  unfold ktotOf
  induction kp generalizing c with
  | nil => simp at hc
  | cons a kp ih =>
    have hl : 0 < kl.length := by
      rcases Nat.eq_zero_or_pos kl.length with h | h
      · rw [h] at hc; simp at hc
      · exact h
    rw [List.flatMap_cons]
    by_cases h : c < kl.length
    · rw [List.getD_append _ _ _ _ (by simpa using h), Nat.div_eq_of_lt h, Nat.mod_eq_of_lt h]
      rw [List.getD_eq_getElem _ _ (by simpa using h), List.getElem_map, List.getD_cons_zero, List.getD_eq_getElem _ _ h]
    · push Not at h
      have hc' : c - kl.length < kp.length * kl.length := by
        rw [List.length_cons, Nat.succ_mul] at hc; omega
      rw [List.getD_append_right _ _ _ _ (by simpa using h), List.length_map, ih _ hc']
      have e1 : c / kl.length = (c - kl.length) / kl.length + 1 := by
        rw [Nat.div_eq_sub_div hl h]
      have e2 : c % kl.length = (c - kl.length) % kl.length := Nat.mod_eq_sub_mod h
      rw [e1, e2, List.getD_cons_succ]

theorem mapE_perm {α β ε : Type} {f : α → Except ε β} {l l' : List α} (h : l.Perm l') {r : List β} (hr : UVP.mapE f l = .ok r) :
    ∃ r', UVP.mapE f l' = .ok r' ∧ r.Perm r' := by
  rw [UVP.mapE_ok_iff] at hr
  obtain ⟨r', h1, h2⟩ := List.perm_comp_forall₂ h.symm hr
  exact ⟨r', UVP.mapE_ok_iff.2 h1, h2.symm⟩

theorem sphWf_perm (kmin dk : ℝ) (nb : ℕ) (kt : List ℝ) {l l' : List Mode} (h : l.Perm l') :
    sphWf kmin dk nb kt l = sphWf kmin dk nb kt l' := by
  unfold sphWf
  refine List.map_congr_left (fun m1 _ => ?_)
  have hf : (inRow kmin dk m1 l).Perm (inRow kmin dk m1 l') := h.filter _
  have ht : wfTemp (inRow kmin dk m1 l) = wfTemp (inRow kmin dk m1 l') := by
    funext c
    unfold wfTemp
    rw [(hf.map _).sum_eq, (hf.map (fun p => p.wgt)).sum_eq]
  have hn : inRow kmin dk m1 l ≠ [] ↔ inRow kmin dk m1 l' ≠ [] := by
    rw [not_iff_not]
    constructor
    · intro e; rw [e] at hf; exact hf.nil_eq.symm
    · intro e; rw [e] at hf; exact hf.eq_nil
  unfold sphRow
  rw [ht]
  simp only [hn]

theorem weightedK_perm (kmin dk : ℝ) {l l' : List Mode} (h : l.Perm l') (m1 : ℕ) : weightedK kmin dk l m1 = weightedK kmin dk l' m1 := by
  have hf : (inRow kmin dk m1 l).Perm (inRow kmin dk m1 l') := h.filter _
  unfold weightedK
  rw [mean_perm (hf.map _)]
  by_cases e : inRow kmin dk m1 l = []
  · rw [e] at hf
    rw [if_pos e, if_pos hf.nil_eq.symm]
  · rw [if_neg e, if_neg (fun e' => e (by rw [e'] at hf; exact hf.eq_nil))]

end HeraPspec.GetSph
