import Verif.Model.KBins
import Verif.Props.Interp
import Mathlib.Tactic.Linarith
import Mathlib.Tactic.FieldSimp
import Mathlib.Tactic.Ring

/-! C115: delays and the default wavenumber bins. -/
namespace HeraPspec.KBins
open HeraPspec.Interp (Env arange getKgrid kpCentre gridStep)

/-! ### Specification -/

/-- `n` channels from `f0`, spaced by `δ`. -/
noncomputable def channels (f0 δ : ℝ) (n : ℕ) : List ℝ := (List.range n).map (fun i : ℕ => f0 + i * δ)

/-- A value lies in the bin of width `w` around the centre `c`. -/
def InBin (w c x : ℝ) : Prop := c - w / 2 ≤ x ∧ x < c + w / 2

/-! ### Delays -/

theorem shift_freq (n : ℕ) (d : ℝ) (i : ℕ) (hi : i < n) : fftshift n (fftfreq n d) i = ((i : ℝ) - ((n / 2 : ℕ) : ℝ)) / (n * d) := by
  unfold fftshift fftfreq
  have hc : (i + (n - n / 2)) % n = if i < n / 2 then i + (n - n / 2) else i - n / 2 := by
    split_ifs with h
    · exact Nat.mod_eq_of_lt (by omega)
    · rw [show i + (n - n / 2) = (i - n / 2) + n by omega, Nat.add_mod_right, Nat.mod_eq_of_lt (by omega)]
  rw [hc]
  congr 1
  split_ifs with h1 h2 h2
  · omega
  · have : n / 2 ≤ n := Nat.div_le_self _ _
    push_cast [Nat.cast_sub this]; ring
  · push_cast [Nat.cast_sub (show n / 2 ≤ i by omega)]; ring
  · omega

theorem diffs_channels (f0 δ : ℝ) (n : ℕ) : diffs (channels f0 δ n) = List.replicate (n - 1) δ := by
  apply List.ext_getElem
  · simp [diffs, channels]
  · intro i h1 h2
    simp only [diffs, channels, List.getElem_zipWith, List.getElem_tail, List.getElem_map, List.getElem_range, List.getElem_replicate]
    push_cast; ring

theorem median_replicate (n : ℕ) (δ : ℝ) (hn : 0 < n) : median (List.replicate n δ) = some δ := by
  have hs : pySorted (fun a b => open Classical in decide (a ≤ b)) (List.replicate n δ) = List.replicate n δ := by
    rw [List.eq_replicate_iff]
    refine ⟨by rw [(pySorted_perm _ _).length_eq]; simp, fun b hb => ?_⟩
    rw [mem_pySorted] at hb
    exact List.eq_of_mem_replicate hb
  unfold median
  simp only [hs, List.length_replicate]
  rw [if_neg (by omega)]
  split_ifs with h
  · rw [List.getElem?_replicate, if_pos (by omega)]
  · simp only [List.getD, List.getElem?_replicate]
    rw [if_pos (by omega), if_pos (by omega)]
    simp

/-- In an increasing list more than half of whose entries equal `δ`, so do the middle ones. -/
theorem sorted_majority {s : List ℝ} (hs : s.Pairwise (· ≤ ·)) (δ : ℝ) (h : s.length < 2 * s.count δ) (k : ℕ) (hk : k < s.length)
    (h1 : 2 * k ≤ s.length) (h2 : s.length ≤ 2 * k + 2) : s[k] = δ := by
  have hsplit : s.count δ = (s.take k).count δ + (s.drop k).count δ := by rw [← List.count_append, List.take_append_drop]
  have hsplit' : s.count δ = (s.take (k + 1)).count δ + (s.drop (k + 1)).count δ := by rw [← List.count_append, List.take_append_drop]
  have hpw := List.pairwise_iff_getElem.1 hs
  rcases lt_trichotomy s[k] δ with hlt | heq | hgt
  · exfalso
    have : (s.take (k + 1)).count δ = 0 := by
      rw [List.count_eq_zero]
      intro hm
      obtain ⟨i, hi, hie⟩ := List.mem_iff_getElem.1 hm
      rw [List.getElem_take] at hie
      have hik : i < k + 1 := by rw [List.length_take] at hi; omega
      rcases Nat.lt_succ_iff_lt_or_eq.1 hik with h3 | h3
      · have := hpw i k (by omega) hk h3; linarith
      · subst h3; linarith
    have h4 := List.count_le_length (a := δ) (l := s.drop (k + 1))
    rw [List.length_drop] at h4
    omega
  · exact heq
  · exfalso
    have : (s.drop k).count δ = 0 := by
      rw [List.count_eq_zero]
      intro hm
      obtain ⟨i, hi, hie⟩ := List.mem_iff_getElem.1 hm
      rw [List.getElem_drop] at hie
      rw [List.length_drop] at hi
      rcases Nat.eq_zero_or_pos i with h3 | h3
      · subst h3; simp at hie; linarith
      · have := hpw k (k + i) hk (by omega) (by omega); linarith
    have h4 := List.count_le_length (a := δ) (l := s.take k)
    rw [List.length_take] at h4
    omega

theorem median_majority (l : List ℝ) (δ : ℝ) (h : l.length < 2 * l.count δ) : median l = some δ := by
  have hperm := pySorted_perm (fun a b => open Classical in decide (a ≤ b)) l
  have hpw : (pySorted (fun a b => open Classical in decide (a ≤ b)) l).Pairwise (fun a b : ℝ => a ≤ b) := by
    have := pySorted_pairwise (le := fun a b : ℝ => open Classical in decide (a ≤ b))
      (fun a b c h1 h2 => by simp only [decide_eq_true_eq] at *; exact h1.trans h2)
      (fun a b => by simp only [Bool.or_eq_true, decide_eq_true_eq]; exact le_total a b) l
    exact this.imp (fun h => by simpa using h)
  unfold median
  generalize pySorted (fun a b => open Classical in decide (a ≤ b)) l = s at *
  have hl := hperm.length_eq
  have hc : s.count δ = l.count δ := hperm.count_eq δ
  have hpos : 0 < l.length := by
    rcases l with _ | ⟨a, l⟩
    · simp at h
    · simp
  simp only
  rw [if_neg (by omega)]
  split_ifs with ho
  · rw [List.getElem?_eq_getElem (by omega), sorted_majority hpw δ (by omega) _ (by omega) (by omega) (by omega)]
  · have e1 : s.getD (l.length / 2 - 1) 0 = δ := by
      rw [List.getD, List.getElem?_eq_getElem (by omega), Option.getD_some]
      exact sorted_majority hpw δ (by omega) _ (by omega) (by omega) (by omega)
    have e2 : s.getD (l.length / 2) 0 = δ := by
      rw [List.getD, List.getElem?_eq_getElem (by omega), Option.getD_some]
      exact sorted_majority hpw δ (by omega) _ (by omega) (by omega) (by omega)
    rw [e1, e2]; simp

/-- **C115** For two or more channels with spacing `δ > 0` and `n ≥ 1` delays, `get_delays` returns the `n` multiples of `1 / (n δ)` from
`-(n // 2)` on: increasing, evenly spaced, zero at index `n // 2`, as many negative as positive ones, except that for even `n` the most
negative delay `-1 / (2 δ)` has no positive partner. -/
theorem C115_delays (f0 δ : ℝ) (hδ : 0 < δ) (nf : ℕ) (hnf : 2 ≤ nf) (n : ℕ) (hn : 0 < n) :
    ∃ d, getDelays (channels f0 δ nf) (some n) = some d ∧ d.length = n ∧ (n = nf → getDelays (channels f0 δ nf) none = some d) ∧
      (∀ i : ℕ, i < n → d[i]? = some (((i : ℝ) - ((n / 2 : ℕ) : ℝ)) / (n * δ))) ∧
      d[n / 2]? = some 0 ∧
      (∀ i j : ℕ, ∀ x y : ℝ, i < j → d[i]? = some x → d[j]? = some y → x < y ∧ y - x = ((j : ℝ) - i) * (1 / (n * δ))) ∧
      (∀ x ∈ d, -x ∈ d ∨ (n % 2 = 0 ∧ x = -(1 / (2 * δ)))) := by
  have hm : median (diffs (channels f0 δ nf)) = some δ := by rw [diffs_channels, median_replicate _ _ (by omega)]
  have hn0 : (0 : ℝ) < n := by exact_mod_cast hn
  have hentry : ∀ i : ℕ, i < n → ((List.range n).map (fftshift n (fftfreq n δ)))[i]? = some (((i : ℝ) - ((n / 2 : ℕ) : ℝ)) / (n * δ)) := by
    intro i hi
    rw [List.getElem?_map, List.getElem?_range hi, Option.map_some, shift_freq n δ i hi]
  refine ⟨(List.range n).map (fftshift n (fftfreq n δ)), ?_, by simp, ?_, hentry, ?_, ?_, ?_⟩
  · unfold getDelays; rw [hm]; rfl
  · intro h; unfold getDelays; rw [hm]; simp [channels, h]
  · rw [hentry _ (by omega)]; simp
  · intro i j x y hij hx hy
    have hj : j < n := by have := (List.getElem?_eq_some_iff.1 hy).1; simpa using this
    rw [hentry i (by omega), Option.some.injEq] at hx
    rw [hentry j hj, Option.some.injEq] at hy
    subst hx; subst hy
    have hlt : (i : ℝ) < j := by exact_mod_cast hij
    constructor
    · apply div_lt_div_of_pos_right _ (by positivity); linarith
    · field_simp; ring
  · intro x hx
    obtain ⟨i, hi⟩ := List.getElem?_of_mem hx
    have hin : i < n := by have := (List.getElem?_eq_some_iff.1 hi).1; simpa using this
    rw [hentry i hin, Option.some.injEq] at hi
    by_cases h0 : n % 2 = 0 ∧ i = 0
    · right
      refine ⟨h0.1, ?_⟩
      rw [← hi, h0.2]
      obtain ⟨m, rfl⟩ : ∃ m, n = 2 * m := ⟨n / 2, by omega⟩
      rw [Nat.mul_div_cancel_left m (by norm_num)]
      have : (m : ℝ) ≠ 0 := by
        have : m ≠ 0 := by omega
        exact_mod_cast this
      push_cast
      field_simp
      ring
    · left
      have hj : 2 * (n / 2) - i < n := by omega
      apply List.mem_of_getElem? (i := 2 * (n / 2) - i)
      rw [hentry _ hj, ← hi]
      congr 1
      rw [Nat.cast_sub (by omega)]
      push_cast
      ring

/-- **C115** A minority of irregular spacings (a gap in the channels) does not matter: whenever more than half of the spacings are `δ`,
the delays are those of channels spaced by `δ`. -/
theorem C115_gaps (freqs : List ℝ) (δ : ℝ) (hδ : 0 < δ)
    (h : freqs.length - 1 < 2 * ((List.zip freqs freqs.tail).countP (fun p => open Classical in decide (p.2 - p.1 = δ)))) (n : ℕ) (hn : 0 < n) :
    ∃ d, getDelays freqs (some n) = some d ∧ d.length = n ∧ ∀ i : ℕ, i < n → d[i]? = some (((i : ℝ) - ((n / 2 : ℕ) : ℝ)) / (n * δ)) := by
  have hm : median (diffs freqs) = some δ := by
    apply median_majority
    have : diffs freqs = (List.zip freqs freqs.tail).map (fun p => p.2 - p.1) := by
      unfold diffs; rw [List.map_zip_eq_zipWith]; rfl
    rw [this, List.length_map, List.count_eq_countP, List.countP_map]
    have hlen : (List.zip freqs freqs.tail).length = freqs.length - 1 := by simp
    rw [hlen]
    convert h using 3
    funext p
    rw [Bool.eq_iff_iff]
    simp
  refine ⟨(List.range n).map (fftshift n (fftfreq n δ)), by unfold getDelays; rw [hm]; rfl, by simp, fun i hi => ?_⟩
  rw [List.getElem?_map, List.getElem?_range hi, Option.map_some, shift_freq n δ i hi]

/-- Five channels with a gap: spacings 1, 1, 7, 1. -/
example : ([100, 101, 102, 109, 110] : List ℝ).length - 1 <
    2 * ((List.zip [100, 101, 102, 109, 110] [100, 101, 102, 109, 110].tail).countP (fun p : ℝ × ℝ => open Classical in decide (p.2 - p.1 = 1))) := by
  norm_num [List.countP, List.countP.go]

/-- **C115** One channel (or none) has no spacing: the delays are not numbers. -/
theorem C115_one_channel (f : ℝ) (n : Option ℕ) : getDelays [f] n = none ∧ getDelays [] n = none := by
  constructor <;> simp [getDelays, diffs, median]

/-! ### Bins -/

theorem arange_get (a s : ℝ) (b : ℝ) (i : ℕ) (hi : i < ⌈(b - a) / s⌉₊) : (arange a b s)[i]? = some (a + i * s) := by
  unfold arange; rw [List.getElem?_map, List.getElem?_range hi]; rfl

theorem arange_length (a b s : ℝ) : (arange a b s).length = ⌈(b - a) / s⌉₊ := by simp [arange]

theorem centres_length (l : List ℝ) : (centres l).length = l.length - 1 := by simp [centres]

theorem centres_get (a s b : ℝ) (i : ℕ) (hi : i + 1 < ⌈(b - a) / s⌉₊) : (centres (arange a b s))[i]? = some (a + i * s + s / 2) := by
  unfold centres
  rw [List.getElem?_zipWith, arange_get a s b i (by omega), List.getElem?_tail, arange_get a s b (i + 1) hi]
  simp only [Option.some.injEq]
  push_cast; ring

theorem centres_mem {a s b c : ℝ} (h : c ∈ centres (arange a b s)) : ∃ i : ℕ, i + 1 < ⌈(b - a) / s⌉₊ ∧ c = a + i * s + s / 2 := by
  obtain ⟨i, hi⟩ := List.getElem?_of_mem h
  have hl := (List.getElem?_eq_some_iff.1 hi).1
  rw [centres_length, arange_length] at hl
  refine ⟨i, by omega, ?_⟩
  rw [centres_get a s b i (by omega), Option.some.injEq] at hi
  exact hi.symm

/-- The bins from `a` to `b` of width `s > 0` cover the values from `a` to `b - s`, and no value below `a`. -/
theorem cover (a b s x : ℝ) (hs : 0 < s) : (a ≤ x → x < b - s → ∃ c ∈ centres (arange a b s), InBin s c x) ∧
    (x < a → ∀ c ∈ centres (arange a b s), ¬ InBin s c x) := by
  constructor
  · intro h1 h2
    have h0 : 0 ≤ (x - a) / s := div_nonneg (by linarith) hs.le
    have hf := Nat.floor_le h0
    have hf2 := Nat.lt_floor_add_one ((x - a) / s)
    rw [le_div_iff₀ hs] at hf
    rw [div_lt_iff₀ hs] at hf2
    have hlt : ⌊(x - a) / s⌋₊ + 1 < ⌈(b - a) / s⌉₊ := by
      rw [Nat.lt_ceil, lt_div_iff₀ hs]
      push_cast
      nlinarith
    refine ⟨_, List.mem_of_getElem? (centres_get a s b _ hlt), ?_⟩
    unfold InBin
    constructor <;> nlinarith
  · intro h c hc hin
    obtain ⟨i, -, rfl⟩ := centres_mem hc
    unfold InBin at hin
    have : (0 : ℝ) ≤ i * s := by positivity
    linarith [hin.1]

theorem maxOf_spec (a : ℝ) (l : List ℝ) : (∀ x ∈ a :: l, x ≤ maxOf a l) ∧ maxOf a l ∈ a :: l := by
  unfold maxOf
  induction l generalizing a with
  | nil => simp
  | cons b l ih =>
    rw [List.foldl_cons]
    obtain ⟨h1, h2⟩ := ih (max a b)
    refine ⟨?_, ?_⟩
    · intro x hx
      have hm := h1 (max a b) (by simp)
      rcases List.mem_cons.1 hx with rfl | hx
      · exact (le_max_left _ _).trans hm
      · rcases List.mem_cons.1 hx with rfl | hx
        · exact (le_max_right _ _).trans hm
        · exact h1 x (by simp [hx])
    · rcases List.mem_cons.1 h2 with h | h
      · rw [h]
        rcases max_choice a b with h' | h' <;> rw [h'] <;> simp
      · simp [h]

theorem minOf_spec (a : ℝ) (l : List ℝ) : (∀ x ∈ a :: l, minOf a l ≤ x) ∧ minOf a l ∈ a :: l := by
  unfold minOf
  induction l generalizing a with
  | nil => simp
  | cons b l ih =>
    rw [List.foldl_cons]
    obtain ⟨h1, h2⟩ := ih (min a b)
    refine ⟨?_, ?_⟩
    · intro x hx
      have hm := h1 (min a b) (by simp)
      rcases List.mem_cons.1 hx with rfl | hx
      · exact hm.trans (min_le_left _ _)
      · rcases List.mem_cons.1 hx with rfl | hx
        · exact hm.trans (min_le_right _ _)
        · exact h1 x (by simp [hx])
    · rcases List.mem_cons.1 h2 with h | h
      · rw [h]
        rcases min_choice a b with h' | h' <;> rw [h'] <;> simp
      · simp [h]

/-- **C115** (k_parallel, all delays but zero) For two or more channels with spacing `δ > 0` and a positive factor from delay to
k_parallel, `get_kpara_bins` returns bin centres that are the multiples `dk, 2 dk, ...` of the k_parallel spacing of the delays: the
k_parallel of every delay of the window other than zero is exactly one of the centres (for either sign). Missing: the zero delay, which
lies in no bin although the documentation says all values are included: the lowest bin starts at `dk / 2`. -/
theorem C115_kpara_bins_partial (p : Cosmo.Params) (littleH : Bool) (f0 δ : ℝ) (hδ : 0 < δ) (n : ℕ) (hn : 2 ≤ n)
    (k : ℝ) (hk : k = Cosmo.tauToKpara p (Cosmo.f2z ((channels f0 δ n).sum / n) false) littleH) (hpos : 0 < k) :
    ∃ bins, kparaBins p littleH (channels f0 δ n) = .ok bins ∧ bins.length = n / 2 + 9 ∧
      (∀ i : ℕ, i < n / 2 + 9 → bins[i]? = some (((i : ℝ) + 1) * (k / (n * δ)))) ∧
      (∀ d, getDelays (channels f0 δ n) none = some d → ∀ t ∈ d, t ≠ 0 → k * |t| ∈ bins) ∧
      (∀ c ∈ bins, ¬ InBin (k / (n * δ)) c 0) := by
  obtain ⟨d, hd, hlen, hnone, hentry, -, hspace, -⟩ := C115_delays f0 δ hδ n hn n (by omega)
  have hn0 : (0 : ℝ) < n := by exact_mod_cast (show 0 < n by omega)
  obtain ⟨d0, d1, ds, rfl⟩ : ∃ d0 d1 ds, d = d0 :: d1 :: ds := by
    match d, hlen with
    | [], h => simp at h; omega
    | [a], h => simp at h; omega
    | a :: b :: l, _ => exact ⟨a, b, l, rfl⟩
  have e0 := hentry 0 (by omega)
  have e1 := hentry 1 (by omega)
  simp only [List.getElem?_cons_zero, Option.some.injEq, List.getElem?_cons_succ] at e0 e1
  have hdiff : d1 - d0 = 1 / (n * δ) := by rw [e0, e1]; push_cast; ring
  have hdk : k * (diffs (d0 :: d1 :: ds)).headD 0 = k / (n * δ) := by
    show k * (d1 - d0) = _
    rw [hdiff]; ring
  have hmax : maxOf |d0| ((d1 :: ds).map (fun x => |x|)) = ((n / 2 : ℕ) : ℝ) / (n * δ) := by
    obtain ⟨h1, h2⟩ := maxOf_spec |d0| ((d1 :: ds).map (fun x => |x|))
    apply le_antisymm
    · have : ∃ x ∈ d0 :: d1 :: ds, maxOf |d0| ((d1 :: ds).map (fun x => |x|)) = |x| := by
        rcases List.mem_cons.1 h2 with h | h
        · exact ⟨d0, by simp, h⟩
        · rw [List.mem_map] at h
          obtain ⟨x, hx, hxe⟩ := h
          exact ⟨x, List.mem_cons_of_mem _ hx, hxe.symm⟩
      obtain ⟨x, hx, hxe⟩ := this
      rw [hxe]
      obtain ⟨i, hi⟩ := List.getElem?_of_mem hx
      have hin : i < n := by have := (List.getElem?_eq_some_iff.1 hi).1; omega
      rw [hentry i hin, Option.some.injEq] at hi
      rw [← hi, abs_div, abs_of_pos (show (0 : ℝ) < n * δ by positivity)]
      apply div_le_div_of_nonneg_right _ (by positivity)
      rw [abs_le]
      have h1 : (i : ℝ) ≤ 2 * ((n / 2 : ℕ) : ℝ) := by exact_mod_cast (show i ≤ 2 * (n / 2) by omega)
      have h2 : (0 : ℝ) ≤ i := Nat.cast_nonneg i
      constructor <;> linarith
    · refine le_trans (le_of_eq ?_) (h1 |d0| (by simp))
      rw [e0, abs_div, abs_of_pos (show (0 : ℝ) < n * δ by positivity)]
      simp
  have hceil : ⌈(k * (((n / 2 : ℕ) : ℝ) / (n * δ)) + 10 * (k / (n * δ)) - k / (n * δ) / 2) / (k / (n * δ))⌉₊ = n / 2 + 10 := by
    have hval : (k * (((n / 2 : ℕ) : ℝ) / (n * δ)) + 10 * (k / (n * δ)) - k / (n * δ) / 2) / (k / (n * δ)) = ((n / 2 : ℕ) : ℝ) + 19 / 2 := by
      generalize n / 2 = c
      field_simp
      ring
    rw [hval]
    apply le_antisymm
    · rw [Nat.ceil_le]; push_cast; linarith
    · rw [Nat.add_one_le_ceil_iff]; push_cast; linarith
  have hsum : (channels f0 δ n).length = n := by simp [channels]
  have hb : kparaBins p littleH (channels f0 δ n) = .ok (centres (arange (k / (n * δ) / 2) (k * (((n / 2 : ℕ) : ℝ) / (n * δ)) + 10 * (k / (n * δ)))
      (k / (n * δ)))) := by
    unfold kparaBins
    rw [hsum, if_neg (by omega), hd]
    simp only
    rw [← hk, hdk, hmax]
    unfold binsOf
    rw [if_neg (by positivity)]
  refine ⟨_, hb, ?_, ?_, ?_, ?_⟩
  · rw [centres_length, arange_length, hceil]; omega
  · intro i hi
    rw [centres_get _ _ _ i (by rw [hceil]; omega)]
    congr 1; ring
  · intro d' hd' t ht ht0
    rw [hnone rfl] at hd'
    cases hd'
    obtain ⟨i, hi⟩ := List.getElem?_of_mem ht
    have hin : i < n := by have := (List.getElem?_eq_some_iff.1 hi).1; omega
    rw [hentry i hin, Option.some.injEq] at hi
    have hne : i ≠ n / 2 := by rintro rfl; apply ht0; rw [← hi]; simp
    -- the index of the bin
    obtain ⟨j, hj, hjv⟩ : ∃ j : ℕ, j < n / 2 ∧ |(i : ℝ) - ((n / 2 : ℕ) : ℝ)| = (j : ℝ) + 1 := by
      rcases Nat.lt_or_gt_of_ne hne with h | h
      · refine ⟨n / 2 - i - 1, by omega, ?_⟩
        rw [abs_of_nonpos (by have : (i : ℝ) ≤ ((n / 2 : ℕ) : ℝ) := by exact_mod_cast h.le
                              linarith)]
        rw [Nat.cast_sub (by omega), Nat.cast_sub (by omega)]; push_cast; ring
      · refine ⟨i - n / 2 - 1, by omega, ?_⟩
        rw [abs_of_nonneg (by have : ((n / 2 : ℕ) : ℝ) ≤ i := by exact_mod_cast h.le
                              linarith)]
        rw [Nat.cast_sub (by omega), Nat.cast_sub (by omega)]; push_cast; ring
    apply List.mem_of_getElem? (i := j)
    rw [centres_get _ _ _ j (by rw [hceil]; omega)]
    congr 1
    rw [← hi, abs_div, abs_of_pos (show (0 : ℝ) < n * δ by positivity), hjv]
    ring
  · intro c hc
    exact (cover _ _ _ 0 (by positivity)).2 (by positivity) c hc

/-- The k_perp of a baseline. -/
noncomputable def kperpOf (e : Env) (b : ℝ) : ℝ := Cosmo.blToKperp e.cosmo e.avgZ e.littleH * b

theorem diffs_sum (a : ℝ) (l : List ℝ) : (diffs (a :: l)).sum = (a :: l).getLast (by simp) - a := by
  induction l generalizing a with
  | nil => simp [diffs]
  | cons b l ih =>
    have := ih b
    show ((b - a) :: diffs (b :: l)).sum = _
    rw [List.sum_cons, this, List.getLast_cons (a := a) (List.cons_ne_nil b l)]
    ring

/-- The mean difference along the rows of the norms of a square grid is a mean of (last - first) over the rows. -/
theorem meanDiff_grid (g : List ℝ) (n : ℕ) (hn : g.length = n + 2) :
    ∃ D : ℝ, 0 < D ∧ meanDiff (g.map (fun x => g.map (fun y => Real.sqrt (x ^ 2 + y ^ 2)))) =
      ((g.map (fun x => Real.sqrt (x ^ 2 + (g.getLastD 0) ^ 2) - Real.sqrt (x ^ 2 + (g.headD 0) ^ 2))).sum) / D := by
  have hlen : ∀ l : List ℝ, ((l.map (fun x => g.map (fun y => Real.sqrt (x ^ 2 + y ^ 2)))).flatMap diffs).length = l.length * (n + 1) := by
    intro l
    induction l with
    | nil => simp
    | cons a l ih => rw [List.map_cons, List.flatMap_cons, List.length_append, ih]; simp [diffs, hn]; ring
  refine ⟨((n + 2) * (n + 1) : ℕ), by positivity, ?_⟩
  unfold meanDiff
  rw [hlen, hn]
  congr 1
  have : ∀ l : List ℝ, ((l.map (fun x => g.map (fun y => Real.sqrt (x ^ 2 + y ^ 2)))).flatMap diffs).sum =
      (l.map (fun x => Real.sqrt (x ^ 2 + (g.getLastD 0) ^ 2) - Real.sqrt (x ^ 2 + (g.headD 0) ^ 2))).sum := by
    intro l
    induction l with
    | nil => simp
    | cons a l ih =>
      rw [List.map_cons, List.flatMap_cons, List.sum_append, ih, List.map_cons, List.sum_cons]
      congr 1
      cases g with
      | nil => simp at hn
      | cons b g =>
        rw [List.map_cons, diffs_sum]
        have hl : (List.getLastD (b :: g) 0) = (b :: g).getLast (by simp) := by
          rw [List.getLastD_eq_getLast?, List.getLast?_eq_some_getLast (List.cons_ne_nil b g), Option.getD_some]
        rw [hl]
        have : ∀ (f : ℝ → ℝ) (l : List ℝ) (h : l ≠ []) (h' : f b :: List.map f g ≠ []), l = b :: g → (f b :: List.map f g).getLast h' = f (l.getLast h) := by
          intro f l h h' hl
          subst hl
          rw [← List.getLast_map (f := f) (by simp)]
          rfl
        rw [this (fun y => Real.sqrt (a ^ 2 + y ^ 2)) (b :: g) (by simp) (by simp) rfl]
        simp
  exact this g

theorem grid_ends (C w s : ℝ) (hs : 0 < s) (hw : s < w) : ∃ n : ℕ, (arange (C - w) (C + w) s).length = n + 2 ∧
    (arange (C - w) (C + w) s).headD 0 = C - w ∧ (arange (C - w) (C + w) s).getLastD 0 = C - w + (n + 1) * s ∧
    C + w - s ≤ C - w + (n + 1) * s ∧ C - w + (n + 1) * s < C + w := by
  have h2 : 1 < ⌈(C + w - (C - w)) / s⌉₊ := by
    rw [Nat.lt_ceil, lt_div_iff₀ hs]; push_cast; linarith
  obtain ⟨n, hn⟩ : ∃ n, ⌈(C + w - (C - w)) / s⌉₊ = n + 2 := ⟨⌈(C + w - (C - w)) / s⌉₊ - 2, by omega⟩
  have hlen : (arange (C - w) (C + w) s).length = n + 2 := by rw [arange_length, hn]
  refine ⟨n, hlen, ?_, ?_, ?_, ?_⟩
  · rw [List.headD_eq_head?_getD, List.head?_eq_getElem?, arange_get _ _ _ 0 (by omega)]
    simp
  · rw [List.getLastD_eq_getLast?, List.getLast?_eq_getElem?, hlen, show n + 2 - 1 = n + 1 by omega, arange_get _ _ _ (n + 1) (by omega)]
    simp
  · have := Nat.le_ceil ((C + w - (C - w)) / s)
    rw [hn, div_le_iff₀ hs] at this
    push_cast at this
    linarith
  · have : n + 1 < ⌈(C + w - (C - w)) / s⌉₊ := by omega
    rw [Nat.lt_ceil, lt_div_iff₀ hs] at this
    push_cast at this
    linarith

/-- **C115** (k_perp, baselines that are not too short) If the k_perp of the shortest baseline, per axis, is more than half a step of the
beam's Fourier grid, the bins of `get_kperp_bins` are evenly spaced by a positive width `w`, starting with the bin from `w` to `2 w`, and
the k_perp of every baseline given lies in one of them, if it is at least `w`. Missing: values below `w`, which lie in no bin (third
part), and shorter baselines, see `C115_finding_autos`. -/
theorem C115_kperp_bins_partial (e : Env) (b : ℝ) (bls : List ℝ) (hs : 0 < gridStep e) (hw : gridStep e < 0.020) (bmin : ℝ)
    (hmin : bmin ∈ b :: bls) (hle : ∀ x ∈ b :: bls, bmin ≤ x) (hfac : 0 ≤ Cosmo.blToKperp e.cosmo e.avgZ e.littleH)
    (hshort : gridStep e / 2 < kperpOf e bmin / Real.sqrt 2) :
    ∃ w bins, 0 < w ∧ kperpBins e (b :: bls) = .ok bins ∧
      (∀ (i : ℕ) (c : ℝ), bins[i]? = some c → c = w + i * w + w / 2) ∧
      (∀ x ∈ b :: bls, w ≤ kperpOf e x → ∃ c ∈ bins, InBin w c (kperpOf e x)) ∧
      (∀ x, kperpOf e x < w → ∀ c ∈ bins, ¬ InBin w c (kperpOf e x)) := by
  have hmm : minOf b bls = bmin := by
    obtain ⟨h1, h2⟩ := minOf_spec b bls
    exact le_antisymm (h1 _ hmin) (hle _ h2)
  have hC : kpCentre e bmin = kperpOf e bmin / Real.sqrt 2 := rfl
  obtain ⟨n, hlen, hhead, hlast, h1, h2⟩ := grid_ends (kpCentre e bmin) 0.020 (gridStep e) hs hw
  have hkg : getKgrid e bmin 0.020 = .ok (arange (kpCentre e bmin - 0.020) (kpCentre e bmin + 0.020) (gridStep e),
      (arange (kpCentre e bmin - 0.020) (kpCentre e bmin + 0.020) (gridStep e)).map (fun x =>
      (arange (kpCentre e bmin - 0.020) (kpCentre e bmin + 0.020) (gridStep e)).map (fun y => Real.sqrt (x ^ 2 + y ^ 2)))) := by
    unfold getKgrid
    rw [if_neg (not_le.2 hw)]
  have hCpos : gridStep e / 2 < kpCentre e bmin := hC ▸ hshort
  obtain ⟨D, hD, hmd⟩ := meanDiff_grid (arange (kpCentre e bmin - 0.020) (kpCentre e bmin + 0.020) (gridStep e)) n hlen
  rw [hhead, hlast] at hmd
  have hpos : 0 < meanDiff ((arange (kpCentre e bmin - 0.020) (kpCentre e bmin + 0.020) (gridStep e)).map (fun x =>
      (arange (kpCentre e bmin - 0.020) (kpCentre e bmin + 0.020) (gridStep e)).map (fun y => Real.sqrt (x ^ 2 + y ^ 2)))) := by
    rw [hmd]
    apply div_pos _ hD
    have hsq : (kpCentre e bmin - 0.020) ^ 2 < (kpCentre e bmin - 0.020 + (n + 1) * gridStep e) ^ 2 := by
      have hn1 : (0 : ℝ) < (n + 1) * gridStep e := by positivity
      nlinarith
    have hall : ∀ l : List ℝ, l ≠ [] → 0 < (l.map (fun x => Real.sqrt (x ^ 2 + (kpCentre e bmin - 0.020 + (n + 1) * gridStep e) ^ 2) -
        Real.sqrt (x ^ 2 + (kpCentre e bmin - 0.020) ^ 2))).sum := by
      intro l hl
      have hone : ∀ x : ℝ, 0 < Real.sqrt (x ^ 2 + (kpCentre e bmin - 0.020 + (n + 1) * gridStep e) ^ 2) -
          Real.sqrt (x ^ 2 + (kpCentre e bmin - 0.020) ^ 2) := by
        intro x
        rw [sub_pos]
        apply Real.sqrt_lt_sqrt (by positivity)
        linarith
      induction l with
      | nil => exact absurd rfl hl
      | cons a l ih =>
        rw [List.map_cons, List.sum_cons]
        by_cases h : l = []
        · subst h; simpa using hone a
        · exact add_pos (hone a) (ih h)
    apply hall
    intro h
    rw [h] at hlen
    simp at hlen
  generalize hgen : meanDiff ((arange (kpCentre e bmin - 0.020) (kpCentre e bmin + 0.020) (gridStep e)).map (fun x =>
      (arange (kpCentre e bmin - 0.020) (kpCentre e bmin + 0.020) (gridStep e)).map (fun y => Real.sqrt (x ^ 2 + y ^ 2)))) = q at hpos
  have hb : kperpBins e (b :: bls) = .ok (centres (arange (q * 5) (kperpOf e (maxOf b bls) + 10 * (q * 5)) (q * 5))) := by
    unfold kperpBins
    simp only [hmm, hkg, hgen]
    unfold binsOf
    rw [if_neg (by positivity)]
    rfl
  refine ⟨q * 5, _, by positivity, hb, ?_, ?_, ?_⟩
  · intro i c hc
    have hl := (List.getElem?_eq_some_iff.1 hc).1
    rw [centres_length, arange_length] at hl
    rw [centres_get _ _ _ i (by omega), Option.some.injEq] at hc
    exact hc.symm
  · intro x hx hxw
    refine (cover _ _ _ _ (by positivity)).1 hxw ?_
    have : kperpOf e x ≤ kperpOf e (maxOf b bls) := mul_le_mul_of_nonneg_left ((maxOf_spec b bls).1 x hx) hfac
    linarith
  · intro x hx
    exact (cover _ _ _ _ (by positivity)).2 hx

/-- **C115** finding: if the shortest baseline has length zero (an autocorrelation), the mean difference of the norms is not positive;
`get_kperp_bins` fails or returns bins that are all negative, which contain no k_perp of any baseline. -/
theorem C115_finding_autos (e : Env) (b : ℝ) (bls : List ℝ) (hs : 0 < gridStep e) (hw : gridStep e < 0.020)
    (hmin : (0 : ℝ) ∈ b :: bls) (hle : ∀ x ∈ b :: bls, 0 ≤ x) (bins : List ℝ) (h : kperpBins e (b :: bls) = .ok bins) :
    ∀ c ∈ bins, c < 0 := by
  have hmm : minOf b bls = 0 := by
    obtain ⟨h1, h2⟩ := minOf_spec b bls
    exact le_antisymm (h1 _ hmin) (hle _ h2)
  have hC : kpCentre e 0 = 0 := by simp [kpCentre]
  obtain ⟨n, hlen, hhead, hlast, h1, h2⟩ := grid_ends (kpCentre e 0) 0.020 (gridStep e) hs hw
  obtain ⟨D, hD, hmd⟩ := meanDiff_grid (arange (kpCentre e 0 - 0.020) (kpCentre e 0 + 0.020) (gridStep e)) n hlen
  rw [hhead, hlast] at hmd
  unfold kperpBins at h
  simp only [hmm] at h
  have hkg : getKgrid e 0 0.020 = .ok (arange (kpCentre e 0 - 0.020) (kpCentre e 0 + 0.020) (gridStep e),
      (arange (kpCentre e 0 - 0.020) (kpCentre e 0 + 0.020) (gridStep e)).map (fun x =>
      (arange (kpCentre e 0 - 0.020) (kpCentre e 0 + 0.020) (gridStep e)).map (fun y => Real.sqrt (x ^ 2 + y ^ 2)))) := by
    unfold getKgrid
    rw [if_neg (not_le.2 hw)]
  rw [hkg] at h
  simp only at h
  have hneg : meanDiff ((arange (kpCentre e 0 - 0.020) (kpCentre e 0 + 0.020) (gridStep e)).map (fun x =>
      (arange (kpCentre e 0 - 0.020) (kpCentre e 0 + 0.020) (gridStep e)).map (fun y => Real.sqrt (x ^ 2 + y ^ 2)))) ≤ 0 := by
    rw [hmd]
    apply div_nonpos_of_nonpos_of_nonneg _ hD.le
    rw [hC] at h1 h2 ⊢
    have hsq : (0 - 0.020 + ((n : ℝ) + 1) * gridStep e) ^ 2 ≤ (0 - 0.020) ^ 2 := by nlinarith
    have : ∀ l : List ℝ, (l.map (fun x => Real.sqrt (x ^ 2 + (0 - 0.020 + ((n : ℝ) + 1) * gridStep e) ^ 2) -
        Real.sqrt (x ^ 2 + (0 - 0.020) ^ 2))).sum ≤ 0 := by
      intro l
      induction l with
      | nil => simp
      | cons a l ih =>
        rw [List.map_cons, List.sum_cons]
        have : Real.sqrt (a ^ 2 + (0 - 0.020 + ((n : ℝ) + 1) * gridStep e) ^ 2) ≤ Real.sqrt (a ^ 2 + (0 - 0.020) ^ 2) :=
          Real.sqrt_le_sqrt (by linarith)
        linarith
    exact this _
  generalize meanDiff ((arange (kpCentre e 0 - 0.020) (kpCentre e 0 + 0.020) (gridStep e)).map (fun x =>
      (arange (kpCentre e 0 - 0.020) (kpCentre e 0 + 0.020) (gridStep e)).map (fun y => Real.sqrt (x ^ 2 + y ^ 2)))) = q at h hneg
  unfold binsOf at h
  split_ifs at h with hq
  cases h
  intro c hc
  obtain ⟨i, -, rfl⟩ := centres_mem hc
  have hq' : q * 5 < 0 := lt_of_le_of_ne (by linarith) hq
  have : (0 : ℝ) ≤ i := Nat.cast_nonneg i
  nlinarith

/-- **C115** No baselines, or fewer than two frequencies, are refused. -/
theorem C115_refused (e : Env) (p : Cosmo.Params) (littleH : Bool) (f : ℝ) :
    kperpBins e [] = .error .value ∧ kparaBins p littleH [] = .error .value ∧ kparaBins p littleH [f] = .error .value := by
  refine ⟨rfl, ?_, ?_⟩ <;> simp [kparaBins]

/-! ### Non-vacuity -/

/-- Delays of four channels spaced by one: -1/2, -1/4, 0, 1/4. -/
example : ∃ d : List ℝ, getDelays (channels 100 1 4) none = some d ∧ d[0]? = some (-(1 / 2) : ℝ) ∧ d[3]? = some (1 / 4 : ℝ) := by
  obtain ⟨d, -, -, h, he, -⟩ := C115_delays 100 1 one_pos 4 (by norm_num) 4 (by norm_num)
  refine ⟨d, h rfl, ?_, ?_⟩
  · rw [he 0 (by norm_num)]; norm_num
  · rw [he 3 (by norm_num)]; norm_num

/-- The hypotheses on the grid and the baselines are met for a de Sitter cosmology with baselines of 14.6 and 29.2. -/
theorem ex_kperp : 0 ≤ Cosmo.blToKperp Interp.exEnv.cosmo Interp.exEnv.avgZ Interp.exEnv.littleH ∧
    gridStep Interp.exEnv / 2 < kperpOf Interp.exEnv 14.6 / Real.sqrt 2 := by
  have hz : Interp.exEnv.avgZ = 1.420405751e9 / 1.005e8 - 1 := by
    unfold Interp.Env.avgZ Interp.exEnv Cosmo.f2z Cosmo.f21
    norm_num
  have hk : Cosmo.blToKperp Interp.exEnv.cosmo Interp.exEnv.avgZ Interp.exEnv.littleH =
      2 * Real.pi / ((1.420405751e9 / 1.005e8 - 1) * (2.99792458e8 / 1e3) / 100 * (2.99792458e8 / (1.420405751e9 / (1.420405751e9 / 1.005e8 - 1 + 1)))) := by
    unfold Cosmo.blToKperp Cosmo.dRperp
    rw [hz, show Interp.exEnv.littleH = true from rfl, Interp.ex_DM]
    unfold Cosmo.z2f Cosmo.f21 Cosmo.ckm Cosmo.c
    simp only [Bool.false_eq_true, if_false]
  have hstep : gridStep Interp.exEnv = Real.pi / ((1.420405751e9 / 1.01e8 - 1) * (2.99792458e8 / 1e3) / 100) := by
    unfold gridStep Cosmo.dRperp
    rw [show Interp.exEnv.littleH = true from rfl, Interp.ex_DM, Interp.ex_max]
    unfold Cosmo.f2z Cosmo.f21 Cosmo.ckm Cosmo.c
    simp only [Interp.exEnv, Bool.false_eq_true, if_false]
    ring
  have hpi := Real.pi_pos
  constructor
  · rw [hk]; positivity
  · have hs2 : Real.sqrt 2 < 3 / 2 := by rw [Real.sqrt_lt' (by norm_num)]; norm_num
    have hs0 : 0 < Real.sqrt 2 := Real.sqrt_pos.2 (by norm_num)
    unfold kperpOf
    rw [hk, hstep, lt_div_iff₀ hs0]
    have h1 : Real.pi / ((1.420405751e9 / 1.01e8 - 1) * (2.99792458e8 / 1e3) / 100) / 2 * Real.sqrt 2 <
        Real.pi / ((1.420405751e9 / 1.01e8 - 1) * (2.99792458e8 / 1e3) / 100) / 2 * (3 / 2) :=
      mul_lt_mul_of_pos_left hs2 (by positivity)
    refine h1.trans ?_
    norm_num
    nlinarith

example : ∃ w bins, 0 < w ∧ kperpBins Interp.exEnv [29.2, 14.6] = .ok bins ∧ (∀ (i : ℕ) (c : ℝ), bins[i]? = some c → c = w + i * w + w / 2) := by
  obtain ⟨w, bins, h1, h2, h3, -⟩ := C115_kperp_bins_partial Interp.exEnv 29.2 [14.6] Interp.ex_step.1 Interp.ex_step.2 14.6 (by simp)
    (by intro x hx; simp only [List.mem_cons, List.not_mem_nil, or_false] at hx; rcases hx with rfl | rfl <;> norm_num) ex_kperp.1 ex_kperp.2
  exact ⟨w, bins, h1, h2, h3⟩

example : 0 < Cosmo.tauToKpara Interp.exEnv.cosmo (Cosmo.f2z ((channels 1e8 1e6 2).sum / (2 : ℕ)) false) true := by
  have hz : Cosmo.f2z ((channels 1e8 1e6 2).sum / (2 : ℕ)) false = 1.420405751e9 / 1.005e8 - 1 := by
    simp only [channels, List.range_succ, List.range_zero, Cosmo.f2z, Cosmo.f21]
    norm_num
  rw [hz]
  unfold Cosmo.tauToKpara Cosmo.dRpara Cosmo.E Interp.exEnv Cosmo.ckm Cosmo.c Cosmo.f21
  norm_num
  positivity

end HeraPspec.KBins
