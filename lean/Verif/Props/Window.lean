import Verif.Lemmas.Window
import Mathlib.Tactic.NormNum

/-!
C73 / C74: window functions from `UVWindow`.

`getCylindricalWf e taper pts` is `none` when the code raises IndexError. `eta e.N e.dnu i` is delay `i` of the object and
`wfForTau e w tau` the (un-normalised) window function computed for delay `tau`.
-/
namespace HeraPspec.Window

/-- Delay whose window ends up in row `i`. -/
private theorem row (e : Env) (w1 : ℕ → ℕ → ℝ) (c : List (List (List ℝ))) (h : cylFrom e w1 = some c) (i : ℕ) (hi : i < e.N) :
    c[i]? = some (normalise (if i = e.N - e.N / 4 then wfForTau e w1 (-eta e.N e.dnu (e.N / 4))
      else if i ≤ e.N / 2 then wfForTau e w1 (eta e.N e.dnu i)
      else wfForTau e w1 (eta e.N e.dnu (if e.N % 2 = 0 then e.N - i else e.N - 1 - i)))) := by
  unfold cylFrom cylFix at h
  split at h <;> rename_i hlt
  · simp only [Option.map_some, Option.some.injEq] at h
    rw [← h, List.getElem?_map, List.getElem?_set]
    rw [cylMirror_length] at hlt
    by_cases h1 : i = e.N - e.N / 4
    · rw [if_pos h1.symm, if_pos (by rw [cylMirror_length]; exact hlt), if_pos h1]; rfl
    · rw [if_neg (fun hh => h1 hh.symm), if_neg h1]
      by_cases h2 : i ≤ e.N / 2
      · rw [cylMirror_low _ _ _ i hi h2, if_pos h2]; rfl
      · rw [cylMirror_high _ _ _ i hi (by omega), if_neg h2]; rfl
  · simp at h

private theorem flen (e : Env) (w1 : ℕ → ℕ → ℝ) (c : List (List (List ℝ))) (h : cylFrom e w1 = some c) : c.length = e.N := by
  unfold cylFrom cylFix at h
  split at h
  · simp only [Option.map_some, Option.some.injEq] at h
    rw [← h]; simp [cylMirror_length]
  · simp at h

/-- With at least four channels the computation succeeds; with one to three it raises IndexError. -/
theorem C73_succeeds_iff (e : Env) (taper : ℕ → ℝ) (pts : List Point) :
    (getCylindricalWf e taper pts).isSome ↔ 4 ≤ e.N := by
  unfold getCylindricalWf cylFrom cylFix
  rw [cylMirror_length]
  split <;> simp <;> omega

/-- There is one window per delay. -/
theorem C73_length (e : Env) (taper : ℕ → ℝ) (pts : List Point) (c : List (List (List ℝ))) (h : getCylindricalWf e taper pts = some c) :
    c.length = e.N := flen e _ c h

/-- Every delay's window sums to one, or to zero. -/
theorem C73_normalised (e : Env) (taper : ℕ → ℝ) (pts : List Point) (c : List (List (List ℝ))) (h : getCylindricalWf e taper pts = some c) :
    ∀ w ∈ c, total w = 1 ∨ total w = 0 := by
  intro w hw
  obtain ⟨i, hi, hwi⟩ := List.getElem_of_mem hw
  have := row e _ c h i (by rw [← flen e _ c h]; exact hi)
  rw [List.getElem?_eq_getElem hi, hwi] at this
  rw [Option.some.inj this]
  exact total_normalise _

/-- Same beam for both polarizations: no window has a negative entry, and each sums to one or is identically zero. -/
theorem C73_same_beam_one_or_zero (e : Env) (taper : ℕ → ℝ) (pts : List Point) (hb : ∀ p ∈ pts, p.beam0 = p.beam1)
    (c : List (List (List ℝ))) (h : getCylindricalWf e taper pts = some c) :
    ∀ w ∈ c, (∀ r ∈ w, ∀ x ∈ r, 0 ≤ x) ∧ (total w = 1 ∨ ∀ r ∈ w, ∀ x ∈ r, x = 0) := by
  have hW : ∀ tau, ∀ r ∈ wfForTau e (wfArray1 e taper pts) tau, ∀ x ∈ r, 0 ≤ x := by
    intro tau r hr x hx
    obtain ⟨j, _, rfl⟩ := List.mem_map.1 hr
    obtain ⟨m, _, rfl⟩ := List.mem_map.1 hx
    refine binMean_nonneg _ _ _ _ (fun p hp => ?_)
    obtain ⟨i, _, rfl⟩ := List.mem_map.1 hp
    exact wfArray1_nonneg e taper pts hb j i
  intro w hw
  obtain ⟨i, hi, hwi⟩ := List.getElem_of_mem hw
  have := row e _ c h i (by rw [← flen e _ c h]; exact hi)
  rw [List.getElem?_eq_getElem hi, hwi] at this
  have hw' : ∃ tau, w = normalise (wfForTau e (wfArray1 e taper pts) tau) := by
    have := Option.some.inj this
    split at this
    · exact ⟨_, this⟩
    · split at this <;> exact ⟨_, this⟩
  obtain ⟨tau, rfl⟩ := hw'
  have hn : ∀ r ∈ normalise (wfForTau e (wfArray1 e taper pts) tau), ∀ x ∈ r, 0 ≤ x := by
    have ht : 0 ≤ total (wfForTau e (wfArray1 e taper pts) tau) := by
      refine List.sum_nonneg (fun y hy => ?_)
      obtain ⟨r, hr, rfl⟩ := List.mem_map.1 hy
      exact List.sum_nonneg (hW tau r hr)
    unfold normalise
    split
    · intro r hr x hx
      obtain ⟨r', hr', rfl⟩ := List.mem_map.1 hr
      obtain ⟨x', hx', rfl⟩ := List.mem_map.1 hx
      exact div_nonneg (hW tau r' hr' x' hx') ht
    · exact hW tau
  refine ⟨hn, ?_⟩
  rcases total_normalise (wfForTau e (wfArray1 e taper pts) tau) with h1 | h1
  · exact Or.inl h1
  · exact Or.inr (total_eq_zero_imp hn h1)

/-- Non-negative delays' half of the array: row `i ≤ N/2` is the window computed for delay `i`. -/
theorem C73_first_half (e : Env) (taper : ℕ → ℝ) (pts : List Point) (c : List (List (List ℝ))) (h : getCylindricalWf e taper pts = some c)
    (i : ℕ) (hi : i ≤ e.N / 2) :
    c[i]? = some (normalise (wfForTau e (wfArray1 e taper pts) (eta e.N e.dnu i))) := by
  have h4 : 4 ≤ e.N := (C73_succeeds_iff e taper pts).1 (by rw [h]; rfl)
  rw [row e _ c h i (by omega), if_neg (by omega), if_pos hi]

/-- Even number of channels: the rest is filled with the window computed for the opposite delay, except row `3N/4`, computed
for its own delay. -/
theorem C73_even_second_half (e : Env) (taper : ℕ → ℝ) (pts : List Point) (c : List (List (List ℝ)))
    (h : getCylindricalWf e taper pts = some c) (hN : e.N % 2 = 0) (i : ℕ) (hi : i < e.N) (hi2 : e.N / 2 < i) :
    c[i]? = some (normalise (wfForTau e (wfArray1 e taper pts)
      (if i = e.N - e.N / 4 then eta e.N e.dnu i else -eta e.N e.dnu i))) := by
  rw [row e _ c h i hi]
  by_cases h1 : i = e.N - e.N / 4
  · rw [if_pos h1, if_pos h1, h1, eta_neg_even _ _ _ hN (by omega)]
  · rw [if_neg h1, if_neg h1, if_neg (by omega), if_pos hN, eta_neg_even _ _ _ hN (by omega)]

/-- Odd number of channels, real beams: every row is the window computed for its own delay, except row `N - N//4`.
Missing from C73: that row (see the finding) and the even case (see the counterexample). -/
theorem C73_odd_rows_partial (e : Env) (taper : ℕ → ℝ) (pts : List Point) (c : List (List (List ℝ)))
    (h : getCylindricalWf e taper pts = some c) (hN : e.N % 2 = 1) (i : ℕ) (hi : i < e.N) (hne : i ≠ e.N - e.N / 4) :
    c[i]? = some (normalise (wfForTau e (wfArray1 e taper pts) (eta e.N e.dnu i))) := by
  rw [row e _ c h i hi, if_neg hne]
  by_cases h2 : i ≤ e.N / 2
  · rw [if_pos h2]
  · rw [if_neg h2, if_neg (by omega), eta_neg_odd _ _ _ hN hi, wfForTau_neg e _ _ hN (fun j i hi => wfArray1_symm e taper pts j i hN hi)]

/-- Odd number of channels, real beams: mirror symmetry of the exact windows, for every delay. -/
theorem C73_odd_window_symmetric (e : Env) (taper : ℕ → ℝ) (pts : List Point) (hN : e.N % 2 = 1) (tau : ℝ) :
    wfForTau e (wfArray1 e taper pts) (-tau) = wfForTau e (wfArray1 e taper pts) tau :=
  wfForTau_neg e _ _ hN (fun j i hi => wfArray1_symm e taper pts j i hN hi)

/-- Finding: for an odd number of channels row `N - N//4` holds the window of the *neighbouring* delay `N - 1 - N//4`. -/
theorem C73_finding_odd_row_off_by_one (e : Env) (taper : ℕ → ℝ) (pts : List Point) (c : List (List (List ℝ)))
    (h : getCylindricalWf e taper pts = some c) (hN : e.N % 2 = 1) :
    c[e.N - e.N / 4]? = some (normalise (wfForTau e (wfArray1 e taper pts) (eta e.N e.dnu (e.N - e.N / 4 - 1)))) := by
  have h4 : 4 ≤ e.N := (C73_succeeds_iff e taper pts).1 (by rw [h]; rfl)
  rw [row e _ c h _ (by omega), if_pos rfl, show e.N - e.N / 4 - 1 = e.N - 1 - e.N / 4 by omega, eta_neg_odd _ _ _ hN (by omega)]

/-! Concrete windows: one grid point, a beam whose transform along frequency is flat. -/

/-- `N` channels, delays `i - N/2`, five |k_para| bins centred at 0, 1, 2, 3, 4. -/
noncomputable def exEnv (N : ℕ) : Env := ⟨N, 1 / N, 1, 0, 1, 1, 0, 1, 5⟩

/-- A beam equal to one in the channel that `fftshift` moves to the front. -/
def exPt (N : ℕ) : Point := ⟨0, fun i => if i = shiftIdx N 0 then 1 else 0, fun i => if i = shiftIdx N 0 then 1 else 0⟩

private theorem ex_w (i : ℕ) : wfArray1 (exEnv 5) (fun _ => 1) [exPt 5] 0 i = 1 / 25 := by
  have hf : freqFT 5 (1 / (5 : ℕ)) (fun _ => 1) (exPt 5).beam0 i = ((1 / 5 : ℝ) : ℂ) := by
    simp only [freqFT, dft, exPt, shiftIdx]
    simp [List.range_succ]
    rw [← Complex.ofReal_inv, ← Complex.ofReal_mul]
    have : √5 * √5 = (5 : ℝ) := Real.mul_self_sqrt (by norm_num)
    have h : (√5)⁻¹ * (√5)⁻¹ = (5 : ℝ)⁻¹ := by rw [← mul_inv, this]
    rw [h]; simp
  unfold wfArray1 binMean
  have hb : (exPt 5).beam1 = (exPt 5).beam0 := rfl
  have hk : (exPt 5).kperp = 0 := rfl
  simp only [exEnv, List.map_cons, List.map_nil, hb, hf, hk]
  rw [List.filter_cons_of_pos (by simp [edge]; norm_num)]
  simp [mean]
  norm_num

private theorem ex_w6 (i : ℕ) : wfArray1 (exEnv 6) (fun _ => 1) [exPt 6] 0 i = 1 / 36 := by
  have hf : freqFT 6 (1 / (6 : ℕ)) (fun _ => 1) (exPt 6).beam0 i = ((1 / 6 : ℝ) : ℂ) := by
    simp only [freqFT, dft, exPt, shiftIdx]
    simp [List.range_succ]
    rw [← Complex.ofReal_inv, ← Complex.ofReal_mul]
    have : √6 * √6 = (6 : ℝ) := Real.mul_self_sqrt (by norm_num)
    have h : (√6)⁻¹ * (√6)⁻¹ = (6 : ℝ)⁻¹ := by rw [← mul_inv, this]
    rw [h]; simp
  unfold wfArray1 binMean
  have hb : (exPt 6).beam1 = (exPt 6).beam0 := rfl
  have hk : (exPt 6).kperp = 0 := rfl
  simp only [exEnv, List.map_cons, List.map_nil, hb, hf, hk]
  rw [List.filter_cons_of_pos (by simp [edge]; norm_num)]
  simp [mean]
  norm_num

private theorem ex_entry5 (tau : ℝ) : wfEntry (exEnv 5) (wfArray1 (exEnv 5) (fun _ => 1) [exPt 5]) tau 0 4
    = binMean 0 1 4 [(|tau - 2|, 1 / 25), (|tau - 1|, 1 / 25), (|tau|, 1 / 25), (|tau + 1|, 1 / 25), (|tau + 2|, 1 / 25)] := by
  have hk : ∀ i, kpar (exEnv 5) tau i = |tau + ((i : ℝ) - 2)| := by
    intro i
    simp only [kpar, exEnv, eta]
    congr 1
    norm_num
    ring
  unfold wfEntry
  simp only [hk, ex_w]
  simp only [exEnv, List.range_succ, List.range_zero, List.nil_append, List.map_append, List.map_cons, List.map_nil, List.cons_append]
  norm_num
  ring_nf

private theorem ex_entry6 (tau : ℝ) : wfEntry (exEnv 6) (wfArray1 (exEnv 6) (fun _ => 1) [exPt 6]) tau 0 4
    = binMean 0 1 4 [(|tau - 3|, 1 / 36), (|tau - 2|, 1 / 36), (|tau - 1|, 1 / 36), (|tau|, 1 / 36), (|tau + 1|, 1 / 36),
        (|tau + 2|, 1 / 36)] := by
  have hk : ∀ i, kpar (exEnv 6) tau i = |tau + ((i : ℝ) - 3)| := by
    intro i
    simp only [kpar, exEnv, eta]
    congr 1
    norm_num
    ring
  unfold wfEntry
  simp only [hk, ex_w6]
  simp only [exEnv, List.range_succ, List.range_zero, List.nil_append, List.map_append, List.map_cons, List.map_nil, List.cons_append]
  norm_num
  ring_nf

/-- Entry (kperp bin 0, |kpara| bin 4) of a window. -/
def entry (w : List (List ℝ)) : Option ℝ := (w[0]?).bind (fun r => r[4]?)

private theorem entry_wf (N : ℕ) (w1 : ℕ → ℕ → ℝ) (tau : ℝ) : entry (wfForTau (exEnv N) w1 tau) = some (wfEntry (exEnv N) w1 tau 0 4) := by
  simp [entry, wfForTau, exEnv]

private theorem entry_normalise (w : List (List ℝ)) : entry (normalise w) = some 0 ↔ entry w = some 0 := by
  unfold normalise
  split <;> rename_i h
  · unfold entry
    rw [List.getElem?_map]
    cases h0 : w[0]? with
    | none => simp
    | some r =>
      simp only [Option.map_some, Option.bind_some, List.getElem?_map]
      cases h4 : r[4]? with
      | none => simp
      | some x => simp [h]
  · rfl

private theorem cyl_some (N : ℕ) (h : 4 ≤ N) : ∃ c, getCylindricalWf (exEnv N) (fun _ => 1) [exPt N] = some c :=
  Option.isSome_iff_exists.1 ((C73_succeeds_iff _ _ _).2 h)

/-- The claim of C73 is false for five channels: row 4 is not the window of delay 4 (up to normalisation or not). -/
theorem C73_counterexample_odd : ∃ c w, getCylindricalWf (exEnv 5) (fun _ => 1) [exPt 5] = some c ∧ c[4]? = some w
    ∧ w ≠ normalise (wfForTau (exEnv 5) (wfArray1 (exEnv 5) (fun _ => 1) [exPt 5]) (eta 5 (exEnv 5).dnu 4)) := by
  obtain ⟨c, hc⟩ := cyl_some 5 (by norm_num)
  have h1 := C73_finding_odd_row_off_by_one _ _ _ _ hc rfl
  refine ⟨c, _, hc, h1, fun heq => ?_⟩
  have e3 : eta (exEnv 5).N (exEnv 5).dnu ((exEnv 5).N - (exEnv 5).N / 4 - 1) = 1 := by simp [exEnv, eta]; norm_num
  have e4 : eta 5 (exEnv 5).dnu 4 = 2 := by simp [exEnv, eta]; norm_num
  rw [e3, e4] at heq
  have hz : entry (normalise (wfForTau (exEnv 5) (wfArray1 (exEnv 5) (fun _ => 1) [exPt 5]) 1)) = some 0 := by
    rw [entry_normalise, entry_wf, ex_entry5]
    unfold binMean edge
    norm_num [abs_of_nonneg]
  have hnz : ¬ entry (normalise (wfForTau (exEnv 5) (wfArray1 (exEnv 5) (fun _ => 1) [exPt 5]) 2)) = some 0 := by
    rw [entry_normalise, entry_wf, ex_entry5]
    unfold binMean edge
    norm_num [abs_of_nonneg, mean, List.filter_cons]
  rw [heq] at hz
  exact hnz hz

/-- The claim of C73 is false for six channels: row 4 (not the corrected one) is not the window of delay 4, because the
unpaired lowest Fourier mode breaks the symmetry. -/
theorem C73_counterexample_even : ∃ c w, getCylindricalWf (exEnv 6) (fun _ => 1) [exPt 6] = some c ∧ c[4]? = some w
    ∧ w ≠ normalise (wfForTau (exEnv 6) (wfArray1 (exEnv 6) (fun _ => 1) [exPt 6]) (eta 6 (exEnv 6).dnu 4)) := by
  obtain ⟨c, hc⟩ := cyl_some 6 (by norm_num)
  have h1 := C73_even_second_half _ _ _ _ hc rfl 4 (by norm_num [exEnv]) (by norm_num [exEnv])
  refine ⟨c, _, hc, h1, fun heq => ?_⟩
  rw [if_neg (by norm_num [exEnv])] at heq
  have e3 : eta (exEnv 6).N (exEnv 6).dnu 4 = 1 := by simp [exEnv, eta]; norm_num
  have e4 : eta 6 (exEnv 6).dnu 4 = 1 := by simp [exEnv, eta]; norm_num
  rw [e3, e4] at heq
  have hz : entry (normalise (wfForTau (exEnv 6) (wfArray1 (exEnv 6) (fun _ => 1) [exPt 6]) 1)) = some 0 := by
    rw [entry_normalise, entry_wf, ex_entry6]
    unfold binMean edge
    norm_num [abs_of_nonneg]
  have hnz : ¬ entry (normalise (wfForTau (exEnv 6) (wfArray1 (exEnv 6) (fun _ => 1) [exPt 6]) (-1))) = some 0 := by
    rw [entry_normalise, entry_wf, ex_entry6]
    unfold binMean edge
    norm_num [abs_of_nonneg, mean, List.filter_cons]
  rw [← heq] at hz
  exact hnz hz

/-! ### C74 -/

private theorem normRow_sum (r : List ℝ) : (normRow r).sum = 1 ∨ (normRow r).sum = 0 := by
  unfold normRow
  split <;> rename_i h
  · left
    have := sum_map_div r id r.sum
    rw [show (fun x => x / r.sum) = (fun x => id x / r.sum) from rfl, this, List.map_id, div_self h]
  · right; push Not at h; exact h

/-- Every row of the spherical window function sums to one, or to zero. -/
theorem C74_row_sum (kmin dk : ℝ) (nb : ℕ) (ktot : List ℝ) (l : List Mode) :
    ∀ r ∈ sphWf kmin dk nb ktot l, r.length = nb ∧ (r.sum = 1 ∨ r.sum = 0) := by
  intro r hr
  obtain ⟨m1, _, rfl⟩ := List.mem_map.1 hr
  unfold sphRow
  split
  · refine ⟨?_, normRow_sum _⟩
    unfold normRow rawRow
    split <;> simp
  · exact ⟨by simp, Or.inr (by simp)⟩

/-- Non-negative windows and weights: no entry is negative, and each row sums to one or is identically zero. -/
theorem C74_nonneg_one_or_zero (kmin dk : ℝ) (nb : ℕ) (ktot : List ℝ) (l : List Mode)
    (hl : ∀ p ∈ l, 0 ≤ p.wgt ∧ ∀ c, 0 ≤ p.wf c) :
    ∀ r ∈ sphWf kmin dk nb ktot l, (∀ x ∈ r, 0 ≤ x) ∧ (r.sum = 1 ∨ ∀ x ∈ r, x = 0) := by
  intro r hr
  have hsum := (C74_row_sum kmin dk nb ktot l r hr).2
  obtain ⟨m1, _, rfl⟩ := List.mem_map.1 hr
  have hn : ∀ x ∈ sphRow kmin dk nb ktot l m1, 0 ≤ x := by
    unfold sphRow
    split
    · have ht : ∀ c, 0 ≤ wfTemp (inRow kmin dk m1 l) c := by
        intro c
        refine div_nonneg (List.sum_nonneg (fun y hy => ?_)) (List.sum_nonneg (fun y hy => ?_))
        · obtain ⟨p, hp, rfl⟩ := List.mem_map.1 hy
          have := hl p (List.mem_filter.1 hp).1
          exact mul_nonneg (this.2 c) this.1
        · obtain ⟨p, hp, rfl⟩ := List.mem_map.1 hy
          exact (hl p (List.mem_filter.1 hp).1).1
      have hr : ∀ x ∈ rawRow kmin dk nb ktot (wfTemp (inRow kmin dk m1 l)), 0 ≤ x := by
        intro x hx
        obtain ⟨m, _, rfl⟩ := List.mem_map.1 hx
        refine binMean_nonneg _ _ _ _ (fun p hp => ?_)
        obtain ⟨c, _, rfl⟩ := List.mem_map.1 hp
        exact ht c
      unfold normRow
      split
      · intro x hx
        obtain ⟨y, hy, rfl⟩ := List.mem_map.1 hx
        exact div_nonneg (hr y hy) (List.sum_nonneg hr)
      · exact hr
    · intro x hx
      rw [(List.mem_replicate.1 hx).2]
  refine ⟨hn, ?_⟩
  rcases hsum with h | h
  · exact Or.inl h
  · refine Or.inr (fun x hx => le_antisymm ?_ (hn x hx))
    rw [← h]
    exact List.single_le_sum hn x hx

/-- Every mode within the binned range contributes to exactly one row. -/
theorem C74_each_mode_one_row (kmin dk : ℝ) (nb : ℕ) (hdk : 0 < dk) (l : List Mode) (p : Mode) (hp : p ∈ l)
    (h0 : kmin - dk / 2 ≤ p.kmag) (h1 : p.kmag < kmin - dk / 2 + nb * dk) :
    ∃! m1, m1 < nb ∧ p ∈ inRow kmin dk m1 l := by
  have hin : ∀ m1, p ∈ inRow kmin dk m1 l ↔ edge kmin dk m1 ≤ p.kmag ∧ p.kmag < edge kmin dk (m1 + 1) := by
    intro m1
    simp [inRow, List.mem_filter, hp]
  have hx : 0 ≤ (p.kmag - (kmin - dk / 2)) / dk := div_nonneg (by linarith) hdk.le
  refine ⟨⌊(p.kmag - (kmin - dk / 2)) / dk⌋₊, ⟨?_, ?_⟩, ?_⟩
  · rw [Nat.floor_lt hx, div_lt_iff₀ hdk]; linarith
  · rw [hin]
    have a := Nat.floor_le hx
    have b := Nat.lt_floor_add_one ((p.kmag - (kmin - dk / 2)) / dk)
    rw [le_div_iff₀ hdk] at a
    rw [div_lt_iff₀ hdk] at b
    unfold edge
    constructor
    · linarith
    · push_cast; linarith
  · rintro m ⟨_, hm⟩
    rw [hin] at hm
    symm
    rw [Nat.floor_eq_iff hx, le_div_iff₀ hdk, div_lt_iff₀ hdk]
    unfold edge at hm
    push_cast at hm
    exact ⟨by linarith [hm.1], by linarith [hm.2]⟩

/-- Only relative weights matter: multiplying every baseline weight by a positive number changes nothing. -/
theorem C74_weights_relative (kmin dk : ℝ) (nb : ℕ) (ktot : List ℝ) (l : List Mode) (s : ℝ) (hs : 0 < s) :
    sphWf kmin dk nb ktot (l.map (fun p => { p with wgt := s * p.wgt })) = sphWf kmin dk nb ktot l := by
  have hin : ∀ m1, inRow kmin dk m1 (l.map (fun p => { p with wgt := s * p.wgt }))
      = (inRow kmin dk m1 l).map (fun p => { p with wgt := s * p.wgt }) := by
    intro m1; unfold inRow; rw [List.filter_map]; rfl
  have hm : ∀ (q : List Mode) (f : Mode → ℝ), (q.map (fun p => s * f p)).sum = s * (q.map f).sum := by
    intro q f
    induction q with
    | nil => simp
    | cons a q ih => simp [ih, mul_add]
  have ht : ∀ q : List Mode, wfTemp (q.map (fun p => { p with wgt := s * p.wgt })) = wfTemp q := by
    intro q; funext c
    unfold wfTemp
    rw [List.map_map, List.map_map]
    have e1 : ((fun p : Mode => p.wf c * p.wgt) ∘ fun p : Mode => { p with wgt := s * p.wgt }) = fun p => s * (p.wf c * p.wgt) := by
      funext p; simp only [Function.comp]; ring
    have e2 : ((fun p : Mode => p.wgt) ∘ fun p : Mode => { p with wgt := s * p.wgt }) = fun p => s * p.wgt := rfl
    rw [e1, e2, hm, hm, mul_div_mul_left _ _ hs.ne']
  unfold sphWf
  refine List.map_congr_left (fun m1 _ => ?_)
  unfold sphRow
  rw [hin, ht]
  simp only [ne_eq, List.map_eq_nil_iff]

/-- A single mode in the bin and a cell in only one |k| bin: the row is one there and zero elsewhere. -/
theorem C74_point_window (kmin dk : ℝ) (nb : ℕ) (hdk : 0 < dk) (p : Mode) (k0 : ℝ) (m1 m : ℕ) (hm : m < nb)
    (hk : edge kmin dk m1 ≤ p.kmag ∧ p.kmag < edge kmin dk (m1 + 1)) (hc : edge kmin dk m ≤ k0 ∧ k0 < edge kmin dk (m + 1))
    (hw : 0 < p.wgt) (hf : 0 < p.wf 0) :
    sphRow kmin dk nb [k0] [p] m1 = (List.range nb).map (fun j => if j = m then (1 : ℝ) else 0) := by
  have hin : inRow kmin dk m1 [p] = [p] := by simp [inRow, hk]
  have ht : wfTemp [p] 0 = p.wf 0 := by simp [wfTemp, hw.ne']
  have hraw : rawRow kmin dk nb [k0] (wfTemp [p]) = (List.range nb).map (fun j => if j = m then p.wf 0 else 0) := by
    unfold rawRow
    refine List.map_congr_left (fun j _ => ?_)
    unfold binMean
    by_cases hj : j = m
    · subst hj
      simp [hc, ht, mean]
    · have : ¬ (edge kmin dk j ≤ k0 ∧ k0 < edge kmin dk (j + 1)) := by
        rintro ⟨a, b⟩
        rcases Nat.lt_or_gt_of_ne hj with h | h
        · have := edge_mono kmin dk hdk (show j + 1 ≤ m from h); linarith [hc.1]
        · have := edge_mono kmin dk hdk (show m + 1 ≤ j from h); linarith [hc.2]
      simp only [not_and, not_lt] at this
      simp [hj]
      intro h1 h2
      exact absurd h2 (not_lt.2 (this h1))
  have hsum : ∀ v : ℝ, ((List.range nb).map (fun j => if j = m then v else 0)).sum = v := by
    intro v
    rw [List.sum_map_ite_eq]
    simp [List.count_eq_one_of_mem List.nodup_range (List.mem_range.2 hm)]
  unfold sphRow
  rw [hin, if_pos ⟨by simp, by simpa [ht] using hf⟩, hraw]
  unfold normRow
  rw [hsum, if_pos hf.ne', List.map_map]
  refine List.map_congr_left (fun j _ => ?_)
  simp only [Function.comp]
  split
  · exact div_self hf.ne'
  · simp

/-- The hypotheses are met: two modes, two cells. -/
example : ∀ r ∈ sphWf 1 1 2 [1, 2] [⟨1, 1, fun c => if c = 0 then 1 else 0⟩, ⟨2, 3, fun _ => 1⟩],
    (∀ x ∈ r, 0 ≤ x) ∧ (r.sum = 1 ∨ ∀ x ∈ r, x = 0) :=
  C74_nonneg_one_or_zero _ _ _ _ _ (by
    intro p hp
    simp only [List.mem_cons, List.not_mem_nil, or_false] at hp
    rcases hp with rfl | rfl
    · refine ⟨by norm_num, fun c => ?_⟩
      show (0 : ℝ) ≤ if c = 0 then 1 else 0
      split <;> norm_num
    · exact ⟨by norm_num, fun _ => by norm_num⟩)

example : sphRow 1 1 3 [2] [⟨1, 1, fun _ => 5⟩] 0 = [0, 1, 0] := by
  rw [C74_point_window 1 1 3 (by norm_num) _ 2 0 1 (by norm_num) (by unfold edge; norm_num) (by unfold edge; norm_num)
    (by norm_num) (by norm_num)]
  simp [List.range_succ]

end HeraPspec.Window
