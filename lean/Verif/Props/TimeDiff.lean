import Verif.Model.TimeDiff
import Verif.Props.Times

/-!
C99: time-differenced visibilities.
-/
namespace HeraPspec.TimeDiff
open HeraPspec.Times (unique diff pySlice)
noncomputable section
variable {E : Type} [AddCommGroup E] [Module ℝ E]

/-! ### Specification -/

/-- A file ordered by time: at every time all baselines, in the same order. -/
def timeMajor (ts : List ℚ) (bls : List ℕ) (v : ℕ → ℚ → E) : List (Row E) := ts.flatMap (fun t => bls.map (fun b => ⟨b, t, v b t⟩))

/-- A file ordered by baseline: for every baseline all times. -/
def blMajor (ts : List ℚ) (bls : List ℕ) (v : ℕ → ℚ → E) : List (Row E) := bls.flatMap (fun b => ts.map (fun t => ⟨b, t, v b t⟩))

/-- The index in `ts` of the `i`-th differenced sample for a stride `d`, and how many there are. -/
def nDiff (n d : ℕ) : ℕ := (n - 1 + d - 1) / d

/-- The difference of the visibilities of baseline `b` at two samples, scaled to the noise of one sample. -/
def delta (ts : List ℚ) (v : ℕ → ℚ → E) (b : ℕ) (i : ℕ) : E :=
  (1 / Real.sqrt 2) • (v b (ts.getD i 0) - v b (ts.getD (i + 1) 0))

/-! ### Lists -/

theorem sorted_ext {a b : List ℚ} (ha : a.Pairwise (· < ·)) (hb : b.Pairwise (· < ·)) (h : ∀ x, x ∈ a ↔ x ∈ b) : a = b := by
  have hp : a.Perm b := (List.perm_ext_iff_of_nodup (ha.imp (fun h => ne_of_lt h)) (hb.imp (fun h => ne_of_lt h))).2 h
  exact hp.eq_of_pairwise (fun x y _ _ h1 h2 => absurd (lt_trans h1 h2) (lt_irrefl _)) ha hb

theorem pySlice_step (u : List ℚ) (d s : ℕ) (hd : 0 < d) (hs : s ≤ 1) (hu : 2 ≤ u.length) :
    pySlice s (u.length - 1 + s) d u = (List.range (nDiff u.length d)).map (fun i => u.getD (d * i + s) 0) := by
  unfold pySlice nDiff
  have hm : min (u.length - 1 + s) u.length - s = u.length - 1 := by omega
  rw [hm]
  have : List.range' s ((u.length - 1 + d - 1) / d) d = (List.range ((u.length - 1 + d - 1) / d)).map (fun i => d * i + s) := by
    apply List.ext_getElem (by simp)
    intro i h1 h2
    simp
    ring
  rw [this, List.filterMap_map, ← List.filterMap_eq_map]
  apply List.filterMap_congr
  intro i hi
  rw [List.mem_range] at hi
  have h1 : d * i + d ≤ u.length - 1 + d - 1 := by
    have : (i + 1) * d ≤ (u.length - 1 + d - 1) := (Nat.le_div_iff_mul_le hd).1 hi
    rw [Nat.add_mul, one_mul, Nat.mul_comm] at this
    exact this
  have hlt : d * i + s < u.length := by omega
  simp [List.getElem?_eq_getElem hlt]

theorem idx_lt {n d i : ℕ} (hd : 0 < d) (hi : i < nDiff n d) : d * i + 1 < n := by
  unfold nDiff at hi
  have : (i + 1) * d ≤ (n - 1 + d - 1) := (Nat.le_div_iff_mul_le hd).1 hi
  rw [Nat.add_mul, one_mul, Nat.mul_comm] at this
  omega

theorem slice_sorted (u : List ℚ) (hu : u.Pairwise (· < ·)) (d s : ℕ) (hd : 0 < d) (hs : s ≤ 1) :
    ((List.range (nDiff u.length d)).map (fun i => u.getD (d * i + s) 0)).Pairwise (· < ·) := by
  rw [List.pairwise_map]
  have hb : ∀ i ∈ List.range (nDiff u.length d), i < nDiff u.length d := fun i hi => List.mem_range.1 hi
  refine List.Pairwise.imp_of_mem ?_ (List.pairwise_lt_range (n := nDiff u.length d))
  intro i j hi hj hij
  have h1 := idx_lt hd (hb i hi)
  have h2 := idx_lt hd (hb j hj)
  have hlt : d * i + s < d * j + s := by
    have := Nat.mul_lt_mul_of_pos_left hij hd
    omega
  have e1 : d * i + s < u.length := by omega
  have e2 : d * j + s < u.length := by omega
  simp only [List.getD, List.getElem?_eq_getElem e1, List.getElem?_eq_getElem e2, Option.getD_some]
  exact List.pairwise_iff_getElem.1 hu _ _ e1 e2 hlt

theorem filter_slice (u : List ℚ) (hu : u.Pairwise (· < ·)) (d s : ℕ) (hd : 0 < d) (hs : s ≤ 1) :
    u.filter (fun t => decide (t ∈ (List.range (nDiff u.length d)).map (fun i => u.getD (d * i + s) 0))) =
      (List.range (nDiff u.length d)).map (fun i => u.getD (d * i + s) 0) := by
  apply sorted_ext (hu.filter _) (slice_sorted u hu d s hd hs)
  intro x
  rw [List.mem_filter, decide_eq_true_iff]
  refine ⟨And.right, fun h => ⟨?_, h⟩⟩
  obtain ⟨i, hi, rfl⟩ := List.mem_map.1 h
  have h1 := idx_lt hd (List.mem_range.1 hi)
  have e1 : d * i + s < u.length := by omega
  simp only [List.getD, List.getElem?_eq_getElem e1, Option.getD_some]
  exact List.getElem_mem e1

theorem select_timeMajor (ts S : List ℚ) (bls : List ℕ) (v : ℕ → ℚ → E) :
    select S (timeMajor ts bls v) = timeMajor (ts.filter (fun t => decide (t ∈ S))) bls v := by
  unfold select timeMajor
  induction ts with
  | nil => rfl
  | cons t ts ih =>
    rw [List.flatMap_cons, List.filter_append, ih]
    have : (bls.map (fun b => (⟨b, t, v b t⟩ : Row E))).filter (fun r => decide (r.time ∈ S)) =
        if t ∈ S then bls.map (fun b => (⟨b, t, v b t⟩ : Row E)) else [] := by
      split
      · rename_i h
        rw [List.filter_eq_self]
        intro r hr
        obtain ⟨b, _, rfl⟩ := List.mem_map.1 hr
        simpa using h
      · rename_i h
        rw [List.filter_eq_nil_iff]
        intro r hr
        obtain ⟨b, _, rfl⟩ := List.mem_map.1 hr
        simpa using h
    rw [this, List.filter_cons]
    by_cases h : t ∈ S
    · simp [h]
    · simp [h]

theorem select_blMajor (ts S : List ℚ) (bls : List ℕ) (v : ℕ → ℚ → E) :
    select S (blMajor ts bls v) = blMajor (ts.filter (fun t => decide (t ∈ S))) bls v := by
  unfold select blMajor
  rw [List.filter_flatMap]
  congr 1
  funext b
  rw [List.filter_map]
  rfl

theorem times_timeMajor (ts : List ℚ) (hts : ts.Pairwise (· < ·)) (bls : List ℕ) (hb : bls ≠ []) (v : ℕ → ℚ → E) :
    unique ((timeMajor ts bls v).map Row.time) = ts := by
  apply sorted_ext (Times.unique_lt _) hts
  intro x
  rw [Times.mem_unique]
  obtain ⟨b, hb'⟩ := List.exists_mem_of_ne_nil _ hb
  simp only [timeMajor, List.mem_map, List.mem_flatMap]
  constructor
  · rintro ⟨r, ⟨t, ht, c, _, rfl⟩, rfl⟩; exact ht
  · intro hx; exact ⟨_, ⟨x, hx, b, hb', rfl⟩, rfl⟩

theorem times_blMajor (ts : List ℚ) (hts : ts.Pairwise (· < ·)) (bls : List ℕ) (hb : bls ≠ []) (v : ℕ → ℚ → E) :
    unique ((blMajor ts bls v).map Row.time) = ts := by
  apply sorted_ext (Times.unique_lt _) hts
  intro x
  rw [Times.mem_unique]
  obtain ⟨b, hb'⟩ := List.exists_mem_of_ne_nil _ hb
  simp only [blMajor, List.mem_map, List.mem_flatMap]
  constructor
  · rintro ⟨r, ⟨c, _, t, ht, rfl⟩, rfl⟩; exact ht
  · intro hx; exact ⟨_, ⟨b, hb', x, hx, rfl⟩, rfl⟩

theorem zipWith_flatMap {α β γ δ : Type} (f : β → γ → δ) (l : List α) (g : α → List β) (h : α → List γ) (hl : ∀ a ∈ l, (g a).length = (h a).length) :
    List.zipWith f (l.flatMap g) (l.flatMap h) = l.flatMap (fun a => List.zipWith f (g a) (h a)) := by
  induction l with
  | nil => rfl
  | cons a l ih =>
    rw [List.flatMap_cons, List.flatMap_cons, List.flatMap_cons, List.zipWith_append (hl a (by simp)), ih (fun b hb => hl b (by simp [hb]))]

/-- What `uvd_time_difference` computes for a step `d`. -/
theorem diff_timeMajor (ts : List ℚ) (hts : ts.Pairwise (· < ·)) (h2 : 2 ≤ ts.length) (bls : List ℕ) (v : ℕ → ℚ → E) (d : ℕ) (hd : 0 < d) :
    subtract (select (pySlice 0 (ts.length - 1) d ts) (timeMajor ts bls v)) (select (pySlice 1 ts.length d ts) (timeMajor ts bls v)) =
      some ((List.range (nDiff ts.length d)).flatMap (fun i => bls.map (fun b => ⟨b, ts.getD (d * i) 0, delta ts v b (d * i)⟩))) := by
  have s0 : pySlice 0 (ts.length - 1) d ts = _ := pySlice_step ts d 0 hd (by omega) h2
  have s1 := pySlice_step ts d 1 hd (le_refl _) h2
  rw [Nat.sub_add_cancel (by omega)] at s1
  rw [s0, s1, select_timeMajor, select_timeMajor, filter_slice ts hts d 0 hd (by omega), filter_slice ts hts d 1 hd (le_refl _)]
  unfold subtract timeMajor
  simp only [List.flatMap_map]
  rw [if_pos (by simp), zipWith_flatMap _ _ _ _ (fun _ _ => by simp)]
  simp only [List.zipWith_map, List.zipWith_self]
  rfl

theorem diff_blMajor (ts : List ℚ) (hts : ts.Pairwise (· < ·)) (h2 : 2 ≤ ts.length) (bls : List ℕ) (v : ℕ → ℚ → E) (d : ℕ) (hd : 0 < d) :
    subtract (select (pySlice 0 (ts.length - 1) d ts) (blMajor ts bls v)) (select (pySlice 1 ts.length d ts) (blMajor ts bls v)) =
      some (bls.flatMap (fun b => (List.range (nDiff ts.length d)).map (fun i => ⟨b, ts.getD (d * i) 0, delta ts v b (d * i)⟩))) := by
  have s0 : pySlice 0 (ts.length - 1) d ts = _ := pySlice_step ts d 0 hd (by omega) h2
  have s1 := pySlice_step ts d 1 hd (le_refl _) h2
  rw [Nat.sub_add_cancel (by omega)] at s1
  rw [s0, s1, select_blMajor, select_blMajor, filter_slice ts hts d 0 hd (by omega), filter_slice ts hts d 1 hd (le_refl _)]
  unfold subtract blMajor
  rw [if_pos (by simp), zipWith_flatMap _ _ _ _ (fun _ _ => by simp)]
  simp only [List.zipWith_map, List.zipWith_self, List.map_map]
  rfl

/-! ### The step -/

theorem diff_cons (a b : ℚ) (l : List ℚ) : diff (a :: b :: l) = (b - a) :: diff (b :: l) := rfl

theorem diff_sum : ∀ (a : ℚ) (l : List ℚ), (diff (a :: l)).sum = (a :: l).getLast (by simp) - a
  | a, [] => by simp [diff]
  | a, b :: l => by
    rw [diff_cons, List.sum_cons, diff_sum b l, List.getLast_cons_cons]
    ring

theorem diff_length (l : List ℚ) : (diff l).length = l.length - 1 := by
  unfold diff; simp

theorem getLast_gt (a b : ℚ) (l : List ℚ) (h : (a :: b :: l).Pairwise (· < ·)) : a < (a :: b :: l).getLast (by simp) := by
  have hm : (a :: b :: l).getLast (by simp) ∈ b :: l := by
    rw [List.getLast_cons_cons]; exact List.getLast_mem _
  exact (List.pairwise_cons.1 h).1 _ hm

/-- Mean spacing of a list of times. -/
theorem timeStep_eq (a b : ℚ) (l : List ℚ) : timeStep (a :: b :: l) = some (((a :: b :: l).getLast (by simp) - a) / (l.length + 1 : ℕ)) := by
  unfold timeStep
  rw [if_neg (by rw [diff_cons]; simp), diff_sum, diff_length]
  simp

theorem trunc_nonneg {x : ℚ} (h : 0 ≤ x) : 0 ≤ trunc x := by
  unfold trunc
  exact Int.tdiv_nonneg (Rat.num_nonneg.2 h) (by positivity)

theorem trunc_floor {x : ℚ} (h : 0 ≤ x) : trunc x = ⌊x⌋ := by
  unfold trunc
  rw [Rat.floor_def', Int.tdiv_eq_ediv_of_nonneg (Rat.num_nonneg.2 h)]

theorem indexDiff_bounds (ts : List ℚ) (hts : ts.Pairwise (· < ·)) (h3 : 3 ≤ ts.length) (td : ℚ) (h0 : 0 ≤ td) :
    ∃ d : ℕ, indexDiff ts td = some (d : ℤ) ∧ 0 < d ∧ d ≤ ts.length - 2 := by
  match ts, h3 with
  | a :: b :: l, h3 =>
    unfold indexDiff
    rw [timeStep_eq]
    have hg := getLast_gt a b l hts
    have hm : 0 ≤ trunc (td / (((a :: b :: l).getLast (by simp) - a) / (l.length + 1 : ℕ))) := by
      apply trunc_nonneg
      apply div_nonneg h0
      apply div_nonneg (by linarith)
      exact Nat.cast_nonneg _
    simp only [Option.map_some]
    generalize trunc (td / (((a :: b :: l).getLast (by simp) - a) / (l.length + 1 : ℕ))) = q at hm ⊢
    split
    · refine ⟨(a :: b :: l).length - 2, ?_, by omega, le_refl _⟩
      congr 1; omega
    · refine ⟨(q + 1).toNat, ?_, by omega, by omega⟩
      congr 1; omega

/-- **C99** For a file with at least three times in which every baseline has every time (in either of the usual orders), the result holds,
for some stride `d`, the times number `0, d, 2d, …` and in the row of a baseline the difference between *that baseline's* visibility at this
time and at the *next* time, divided by the square root of two. Missing: the two times of a difference are not `time_diff` apart,
see the findings. -/
theorem C99_differences_partial (ts : List ℚ) (hts : ts.Pairwise (· < ·)) (h3 : 3 ≤ ts.length) (bls : List ℕ) (hb : bls ≠ []) (v : ℕ → ℚ → E)
    (td : ℚ) (h0 : 0 ≤ td) : ∃ d : ℕ, 0 < d ∧ d ≤ ts.length - 2 ∧
      timeDifference (timeMajor ts bls v) td =
        some ((List.range (nDiff ts.length d)).flatMap (fun i => bls.map (fun b => ⟨b, ts.getD (d * i) 0, delta ts v b (d * i)⟩))) ∧
      timeDifference (blMajor ts bls v) td =
        some (bls.flatMap (fun b => (List.range (nDiff ts.length d)).map (fun i => ⟨b, ts.getD (d * i) 0, delta ts v b (d * i)⟩))) ∧
      (∀ i, d * i + 1 < ts.length ↔ i < nDiff ts.length d) := by
  obtain ⟨d, hd, hpos, hle⟩ := indexDiff_bounds ts hts h3 td h0
  refine ⟨d, hpos, hle, ?_, ?_, ?_⟩
  · unfold timeDifference
    simp only [times_timeMajor ts hts bls hb v, hd, Option.bind_some]
    rw [if_neg (by omega), Int.toNat_natCast]
    exact diff_timeMajor ts hts (by omega) bls v d hpos
  · unfold timeDifference
    simp only [times_blMajor ts hts bls hb v, hd, Option.bind_some]
    rw [if_neg (by omega), Int.toNat_natCast]
    exact diff_blMajor ts hts (by omega) bls v d hpos
  · intro i
    refine ⟨fun h => ?_, idx_lt hpos⟩
    unfold nDiff
    rw [Nat.lt_iff_add_one_le, Nat.le_div_iff_mul_le hpos, Nat.add_mul, one_mul, Nat.mul_comm]
    omega

/-- Non-vacuity: four times, two baselines. -/
example : ∃ ts : List ℚ, ts.Pairwise (· < ·) ∧ 3 ≤ ts.length ∧ indexDiff ts (3 / 2) = some 2 ∧ nDiff ts.length 2 = 2 :=
  ⟨[0, 1, 2, 3], by decide +kernel⟩

/-- **C99** Whatever does not change from one time to the next (the sky, cross-talk) cancels: if every visibility is a constant of
the baseline plus a fluctuation, the result is that of the fluctuations alone. -/
theorem C99_constant_cancels (ts : List ℚ) (hts : ts.Pairwise (· < ·)) (h3 : 3 ≤ ts.length) (bls : List ℕ) (hb : bls ≠ []) (sky : ℕ → E)
    (v : ℕ → ℚ → E) (td : ℚ) (h0 : 0 ≤ td) :
    timeDifference (timeMajor ts bls (fun b t => sky b + v b t)) td = timeDifference (timeMajor ts bls v) td := by
  obtain ⟨d, hd, hpos, hle⟩ := indexDiff_bounds ts hts h3 td h0
  unfold timeDifference
  simp only [times_timeMajor ts hts bls hb, hd, Option.bind_some]
  rw [if_neg (by omega), Int.toNat_natCast, diff_timeMajor ts hts (by omega) bls _ d hpos, diff_timeMajor ts hts (by omega) bls _ d hpos]
  simp [delta, hpos.ne']

/-- The result with fewer than three times: an exception. -/
theorem C99_too_few (ts : List ℚ) (hts : ts.Pairwise (· < ·)) (h3 : ts.length < 3) (bls : List ℕ) (hb : bls ≠ []) (v : ℕ → ℚ → E)
    (td : ℚ) : timeDifference (timeMajor ts bls v) td = none := by
  unfold timeDifference
  simp only [times_timeMajor ts hts bls hb v]
  match ts, h3 with
  | [], _ => rfl
  | [a], _ => rfl
  | [a, b], _ =>
    unfold indexDiff
    rw [timeStep_eq]
    simp only [Option.map_some, Option.bind_some]
    rw [if_pos]
    split
    · simp
    · rename_i h; simpa using h

/-- **C99 finding** `time_diff` is documented in seconds but compared with Julian days, so for every file and every `time_diff` (in
seconds) that is not smaller than the length of the file *in days* only the first two and the last two times are used: two differences per
baseline. -/
theorem C99_finding_two_differences (a b : ℚ) (l : List ℚ) (hts : (a :: b :: l).Pairwise (· < ·)) (h3 : 1 ≤ l.length) (bls : List ℕ) (hb : bls ≠ [])
    (v : ℕ → ℚ → E) (td : ℚ) (h0 : (a :: b :: l).getLast (by simp) - a ≤ td) :
    timeDifference (timeMajor (a :: b :: l) bls v) td =
      some (bls.map (fun c => ⟨c, a, delta (a :: b :: l) v c 0⟩) ++
        bls.map (fun c => ⟨c, (a :: b :: l).getD l.length 0, delta (a :: b :: l) v c l.length⟩)) := by
  have hg := getLast_gt a b l hts
  have hd : indexDiff (a :: b :: l) td = some (l.length : ℤ) := by
    unfold indexDiff
    rw [timeStep_eq]
    simp only [Option.map_some]
    rw [if_pos]
    · congr 1; simp; ring
    · have h1 : ((l.length + 1 : ℕ) : ℚ) ≤ td / (((a :: b :: l).getLast (by simp) - a) / (l.length + 1 : ℕ)) := by
        rw [le_div_iff₀ (div_pos (by linarith) (by positivity)), mul_div_cancel₀ _ (by positivity)]
        exact h0
      have h2 : ((l.length + 1 : ℕ) : ℤ) ≤ trunc (td / (((a :: b :: l).getLast (by simp) - a) / (l.length + 1 : ℕ))) := by
        rw [trunc_floor (le_trans (Nat.cast_nonneg _) h1), Int.le_floor]
        exact_mod_cast h1
      generalize trunc (td / (((a :: b :: l).getLast (by simp) - a) / (l.length + 1 : ℕ))) = q at h2 ⊢
      simp only [List.length_cons]
      push_cast at h2 ⊢
      omega
  unfold timeDifference
  simp only [times_timeMajor _ hts bls hb v, hd, Option.bind_some]
  rw [if_neg (by omega), Int.toNat_natCast, diff_timeMajor _ hts (by simp) bls v _ (by omega)]
  have hn : nDiff (a :: b :: l).length l.length = 2 := by
    unfold nDiff
    simp only [List.length_cons]
    rw [Nat.div_eq_iff (by omega)]
    omega
  rw [hn]
  simp [List.range_succ]

/-- **C99 finding** If a baseline lacks a time, rows of different baselines are subtracted: baseline 1 has no sample at time 0 and baseline
2 none at time 1, so the row labelled as baseline 2 holds baseline 2 minus baseline 1. -/
theorem C99_finding_missing_rows : ∃ r, timeDifference (E := ℝ) [⟨2, 0, 5⟩, ⟨1, 1, 3⟩, ⟨2, 2, 5⟩] 0 = some r ∧ r.map Row.bl = [2, 1] ∧
    r.map Row.vis = [(1 / Real.sqrt 2) * (5 - 3), (1 / Real.sqrt 2) * (3 - 5)] := by
  have ht : unique [(0 : ℚ), 1, 2] = [0, 1, 2] := by decide +kernel
  have hd : indexDiff [(0 : ℚ), 1, 2] 0 = some 1 := by decide +kernel
  have s0 : pySlice 0 2 1 [(0 : ℚ), 1, 2] = [0, 1] := by decide +kernel
  have s1 : pySlice 1 3 1 [(0 : ℚ), 1, 2] = [1, 2] := by decide +kernel
  unfold timeDifference
  simp only [List.map_cons, List.map_nil, ht, hd, Option.bind_some]
  rw [if_neg (by decide)]
  simp only [List.length_cons, List.length_nil, Int.toNat_one]
  norm_num [s0, s1, select, subtract]

end
end HeraPspec.TimeDiff
