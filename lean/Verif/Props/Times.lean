import Verif.Model.Times
import Mathlib.Tactic.Ring
import Mathlib.Tactic.NormNum
import Mathlib.Tactic.Linarith
import Mathlib.Tactic.IntervalCases

/-! C61: trimming to the common LSTs. C62: interleaving of times. -/
namespace HeraPspec.Times
variable {K : Type} [DecidableEq K]

/-! Specification. -/

/-- A rounded LST occurs in every data set. -/
def Common (rnd : ℚ → K) (ds : List (List Row)) (k : K) : Prop := ∀ d ∈ ds, ∃ r ∈ d, rnd r.lst = k

/-- The LST of a row is determined by its time (as for data of one telescope). -/
def LstOfTime (d : List Row) : Prop := ∀ r ∈ d, ∀ s ∈ d, r.time = s.time → r.lst = s.lst

theorem mem_common_aux (rnd : ℚ → K) (rest : List (List Row)) (c : List K) (k : K) :
    k ∈ rest.foldl (fun c d => c.filter (fun k => decide (k ∈ d.map (fun r => rnd r.lst)))) c ↔
      k ∈ c ∧ ∀ d ∈ rest, ∃ r ∈ d, rnd r.lst = k := by
  induction rest generalizing c with
  | nil => simp
  | cons d rest ih =>
    rw [List.foldl_cons, ih]
    simp only [List.mem_filter, decide_eq_true_eq, List.mem_map, List.forall_mem_cons]
    tauto

theorem mem_common (rnd : ℚ → K) {ds : List (List Row)} (hne : ds ≠ []) (k : K) : k ∈ common rnd ds ↔ Common rnd ds k := by
  cases ds with
  | nil => exact absurd rfl hne
  | cons d0 rest =>
    unfold common Common
    rw [mem_common_aux, List.forall_mem_cons]
    simp

/-- The rows that stay: those whose time is the time of a row with a common LST. -/
def Keep (rnd : ℚ → K) (c : List K) (d : List Row) : List Row :=
  d.filter (fun r => decide (∃ s ∈ d, rnd s.lst ∈ c ∧ s.time = r.time))

theorem trimOne_some (rnd : ℚ → K) (c : List K) {d d' : List Row} (h : trimOne rnd c d = some d') : d' = Keep rnd c d := by
  unfold trimOne at h
  split at h
  · unfold select at h
    split at h
    · cases h
    · cases h
      unfold Keep
      apply List.filter_congr
      intro r hr
      simp only [List.mem_map, List.mem_filter, trimmed, Bool.not_not, decide_eq_true_eq, and_assoc]
  · rename_i hn
    cases h
    unfold Keep
    symm
    rw [List.filter_eq_self]
    intro r hr
    rw [Bool.not_eq_true, List.any_eq_false] at hn
    have := hn r hr
    simp only [trimmed, Bool.not_eq_true, Bool.not_eq_false', decide_eq_true_eq] at this
    simp only [decide_eq_true_eq]
    exact ⟨r, hr, this, rfl⟩

theorem trimOne_none_iff (rnd : ℚ → K) (c : List K) (d : List Row) :
    trimOne rnd c d = none ↔ d ≠ [] ∧ ∀ r ∈ d, rnd r.lst ∉ c := by
  unfold trimOne
  split
  · rename_i h
    obtain ⟨x, hx, -⟩ := List.any_eq_true.1 h
    unfold select
    have hd : d ≠ [] := List.ne_nil_of_mem hx
    split
    · rename_i he
      simp only [List.map_eq_nil_iff, List.filter_eq_nil_iff, trimmed, Bool.not_not, decide_eq_true_eq] at he
      simp only [true_iff]
      exact ⟨hd, he⟩
    · rename_i he
      simp only [List.map_eq_nil_iff, List.filter_eq_nil_iff, trimmed, Bool.not_not, decide_eq_true_eq] at he
      simp only [reduceCtorEq, false_iff]
      exact fun h => he h.2
  · rename_i h
    simp only [reduceCtorEq, false_iff]
    rintro ⟨hd, hr⟩
    apply h
    obtain ⟨x, xs, rfl⟩ := List.exists_cons_of_ne_nil hd
    rw [List.any_eq_true]
    exact ⟨x, by simp, by simpa [trimmed] using hr x (by simp)⟩

theorem trimLoop_ok (rnd : ℚ → K) (c : List K) (ds : List (List Row)) (h : (trimLoop rnd c ds).2 = true) :
    (trimLoop rnd c ds).1 = ds.map (Keep rnd c) := by
  induction ds with
  | nil => rfl
  | cons d ds ih =>
    unfold trimLoop at h ⊢
    split at h
    · simp at h
    · rename_i d' hd
      rw [trimOne_some rnd c hd, List.map_cons, ih h]

theorem trimLoop_of_some (rnd : ℚ → K) (c : List K) (ds : List (List Row)) (h : ∀ d ∈ ds, trimOne rnd c d ≠ none) :
    (trimLoop rnd c ds).2 = true := by
  induction ds with
  | nil => rfl
  | cons d ds ih =>
    unfold trimLoop
    split
    · rename_i hd
      exact absurd hd (h d (by simp))
    · exact ih (fun x hx => h x (by simp [hx]))

theorem sameGrid_ne {tol : ℚ} {ds : List (List Row)} (h : sameGrid tol ds = true) : ds ≠ [] := by
  rintro rfl
  simp [sameGrid] at h

theorem step_nil : step [] = none := by
  simp [step, unique, diff, median]

theorem sameGrid_nonempty {tol : ℚ} {ds : List (List Row)} (h : sameGrid tol ds = true) : ∀ d ∈ ds, d ≠ [] := by
  intro d hd he
  subst he
  unfold sameGrid at h
  split at h
  · simp at h
  · rw [List.all_eq_true] at h
    have := h [] hd
    rw [step_nil] at this
    unfold close at this
    split at this
    · rename_i h1
      cases h1
    · cases this

theorem keep_congr (rnd : ℚ → K) {c c' : List K} {d : List Row} (h : ∀ r ∈ d, (rnd r.lst ∈ c ↔ rnd r.lst ∈ c')) :
    Keep rnd c d = Keep rnd c' d := by
  unfold Keep
  apply List.filter_congr
  intro r hr
  congr 1
  apply propext
  constructor <;> rintro ⟨s, hs, h1, h2⟩
  · exact ⟨s, hs, (h s hs).1 h1, h2⟩
  · exact ⟨s, hs, (h s hs).2 h1, h2⟩

theorem mem_keep (rnd : ℚ → K) (c : List K) (d : List Row) (r : Row) :
    r ∈ Keep rnd c d ↔ r ∈ d ∧ ∃ s ∈ d, rnd s.lst ∈ c ∧ s.time = r.time := by
  simp [Keep]

theorem keep_keep (rnd : ℚ → K) (c : List K) (d : List Row) : Keep rnd c (Keep rnd c d) = Keep rnd c d := by
  refine List.filter_eq_self.2 ?_
  intro r hr
  obtain ⟨h1, s, hs, hc, ht⟩ := (mem_keep rnd c d r).1 hr
  simp only [decide_eq_true_eq]
  exact ⟨s, (mem_keep rnd c d s).2 ⟨hs, s, hs, hc, rfl⟩, hc, ht⟩

/-- C61. A call that returns keeps, in each data set and in order, the rows whose time is that of a row with a common LST. -/
theorem C61_kept_rows (rnd : ℚ → K) (tol : ℚ) (ds : List (List Row)) (h : (trim rnd tol ds).2 = true) :
    (trim rnd tol ds).1.length = ds.length ∧ ∀ (i : ℕ) (d : List Row), ds[i]? = some d → ∃ d', (trim rnd tol ds).1[i]? = some d' ∧
      d'.Sublist d ∧ ∀ r, r ∈ d' ↔ r ∈ d ∧ ∃ s ∈ d, Common rnd ds (rnd s.lst) ∧ s.time = r.time := by
  unfold trim at h ⊢
  split at h
  · rename_i hg
    rw [if_pos hg]
    have hne := sameGrid_ne hg
    rw [trimLoop_ok _ _ _ h]
    refine ⟨by simp, ?_⟩
    intro i d hd
    refine ⟨Keep rnd (common rnd ds) d, by simp [hd], List.filter_sublist, ?_⟩
    intro r
    rw [mem_keep]
    simp only [mem_common rnd hne]
  · simp at h

/-- C61. After a call that returns, each data set holds exactly its rows whose rounded LST occurs in all data sets, in order. -/
theorem C61_exact (rnd : ℚ → K) (tol : ℚ) (ds : List (List Row)) (hl : ∀ d ∈ ds, LstOfTime d) (h : (trim rnd tol ds).2 = true)
    (i : ℕ) (d d' : List Row) (hd : ds[i]? = some d) (hd' : (trim rnd tol ds).1[i]? = some d') :
    d'.Sublist d ∧ ∀ r, r ∈ d' ↔ r ∈ d ∧ Common rnd ds (rnd r.lst) := by
  obtain ⟨d'', h1, h2, h3⟩ := (C61_kept_rows rnd tol ds h).2 i d hd
  rw [hd'] at h1
  cases h1
  refine ⟨h2, ?_⟩
  intro r
  rw [h3]
  constructor
  · rintro ⟨hr, s, hs, hc, ht⟩
    rw [hl d (List.mem_of_getElem? hd) s hs r hr ht] at hc
    exact ⟨hr, hc⟩
  · rintro ⟨hr, hc⟩
    exact ⟨hr, r, hr, hc, rfl⟩

/-- C61. With repeated rows kept apart: the kept list is the original list filtered by "rounded LST occurs in all data sets". -/
theorem C61_filter (rnd : ℚ → K) (tol : ℚ) (ds : List (List Row)) (hl : ∀ d ∈ ds, LstOfTime d) (h : (trim rnd tol ds).2 = true)
    (i : ℕ) (d : List Row) (hd : ds[i]? = some d) (P : Row → Bool) (hP : ∀ r, P r = true ↔ Common rnd ds (rnd r.lst)) :
    (trim rnd tol ds).1[i]? = some (d.filter P) := by
  unfold trim at h ⊢
  split at h
  · rename_i hg
    rw [if_pos hg]
    have hne := sameGrid_ne hg
    rw [trimLoop_ok _ _ _ h]
    simp only [List.getElem?_map, hd, Option.map_some, Option.some.injEq]
    unfold Keep
    apply List.filter_congr
    intro r hr
    rw [Bool.eq_iff_iff, decide_eq_true_eq, hP]
    constructor
    · rintro ⟨s, hs, hc, ht⟩
      rw [mem_common rnd hne, hl d (List.mem_of_getElem? hd) s hs r hr ht] at hc
      exact hc
    · intro hc
      exact ⟨r, hr, (mem_common rnd hne _).2 hc, rfl⟩
  · simp at h

/-- C61. A call that raises changes nothing. -/
theorem C61_atomic (rnd : ℚ → K) (tol : ℚ) (ds : List (List Row)) (h : (trim rnd tol ds).2 = false) : (trim rnd tol ds).1 = ds := by
  unfold trim at h ⊢
  split at h
  · rename_i hg
    rw [if_pos hg]
    have hne := sameGrid_ne hg
    have hall := sameGrid_nonempty hg
    by_cases hc : ∃ k, k ∈ common rnd ds
    · obtain ⟨k, hk⟩ := hc
      have : (trimLoop rnd (common rnd ds) ds).2 = true := by
        apply trimLoop_of_some
        intro d hd hn
        obtain ⟨r, hr, he⟩ := (mem_common rnd hne k).1 hk d hd
        exact ((trimOne_none_iff rnd _ d).1 hn).2 r hr (he ▸ hk)
      rw [this] at h
      cases h
    · cases ds with
      | nil => exact absurd rfl hne
      | cons d rest =>
        have hn : trimOne rnd (common rnd (d :: rest)) d = none := by
          rw [trimOne_none_iff]
          exact ⟨hall d (by simp), fun r _ hk => hc ⟨_, hk⟩⟩
        generalize common rnd (d :: rest) = c at hn ⊢
        unfold trimLoop
        rw [hn]
  · rename_i hg
    rw [if_neg hg]

/-- C61. Given a common grid, the call returns exactly when some LST is common to all data sets. -/
theorem C61_returns_iff (rnd : ℚ → K) (tol : ℚ) (ds : List (List Row)) (hg : sameGrid tol ds = true) :
    (trim rnd tol ds).2 = true ↔ ∃ k, Common rnd ds k := by
  have hne := sameGrid_ne hg
  have hall := sameGrid_nonempty hg
  unfold trim
  rw [if_pos hg]
  constructor
  · intro h
    cases ds with
    | nil => exact absurd rfl hne
    | cons d rest =>
      by_contra hc
      push Not at hc
      have hn : trimOne rnd (common rnd (d :: rest)) d = none := by
        rw [trimOne_none_iff]
        exact ⟨hall d (by simp), fun r _ hk => hc _ ((mem_common rnd hne _).1 hk)⟩
      generalize common rnd (d :: rest) = c at hn h
      unfold trimLoop at h
      rw [hn] at h
      cases h
  · rintro ⟨k, hk⟩
    apply trimLoop_of_some
    intro d hd hn
    obtain ⟨r, hr, he⟩ := hk d hd
    exact ((trimOne_none_iff rnd _ d).1 hn).2 r hr (he ▸ (mem_common rnd hne k).2 hk)

/-- C61. A second call changes nothing, whether it returns or raises. -/
theorem C61_second_call (rnd : ℚ → K) (tol tol' : ℚ) (ds : List (List Row)) (h : (trim rnd tol ds).2 = true) :
    (trim rnd tol' (trim rnd tol ds).1).1 = (trim rnd tol ds).1 := by
  by_cases h2 : (trim rnd tol' (trim rnd tol ds).1).2 = true
  · have hT : (trim rnd tol ds).1 = ds.map (Keep rnd (common rnd ds)) ∧ ds ≠ [] := by
      unfold trim at h ⊢
      split at h
      · rename_i hg
        rw [if_pos hg]
        exact ⟨trimLoop_ok _ _ _ h, sameGrid_ne hg⟩
      · simp at h
    obtain ⟨hT, hne⟩ := hT
    rw [hT] at h2 ⊢
    generalize hds : ds.map (Keep rnd (common rnd ds)) = ds' at h2 ⊢
    have hne' : ds' ≠ [] := by rw [← hds]; simpa using hne
    have h3 : (trim rnd tol' ds').1 = ds'.map (Keep rnd (common rnd ds')) := by
      unfold trim at h2 ⊢
      split at h2
      · rename_i hg
        rw [if_pos hg]
        exact trimLoop_ok _ _ _ h2
      · simp at h2
    have hcc : ∀ k, k ∈ common rnd ds' ↔ k ∈ common rnd ds := by
      intro k
      rw [mem_common rnd hne', mem_common rnd hne]
      unfold Common
      rw [← hds, List.forall_mem_map]
      constructor
      · intro hk d hd
        obtain ⟨r, hr, he⟩ := hk d hd
        exact ⟨r, ((mem_keep rnd _ d r).1 hr).1, he⟩
      · intro hk d hd
        obtain ⟨r, hr, he⟩ := hk d hd
        exact ⟨r, (mem_keep rnd _ d r).2 ⟨hr, r, hr, (mem_common rnd hne _).2 (he ▸ hk), rfl⟩, he⟩
    rw [h3]
    have : ∀ d ∈ ds', Keep rnd (common rnd ds') d = d := by
      intro d hd
      rw [← hds] at hd
      obtain ⟨d0, -, rfl⟩ := List.mem_map.1 hd
      rw [keep_congr rnd (c' := common rnd ds) (fun r _ => hcc _), keep_keep]
    conv_rhs => rw [← List.map_id ds']
    exact List.map_congr_left this
  · exact C61_atomic rnd tol' _ (by simpa using h2)

/-- Rounding to six decimals, for the examples. -/
def rnd6 (x : ℚ) : ℤ := (x * 1000000 + 1 / 2).floor

def row (t l : ℚ) : Row := ⟨t, l, 0⟩

/-- Non-vacuity: two data sets offset by one integration, with LSTs differing below the tolerance. -/
example : trim rnd6 (1 / 1000000) [[row 10 0, row 11 1, row 12 2], [row 20 1, row 21 (2 + 1 / 10000000), row 22 3]] =
    ([[row 11 1, row 12 2], [row 20 1, row 21 (2 + 1 / 10000000)]], true) := by decide +kernel

/-- C61 finding: the second call may raise, because after trimming to one integration there is no LST step to compare. -/
theorem C61_finding_second_call_raises : (trim rnd6 (1 / 1000000) [[row 10 0, row 11 1], [row 20 1, row 21 2]]).2 = true ∧
    (trim rnd6 (1 / 1000000) (trim rnd6 (1 / 1000000) [[row 10 0, row 11 1], [row 20 1, row 21 2]]).1).2 = false := by
  decide +kernel

/-- C61 finding: rows are selected by time, so if two rows of one time have different LSTs both are kept. -/
theorem C61_finding_select_by_time :
    (trim rnd6 (1 / 1000000) [[row 10 0, row 10 5, row 11 1, row 12 2], [row 20 0, row 21 1, row 22 2]]).1 =
      [[row 10 0, row 10 5, row 11 1, row 12 2], [row 20 0, row 21 1, row 22 2]] := by decide +kernel

/-- The LSTs of a data set are equally spaced with step `h`; there are at least two. -/
def Regular (d : List Row) (h : ℚ) : Prop := 0 < h ∧ ∃ (t0 : ℚ) (n : ℕ), 2 ≤ n ∧ ∀ x, (∃ r ∈ d, r.lst = x) ↔ ∃ i < n, x = t0 + (i : ℕ) * h

/-- The number of distinct times. -/
def nTimes (d : List Row) : ℕ := (d.map Row.time).dedup.length

theorem unique_regular {l : List ℚ} {t0 h : ℚ} {n : ℕ} (hh : 0 < h) (hm : ∀ x, x ∈ l ↔ ∃ i < n, x = t0 + (i : ℕ) * h) :
    unique l = (List.range n).map (fun i : ℕ => t0 + i * h) := by
  have hsort : ((List.range n).map (fun i : ℕ => t0 + (i : ℚ) * h)).Pairwise (· < ·) := by
    rw [List.pairwise_map]
    refine List.Pairwise.imp ?_ (List.pairwise_lt_range (n := n))
    intro i j hij
    have hij' : (i : ℚ) < j := by exact_mod_cast hij
    have := mul_lt_mul_of_pos_right hij' hh
    linarith
  have hp : (unique l).Perm ((List.range n).map (fun i : ℕ => t0 + (i : ℚ) * h)) := by
    unfold unique
    refine (List.perm_insertionSort _ _).trans ?_
    rw [List.perm_ext_iff_of_nodup (List.nodup_dedup l) (hsort.imp (fun h => ne_of_lt h))]
    intro x
    rw [List.mem_dedup, hm, List.mem_map]
    constructor
    · rintro ⟨i, hi, rfl⟩; exact ⟨i, List.mem_range.2 hi, rfl⟩
    · rintro ⟨i, hi, rfl⟩; exact ⟨i, List.mem_range.1 hi, rfl⟩
  exact hp.eq_of_pairwise (le := (· ≤ ·)) (fun a b _ _ h1 h2 => le_antisymm h1 h2) (List.pairwise_insertionSort (r := (· ≤ ·)) _)
    (hsort.imp (fun h => le_of_lt h))

theorem diff_regular (t0 h : ℚ) (n : ℕ) : diff ((List.range (n + 1)).map (fun i : ℕ => t0 + i * h)) = List.replicate n h := by
  unfold diff
  apply List.ext_getElem
  · simp
  · intro i h1 h2
    simp only [List.getElem_zipWith, List.getElem_map, List.getElem_range, List.getElem_tail, List.getElem_replicate]
    push_cast
    ring

theorem median_replicate (h : ℚ) (n : ℕ) : median (List.replicate (n + 1) h) = some h := by
  have hs : (List.replicate (n + 1) h).insertionSort (· ≤ ·) = List.replicate (n + 1) h := by
    apply List.Pairwise.insertionSort_eq
    exact List.pairwise_replicate.2 (.inr le_rfl)
  unfold median
  rw [if_neg (by simp), hs]
  simp only [List.length_replicate]
  split
  · rw [List.getElem?_replicate, if_pos (by omega)]
  · have g : ∀ k, k < n + 1 → (List.replicate (n + 1) h).getD k 0 = h := by
      intro k hk
      rw [List.getD_eq_getElem?_getD, List.getElem?_replicate, if_pos hk]; rfl
    rw [g _ (by omega), g _ (by omega)]
    congr 1; ring

theorem step_regular {d : List Row} {h : ℚ} (hr : Regular d h) : step d = some h := by
  obtain ⟨hh, t0, n, hn, hm⟩ := hr
  obtain ⟨m, rfl⟩ : ∃ m, n = m + 2 := ⟨n - 2, by omega⟩
  unfold step
  rw [unique_regular hh (n := m + 2) (t0 := t0) (by
    intro x; rw [← hm x]; simp), diff_regular, median_replicate]

/-- C61. For data sets with equally spaced LSTs the call returns exactly when each step agrees with that of the first within the tolerance per integration
plus 10⁻⁵ of itself, and some LST is common to all. -/
theorem C61_grid (rnd : ℚ → K) (tol : ℚ) (d0 : List Row) (rest : List (List Row)) (h : List Row → ℚ) (hr : ∀ d ∈ d0 :: rest, Regular d (h d)) :
    (trim rnd tol (d0 :: rest)).2 = true ↔
      (∀ d ∈ d0 :: rest, |h d0 - h d| ≤ tol / nTimes d + |h d| / 100000) ∧ ∃ k, Common rnd (d0 :: rest) k := by
  have hg : sameGrid tol (d0 :: rest) = true ↔ ∀ d ∈ d0 :: rest, |h d0 - h d| ≤ tol / nTimes d + |h d| / 100000 := by
    unfold sameGrid
    simp only [List.all_eq_true]
    refine forall₂_congr (fun d hd => ?_)
    rw [step_regular (hr d0 List.mem_cons_self), step_regular (hr d hd)]
    have : (unique (d.map Row.time)).length = nTimes d := by
      unfold unique nTimes; rw [List.length_insertionSort]
    simp only [close, this, decide_eq_true_eq]
  rw [← hg]
  by_cases hgr : sameGrid tol (d0 :: rest) = true
  · rw [C61_returns_iff rnd tol _ hgr]; simp [hgr]
  · have : (trim rnd tol (d0 :: rest)).2 = false := by unfold trim; rw [if_neg hgr]
    simp [this, hgr]

example : Regular [row 10 0, row 11 1, row 12 2] 1 := by
  refine ⟨by norm_num, 0, 3, by norm_num, fun x => ?_⟩
  constructor
  · rintro ⟨r, hr, rfl⟩
    simp only [List.mem_cons, List.not_mem_nil, or_false] at hr
    rcases hr with rfl | rfl | rfl
    · exact ⟨0, by norm_num, by simp [row]⟩
    · exact ⟨1, by norm_num, by simp [row]⟩
    · exact ⟨2, by norm_num, by simp [row]⟩
  · rintro ⟨i, hi, rfl⟩
    interval_cases i
    · exact ⟨row 10 0, by simp, by simp [row]⟩
    · exact ⟨row 11 1, by simp, by simp [row]⟩
    · exact ⟨row 12 2, by simp, by simp [row]⟩

/-- `m` is a median: at least half of the values are not above it, and at least half not below. -/
def IsMedian (l : List ℚ) (m : ℚ) : Prop := l.length ≤ 2 * l.countP (fun x => decide (x ≤ m)) ∧ l.length ≤ 2 * l.countP (fun x => decide (m ≤ x))

/-- The steps between neighbouring distinct values: all `b - a` for values `a < b` with none in between, smallest `a` first. -/
def Steps (l : List ℚ) (s : List ℚ) : Prop := ∃ u : List ℚ, u.Pairwise (· < ·) ∧ (∀ x, x ∈ u ↔ x ∈ l) ∧ s.length = u.length - 1 ∧
  ∀ (i : ℕ) a b, u[i]? = some a → u[i + 1]? = some b → s[i]? = some (b - a)

theorem count_le_sorted {s : List ℚ} (hs : s.Pairwise (· ≤ ·)) {j : ℕ} (hj : j < s.length) {m : ℚ} (h : s[j] ≤ m) :
    j + 1 ≤ s.countP (fun x => decide (x ≤ m)) := by
  have h1 : (s.take (j + 1)).countP (fun x => decide (x ≤ m)) = j + 1 := by
    rw [List.countP_eq_length.2, List.length_take]
    · omega
    · intro x hx
      obtain ⟨i, hi, rfl⟩ := List.getElem_of_mem hx
      rw [List.length_take] at hi
      rw [List.getElem_take, decide_eq_true_eq]
      rcases Nat.lt_or_eq_of_le (Nat.lt_succ_iff.1 (lt_of_lt_of_le hi (min_le_left _ _))) with h2 | h2
      · exact (List.pairwise_iff_getElem.1 hs i j (by omega) hj h2).trans h
      · subst h2; exact h
  have h2 := List.Sublist.countP_le (p := fun x => decide (x ≤ m)) (List.take_sublist (j + 1) s)
  omega

theorem count_ge_sorted {s : List ℚ} (hs : s.Pairwise (· ≤ ·)) {j : ℕ} (hj : j < s.length) {m : ℚ} (h : m ≤ s[j]) :
    s.length - j ≤ s.countP (fun x => decide (m ≤ x)) := by
  have h1 : (s.drop j).countP (fun x => decide (m ≤ x)) = s.length - j := by
    rw [List.countP_eq_length.2, List.length_drop]
    intro x hx
    obtain ⟨i, hi, rfl⟩ := List.getElem_of_mem hx
    rw [List.length_drop] at hi
    rw [List.getElem_drop, decide_eq_true_eq]
    rcases Nat.eq_zero_or_pos i with h2 | h2
    · subst h2; simpa using h
    · exact h.trans (List.pairwise_iff_getElem.1 hs j (j + i) hj (by omega) (by omega))
  have h2 := List.Sublist.countP_le (p := fun x => decide (m ≤ x)) (List.drop_sublist j s)
  omega

theorem median_isMedian {l : List ℚ} {m : ℚ} (h : median l = some m) : IsMedian l m := by
  unfold median at h
  split at h
  · cases h
  rename_i hne
  have hpos := List.length_pos_iff.2 hne
  set s := l.insertionSort (· ≤ ·) with hs
  have hp : s.Perm l := List.perm_insertionSort _ _
  have hsort : s.Pairwise (· ≤ ·) := List.pairwise_insertionSort (r := (· ≤ ·)) l
  have hlen : s.length = l.length := hp.length_eq
  unfold IsMedian
  rw [← hp.countP_eq, ← hp.countP_eq]
  split at h
  · rename_i hodd
    obtain ⟨hj, hm⟩ := List.getElem?_eq_some_iff.1 h
    have h1 := count_le_sorted hsort hj (le_of_eq hm)
    have h2 := count_ge_sorted hsort hj (le_of_eq hm.symm)
    omega
  · rename_i heven
    have hj : l.length / 2 < s.length := by omega
    have hj1 : l.length / 2 - 1 < s.length := by omega
    have g : ∀ k (hk : k < s.length), s.getD k 0 = s[k] := by
      intro k hk; rw [List.getD_eq_getElem?_getD, List.getElem?_eq_getElem hk]; rfl
    rw [g _ hj, g _ hj1] at h
    have hm := Option.some.inj h
    have hle := List.pairwise_iff_getElem.1 hsort _ _ hj1 hj (by omega)
    have h1 := count_le_sorted hsort hj1 (m := m) (by rw [← hm]; linarith)
    have h2 := count_ge_sorted hsort hj (m := m) (by rw [← hm]; linarith)
    omega

theorem steps_diff (l : List ℚ) : Steps l (diff (unique l)) := by
  refine ⟨unique l, ?_, ?_, ?_, ?_⟩
  · have h1 : (unique l).Pairwise (· ≤ ·) := List.pairwise_insertionSort (r := (· ≤ ·)) _
    have h2 : (unique l).Nodup := (List.perm_insertionSort (· ≤ ·) l.dedup).nodup_iff.2 (List.nodup_dedup l)
    exact (h1.and h2).imp (fun h => lt_of_le_of_ne h.1 h.2)
  · intro x; unfold unique; rw [List.mem_insertionSort, List.mem_dedup]
  · unfold diff; simp
  · intro i a b ha hb
    obtain ⟨h1, rfl⟩ := List.getElem?_eq_some_iff.1 ha
    obtain ⟨h2, rfl⟩ := List.getElem?_eq_some_iff.1 hb
    unfold diff
    rw [List.getElem?_eq_some_iff]
    exact ⟨by simp; omega, by simp⟩

/-- C61. If the call returns, every data set has a median LST step, and it agrees with that of the first within the tolerance per integration plus 10⁻⁵ of
itself. -/
theorem C61_median_step (rnd : ℚ → K) (tol : ℚ) (d0 : List Row) (rest : List (List Row)) (h : (trim rnd tol (d0 :: rest)).2 = true) :
    ∃ s0 a, Steps (d0.map Row.lst) s0 ∧ IsMedian s0 a ∧ ∀ d ∈ d0 :: rest, ∃ s b, Steps (d.map Row.lst) s ∧ IsMedian s b ∧
      |a - b| ≤ tol / nTimes d + |b| / 100000 := by
  have hg : sameGrid tol (d0 :: rest) = true := by
    by_contra hc; unfold trim at h; rw [if_neg hc] at h; cases h
  unfold sameGrid at hg
  simp only [List.all_eq_true] at hg
  have key : ∀ d ∈ d0 :: rest, ∃ a b, step d0 = some a ∧ step d = some b ∧ |a - b| ≤ tol / nTimes d + |b| / 100000 := by
    intro d hd
    have := hg d hd
    have hl : (unique (d.map Row.time)).length = nTimes d := by
      unfold unique nTimes; rw [List.length_insertionSort]
    rw [hl] at this
    cases h0 : step d0 with
    | none => rw [h0] at this; simp [close] at this
    | some a =>
      cases h1 : step d with
      | none => rw [h0, h1] at this; simp [close] at this
      | some b => rw [h0, h1] at this; exact ⟨a, b, rfl, rfl, by simpa [close] using this⟩
  obtain ⟨a, _, ha, _, _⟩ := key d0 List.mem_cons_self
  refine ⟨_, a, steps_diff _, median_isMedian ha, fun d hd => ?_⟩
  obtain ⟨a', b, ha', hb, hab⟩ := key d hd
  have : a' = a := Option.some.inj (ha'.symm.trans ha)
  subst this
  exact ⟨_, b, steps_diff _, median_isMedian hb, hab⟩

/-! C62 -/

theorem mem_unique (l : List ℚ) (x : ℚ) : x ∈ unique l ↔ x ∈ l := by
  unfold unique
  rw [List.mem_insertionSort, List.mem_dedup]

theorem unique_nodup (l : List ℚ) : (unique l).Nodup := by
  unfold unique
  exact (List.perm_insertionSort _ _).nodup_iff.2 (List.nodup_dedup l)

theorem unique_lt (l : List ℚ) : (unique l).Pairwise (· < ·) := by
  have h1 : (unique l).Pairwise (· ≤ ·) := List.pairwise_insertionSort _ _
  have h2 : (unique l).Pairwise (· ≠ ·) := unique_nodup l
  exact (h1.and h2).imp (fun h => lt_of_le_of_ne h.1 h.2)

theorem pySlice_eq (u : List ℚ) (n s : ℕ) (hn : n ≤ u.length) (he : n % 2 = 0) (hs : s ≤ 1) :
    (pySlice s n 2 u).length = n / 2 ∧ ∀ i, i < n / 2 → (pySlice s n 2 u)[i]? = u[2 * i + s]? := by
  have hc : (min n u.length - s + 2 - 1) / 2 = n / 2 := by
    rw [Nat.min_eq_left hn]
    omega
  have key : pySlice s n 2 u = (List.range (n / 2)).map (fun i => u.getD (2 * i + s) 0) := by
    unfold pySlice
    rw [hc]
    have : List.range' s (n / 2) 2 = (List.range (n / 2)).map (fun i => 2 * i + s) := by
      apply List.ext_getElem (by simp)
      intro i h1 h2
      simp
      omega
    rw [this, List.filterMap_map]
    rw [← List.filterMap_eq_map]
    apply List.filterMap_congr
    intro i hi
    rw [List.mem_range] at hi
    have hlt : 2 * i + s < u.length := by omega
    simp [List.getElem?_eq_getElem hlt]
  rw [key]
  refine ⟨by simp, ?_⟩
  intro i hi
  have hlt : 2 * i + s < u.length := by omega
  simp [hi, List.getElem?_eq_getElem hlt]

theorem mem_pySlice (u : List ℚ) (n s : ℕ) (hn : n ≤ u.length) (he : n % 2 = 0) (hs : s ≤ 1) (x : ℚ) :
    x ∈ pySlice s n 2 u ↔ ∃ i, i < n / 2 ∧ u[2 * i + s]? = some x := by
  obtain ⟨h1, h2⟩ := pySlice_eq u n s hn he hs
  rw [List.mem_iff_getElem?]
  constructor
  · rintro ⟨i, hi⟩
    have hlt : i < n / 2 := by
      rw [← h1]
      exact (List.getElem?_eq_some_iff.1 hi).1
    exact ⟨i, hlt, by rw [← h2 i hlt, hi]⟩
  · rintro ⟨i, hlt, hi⟩
    exact ⟨i, by rw [h2 i hlt, hi]⟩

/-- C62. When interleaving succeeds, write `u` for the distinct times of the data set in increasing order. There are equally many
times in both new data sets; row by row, the first one holds the rows at `u₀, u₂, …` and the second one those at `u₁, u₃, …`; only
the last time is dropped, and only when the number of times is odd. -/
theorem C62_interleave (d : List Row) (labels labels' : List String) (ds' : List (List Row))
    (h : interleave [d] labels = some (ds', labels')) : ∃ (u : List ℚ) (d0 d1 : List Row), ds' = [d0, d1] ∧
      labels' = labels ++ ["dset1"] ∧ u.Pairwise (· < ·) ∧ (∀ t, t ∈ u ↔ ∃ r ∈ d, r.time = t) ∧ 2 ≤ u.length ∧
      d0.Sublist d ∧ d1.Sublist d ∧
      (∀ r, r ∈ d0 ↔ r ∈ d ∧ ∃ i, i < u.length / 2 ∧ u[2 * i]? = some r.time) ∧
      (∀ r, r ∈ d1 ↔ r ∈ d ∧ ∃ i, i < u.length / 2 ∧ u[2 * i + 1]? = some r.time) := by
  unfold interleave at h
  simp only at h
  generalize hu : unique (d.map Row.time) = u at h
  have hn : u.length - u.length % 2 ≤ u.length := by omega
  have he : (u.length - u.length % 2) % 2 = 0 := by omega
  have hhalf : (u.length - u.length % 2) / 2 = u.length / 2 := by omega
  split at h
  · rename_i d1 d0 h1 h0
    cases h
    have m1 := mem_pySlice u _ 1 hn he le_rfl
    have m0 := mem_pySlice u _ 0 hn he (by omega)
    unfold select at h1 h0
    split at h1
    · cases h1
    · rename_i hne1
      split at h0
      · cases h0
      · cases h1
        cases h0
        refine ⟨u, _, _, rfl, rfl, hu ▸ unique_lt _, ?_, ?_, List.filter_sublist, List.filter_sublist, ?_, ?_⟩
        · intro t
          rw [← hu, mem_unique, List.mem_map]
        · by_contra hlt
          apply hne1
          have : (pySlice 1 (u.length - u.length % 2) 2 u).length = 0 := by
            rw [(pySlice_eq u _ 1 hn he le_rfl).1]; omega
          exact List.length_eq_zero_iff.1 this
        · intro r
          rw [List.mem_filter, decide_eq_true_eq, m0, hhalf]
          rfl
        · intro r
          rw [List.mem_filter, decide_eq_true_eq, m1, hhalf]
  · cases h

/-- C62. The two new data sets have no time in common. -/
theorem C62_disjoint (d d0 d1 : List Row) (labels labels' : List String)
    (h : interleave [d] labels = some ([d0, d1], labels')) : ∀ r ∈ d0, ∀ s ∈ d1, r.time ≠ s.time := by
  obtain ⟨u, e0, e1, hds, -, hlt, -, -, -, -, h0, h1⟩ := C62_interleave d labels labels' _ h
  cases hds
  intro r hr s hs hrs
  obtain ⟨-, i, -, hi⟩ := (h0 r).1 hr
  obtain ⟨-, j, -, hj⟩ := (h1 s).1 hs
  rw [hrs, ← hj] at hi
  have hnd : u.Nodup := hlt.imp (fun h => ne_of_lt h)
  have hi' : 2 * i < u.length := by
    by_contra hc
    rw [List.getElem?_eq_none (by omega), hj] at hi
    cases hi
  have hj' := (List.getElem?_eq_some_iff.1 hj).1
  rw [List.getElem?_eq_getElem hi', List.getElem?_eq_getElem hj', Option.some.injEq] at hi
  have := (hnd.getElem_inj_iff).1 hi
  omega

/-- C62. The distinct times of the two new data sets alternate and are equally many: `a₀ < b₀ < a₁ < b₁ < …`. -/
theorem C62_alternate (d d0 d1 : List Row) (labels labels' : List String)
    (h : interleave [d] labels = some ([d0, d1], labels')) : ∃ a b : List ℚ, a.length = b.length ∧ a ≠ [] ∧
      (∀ t, t ∈ a ↔ ∃ r ∈ d0, r.time = t) ∧ (∀ t, t ∈ b ↔ ∃ r ∈ d1, r.time = t) ∧
      (∀ (i : ℕ) (x y : ℚ), a[i]? = some x → b[i]? = some y → x < y) ∧ (∀ (i : ℕ) (x y : ℚ), b[i]? = some x → a[i + 1]? = some y → x < y) := by
  obtain ⟨u, e0, e1, hds, -, hlt, hmem, h2, -, -, h0, h1⟩ := C62_interleave d labels labels' _ h
  cases hds
  have hn : u.length - u.length % 2 ≤ u.length := by omega
  have he : (u.length - u.length % 2) % 2 = 0 := by omega
  have hhalf : (u.length - u.length % 2) / 2 = u.length / 2 := by omega
  have p0 := pySlice_eq u _ 0 hn he (by omega)
  have p1 := pySlice_eq u _ 1 hn he le_rfl
  have m0 := mem_pySlice u _ 0 hn he (by omega)
  have m1 := mem_pySlice u _ 1 hn he le_rfl
  rw [hhalf] at p0 p1 m0 m1
  have hord : ∀ (i j : ℕ) (x y : ℚ), i < j → u[i]? = some x → u[j]? = some y → x < y := by
    intro i j x y hij hx hy
    obtain ⟨hi, rfl⟩ := List.getElem?_eq_some_iff.1 hx
    obtain ⟨hj, rfl⟩ := List.getElem?_eq_some_iff.1 hy
    exact List.pairwise_iff_getElem.1 hlt i j hi hj hij
  have hrow : ∀ (i : ℕ) (x : ℚ), u[i]? = some x → ∃ r ∈ d, r.time = x := fun i x hx => (hmem x).1 (List.mem_of_getElem? hx)
  refine ⟨pySlice 0 (u.length - u.length % 2) 2 u, pySlice 1 (u.length - u.length % 2) 2 u, ?_, ?_, ?_, ?_, ?_, ?_⟩
  · rw [p0.1, p1.1]
  · intro hz
    have := p0.1
    rw [hz] at this
    simp at this
    omega
  · intro t
    rw [m0]
    constructor
    · rintro ⟨i, hi, hx⟩
      obtain ⟨r, hr, rfl⟩ := hrow _ _ hx
      exact ⟨r, (h0 r).2 ⟨hr, i, hi, hx⟩, rfl⟩
    · rintro ⟨r, hr, rfl⟩
      exact ((h0 r).1 hr).2
  · intro t
    rw [m1]
    constructor
    · rintro ⟨i, hi, hx⟩
      obtain ⟨r, hr, rfl⟩ := hrow _ _ hx
      exact ⟨r, (h1 r).2 ⟨hr, i, hi, hx⟩, rfl⟩
    · rintro ⟨r, hr, rfl⟩
      exact ((h1 r).1 hr).2
  · intro i x y hx hy
    have hi : i < u.length / 2 := by
      rw [← p0.1]
      exact (List.getElem?_eq_some_iff.1 hx).1
    rw [p0.2 i hi] at hx
    rw [p1.2 i hi] at hy
    exact hord _ _ x y (by omega) hx hy
  · intro i x y hx hy
    have hi : i + 1 < u.length / 2 := by
      rw [← p0.1]
      exact (List.getElem?_eq_some_iff.1 hy).1
    rw [p1.2 i (by omega)] at hx
    rw [p0.2 (i + 1) hi] at hy
    exact hord _ _ x y (by omega) hx hy

/-- C62. No row is lost except those at the last time, and those only when the number of distinct times is odd. -/
theorem C62_coverage (d d0 d1 : List Row) (labels labels' : List String)
    (h : interleave [d] labels = some ([d0, d1], labels')) (r : Row) (hr : r ∈ d) (h0 : r ∉ d0) (h1 : r ∉ d1) :
    (∀ s ∈ d, s.time ≤ r.time) ∧ (d.map Row.time).dedup.length % 2 = 1 := by
  obtain ⟨u, e0, e1, hds, -, hlt, hmem, h2, -, -, g0, g1⟩ := C62_interleave d labels labels' _ h
  cases hds
  obtain ⟨k, hk⟩ := List.mem_iff_getElem?.1 ((hmem r.time).2 ⟨r, hr, rfl⟩)
  have hkl := (List.getElem?_eq_some_iff.1 hk).1
  have hk0 : ∀ i, i < u.length / 2 → k ≠ 2 * i := by
    intro i hi he
    exact h0 ((g0 r).2 ⟨hr, i, hi, he ▸ hk⟩)
  have hk1 : ∀ i, i < u.length / 2 → k ≠ 2 * i + 1 := by
    intro i hi he
    exact h1 ((g1 r).2 ⟨hr, i, hi, he ▸ hk⟩)
  have hlast : k = u.length - 1 ∧ u.length % 2 = 1 := by
    by_cases hpar : k % 2 = 0
    · have := hk0 (k / 2)
      by_cases hlt' : k / 2 < u.length / 2
      · exact absurd (by omega) (this hlt')
      · omega
    · have := hk1 (k / 2)
      exact absurd (by omega) (this (by omega))
  constructor
  · intro s hs
    obtain ⟨j, hj⟩ := List.mem_iff_getElem?.1 ((hmem s.time).2 ⟨s, hs, rfl⟩)
    obtain ⟨hjl, hje⟩ := List.getElem?_eq_some_iff.1 hj
    obtain ⟨hkl', hke⟩ := List.getElem?_eq_some_iff.1 hk
    rw [← hje, ← hke]
    rcases Nat.lt_or_ge j k with hjk | hjk
    · exact le_of_lt (List.pairwise_iff_getElem.1 hlt j k hjl hkl' hjk)
    · have : j = k := by omega
      subst this
      exact le_rfl
  · have hperm : u.Perm (d.map Row.time).dedup := by
      rw [List.perm_ext_iff_of_nodup (hlt.imp (fun h => ne_of_lt h)) (List.nodup_dedup _)]
      intro t
      rw [hmem, List.mem_dedup, List.mem_map]
    rw [← hperm.length_eq]
    exact hlast.2

/-- C62. Interleaving succeeds exactly for one data set with at least two distinct times. -/
theorem C62_succeeds_iff (ds : List (List Row)) (labels : List String) :
    (interleave ds labels).isSome = true ↔ ∃ d, ds = [d] ∧ ∃ r ∈ d, ∃ s ∈ d, r.time < s.time := by
  match ds with
  | [] => simp [interleave]
  | d :: e :: rest => simp [interleave]
  | [d] =>
    simp only [List.cons.injEq, and_true, exists_eq_left']
    unfold interleave
    simp only
    have hmem := mem_unique (d.map Row.time)
    have hlt := unique_lt (d.map Row.time)
    generalize hu : unique (d.map Row.time) = u at hmem hlt ⊢
    have hn : u.length - u.length % 2 ≤ u.length := by omega
    have he : (u.length - u.length % 2) % 2 = 0 := by omega
    have p0 := (pySlice_eq u _ 0 hn he (by omega)).1
    have p1 := (pySlice_eq u _ 1 hn he le_rfl).1
    have h2 : 2 ≤ u.length ↔ ∃ r ∈ d, ∃ s ∈ d, r.time < s.time := by
      constructor
      · intro h
        have h01 := List.pairwise_iff_getElem.1 hlt 0 1 (by omega) (by omega) (by omega)
        obtain ⟨r, hr, hre⟩ := List.mem_map.1 ((hmem u[0]).1 (List.getElem_mem _))
        obtain ⟨s, hs, hse⟩ := List.mem_map.1 ((hmem u[1]).1 (List.getElem_mem _))
        exact ⟨r, hr, s, hs, by rw [hre, hse]; exact h01⟩
      · rintro ⟨r, hr, s, hs, hrs⟩
        obtain ⟨i, hi⟩ := List.mem_iff_getElem?.1 ((hmem r.time).2 (List.mem_map.2 ⟨r, hr, rfl⟩))
        obtain ⟨j, hj⟩ := List.mem_iff_getElem?.1 ((hmem s.time).2 (List.mem_map.2 ⟨s, hs, rfl⟩))
        have hi' := (List.getElem?_eq_some_iff.1 hi).1
        have hj' := (List.getElem?_eq_some_iff.1 hj).1
        by_contra hc
        have : i = j := by omega
        subst this
        rw [hi, Option.some.injEq] at hj
        exact absurd hrs (by rw [hj]; exact lt_irrefl _)
    rw [← h2]
    unfold select
    by_cases hz : 2 ≤ u.length
    · have n0 : pySlice 0 (u.length - u.length % 2) 2 u ≠ [] := by
        intro hc; rw [hc] at p0; simp at p0; omega
      have n1 : pySlice 1 (u.length - u.length % 2) 2 u ≠ [] := by
        intro hc; rw [hc] at p1; simp at p1; omega
      simp [n0, n1, hz]
    · have n1 : pySlice 1 (u.length - u.length % 2) 2 u = [] := by
        apply List.length_eq_zero_iff.1
        rw [p1]; omega
      simp [n1, hz]

/-- Non-vacuity: five times, two rows each; the last time is dropped. -/
example : interleave [[row 3 0, row 3 0, row 1 0, row 2 0, row 5 0, row 4 0, row 1 0]] ["a"] =
    some ([[row 3 0, row 3 0, row 1 0, row 1 0], [row 2 0, row 4 0]], ["a", "dset1"]) := by decide +kernel

/-- C62 finding: the new label is "dset1" whatever the first label is, so it can repeat a label. -/
theorem C62_finding_label : (interleave [[row 1 0, row 2 0]] ["dset1"]).map Prod.snd = some ["dset1", "dset1"] := by decide +kernel

end HeraPspec.Times
