import Verif.Lemmas.MapE
import Verif.Props.UVP
import Mathlib.Tactic.Ring
import Mathlib.Tactic.FieldSimp
import Mathlib.Data.Rat.Cast.Order
import Mathlib.Algebra.Order.Field.Rat

/-! C18-C20: folded objects, times, window ranges. -/
namespace HeraPspec.UVP

variable {D W α : Type}

/-! ### C18 -/

/-- Delays stored for window `s`. -/
def windowDelays (o : Obj D W) (s : Nat) : List ℚ := (o.dlys.filter (fun c => decide (c.1 = s))).map (·.2)

/-- `N` delays centred on zero with spacing `δ` (the order `fftshift(fftfreq(N))` produces): delay `i` is
`(i - N // 2) * δ`. -/
def Centred (dl : List ℚ) (δ : ℚ) : Prop :=
  dl = (List.range dl.length).map (fun i : Nat => ((i : ℚ) - ((dl.length / 2 : Nat) : ℚ)) * δ)

theorem mask_gt (n k c : Nat) (l : List α) (h : l.length = n) :
    mask ((List.range' k n).map (fun i => decide (c < i))) l = l.drop (c + 1 - k) := by
  induction n generalizing k l with
  | zero => cases l <;> simp_all [mask]
  | succ n ih =>
    cases l with
    | nil => simp at h
    | cons x l =>
      rw [List.range'_succ]
      simp only [List.map_cons, mask]
      rw [ih (k + 1) l (by simpa using h)]
      by_cases hc : c < k
      · have h1 : c + 1 - k = 0 := by omega
        have h2 : c + 1 - (k + 1) = 0 := by omega
        simp [hc, h1, h2]
      · have h1 : c + 1 - k = (c + 1 - (k + 1)) + 1 := by omega
        simp [hc, h1]

theorem mask_eq_zip' {γ : Type} (xs : List γ) (p : γ → Bool) (d : List α) :
    mask (xs.map p) d = ((xs.zip d).filter (fun x => p x.1)).map (·.2) := by
  induction xs generalizing d with
  | nil => simp [mask]
  | cons q xs ih =>
    cases d with
    | nil => simp [mask]
    | cons x d => by_cases h : p q <;> simp [mask, h, ih]

theorem centred_pos_mask {dl : List ℚ} {δ : ℚ} (hδ : 0 < δ) (hc : Centred dl δ) :
    dl.map (fun x => decide (0 < x)) = (List.range' 0 dl.length).map (fun i => decide (dl.length / 2 < i)) := by
  generalize hN : dl.length = N at *
  unfold Centred at hc
  rw [hN] at hc
  rw [hc, List.map_map, ← List.range_eq_range']
  apply List.map_congr_left
  intro i _
  simp only [Function.comp_apply, decide_eq_decide]
  rw [mul_pos_iff_of_pos_right hδ, sub_pos]
  exact Nat.cast_lt

/-- The part of a spectrum at strictly positive delays. -/
def positivePart (dl : List ℚ) (spec : List α) : List α := ((dl.zip spec).filter (fun x => decide (0 < x.1))).map (·.2)

theorem positivePart_drop {dl : List ℚ} {δ : ℚ} (hδ : 0 < δ) (hc : Centred dl δ) (spec : List α)
    (hl : spec.length = dl.length) : positivePart dl spec = spec.drop (dl.length / 2 + 1) := by
  unfold positivePart
  rw [← mask_eq_zip' dl (fun x => decide (0 < x)), centred_pos_mask hδ hc, mask_gt _ _ _ _ hl, Nat.sub_zero]

/-- **C18** (three or more delays) For a folded object whose window has delays centred on zero, `get_data` returns for
every row of the baseline-pair exactly the part of the stored spectrum at strictly positive delays, and `get_dlys` the
strictly positive delays. Missing: one or two delays, where the code returns the whole spectrum (see the
counterexamples). -/
theorem C18_folded_positive_delays_partial {u : UVP D W} {o : Obj D W} (hr : Represents u o) (hv : Valid o)
    (hn : o.pols.Nodup) (hf : o.folded = true) (s : Nat) (b p : Int) (hs : s < o.nspw)
    (hb : ∃ m ∈ o.rows, m.blpair = b) (hp : p ∈ o.pols) (δ : ℚ) (hδ : 1 / 10000000000 ≤ δ)
    (hc : Centred (windowDelays o s) δ) (h3 : 3 ≤ (windowDelays o s).length)
    (hlen : ∀ m ∈ o.rows, (m.dat s).length = (windowDelays o s).length) :
    getData u s b p = .ok ((o.rows.filter (fun m => decide (m.blpair = b))).map
      (fun m => (positivePart (windowDelays o s) (m.dat s)).filterMap (fun d => (o.pols.zip d).lookup p))) ∧
    getDlys u s = .ok ((windowDelays o s).filter (fun x => decide (0 < x))) := by
  have hδ0 : (0 : ℚ) < δ := lt_of_lt_of_le (by norm_num) hδ
  constructor
  · obtain ⟨i, hk, hi⟩ := keyToIndices_spec hr hv hn hs hb hp
    have hcount : u.spwDlyArray.count s = (windowDelays o s).length := by
      rw [hr.spwDly]
      unfold windowDelays
      rw [List.count, List.countP_map, List.countP_eq_length_filter, List.length_map]
      congr 1
    unfold getData
    simp only [hk, bind, Except.bind, hr.data, if_pos hs]
    rw [hr.folded, hf, hcount]
    simp only [↓reduceIte]
    rw [filterMap_whereTrue _ _ (by simp), mask_map_filter, List.map_map, List.map_map]
    congr 1
    apply List.map_congr_left
    intro m hm
    have hm' := List.mem_of_mem_filter hm
    simp only [Function.comp_apply]
    rw [positivePart_drop hδ0 hc _ (hlen m hm')]
    unfold negSlice
    generalize (windowDelays o s).length = N at *
    rw [if_neg (by omega), hlen m hm', show N - (N - N / 2 - 1) = N / 2 + 1 by omega]
    congr 1
    funext d
    exact (lookup_zip_getElem hn hi d).symm
  · unfold getDlys spwToDlyIndices
    have hmem : s ∈ u.spwDlyArray := by
      rw [hr.spwDly]; obtain ⟨c, hc, e⟩ := hv.dlys_all s hs; exact List.mem_map.2 ⟨c, hc, e⟩
    simp only [List.cons_ne_nil, ↓reduceIte, List.all_cons, List.all_nil, Bool.and_true, hmem, decide_true, bind,
      Except.bind]
    rw [hr.spwDly, hr.dly, hr.folded, hf, List.zip_map', List.map_map, filterMap_whereTrue _ _ (by simp), mask_map_filter]
    congr 1
    unfold windowDelays
    rw [List.filter_map, List.filter_filter]
    congr 1
    apply List.filter_congr
    intro c hcm
    by_cases hcs : c.1 = s
    · have hcd : c.2 ∈ windowDelays o s := List.mem_map.2 ⟨c, List.mem_filter.2 ⟨hcm, by simp [hcs]⟩, rfl⟩
      rw [hc, List.mem_map] at hcd
      obtain ⟨i, _, hi⟩ := hcd
      simp only [Function.comp_apply, hcs, List.mem_singleton, decide_true, Bool.true_and, Bool.and_true]
      rw [Bool.eq_iff_iff, Bool.not_eq_true', decide_eq_false_iff_not, decide_eq_true_iff, not_lt]
      constructor
      · intro h; exact lt_of_lt_of_le (by norm_num) h
      · intro h
        rw [← hi] at h ⊢
        have hpos : (0 : ℚ) < (i : ℚ) - (((windowDelays o s).length / 2 : Nat) : ℚ) := (mul_pos_iff_of_pos_right hδ0).1 h
        rw [sub_pos, Nat.cast_lt] at hpos
        have : (1 : ℚ) ≤ (i : ℚ) - (((windowDelays o s).length / 2 : Nat) : ℚ) := by
          rw [le_sub_iff_add_le]
          have : (((windowDelays o s).length / 2 + 1 : Nat) : ℚ) ≤ (i : ℚ) := by exact_mod_cast hpos
          push_cast at this
          push_cast
          linarith
        calc (1 : ℚ) / 10000000000 ≤ δ := hδ
          _ = 1 * δ := (one_mul δ).symm
          _ ≤ _ := mul_le_mul_of_nonneg_right this (le_of_lt hδ0)
    · simp [hcs]

example : Centred (windowDelays exFolded 0) 1 ∧ 3 ≤ (windowDelays exFolded 0).length ∧
    (∀ m ∈ exFolded.rows, (m.dat 0).length = (windowDelays exFolded 0).length) ∧
    getData (store exFolded) 0 101102102103 1515 = .ok [[2]] := by
  refine ⟨?_, by decide, ?_, rfl⟩
  · unfold Centred windowDelays exFolded; norm_num [List.range_succ]
  · intro m hm; simp [exFolded] at hm; subst hm; rfl

/-- A folded object with delays -1 and 0 (two channels). -/
def exFolded2 : Obj Int ℚ where
  nspw := 1
  chans := [(0, 100), (0, 101)]
  dlys := [(0, -1), (0, 0)]
  folded := true
  pols := [1515]
  rows := [{ bl1 := 101102, bl2 := 102103, t1 := 1, t2 := 2, tAvg := 3 / 2, l1 := 0, l2 := 0, lAvg := 0,
             dat := fun _ => [[5], [6]], itg := fun _ => [1] }]

/-- **C18** counterexample: with two delays (none positive) `get_data` of a folded object returns both stored samples,
although `get_dlys` reports no delay: the slice `-(N - N//2 - 1):` is `-0:`. -/
theorem C18_counterexample_two_delays :
    getData (store exFolded2) 0 101102102103 1515 = .ok [[5, 6]] ∧ getDlys (store exFolded2) 0 = .ok [] := by
  refine ⟨rfl, ?_⟩
  norm_num [getDlys, spwToDlyIndices, store, exFolded2, whereTrue, bind, Except.bind]

/-! ### C19 -/

/-- **C19** (separated times) `time_to_indices(t)` returns exactly the rows with average time `t`, provided every other
stored time is further from `t` than the tolerance `1e-8 + 1e-10 |t|` (about 21 s at a present-day Julian date). Missing:
closer times, see the counterexample. -/
theorem C19_time_to_indices_partial {u : UVP D W} {o : Obj D W} (hr : Represents u o) (t : ℚ)
    (hsep : ∀ m ∈ o.rows, m.tAvg ≠ t → 1 / 100000000 + 1 / 10000000000 * |t| < |m.tAvg - t|) :
    ∃ is, timeToIndices u t none = .ok is ∧ is.Pairwise (· < ·) ∧
      ∀ i, i ∈ is ↔ ∃ m, o.rows[i]? = some m ∧ m.tAvg = t := by
  refine ⟨_, rfl, whereTrue_sorted _, ?_⟩
  intro i
  rw [mem_whereTrue, hr.timeAvg, List.map_map, List.getElem?_map]
  cases hi : o.rows[i]? with
  | none => simp
  | some m =>
    have hm := List.mem_of_getElem? hi
    simp only [Option.map_some, Function.comp_apply, Option.some.injEq, exists_eq_left', isclose, decide_eq_true_eq]
    constructor
    · intro h
      by_contra hne
      exact absurd h (not_le.2 (hsep m hm hne))
    · rintro rfl
      rw [sub_self, abs_zero]; positivity

/-- **C19** With a baseline-pair list, only rows of these baseline-pairs are returned. Missing: distinct integrations closer than `1e-8 + 1e-10 |t|` days, which the code confuses. -/
theorem C19_time_to_indices_blpairs_partial {u : UVP D W} {o : Obj D W} (hr : Represents u o) (t : ℚ) (bs : List Int)
    (hbs : ∀ b ∈ bs, ∃ m ∈ o.rows, m.blpair = b)
    (hsep : ∀ m ∈ o.rows, m.tAvg ≠ t → 1 / 100000000 + 1 / 10000000000 * |t| < |m.tAvg - t|) :
    ∃ is, timeToIndices u t (some bs) = .ok is ∧ is.Pairwise (· < ·) ∧
      ∀ i, i ∈ is ↔ ∃ m, o.rows[i]? = some m ∧ m.tAvg = t ∧ m.blpair ∈ bs := by
  have hall : bs.all (· ∈ u.blpairArray) = true := by
    rw [List.all_eq_true]; intro b hb
    obtain ⟨m, hm, e⟩ := hbs b hb
    rw [decide_eq_true_iff, hr.blpair]; exact List.mem_map.2 ⟨m, hm, e⟩
  refine ⟨_, by unfold timeToIndices; simp only [hall, ↓reduceIte]; rfl, whereTrue_sorted _, ?_⟩
  intro i
  rw [mem_whereTrue, hr.timeAvg, hr.blpair, List.map_map, List.map_map, zipWith_map_map, List.getElem?_map]
  cases hi : o.rows[i]? with
  | none => simp
  | some m =>
    have hm := List.mem_of_getElem? hi
    simp only [Option.map_some, Function.comp_apply, Option.some.injEq, exists_eq_left', isclose, Bool.and_eq_true,
      decide_eq_true_eq]
    refine and_congr_left fun _ => ?_
    constructor
    · intro h
      by_contra hne
      exact absurd h (not_le.2 (hsep m hm hne))
    · rintro rfl
      rw [sub_self, abs_zero]; positivity

example : ∀ m ∈ exObj.rows, m.tAvg ≠ 3 / 2 → 1 / 100000000 + 1 / 10000000000 * |(3 : ℚ) / 2| < |m.tAvg - 3 / 2| := by
  intro m hm h
  simp only [exObj, List.mem_cons, List.not_mem_nil, or_false] at hm
  rcases hm with rfl | rfl | rfl
  · exact absurd rfl h
  · norm_num [abs_of_pos]
  · exact absurd rfl h

/-- Two integrations 10 s apart (Julian dates). -/
def exTimes : Obj Int ℚ where
  nspw := 1
  chans := [(0, 100)]
  dlys := [(0, 0)]
  folded := false
  pols := [1515]
  rows := [
    { bl1 := 101102, bl2 := 102103, t1 := 2458000, t2 := 2458000, tAvg := 2458000, l1 := 0, l2 := 0, lAvg := 0,
      dat := fun _ => [[5]], itg := fun _ => [1] },
    { bl1 := 101102, bl2 := 102103, t1 := 2458000, t2 := 2458000, tAvg := 2458000 + 1 / 8640, l1 := 0, l2 := 0, lAvg := 0,
      dat := fun _ => [[6]], itg := fun _ => [1] }]

/-- **C19** counterexample: two distinct integrations 10 s apart (a HERA integration is 10.7 s) are both returned for the
time of the first, because `rtol=1e-10` is relative to the Julian date. -/
theorem C19_counterexample_neighbouring_integration :
    timeToIndices (store exTimes) 2458000 none = .ok [0, 1] ∧ (store exTimes).timeAvg = [2458000, 2458000 + 1 / 8640] := by
  refine ⟨?_, rfl⟩
  have h : (1 : ℚ) / 8640 ≤ 1 / 100000000 + 1 / 10000000000 * 2458000 := by norm_num
  norm_num [timeToIndices, store, exTimes, whereTrue, isclose]

/-! ### C20 -/

/-- Frequencies stored for window `s`. -/
def windowFreqs (o : Obj D W) (s : Nat) : List ℚ := (o.chans.filter (fun c => decide (c.1 = s))).map (·.2)

theorem diffsQ_linear (f0 df : ℚ) (n k : Nat) :
    diffsQ ((List.range' k (n + 1)).map (fun i : Nat => f0 + i * df)) = List.replicate n df := by
  induction n generalizing k with
  | zero => rfl
  | succ n ih =>
    rw [List.range'_succ, List.map_cons]
    have := ih (k + 1)
    rw [List.range'_succ, List.map_cons] at this ⊢
    rw [diffsQ, this, List.replicate_succ]
    congr 1
    push_cast; ring

theorem median_replicate (n : Nat) (d : ℚ) : median (List.replicate (n + 1) d) = some d := by
  have hget : ∀ k, k < n + 1 → ((List.replicate (n + 1) d).mergeSort (fun a b => decide (a ≤ b)))[k]? = some d := by
    intro k hk
    have hlen : k < ((List.replicate (n + 1) d).mergeSort (fun a b => decide (a ≤ b))).length := by simpa using hk
    rw [List.getElem?_eq_getElem hlen]
    have hm := List.getElem_mem hlen
    rw [List.mem_mergeSort] at hm
    rw [(List.mem_replicate.1 hm).2]
  unfold median
  simp only [List.length_replicate, Nat.succ_ne_zero, ↓reduceIte]
  split
  · exact hget _ (by omega)
  · rw [hget _ (by omega), hget _ (by omega)]
    simp

theorem min_linear (f0 df : ℚ) (hdf : 0 ≤ df) (n : Nat) :
    ((List.range (n + 1)).map (fun i : Nat => f0 + i * df)).min? = some f0 := by
  rw [List.min?_eq_some_iff]
  constructor
  · exact List.mem_map.2 ⟨0, by simp, by simp⟩
  · intro b hb
    obtain ⟨i, _, rfl⟩ := List.mem_map.1 hb
    have : (0 : ℚ) ≤ i * df := mul_nonneg (Nat.cast_nonneg i) hdf
    linarith

/-- **C20** For a window of `N >= 2` channels uniformly spaced by `df >= 0` from `f0`, `get_spw_ranges` reports
`(f0, f0 + N df, N, Ndlys)`, and `np.linspace(start, stop, N, endpoint=False)` on it gives back the channels. -/
theorem C20_spw_range {u : UVP D W} {o : Obj D W} (hr : Represents u o) (hv : Valid o) (hf : o.folded = false) (s : Nat)
    (hs : s < o.nspw) (f0 df : ℚ) (hdf : 0 ≤ df) (N : Nat) (hN : 2 ≤ N)
    (hfreq : windowFreqs o s = (List.range N).map (fun i : Nat => f0 + i * df)) :
    ∃ start stop, getSpwRange u s = .ok (start, some stop, N, (windowDelays o s).length) ∧
      start = f0 ∧ stop = f0 + N * df ∧
      windowFreqs o s = (List.range N).map (fun i : Nat => start + i * ((stop - start) / N)) := by
  obtain ⟨n, rfl⟩ : ∃ n, N = n + 2 := ⟨N - 2, by omega⟩
  have hlenf : (windowFreqs o s).length = n + 2 := by rw [hfreq]; simp
  refine ⟨f0, f0 + ((n + 2 : Nat) : ℚ) * df, ?_, rfl, rfl, ?_⟩
  · have h1 : s ∈ u.spwFreqArray := by
      rw [hr.spwFreq]; obtain ⟨c, hc, e⟩ := hv.chans_all s hs; exact List.mem_map.2 ⟨c, hc, e⟩
    have h2 : s ∈ u.spwDlyArray := by
      rw [hr.spwDly]; obtain ⟨c, hc, e⟩ := hv.dlys_all s hs; exact List.mem_map.2 ⟨c, hc, e⟩
    have hfm : (whereTrue (u.spwFreqArray.map (fun x => decide (x ∈ [s])))).filterMap (fun i => u.freqArray[i]?)
        = windowFreqs o s := by
      rw [hr.spwFreq, hr.freq, List.map_map, filterMap_whereTrue _ _ (by simp), mask_map_filter]
      unfold windowFreqs
      simp [Function.comp_def]
    have hdl : (whereTrue ((u.spwDlyArray.zip u.dlyArray).map (fun x => decide (x.1 ∈ [s]) &&
        !(u.folded && decide (x.2 < 1 / 10000000000))))).length = (windowDelays o s).length := by
      have : ∀ bs : List Bool, (whereTrue bs).length = (mask bs bs).length := by
        intro bs
        rw [← filterMap_whereTrue bs bs rfl]
        induction bs with
        | nil => rfl
        | cons b bs ih =>
          rw [whereTrue_cons]
          cases b <;> simp_all [List.filterMap_map, Function.comp_def]
      rw [this, hr.folded, hf, hr.spwDly, hr.dly, List.zip_map', List.map_map, mask_map_filter]
      unfold windowDelays
      simp [Function.comp_def]
    unfold getSpwRange spwToFreqIndices spwToDlyIndices
    simp only [List.cons_ne_nil, ↓reduceIte, List.all_cons, List.all_nil, Bool.and_true, h1, h2, decide_true, bind,
      Except.bind]
    rw [hfm, hdl, hfreq, min_linear f0 df hdf (n + 1), List.range_eq_range', diffsQ_linear, median_replicate]
    simp
  · rw [hfreq]
    apply List.map_congr_left
    intro i _
    have : ((n + 2 : Nat) : ℚ) ≠ 0 := by positivity
    field_simp
    ring

/-- C20. By default there is one range per spectral window, in order, from which the frequencies of that window can be rebuilt. -/
theorem C20_all_windows {u : UVP D W} {o : Obj D W} (hr : Represents u o) (hv : Valid o) (hf : o.folded = false)
    (f0 df : Nat → ℚ) (N : Nat → Nat) (hdf : ∀ s < o.nspw, 0 ≤ df s) (hN : ∀ s < o.nspw, 2 ≤ N s)
    (hfreq : ∀ s < o.nspw, windowFreqs o s = (List.range (N s)).map (fun i : Nat => f0 s + i * df s)) :
    ∃ rs, getSpwRanges u = .ok rs ∧ rs.length = o.nspw ∧
      ∀ s < o.nspw, rs[s]? = some (f0 s, some (f0 s + N s * df s), N s, (windowDelays o s).length) := by
  refine ⟨(List.range o.nspw).map (fun s => (f0 s, some (f0 s + N s * df s), N s, (windowDelays o s).length)), ?_, by simp, ?_⟩
  · unfold getSpwRanges
    rw [hr.spw, List.length_range, mapE_ok_iff, List.forall₂_map_right_iff, List.forall₂_same]
    intro s hs
    rw [List.mem_range] at hs
    obtain ⟨a, b, h1, h2, h3, _⟩ := C20_spw_range hr hv hf s hs (f0 s) (df s) (hdf s hs) (N s) (hN s hs) (hfreq s hs)
    rw [h1, h2, h3]
  · intro s hs
    rw [List.getElem?_map, List.getElem?_range hs]; rfl

example : windowFreqs exObj 1 = (List.range 2).map (fun i : Nat => (110 : ℚ) + i * 1) := by
  norm_num [windowFreqs, exObj, List.range_succ]

end HeraPspec.UVP
