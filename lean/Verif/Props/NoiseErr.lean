import Verif.Model.NoiseErr
import Verif.Props.Rescale

/-!
C101, C102: thermal-noise error bars.
-/
namespace HeraPspec.NoiseErr
open HeraPspec.Rescale (Fl applyPSN)
noncomputable section

/-! ### C101: P_SN -/

/-- The double-counting factor `sqrt(1/sqrt(pi) + 1) - 1` (about 0.251). -/
def kappa : ℝ := Real.sqrt (1 / Real.sqrt Real.pi + 1) - 1

theorem kappa_pos : 0 < kappa := Rescale.const_pos

theorem kappa_lt : kappa < 1 / 2 := by
  unfold kappa
  have h1 : (1 : ℝ) < Real.sqrt Real.pi := by
    rw [show (1 : ℝ) = Real.sqrt 1 by simp]
    exact Real.sqrt_lt_sqrt zero_le_one (by have := Real.pi_gt_three; linarith)
  have h2 : 1 / Real.sqrt Real.pi < 1 := by rw [div_lt_one (by linarith)]; exact h1
  have h3 : Real.sqrt (1 / Real.sqrt Real.pi + 1) < 3 / 2 := by
    rw [Real.sqrt_lt' (by norm_num)]; linarith
  linarith

/-- **C101** `P_SN^2 = sqrt(2) P_S P_N + P_N^2` with the positive part of the power as the signal; so `P_SN` is never below `P_N`, equals
it where there is no positive power, and grows with signal and noise. -/
theorem C101_psn (ps pn : ℝ) (h : 0 ≤ pn) :
    psn ps pn * psn ps pn = Real.sqrt 2 * (if 0 ≤ ps then ps else 0) * pn + pn * pn ∧ pn ≤ psn ps pn ∧
      (ps ≤ 0 → psn ps pn = pn) ∧ (0 < ps → 0 < pn → pn < psn ps pn) ∧
      (∀ ps' pn', ps ≤ ps' → pn ≤ pn' → psn ps pn ≤ psn ps' pn') := by
  have hm : 0 ≤ max ps 0 := le_max_right _ _
  have h2 : 0 ≤ Real.sqrt 2 := Real.sqrt_nonneg _
  have h2' : 0 < Real.sqrt 2 := Real.sqrt_pos.2 (by norm_num)
  have hmax : max ps 0 = if 0 ≤ ps then ps else 0 := by
    split
    · rename_i hp; exact max_eq_left hp
    · rename_i hp; exact max_eq_right (by linarith)
  refine ⟨?_, ?_, ?_, ?_, ?_⟩
  · unfold psn
    rw [Real.mul_self_sqrt (by positivity), hmax]; ring
  · unfold psn
    apply Real.le_sqrt_of_sq_le
    have : 0 ≤ Real.sqrt 2 * max ps 0 * pn := by positivity
    linarith
  · intro hp
    unfold psn
    rw [max_eq_right hp]
    simp [Real.sqrt_sq h]
  · intro hp hn
    unfold psn
    apply Real.lt_sqrt_of_sq_lt
    rw [max_eq_left hp.le]
    have : 0 < Real.sqrt 2 * ps * pn := by positivity
    linarith
  · intro ps' pn' h1 h3
    unfold psn
    apply Real.sqrt_le_sqrt
    have a1 : max ps 0 ≤ max ps' 0 := max_le_max h1 (le_refl _)
    have a2 : max ps 0 * pn ≤ max ps' 0 * pn' := mul_le_mul a1 h3 h (le_trans hm a1)
    have a3 : pn ^ 2 ≤ pn' ^ 2 := pow_le_pow_left₀ h h3 2
    nlinarith

theorem correct_eq (ps pn : ℝ) (h : 1e-40 ≤ pn) : correct (.fin pn) (.fin (psn ps pn)) = .fin (psn ps pn - kappa * pn) := by
  have hpos : (0 : ℝ) < pn := lt_of_lt_of_le (by norm_num) h
  obtain ⟨_, h1, _⟩ := C101_psn ps pn hpos.le
  have hs : 0 < psn ps pn := lt_of_lt_of_le hpos h1
  have hc : Rescale.clip (psn ps pn) = psn ps pn := max_eq_left (le_trans h h1)
  have hq : pn / psn ps pn ≤ 1 := (div_le_one hs).2 h1
  have hq0 : 0 ≤ pn / psn ps pn := by positivity
  have hk := kappa_pos
  have hk2 := kappa_lt
  have hlow : 1 / 2 < 1 - kappa * pn / psn ps pn := by
    rw [mul_div_assoc]; nlinarith
  show applyPSN pn (psn ps pn) = _
  unfold applyPSN Rescale.corr
  rw [hc]
  show (match (if |1 - kappa * pn / psn ps pn| ≤ 1e-8 then Fl.inf else if 1 - kappa * pn / psn ps pn < 0 then Fl.inf else Fl.fin (1 - kappa * pn / psn ps pn)) with
    | .fin c => Fl.fin (psn ps pn * c) | .inf => _ | .nan => _) = _
  rw [if_neg, if_neg (by linarith)]
  · congr 1
    field_simp
  · rw [abs_of_pos (by linarith)]
    norm_num at hlow ⊢
    linarith

/-- **C101** The error bars end to end (both requested, from autocorrelations): whatever statistics the object had, `P_N` is the computed
noise and `P_SN` is `sqrt(sqrt(2) P_S P_N + P_N^2) - kappa P_N`; it lies between `(1 - kappa) P_N` and the uncorrected value, and no other
statistic changes. The replacement of the correction by infinity never acts on fresh values. -/
theorem C101_end_to_end {Cell : Type} (data pn : Cell → ℝ) (h : ∀ c, 1e-40 ≤ pn c) (st : Stats Cell) :
    ∃ st', noiseError ⟨true, true, true, none, true⟩ data (fun c => .fin (pn c)) st = (st', none) ∧
      st' "P_N" = some (fun c => .fin (pn c)) ∧
      st' "P_SN" = some (fun c => .fin (Real.sqrt (Real.sqrt 2 * max (data c) 0 * pn c + pn c ^ 2) - kappa * pn c)) ∧
      (∀ s, s ≠ "P_N" → s ≠ "P_SN" → st' s = st s) ∧
      (∀ c, (1 - kappa) * pn c ≤ Real.sqrt (Real.sqrt 2 * max (data c) 0 * pn c + pn c ^ 2) - kappa * pn c ∧ 0 < (1 - kappa) * pn c) := by
  refine ⟨_, rfl, ?_, ?_, ?_, ?_⟩
  · rfl
  · show some _ = some _
    congr 1
    funext c
    exact correct_eq (data c) (pn c) (h c)
  · intro s h1 h2
    show (if s = "P_SN" then _ else (if s = "P_SN" then _ else (if s = "P_N" then _ else st s))) = st s
    rw [if_neg h2, if_neg h2, if_neg h1]
  · intro c
    have hpos : (0 : ℝ) < pn c := lt_of_lt_of_le (by norm_num) (h c)
    have h1 := (C101_psn (data c) (pn c) hpos.le).2.1
    unfold psn at h1
    have := kappa_lt
    constructor
    · linarith
    · have := kappa_lt; nlinarith

/-- **C101** Without the correction `P_SN` is the formula itself; a cell without noise estimate (infinite `P_N`) is infinite with and
without the correction. -/
theorem C101_uncorrected {Cell : Type} (data : Cell → ℝ) (pn : Cell → Fl) (st : Stats Cell) (corr : Bool) (c : Cell) :
    ∃ st' : Stats Cell, noiseError ⟨true, true, corr, none, true⟩ data pn st = (st', none) ∧ ∃ f g, st' "P_N" = some f ∧ st' "P_SN" = some g ∧ f c = pn c ∧
      (pn c = .inf ∨ pn c = .nan → g c = .inf) ∧ (corr = false → ∀ x, pn c = .fin x → g c = .fin (psn (data c) x)) := by
  cases corr with
  | false =>
    refine ⟨_, rfl, _, _, rfl, rfl, rfl, ?_, ?_⟩
    · rintro (h | h) <;> (rw [h]; rfl)
    · intro _ x h; rw [h]; rfl
  | true =>
    refine ⟨_, rfl, _, _, rfl, rfl, rfl, ?_, fun h => by cases h⟩
    intro h
    show correct (pn c) (psnFl (data c) (pn c)) = .inf
    rcases h with h | h <;> (rw [h]; rfl)

/-- **C101** Running it again changes nothing: the correction is not applied twice. -/
theorem C101_repeat {Cell : Type} (data : Cell → ℝ) (pn : Cell → Fl) (corr : Bool) (st : Stats Cell) :
    noiseError ⟨true, true, corr, none, true⟩ data pn (noiseError ⟨true, true, corr, none, true⟩ data pn st).1 =
      noiseError ⟨true, true, corr, none, true⟩ data pn st := by
  have key : ∀ s1 s2 : Stats Cell, (∀ s, s ≠ "P_N" → s ≠ "P_SN" → s1 s = s2 s) →
      noiseError ⟨true, true, corr, none, true⟩ data pn s1 = noiseError ⟨true, true, corr, none, true⟩ data pn s2 := by
    intro s1 s2 h
    have hw : writeStats ⟨true, true, corr, none, true⟩ data pn s1 = writeStats ⟨true, true, corr, none, true⟩ data pn s2 := by
      funext s
      show (if s = "P_SN" then _ else (if s = "P_N" then _ else s1 s)) = (if s = "P_SN" then _ else (if s = "P_N" then _ else s2 s))
      by_cases a : s = "P_SN"
      · rw [if_pos a, if_pos a]
      · rw [if_neg a, if_neg a]
        by_cases b : s = "P_N"
        · rw [if_pos b, if_pos b]
        · rw [if_neg b, if_neg b, h s b a]
    show finish _ (writeStats _ data pn s1) = finish _ (writeStats _ data pn s2)
    rw [hw]
  apply key
  intro s h1 h2
  cases corr with
  | false => show (if s = "P_SN" then _ else (if s = "P_N" then _ else st s)) = st s; rw [if_neg h2, if_neg h1]
  | true => show (if s = "P_SN" then _ else (if s = "P_SN" then _ else (if s = "P_N" then _ else st s))) = st s; rw [if_neg h2, if_neg h2, if_neg h1]

/-- **C101** With a stored `P_N` (and autocorrelations given) the same `P_SN` results as from computing it. -/
theorem C101_precomputed {Cell : Type} (data : Cell → ℝ) (pn : Cell → Fl) (corr : Bool) (st : Stats Cell) (name : String) (hn : name ≠ "P_SN")
    (h : st name = some pn) (other : Cell → Fl) :
    (noiseError ⟨false, true, corr, some name, true⟩ data other st).2 = none ∧
      (noiseError ⟨false, true, corr, some name, true⟩ data other st).1 "P_SN" = (noiseError ⟨true, true, corr, none, true⟩ data pn st).1 "P_SN" := by
  have hs : noiseError ⟨false, true, corr, some name, true⟩ data other st =
      finish ⟨false, true, corr, some name, true⟩ (writeStats ⟨false, true, corr, some name, true⟩ data pn st) := by
    unfold noiseError sourcePN
    simp [h]
  rw [hs]
  cases corr with
  | false => exact ⟨rfl, rfl⟩
  | true =>
    have hw : writeStats ⟨false, true, true, some name, true⟩ data pn st name = some pn := by
      show (if name = "P_SN" then _ else st name) = some pn
      rw [if_neg hn, h]
    unfold finish
    simp only [Bool.and_self, if_true, Option.getD_some, hw]
    exact ⟨rfl, rfl⟩

/-- **C101 finding** Asking for `P_SN` alone (with the default correction) on an object without stored `P_N` raises an AssertionError
after the *uncorrected* `P_SN` has been written. -/
theorem C101_finding_psn_alone {Cell : Type} (data : Cell → ℝ) (pn : Cell → Fl) (st : Stats Cell) (h : st "P_N" = none) :
    (noiseError ⟨false, true, true, none, true⟩ data pn st).2 = some .assertion ∧
      (noiseError ⟨false, true, true, none, true⟩ data pn st).1 "P_SN" = some (fun c => psnFl (data c) (pn c)) := by
  have hs : noiseError ⟨false, true, true, none, true⟩ data pn st =
      finish ⟨false, true, true, none, true⟩ (setStat st "P_SN" (fun c => psnFl (data c) (pn c))) := rfl
  have hn : setStat st "P_SN" (fun c => psnFl (data c) (pn c)) "P_N" = none := by unfold setStat; simpa using h
  rw [hs]
  unfold finish
  simp only [Bool.and_self, if_true, Option.getD_none, hn]
  exact ⟨rfl, rfl⟩

/-- **C101 finding** The documentation says that `auto_Tsys` is not needed with `precomp_P_N`; without it the call always fails. -/
theorem C101_finding_needs_autos {Cell : Type} (data : Cell → ℝ) (pn : Cell → Fl) (st : Stats Cell) (a b c : Bool) (name : String) :
    noiseError ⟨a, b, c, some name, false⟩ data pn st = (st, some .attribute) := rfl

/-! ### C102: the noise of a row -/

/-- Radiometer equation for one row, real part: `scalar (1000 T)^2 / (t_int sqrt(n_samp)) / sqrt(2)`. -/
def radiometer (scalar T tint nsamp : ℝ) : ℝ := scalar * (1000 * T * (1000 * T)) / (tint * Real.sqrt nsamp * Real.sqrt 2)

theorem noiseRow_eq (scalar T tint nsamp : ℝ) : noiseRow scalar T tint nsamp = .ok (radiometer scalar T tint nsamp) := by
  unfold noiseRow Noise.calcPN radiometer
  rw [if_neg (by decide), if_neg (by decide)]
  simp only [true_or, if_true, mul_one]
  rw [if_neg (by decide)]
  congr 1
  rw [div_div, div_div]
  congr 1
  · rw [show (1e3 : ℝ) = 1000 by norm_num]; ring
  · ring

/-- **C102** Every row of the noise spectra is the radiometer equation with the temperature at its position and its *own* integration time
and number of samples. -/
theorem C102_rows (ntpairs : ℕ) (scalar : ℝ) (T : List ℝ) (rows : List (ℝ × ℝ)) (hT : T.length = ntpairs) (hr : rows.length ≤ ntpairs) :
    ∃ p, noiseRows ntpairs scalar (.arr T) rows = .ok p ∧ p.length = rows.length ∧
      ∀ (j : ℕ) (t : ℝ) (m : ℝ × ℝ), T[j]? = some t → rows[j]? = some m → p[j]? = some (radiometer scalar t m.1 m.2) := by
  refine ⟨_, by unfold noiseRows noiseArr; simp only []; rw [if_neg (by simpa using hT)], ?_, ?_⟩
  · rw [List.length_zipWith]; omega
  · intro j t m h1 h2
    rw [List.getElem?_zipWith, h1, h2]
    simp only [noiseRow_eq]

/-- **C102** One number for `Tsys` serves for all rows; an array of another length than `Ntpairs` is refused. -/
theorem C102_number (ntpairs : ℕ) (scalar x : ℝ) (rows : List (ℝ × ℝ)) (hr : rows.length ≤ ntpairs) :
    noiseRows ntpairs scalar (.num x) rows = .ok (rows.map (fun m => radiometer scalar x m.1 m.2)) := by
  unfold noiseRows noiseArr
  simp only []
  rw [if_neg (by simp)]
  congr 1
  apply List.ext_getElem?
  intro j
  rw [List.getElem?_zipWith, List.getElem?_map]
  cases h : rows[j]? with
  | none => cases (List.replicate ntpairs x)[j]? <;> rfl
  | some m =>
    have hj : j < rows.length := (List.getElem?_eq_some_iff.1 h).1
    rw [List.getElem?_replicate, if_pos (by omega)]
    simp only [noiseRow_eq, Option.map_some]

theorem C102_wrong_length (ntpairs : ℕ) (scalar : ℝ) (T : List ℝ) (rows : List (ℝ × ℝ)) (hT : T.length ≠ ntpairs) :
    noiseRows ntpairs scalar (.arr T) rows = .error .assertion := by
  unfold noiseRows noiseArr
  simp only []
  rw [if_pos hT]

/-- **C102 finding** The documented dictionary of numbers raises a TypeError for every pair that has rows. -/
theorem C102_finding_dict_of_numbers (ntpairs : ℕ) (scalar x : ℝ) (m : ℝ × ℝ) (rows : List (ℝ × ℝ)) :
    noiseRows ntpairs scalar (.dictNum x) (m :: rows) = .error .typeError := rfl

/-- All unflagged temperatures of a baseline's two antennas at time `i` lie between `lo` and `hi`. -/
def Within {n : ℕ} (lo hi : ℝ) (a b : Auto n) (i : ℕ) : Prop :=
  ∀ c, a.flag i c = false → b.flag i c = false → (lo ≤ a.temp i c ∧ a.temp i c ≤ hi) ∧ (lo ≤ b.temp i c ∧ b.temp i c ≤ hi)

/-- The unflagged part of the taper is not negligible. -/
def TaperOk {n : ℕ} (taper : Fin n → ℝ) (a b : Auto n) (i : ℕ) : Prop :=
  (∀ c, 0 ≤ taper c) ∧ (rowFlag a b i = false → 1e-20 ≤ ∑ c, (if a.flag i c || b.flag i c then 0 else taper c))

theorem geo_within {lo hi x y : ℝ} (h0 : 0 ≤ lo) (hx : lo ≤ x ∧ x ≤ hi) (hy : lo ≤ y ∧ y ≤ hi) : lo ≤ geo x y ∧ geo x y ≤ hi := by
  unfold geo
  constructor
  · apply Real.le_sqrt_of_sq_le
    nlinarith [mul_le_mul hx.1 hy.1 h0 (le_trans h0 hx.1)]
  · rw [Real.sqrt_le_left (le_trans h0 (le_trans hx.1 hx.2))]
    nlinarith [mul_le_mul hx.2 hy.2 (le_trans h0 hy.1) (le_trans h0 (le_trans hx.1 hx.2))]

theorem rowMean_within {n : ℕ} {lo hi : ℝ} (h0 : 0 ≤ lo) (taper : Fin n → ℝ) (a b : Auto n) (i : ℕ) (hw : Within lo hi a b i)
    (ht : TaperOk taper a b i) (hf : rowFlag a b i = false) : lo ≤ rowMean taper a b i ∧ rowMean taper a b i ≤ hi := by
  unfold rowMean bandMean
  have hS := ht.2 hf
  have e1 : ∑ c, (if (a.flag i c || b.flag i c) = true then (0 : ℝ) else 1) * taper c = ∑ c, (if (a.flag i c || b.flag i c) = true then 0 else taper c) := by
    refine Finset.sum_congr rfl (fun c _ => ?_)
    split <;> simp
  rw [e1, max_eq_left hS]
  have hpos : 0 < ∑ c, (if (a.flag i c || b.flag i c) = true then 0 else taper c) := lt_of_lt_of_le (by norm_num) hS
  have hb : ∀ c, lo * (if (a.flag i c || b.flag i c) = true then 0 else taper c) ≤
      geo (a.temp i c) (b.temp i c) * (if (a.flag i c || b.flag i c) = true then 0 else 1) * taper c ∧
      geo (a.temp i c) (b.temp i c) * (if (a.flag i c || b.flag i c) = true then 0 else 1) * taper c ≤
      hi * (if (a.flag i c || b.flag i c) = true then 0 else taper c) := by
    intro c
    by_cases hc : (a.flag i c || b.flag i c) = true
    · simp [hc]
    · simp only [hc, Bool.false_eq_true, if_false, mul_one]
      simp only [Bool.or_eq_true, not_or, Bool.not_eq_true] at hc
      obtain ⟨hx, hy⟩ := hw c hc.1 hc.2
      obtain ⟨g1, g2⟩ := geo_within h0 hx hy
      exact ⟨mul_le_mul_of_nonneg_right g1 (ht.1 c), mul_le_mul_of_nonneg_right g2 (ht.1 c)⟩
  constructor
  · rw [le_div_iff₀ hpos, Finset.mul_sum]
    exact Finset.sum_le_sum (fun c _ => (hb c).1)
  · rw [div_le_iff₀ hpos, Finset.mul_sum]
    exact Finset.sum_le_sum (fun c _ => (hb c).2)

theorem foldl_closer_mem (x : ℝ) : ∀ (ps : List (ℝ × ℝ)) (p : ℝ × ℝ), ps.foldl (closer x) p ∈ p :: ps
  | [], p => by simp
  | q :: ps, p => by
    rw [List.foldl_cons]
    have := foldl_closer_mem x ps (closer x p q)
    have hc : closer x p q = p ∨ closer x p q = q := by
      unfold closer; split
      · exact Or.inr rfl
      · exact Or.inl rfl
    rcases List.mem_cons.1 this with h | h
    · rw [h]
      rcases hc with h' | h' <;> rw [h'] <;> simp
    · simp [h]

theorem foldl_closer_le (x : ℝ) : ∀ (ps : List (ℝ × ℝ)) (p q : ℝ × ℝ), q ∈ p :: ps → |(ps.foldl (closer x) p).1 - x| ≤ |q.1 - x|
  | [], p, q, h => by
    obtain rfl := List.mem_singleton.1 h
    exact le_refl _
  | r :: ps, p, q, h => by
    rw [List.foldl_cons]
    have h1 : |(closer x p r).1 - x| ≤ |p.1 - x| ∧ |(closer x p r).1 - x| ≤ |r.1 - x| := by
      unfold closer; split
      · rename_i hlt; exact ⟨hlt.le, le_refl _⟩
      · rename_i hlt; exact ⟨le_refl _, not_lt.1 hlt⟩
    have h2 := foldl_closer_le x ps (closer x p r) (closer x p r) (by simp)
    rcases List.mem_cons.1 h with rfl | h
    · exact le_trans h2 h1.1
    · rcases List.mem_cons.1 h with rfl | h
      · exact le_trans h2 h1.2
      · exact foldl_closer_le x ps _ q (by simp [h])

/-- The interpolation returns the value of a closest point. -/
theorem nearest_spec (pts : List (ℝ × ℝ)) (h : pts ≠ []) (x : ℝ) :
    ∃ p ∈ pts, nearest pts x = some p.2 ∧ ∀ q ∈ pts, |p.1 - x| ≤ |q.1 - x| := by
  unfold nearest
  cases hs : pySorted (fun p q : ℝ × ℝ => open Classical in decide (p.1 ≤ q.1)) pts with
  | nil =>
    exfalso
    apply h
    have := (pySorted_perm (fun p q : ℝ × ℝ => open Classical in decide (p.1 ≤ q.1)) pts).length_eq
    rw [hs] at this
    exact List.length_eq_zero_iff.1 this.symm
  | cons p ps =>
    have hmem : ∀ q, q ∈ pts ↔ q ∈ p :: ps := by
      intro q
      rw [← hs, mem_pySorted]
    refine ⟨ps.foldl (closer x) p, (hmem _).2 (foldl_closer_mem x ps p), rfl, ?_⟩
    intro q hq
    exact foldl_closer_le x ps p q ((hmem q).1 hq)

/-- **C102** The temperature lies between the smallest and the largest unflagged temperature of the antennas at the times used: for
every row if at least two times of each baseline have unflagged channels, and also in the single-value case provided the *first* time of
both baselines is unflagged. In particular constant temperatures give that temperature. Missing: the single-value case when the first time
is flagged, see the finding. -/
theorem C102_temperature_bounds_partial {n : ℕ} {lo hi : ℝ} (h0 : 0 ≤ lo) (taper : Fin n → ℝ) (lsts : List ℝ) (a b c d : Auto n) (i1 i2 : List ℕ) (lst1 lst2 : List ℝ)
    (w1 : ∀ i ∈ i1, Within lo hi a b i ∧ TaperOk taper a b i) (w2 : ∀ i ∈ i2, Within lo hi c d i ∧ TaperOk taper c d i) :
    (∀ l, combine taper lsts a b c d i1 i2 lst1 lst2 = .rows l → ∀ t ∈ l, lo ≤ t ∧ t ≤ hi) ∧
    (∀ t, combine taper lsts a b c d i1 i2 lst1 lst2 = .const t → (∃ i j, i1[0]? = some i ∧ i2[0]? = some j ∧ rowFlag a b i = false ∧ rowFlag c d j = false) →
      lo ≤ t ∧ t ≤ hi) := by
  have pts : ∀ (a b : Auto n) (is : List ℕ), (∀ i ∈ is, Within lo hi a b i ∧ TaperOk taper a b i) → ∀ p ∈ points taper lsts a b is, lo ≤ p.2 ∧ p.2 ≤ hi := by
    intro a b is hw p hp
    obtain ⟨i, hi, rfl⟩ := List.mem_map.1 hp
    rw [List.mem_filter] at hi
    have := hw i hi.1
    exact rowMean_within h0 taper a b i this.1 this.2 (by simpa using hi.2)
  constructor
  · intro l hl t ht
    unfold combine at hl
    split at hl
    · cases hl
    · split at hl
      · rename_i hc
        cases hl
        obtain ⟨k, hk⟩ := List.mem_iff_getElem?.1 ht
        rw [List.getElem?_zipWith] at hk
        cases h1 : lst1[k]? with
        | none => rw [h1] at hk; cases lst2[k]? <;> cases hk
        | some x =>
          cases h2 : lst2[k]? with
          | none => rw [h1, h2] at hk; cases hk
          | some y =>
            rw [h1, h2] at hk
            have n1 : points taper lsts a b i1 ≠ [] := by
              intro e
              have := congrArg List.length e
              unfold points at this
              rw [List.length_map] at this
              simp only [List.length_nil] at this
              omega
            have n2 : points taper lsts c d i2 ≠ [] := by
              intro e
              have := congrArg List.length e
              unfold points at this
              rw [List.length_map] at this
              simp only [List.length_nil] at this
              omega
            obtain ⟨p, hp, ep, _⟩ := nearest_spec _ n1 x
            obtain ⟨q, hq, eq, _⟩ := nearest_spec _ n2 y
            simp only [ep, eq, Option.getD_some] at hk
            obtain rfl := Option.some.inj hk
            exact geo_within h0 (pts a b i1 w1 p hp) (pts c d i2 w2 q hq)
      · cases hl
  · intro t ht hfirst
    obtain ⟨i, j, hi, hj, f1, f2⟩ := hfirst
    unfold combine at ht
    split at ht
    · cases ht
    · split at ht
      · cases ht
      · cases ht
        have mi : i ∈ i1 := List.mem_of_getElem? hi
        have mj : j ∈ i2 := List.mem_of_getElem? hj
        have e1 : (i1.map (rowMean taper a b)).getD 0 0 = rowMean taper a b i := by
          simp [List.getD, hi]
        have e2 : (i2.map (rowMean taper c d)).getD 0 0 = rowMean taper c d j := by
          simp [List.getD, hj]
        rw [e1, e2]
        exact geo_within h0 (rowMean_within h0 taper a b i (w1 i mi).1 (w1 i mi).2 f1) (rowMean_within h0 taper c d j (w2 j mj).1 (w2 j mj).2 f2)

/-- **C102** A row whose time has unflagged channels gets the temperature of that time: if the LST of the row is the one of the
autocorrelations at its time, and no other time has this LST. -/
theorem C102_own_time {n : ℕ} (taper : Fin n → ℝ) (lsts : List ℝ) (a b : Auto n) (is : List ℕ) (i : ℕ) (hi : i ∈ is) (hf : rowFlag a b i = false)
    (x : ℝ) (hx : x = lsts.getD i 0) (hinj : ∀ j ∈ is, lsts.getD j 0 = lsts.getD i 0 → j = i) :
    nearest (points taper lsts a b is) x = some (rowMean taper a b i) := by
  have hm : (lsts.getD i 0, rowMean taper a b i) ∈ points taper lsts a b is := by
    unfold points
    apply List.mem_map.2
    exact ⟨i, List.mem_filter.2 ⟨hi, by simp [hf]⟩, rfl⟩
  obtain ⟨p, hp, ep, hmin⟩ := nearest_spec (points taper lsts a b is) (List.ne_nil_of_mem hm) x
  rw [ep]
  have h0 := hmin _ hm
  rw [hx] at h0
  simp only [sub_self, abs_zero] at h0
  have hz : p.1 = lsts.getD i 0 := by
    have := abs_nonpos_iff.1 h0
    linarith
  obtain ⟨j, hj, rfl⟩ := List.mem_map.1 hp
  rw [List.mem_filter] at hj
  rw [hinj j hj.1 hz]

/-- **C102** Times are matched to within 1e-5 days (0.9 seconds). -/
theorem C102_time_match (times : List ℝ) (t : ℝ) (i : ℕ) (h : tind times t = some i) : ∃ x, times[i]? = some x ∧ |x - t| ≤ 1e-5 := by
  unfold tind at h
  rw [List.findIdx?_eq_some_iff_getElem] at h
  obtain ⟨hl, hp, _⟩ := h
  exact ⟨times[i], List.getElem?_eq_getElem hl, by simpa using hp⟩

theorem mapO_get {α β : Type} (f : α → Option β) : ∀ (l : List α) (m : List β), HeraPspec.Rephase.mapO f l = some m →
    m.length = l.length ∧ ∀ (k : ℕ) (x : α), l[k]? = some x → ∃ y, m[k]? = some y ∧ f x = some y
  | [], m, h => by cases h; exact ⟨rfl, by simp⟩
  | a :: l, m, h => by
    unfold HeraPspec.Rephase.mapO at h
    cases hf : f a with
    | none => rw [hf] at h; cases h
    | some b =>
      rw [hf] at h
      simp only [] at h
      cases hl : HeraPspec.Rephase.mapO f l with
      | none => rw [hl] at h; cases h
      | some bs =>
        rw [hl] at h
        cases h
        obtain ⟨h1, h2⟩ := mapO_get f l bs hl
        refine ⟨by simp [h1], ?_⟩
        intro k x hk
        cases k with
        | zero => simp at hk; subst hk; exact ⟨b, rfl, hf⟩
        | succ k => simpa using h2 k x (by simpa using hk)

/-- **C102** The temperature of a baseline-pair is formed at time indices at which the first antenna of the first baseline has the first time
of the row, and the first antenna of the second baseline the second time, to within 1e-5 days; there is one index per row. -/
theorem C102_time_indices {n : ℕ} (taper : Fin n → ℝ) (lsts : List ℝ) (a b c d : Auto n) (t1 t2 lst1 lst2 : List ℝ) (T : Tsys)
    (h : tsysOf taper lsts a b c d t1 t2 lst1 lst2 = some T) : ∃ i1 i2 : List ℕ, T = combine taper lsts a b c d i1 i2 lst1 lst2 ∧
      i1.length = t1.length ∧ i2.length = t2.length ∧
      (∀ (k : ℕ) (t : ℝ), t1[k]? = some t → ∃ i x, i1[k]? = some i ∧ a.times[i]? = some x ∧ |x - t| ≤ 1e-5) ∧
      (∀ (k : ℕ) (t : ℝ), t2[k]? = some t → ∃ i x, i2[k]? = some i ∧ c.times[i]? = some x ∧ |x - t| ≤ 1e-5) := by
  unfold tsysOf at h
  cases h1 : HeraPspec.Rephase.mapO (tind a.times) t1 with
  | none => rw [h1] at h; cases h
  | some i1 =>
    cases h2 : HeraPspec.Rephase.mapO (tind c.times) t2 with
    | none => rw [h1, h2] at h; cases h
    | some i2 =>
      rw [h1, h2] at h
      obtain ⟨l1, g1⟩ := mapO_get _ _ _ h1
      obtain ⟨l2, g2⟩ := mapO_get _ _ _ h2
      refine ⟨i1, i2, (Option.some.inj h).symm, l1, l2, ?_, ?_⟩
      · intro k t hk
        obtain ⟨i, hi, ht⟩ := g1 k t hk
        obtain ⟨x, hx, hd⟩ := C102_time_match _ _ _ ht
        exact ⟨i, x, hi, hx, hd⟩
      · intro k t hk
        obtain ⟨i, hi, ht⟩ := g2 k t hk
        obtain ⟨x, hx, hd⟩ := C102_time_match _ _ _ ht
        exact ⟨i, x, hi, hx, hd⟩

/-! ### The whole temperature -/

/-- At time `i` the baseline with antennas `a`, `b` has a channel that is flagged in neither. -/
def GoodTime {n : ℕ} (a b : Auto n) (i : ℕ) : Prop := ∃ c, a.flag i c = false ∧ b.flag i c = false

/-- The temperature of a baseline at time `i`: the geometric mean of its antennas averaged with the taper over the channels flagged in neither. -/
def baselineTemp {n : ℕ} (taper : Fin n → ℝ) (a b : Auto n) (i : ℕ) : ℝ :=
  (∑ c, if a.flag i c = false ∧ b.flag i c = false then taper c * Real.sqrt (a.temp i c * b.temp i c) else 0) /
    max (∑ c, if a.flag i c = false ∧ b.flag i c = false then taper c else 0) 1e-20

/-- `i` is one of the good times of the baseline among `is`, and none of them is closer in LST to `x`. -/
def NearestGood {n : ℕ} (lsts : List ℝ) (a b : Auto n) (is : List ℕ) (x : ℝ) (i : ℕ) : Prop :=
  (i ∈ is ∧ GoodTime a b i) ∧ ∀ j, j ∈ is → GoodTime a b j → |lsts.getD i 0 - x| ≤ |lsts.getD j 0 - x|

theorem rowFlag_iff {n : ℕ} (a b : Auto n) (i : ℕ) : rowFlag a b i = false ↔ GoodTime a b i := by
  unfold rowFlag GoodTime
  simp

theorem rowMean_temp {n : ℕ} (taper : Fin n → ℝ) (a b : Auto n) (i : ℕ) : rowMean taper a b i = baselineTemp taper a b i := by
  unfold rowMean bandMean baselineTemp geo
  have h : ∀ c, (a.flag i c || b.flag i c) = true ↔ ¬ (a.flag i c = false ∧ b.flag i c = false) := by
    intro c; cases a.flag i c <;> cases b.flag i c <;> simp
  congr 1
  · refine Finset.sum_congr rfl (fun c _ => ?_)
    by_cases hc : a.flag i c = false ∧ b.flag i c = false
    · rw [if_neg (fun hh => (h c).1 hh hc), if_pos hc]; ring
    · rw [if_pos ((h c).2 hc), if_neg hc]; ring
  · congr 1
    refine Finset.sum_congr rfl (fun c _ => ?_)
    by_cases hc : a.flag i c = false ∧ b.flag i c = false
    · rw [if_neg (fun hh => (h c).1 hh hc), if_pos hc]; ring
    · rw [if_pos ((h c).2 hc), if_neg hc]; ring

theorem nearest_good {n : ℕ} (taper : Fin n → ℝ) (lsts : List ℝ) (a b : Auto n) (is : List ℕ) (h : ∃ i ∈ is, GoodTime a b i) (x : ℝ) :
    ∃ i, NearestGood lsts a b is x i ∧ nearest (points taper lsts a b is) x = some (baselineTemp taper a b i) := by
  have hm : ∀ i, i ∈ is → GoodTime a b i → (lsts.getD i 0, rowMean taper a b i) ∈ points taper lsts a b is := by
    intro i hi hg
    unfold points
    exact List.mem_map.2 ⟨i, List.mem_filter.2 ⟨hi, by simp [(rowFlag_iff a b i).2 hg]⟩, rfl⟩
  obtain ⟨i0, hi0, hg0⟩ := h
  obtain ⟨p, hp, ep, hmin⟩ := nearest_spec _ (List.ne_nil_of_mem (hm i0 hi0 hg0)) x
  obtain ⟨i, hi, rfl⟩ := List.mem_map.1 hp
  rw [List.mem_filter] at hi
  refine ⟨i, ⟨⟨hi.1, (rowFlag_iff a b i).1 (by simpa using hi.2)⟩, fun j hj hgj => hmin _ (hm j hj hgj)⟩, ?_⟩
  rw [ep, rowMean_temp]

/-- The number of good times of a baseline. -/
def goodCount {n : ℕ} (a b : Auto n) (is : List ℕ) : ℕ := open Classical in is.countP (fun i => decide (GoodTime a b i))

theorem goodCount_eq {n : ℕ} (a b : Auto n) (is : List ℕ) : (is.filter (fun i => !rowFlag a b i)).length = goodCount a b is := by
  unfold goodCount
  rw [List.countP_eq_length_filter]
  congr 2
  funext i
  rw [Bool.eq_iff_iff]
  simp [← rowFlag_iff]

theorem goodCount_pos {n : ℕ} {a b : Auto n} {is : List ℕ} (h : 1 < goodCount a b is) : ∃ i ∈ is, GoodTime a b i := by
  obtain ⟨i, hi, hg⟩ := List.countP_pos_iff.1 (by unfold goodCount at h; omega : 0 < is.countP (open Classical in fun i => decide (GoodTime a b i)))
  exact ⟨i, hi, by simpa using hg⟩

/-- **C102** The system temperature of a baseline-pair, completely. It is infinite exactly if at every row all channels are flagged in one of the four
antennas. Otherwise, if both baselines have two or more good times, row `k` gets the geometric mean of the temperatures of the two baselines, each at
one of its good times that is nearest in LST to the row; and if not, all rows get the geometric mean of the temperatures at the *first* row. -/
theorem C102_temperature {n : ℕ} (taper : Fin n → ℝ) (lsts : List ℝ) (a b c d : Auto n) (i1 i2 : List ℕ) (lst1 lst2 : List ℝ) :
    (combine taper lsts a b c d i1 i2 lst1 lst2 = .inf ↔ ∀ p ∈ i1.zip i2, ∀ ch, a.flag p.1 ch = true ∨ b.flag p.1 ch = true ∨ c.flag p.2 ch = true ∨ d.flag p.2 ch = true) ∧
    (combine taper lsts a b c d i1 i2 lst1 lst2 ≠ .inf →
      (1 < goodCount a b i1 ∧ 1 < goodCount c d i2 → ∃ l, combine taper lsts a b c d i1 i2 lst1 lst2 = .rows l ∧ l.length = min lst1.length lst2.length ∧
        ∀ (k : ℕ) (x y : ℝ), lst1[k]? = some x → lst2[k]? = some y → ∃ i j, NearestGood lsts a b i1 x i ∧ NearestGood lsts c d i2 y j ∧
          l[k]? = some (Real.sqrt (baselineTemp taper a b i * baselineTemp taper c d j))) ∧
      (¬ (1 < goodCount a b i1 ∧ 1 < goodCount c d i2) → ∀ i j, i1[0]? = some i → i2[0]? = some j →
        combine taper lsts a b c d i1 i2 lst1 lst2 = .const (Real.sqrt (baselineTemp taper a b i * baselineTemp taper c d j)))) := by
  have hall : ((i1.zip i2).all (fun p => decide (∀ ch, (a.flag p.1 ch || b.flag p.1 ch || (c.flag p.2 ch || d.flag p.2 ch)) = true)) = true) ↔
      ∀ p ∈ i1.zip i2, ∀ ch, a.flag p.1 ch = true ∨ b.flag p.1 ch = true ∨ c.flag p.2 ch = true ∨ d.flag p.2 ch = true := by
    rw [List.all_eq_true]
    simp only [decide_eq_true_eq, Bool.or_eq_true, or_assoc]
  unfold combine
  simp only [goodCount_eq]
  by_cases h0 : ((i1.zip i2).all (fun p => decide (∀ ch, (a.flag p.1 ch || b.flag p.1 ch || (c.flag p.2 ch || d.flag p.2 ch)) = true)) = true)
  · rw [if_pos h0]
    exact ⟨⟨fun _ => hall.1 h0, fun _ => rfl⟩, fun h => absurd rfl h⟩
  rw [if_neg h0]
  by_cases h1 : 1 < goodCount a b i1 ∧ 1 < goodCount c d i2
  · rw [if_pos h1]
    refine ⟨⟨fun h => (by cases h), fun h => absurd (hall.2 h) h0⟩, fun _ => ⟨fun _ => ⟨_, rfl, by simp, ?_⟩, fun h => absurd h1 h⟩⟩
    intro k x y hx hy
    obtain ⟨i, hi, ei⟩ := nearest_good taper lsts a b i1 (goodCount_pos h1.1) x
    obtain ⟨j, hj, ej⟩ := nearest_good taper lsts c d i2 (goodCount_pos h1.2) y
    refine ⟨i, j, hi, hj, ?_⟩
    rw [List.getElem?_zipWith, hx, hy]
    simp only [ei, ej, Option.getD_some, geo]
  · rw [if_neg h1]
    refine ⟨⟨fun h => (by cases h), fun h => absurd (hall.2 h) h0⟩, fun _ => ⟨fun h => absurd h h1, fun _ i j hi hj => ?_⟩⟩
    have e1 : (i1.map (rowMean taper a b)).getD 0 0 = rowMean taper a b i := by simp [List.getD, hi]
    have e2 : (i2.map (rowMean taper c d)).getD 0 0 = rowMean taper c d j := by simp [List.getD, hj]
    rw [e1, e2, rowMean_temp, rowMean_temp, geo]

/-- Two times, one channel, the first time flagged. -/
def exAuto : Auto 1 := ⟨[0, 1], fun _ _ => 100, fun i _ => decide (i = 0)⟩

/-- **C102 finding** Two times of which the first one is flagged, all temperatures 100 K: the system temperature used for *all* rows, also
for the good one, is zero, so the noise error bar is zero. -/
theorem C102_finding_zero_temperature (lsts : List ℝ) : combine (fun _ => 1) lsts exAuto exAuto exAuto exAuto [0, 1] [0, 1] lsts lsts = .const 0 ∧
    (∀ scalar tint nsamp, radiometer scalar 0 tint nsamp = 0) := by
  have f0 : rowFlag exAuto exAuto 0 = true := by decide +kernel
  have f1 : rowFlag exAuto exAuto 1 = false := by decide +kernel
  have hz : rowMean (fun _ => (1 : ℝ)) exAuto exAuto 0 = 0 := by
    unfold rowMean bandMean
    simp [exAuto]
  constructor
  · unfold combine
    rw [if_neg, if_neg]
    · simp [hz, geo]
    · simp [List.filter_cons, f0, f1]
    · simp [exAuto]
  · intro s t m; unfold radiometer; simp

/-- Non-vacuity of the bounds. -/
example : ∀ i ∈ [0, 1], Within 100 100 exAuto exAuto i ∧ TaperOk (fun _ => (1 : ℝ)) exAuto exAuto i := by
  intro i hi
  constructor
  · intro c _ _; simp [exAuto]
  · refine ⟨fun _ => zero_le_one, fun h => ?_⟩
    have : i ≠ 0 := by
      rintro rfl
      revert h
      decide +kernel
    simp [exAuto, this]
    norm_num

end
end HeraPspec.NoiseErr
