import Verif.Model.NoiseSim
import Mathlib.Data.List.Sort
import Mathlib.Algebra.BigOperators.Group.Finset.Basic
import Mathlib.Analysis.Complex.Basic

/-!
C134: simulated noise has the amplitude of the radiometer equation.
-/
namespace HeraPspec.NoiseSim
noncomputable section

/-! ### Specification -/

/-- Pseudo-Stokes polarizations. -/
def PStokes (p : ℤ) : Prop := p ∈ [1, 2, 3, 4]

/-- The radiometer equation: noise variance of an average of `n` samples of duration `t` in a channel of the given width; half of it for
pseudo-Stokes visibilities, which are means of two. -/
def Radiometer (tsys t n width : ℝ) (p : ℤ) (v : ℝ) : Prop :=
  (PStokes p → v = tsys ^ 2 / (t * n * width) / 2) ∧ (¬ PStokes p → v = tsys ^ 2 / (t * n * width))

/-- Number of samples seen by the simulation. -/
def samples (whiten : Bool) (r : Row) (f p : ℕ) : ℝ := if whiten then 1 else r.ns f p

/-! ### Proofs -/

theorem polcorr_stokes {p : ℤ} (h : PStokes p) : polcorr p = Real.sqrt 2 := by
  unfold PStokes at h
  simp only [List.mem_cons, List.not_mem_nil, or_false] at h
  unfold polcorr; rw [if_pos h]

theorem polcorr_linear {p : ℤ} (h : ¬ PStokes p) : polcorr p = 1 := by
  unfold PStokes at h
  simp only [List.mem_cons, List.not_mem_nil, or_false] at h
  unfold polcorr; rw [if_neg h]

theorem polcorr_pos (p : ℤ) : 0 < polcorr p := by
  unfold polcorr; split
  · exact Real.sqrt_pos.2 (by norm_num)
  · norm_num

theorem whitened_rows (w : Bool) (d : Vis) : (whitened w d).rows.length = d.rows.length ∧ (whitened w d).freqs = d.freqs ∧ (whitened w d).width = d.width ∧
    (whitened w d).pols = d.pols ∧ (whitened w d).unprojected = d.unprojected ∧
    ∀ (k : ℕ) (r : Row), d.rows[k]? = some r → ∃ r', (whitened w d).rows[k]? = some r' ∧ r'.time = r.time ∧ r'.lst = r.lst ∧ r'.itime = r.itime ∧
      (∀ f p, r'.ns f p = samples w r f p) ∧ (∀ f p, r'.flag f p = (!w && r.flag f p)) := by
  cases w with
  | false => exact ⟨rfl, rfl, rfl, rfl, rfl, fun k r h => ⟨r, h, rfl, rfl, rfl, fun _ _ => rfl, fun _ _ => by simp⟩⟩
  | true =>
    refine ⟨by simp [whitened], rfl, rfl, rfl, rfl, fun k r h => ?_⟩
    refine ⟨{ r with flag := fun _ _ => false, ns := fun _ _ => 1 }, ?_, rfl, rfl, rfl, fun _ _ => rfl, fun _ _ => by simp⟩
    simp [whitened, h]

/-- C134: without a beam and without extension, a new object is returned with one row per input row, in which every sampled visibility is the number drawn,
times an amplitude that obeys the radiometer equation (for any ensemble of draws with unit variance), and every visibility without samples
is missing and flagged; other flags are kept, or cleared by `whiten`. -/
theorem C134_radiometer (tsys dt dl : ℝ) (ht : 0 ≤ tsys) (nt : ℕ) (nextend : ℤ) (hn : nextend ≤ 0) (whiten : Bool) (g : ℕ → ℕ → ℕ → ℂ) (d : Vis) :
    ∃ out, (noiseSim none tsys dt dl nt nextend false whiten g d).2 = .ok (some out) ∧ out.rows.length = d.rows.length ∧ out.pols = d.pols ∧ out.freqs = d.freqs ∧
      ∀ (k : ℕ) (r : Row), d.rows[k]? = some r → ∃ r', out.rows[k]? = some r' ∧ r'.time = r.time ∧ r'.lst = r.lst ∧ (∀ f p, r'.ns f p = samples whiten r f p) ∧
        ∀ f p, (0 < r.itime * samples whiten r f p * d.width f →
            (r'.flag f p = (!whiten && r.flag f p)) ∧ ∃ s : ℝ, 0 ≤ s ∧ r'.dat f p = some (g k f p * s) ∧
              Radiometer tsys r.itime (samples whiten r f p) (d.width f) (d.pols.getD p 0) (s ^ 2)) ∧
          (¬ 0 < r.itime * samples whiten r f p * d.width f → r'.dat f p = none ∧ r'.flag f p = true) := by
  obtain ⟨h1, h2, h3, h4, h5, h6⟩ := whitened_rows whiten d
  have he : extended dt dl nt nextend (whitened whiten d) = .ok (whitened whiten d) := by
    unfold extended; rw [if_pos hn]
  refine ⟨fill none tsys g (whitened whiten d), ?_, by simp [fill, h1], by simp [fill, h4], by simp [fill, h2], ?_⟩
  · unfold noiseSim
    simp only [he, Option.isSome_none, Bool.false_eq_true, false_and, if_false]
  · intro k r hr
    obtain ⟨r1, hr1, e1, e2, e3, e4, e5⟩ := h6 k r hr
    have hrow : (fill none tsys g (whitened whiten d)).rows[k]? = some { r1 with
        dat := fun f p => (rms none tsys (whitened whiten d) r1 f p).map (fun s : ℝ => g k f p * (s : ℂ))
        flag := fun f p => if (rms none tsys (whitened whiten d) r1 f p).isNone then true else r1.flag f p } := by
      simp [fill, List.getElem?_mapIdx, hr1]
    refine ⟨_, hrow, e1, e2, e4, ?_⟩
    intro f p
    have hrms : rms none tsys (whitened whiten d) r1 f p = if 0 < r.itime * samples whiten r f p * d.width f then
        some (tsys / Real.sqrt (r.itime * samples whiten r f p * d.width f) / polcorr (d.pols.getD p 0)) else none := by
      simp only [rms, trms, e3, e4, h3, h4]
    constructor
    · intro hpos
      simp only [hrms, if_pos hpos, Option.map_some, Option.isNone_some, Bool.false_eq_true, if_false]
      refine ⟨e5 f p, _, ?_, rfl, ?_⟩
      · have := polcorr_pos (d.pols.getD p 0)
        positivity
      · rw [div_pow, div_pow, Real.sq_sqrt hpos.le]
        refine ⟨fun h => ?_, fun h => ?_⟩
        · rw [polcorr_stokes h, Real.sq_sqrt (by norm_num)]
        · rw [polcorr_linear h]; simp
    · intro hpos
      simp only [hrms, if_neg hpos, Option.map_none, Option.isNone_none, if_true]
      exact ⟨trivial, trivial⟩

/-- C134: for draws of unit variance the mean square of a visibility is the square of its amplitude. -/
theorem C134_variance {Ω : Type} (S : Finset Ω) (P : Ω → ℝ) (g : Ω → ℂ) (s : ℝ) (h : ∑ r ∈ S, P r * Complex.normSq (g r) = 1) :
    ∑ r ∈ S, P r * Complex.normSq (g r * s) = s ^ 2 := by
  have : ∀ r ∈ S, P r * Complex.normSq (g r * s) = (P r * Complex.normSq (g r)) * s ^ 2 := by
    intro r _
    rw [Complex.normSq_mul, Complex.normSq_ofReal]; ring
  rw [Finset.sum_congr rfl this, ← Finset.sum_mul, h, one_mul]

/-- C134: the caller's object is left alone unless `inplace` is asked for. -/
theorem C134_input_kept (beam : Option (ℚ → ℤ → ℝ)) (tsys dt dl : ℝ) (nt : ℕ) (nextend : ℤ) (whiten : Bool) (g : ℕ → ℕ → ℕ → ℂ) (d : Vis) :
    (noiseSim beam tsys dt dl nt nextend false whiten g d).1 = d := by
  unfold noiseSim
  simp only [Bool.false_eq_true, if_false]
  split
  · rfl
  · split <;> rfl

/-- C134: with `inplace` the caller's object becomes what would otherwise be returned. Missing: `Nextend > 0`, see the finding. -/
theorem C134_inplace_partial (beam : Option (ℚ → ℤ → ℝ)) (tsys dt dl : ℝ) (nt : ℕ) (nextend : ℤ) (hn : nextend ≤ 0) (whiten : Bool) (g : ℕ → ℕ → ℕ → ℂ) (d out : Vis)
    (h : (noiseSim beam tsys dt dl nt nextend false whiten g d).2 = .ok (some out)) :
    noiseSim beam tsys dt dl nt nextend true whiten g d = (out, .ok none) := by
  have he : extended dt dl nt nextend (whitened whiten d) = .ok (whitened whiten d) := by
    unfold extended; rw [if_pos hn]
  unfold noiseSim at h ⊢
  simp only [he, Bool.false_eq_true, if_false, if_true] at h ⊢
  split at h
  · cases h
  · rename_i hc
    rw [if_neg hc, if_pos hn]
    injection h with h
    injection h with h
    rw [h]

/-- C134 finding: with `inplace` and an extension the noise goes to a copy that is thrown away: the caller's visibilities are what they were and nothing is
returned. -/
theorem C134_finding_inplace_extended (beam : Option (ℚ → ℤ → ℝ)) (tsys dt dl : ℝ) (nt : ℕ) (nextend : ℤ) (hn : 0 < nextend) (whiten : Bool) (g : ℕ → ℕ → ℕ → ℂ) (d : Vis) :
    (noiseSim beam tsys dt dl nt nextend true whiten g d).1 = whitened whiten d ∧
    (∀ o, (noiseSim beam tsys dt dl nt nextend true whiten g d).2 ≠ .ok (some o)) ∧
    ((whitened whiten d).rows.map (fun r => r.dat) = d.rows.map (fun r => r.dat)) := by
  refine ⟨?_, ?_, ?_⟩
  · unfold noiseSim
    simp only [if_true]
    split
    · rfl
    · split
      · rfl
      · rw [if_neg (by omega)]
  · intro o
    unfold noiseSim
    simp only [if_true]
    split
    · simp
    · split <;> simp
  · unfold whitened; split
    · simp
    · rfl

/-! ### Extension -/

/-- Times of the rows. -/
def timesOf (l : List Row) : List ℝ := l.map (fun r => r.time)

/-- A list of times shifted. -/
def shiftedTimes (s : ℝ) (l : List ℝ) : List ℝ := l.map (fun t => t + s)

theorem extendLoop_times (dt dl : ℝ) (nt : ℕ) (base : List ℝ) : ∀ (n i : ℕ) (data cur : List Row), timesOf cur = shiftedTimes (dt * nt * (i * (i + 1) / 2 : ℝ)) base →
    timesOf (extendLoop dt dl nt n i data cur) = timesOf data ++ (List.range n).flatMap (fun k => shiftedTimes (dt * nt * (((i + k + 1 : ℕ) : ℝ) * ((i + k + 1 : ℕ) + 1) / 2)) base) := by
  intro n
  induction n with
  | zero => intro i data cur _; simp [extendLoop]
  | succ n ih =>
    intro i data cur hcur
    unfold extendLoop
    have hs : timesOf (shiftRows dt dl nt i cur) = shiftedTimes (dt * nt * (((i + 1 : ℕ) : ℝ) * ((i + 1 : ℕ) + 1) / 2)) base := by
      have h1 : timesOf (shiftRows dt dl nt i cur) = shiftedTimes (dt * nt * (i + 1)) (timesOf cur) := by
        simp [timesOf, shiftRows, shiftedTimes]
      rw [h1, hcur]
      simp only [shiftedTimes, List.map_map]
      apply List.map_congr_left
      intro t _
      simp only [Function.comp]
      push_cast; ring
    rw [ih (i + 1) _ _ hs]
    have hd : timesOf (data ++ shiftRows dt dl nt i cur) = timesOf data ++ timesOf (shiftRows dt dl nt i cur) := by simp [timesOf]
    rw [hd, hs, List.append_assoc]
    congr 1
    rw [List.range_succ_eq_map, List.flatMap_cons, List.flatMap_map]
    congr 1
    apply List.flatMap_congr
    intro k _
    have : i + 1 + k + 1 = i + (k + 1) + 1 := by omega
    simp only [this]

/-- C134: the times of the extended data: the original ones and, for each extension `k`, those shifted by `k (k + 1) / 2` times the length
of the data. -/
theorem C134_extension (dt dl : ℝ) (nt : ℕ) (nextend : ℕ) (d x : Vis) (h : extended dt dl nt nextend d = .ok x) :
    timesOf x.rows = (List.range (nextend + 1)).flatMap (fun k : ℕ => shiftedTimes (dt * nt * ((k : ℝ) * (k + 1) / 2)) (timesOf d.rows)) := by
  have h0 : timesOf d.rows = shiftedTimes (dt * nt * (((0 : ℕ) : ℝ) * ((0 : ℕ) + 1) / 2)) (timesOf d.rows) := by simp [shiftedTimes]
  rw [List.range_succ_eq_map, List.flatMap_cons, List.flatMap_map]
  unfold extended at h
  split at h
  · rename_i hn
    have : nextend = 0 := by omega
    subst this
    injection h with h
    subst h
    simp [shiftedTimes]
  · split at h
    · cases h
    · injection h with h
      subst h
      simp only [Int.toNat_natCast]
      rw [extendLoop_times dt dl nt (timesOf d.rows) nextend 0 d.rows d.rows h0]
      have hz : timesOf d.rows = shiftedTimes (dt * nt * (((0 : ℕ) : ℝ) * (((0 : ℕ) : ℝ) + 1) / 2)) (timesOf d.rows) := h0
      have hk : ∀ k : ℕ, 0 + k + 1 = k.succ := fun k => by omega
      simp only [hk]
      rw [← hz]

/-- The LSTs of the rows. -/
def lstsOf (l : List Row) : List ℝ := l.map (fun r => r.lst)

/-- Equal up to full turns. -/
def SameAngle (a b : ℝ) : Prop := ∃ n : ℤ, a = b + 2 * Real.pi * n

theorem extendLoop_lsts (dt dl : ℝ) (nt : ℕ) (base : List ℝ) : ∀ (n i : ℕ) (data cur : List Row),
    List.Forall₂ SameAngle (lstsOf cur) (shiftedTimes (dl * nt * (i * (i + 1) / 2 : ℝ)) base) →
    ∃ new : List ℝ, lstsOf (extendLoop dt dl nt n i data cur) = lstsOf data ++ new ∧ (∀ x ∈ new, 0 ≤ x ∧ x < 2 * Real.pi) ∧
      List.Forall₂ SameAngle new ((List.range n).flatMap (fun k => shiftedTimes (dl * nt * (((i + k + 1 : ℕ) : ℝ) * ((i + k + 1 : ℕ) + 1) / 2)) base)) := by
  intro n
  induction n with
  | zero => intro i data cur _; exact ⟨[], by simp [extendLoop], by simp, by simp⟩
  | succ n ih =>
    intro i data cur hcur
    unfold extendLoop
    have hs : List.Forall₂ SameAngle (lstsOf (shiftRows dt dl nt i cur)) (shiftedTimes (dl * nt * (((i + 1 : ℕ) : ℝ) * ((i + 1 : ℕ) + 1) / 2)) base) := by
      simp only [lstsOf, shiftRows, shiftedTimes, List.map_map, List.forall₂_map_left_iff, List.forall₂_map_right_iff] at hcur ⊢
      refine hcur.imp ?_
      rintro r t ⟨m, hm⟩
      refine ⟨m - ⌊(r.lst + dl * nt * (i + 1)) / (2 * Real.pi)⌋, ?_⟩
      simp only [Function.comp]
      rw [hm]
      push_cast
      ring
    obtain ⟨new, h1, h2, h3⟩ := ih (i + 1) (data ++ shiftRows dt dl nt i cur) _ hs
    refine ⟨lstsOf (shiftRows dt dl nt i cur) ++ new, ?_, ?_, ?_⟩
    · rw [h1]; simp [lstsOf]
    · intro x hx
      rcases List.mem_append.1 hx with hx | hx
      · simp only [lstsOf, shiftRows, List.map_map, List.mem_map, Function.comp] at hx
        obtain ⟨r, _, rfl⟩ := hx
        have hp : 0 < 2 * Real.pi := by have := Real.pi_pos; linarith
        generalize r.lst + dl * nt * (i + 1) = a
        have e : a = 2 * Real.pi * (a / (2 * Real.pi)) := by field_simp
        have h4 := Int.floor_le (a / (2 * Real.pi))
        have h5 := Int.lt_floor_add_one (a / (2 * Real.pi))
        constructor
        · nlinarith
        · nlinarith
      · exact h2 x hx
    · rw [List.range_succ_eq_map, List.flatMap_cons, List.flatMap_map]
      refine List.rel_append hs ?_
      have : ∀ k : ℕ, i + k.succ + 1 = i + 1 + k + 1 := fun k => by omega
      simp only [this]
      exact h3

/-- C134: the LSTs move on with the times: those of extension `k` are the original ones plus `k (k + 1) / 2` times the LST span of the data, as angles between
zero and a full turn. -/
theorem C134_extension_lst (dt dl : ℝ) (nt : ℕ) (nextend : ℕ) (d x : Vis) (h : extended dt dl nt nextend d = .ok x) :
    ∃ new : List ℝ, lstsOf x.rows = lstsOf d.rows ++ new ∧ (∀ a ∈ new, 0 ≤ a ∧ a < 2 * Real.pi) ∧
      List.Forall₂ SameAngle new ((List.range nextend).flatMap (fun k : ℕ => shiftedTimes (dl * nt * (((k + 1 : ℕ) : ℝ) * ((k + 1 : ℕ) + 1) / 2)) (lstsOf d.rows))) := by
  unfold extended at h
  split at h
  · rename_i hn
    have : nextend = 0 := by omega
    subst this
    injection h with h
    subst h
    exact ⟨[], by simp, by simp, by simp⟩
  · split at h
    · cases h
    · injection h with h
      subst h
      simp only [Int.toNat_natCast]
      have h0 : List.Forall₂ SameAngle (lstsOf d.rows) (shiftedTimes (dl * nt * (((0 : ℕ) : ℝ) * ((0 : ℕ) + 1) / 2)) (lstsOf d.rows)) := by
        simp only [shiftedTimes, List.forall₂_map_right_iff]
        exact List.forall₂_same.2 (fun a _ => ⟨0, by simp⟩)
      obtain ⟨new, h1, h2, h3⟩ := extendLoop_lsts dt dl nt (lstsOf d.rows) nextend 0 d.rows d.rows h0
      have hk : ∀ k : ℕ, 0 + k + 1 = k + 1 := fun k => by omega
      simp only [hk] at h3
      exact ⟨new, h1, h2, h3⟩

/-- The times `noise_sim` is documented to produce: the axis extended `n` times by its own length. -/
def contiguous (dt : ℝ) (nt n : ℕ) (l : List ℝ) : List ℝ := (List.range (n + 1)).flatMap (fun k : ℕ => shiftedTimes (k * (dt * nt)) l)

/-- C134: one extension continues the time axis without a gap. Missing: more than one, see the counterexample. -/
theorem C134_contiguous_partial (dt dl : ℝ) (nt : ℕ) (nextend : ℕ) (hn : nextend ≤ 1) (d x : Vis) (h : extended dt dl nt nextend d = .ok x) :
    timesOf x.rows = contiguous dt nt nextend (timesOf d.rows) := by
  rw [C134_extension dt dl nt nextend d x h]
  unfold contiguous
  apply List.flatMap_congr
  intro k hk
  rw [List.mem_range] at hk
  have : k = 0 ∨ k = 1 := by omega
  rcases this with rfl | rfl
  · simp
  · congr 1; norm_num

/-- C134 counterexample: two integrations extended twice end up at 0, 1, 2, 3, 6, 7 instead of 0, ..., 5. -/
theorem C134_counterexample_gap : ∃ d x : Vis, extended 1 0 2 2 d = .ok x ∧ timesOf d.rows = [0, 1] ∧ timesOf x.rows = [0, 1, 2, 3, 6, 7] ∧
    contiguous 1 2 2 (timesOf d.rows) = [0, 1, 2, 3, 4, 5] := by
  let r : ℝ → Row := fun t => ⟨t, 0, 1, fun _ _ => 1, fun _ _ => false, fun _ _ => none⟩
  obtain ⟨x, hex⟩ : ∃ x, extended 1 0 2 ((2 : ℕ) : ℤ) ⟨[r 0, r 1], [], fun _ => 1, [], true⟩ = .ok x := by
    unfold extended
    rw [if_neg (by norm_num), if_neg (by simp)]
    exact ⟨_, rfl⟩
  refine ⟨_, _, hex, rfl, ?_, ?_⟩
  · rw [C134_extension _ _ _ _ _ _ hex]
    simp [List.range_succ, shiftedTimes, timesOf, r]
    norm_num
  · simp [contiguous, List.range_succ, shiftedTimes, timesOf, r]
    norm_num

/-! ### Janskys -/

/-- C134: with a beam, visibilities of linear polarizations are the Kelvin ones in Jansky, for channels in increasing order. Missing: pseudo-Stokes
polarizations and other channel orders, see the findings. -/
theorem C134_jansky_partial (j : ℚ → ℤ → ℝ) (tsys : ℝ) (d : Vis) (hd : d.freqs.Pairwise (· < ·)) (r : Row) (f p : ℕ) (nu : ℚ) (hf : d.freqs[f]? = some nu)
    (hp : ¬ PStokes (d.pols.getD p 0)) :
    rms (some j) tsys d r f p = (rms none tsys d r f p).map (fun t => t * (1000 / j nu (d.pols.getD p 0))) := by
  have hu : uniqueFreqs d.freqs = d.freqs := by
    unfold uniqueFreqs
    rw [List.Nodup.dedup (hd.imp (fun h => h.ne))]
    exact List.Pairwise.insertionSort_eq (hd.imp (fun h => h.le))
  simp only [rms, kToJy, hu, polcorr_linear hp]
  congr 1
  funext t
  have : d.freqs.getD f 0 = nu := by simp [List.getD, hf]
  rw [this]
  ring

/-- C134: with a beam the returned object is the one returned without, with every visibility of a linear polarization converted to Jansky at its own frequency
and polarization. Missing: pseudo-Stokes polarizations and other channel orders, see the findings. -/
theorem C134_jansky_values_partial (j : ℚ → ℤ → ℝ) (tsys dt dl : ℝ) (nt : ℕ) (nextend : ℤ) (whiten : Bool) (g : ℕ → ℕ → ℕ → ℂ) (d kel : Vis)
    (hd : d.freqs.Pairwise (· < ·)) (hk : (noiseSim none tsys dt dl nt nextend false whiten g d).2 = .ok (some kel)) :
    ∃ jan : Vis, (noiseSim (some j) tsys dt dl nt nextend false whiten g d).2 = .ok (some jan) ∧ jan.freqs = kel.freqs ∧ jan.pols = kel.pols ∧
      jan.rows.length = kel.rows.length ∧
      ∀ (k : ℕ) (a b : Row), kel.rows[k]? = some a → jan.rows[k]? = some b → b.time = a.time ∧ b.lst = a.lst ∧ (∀ f p, b.flag f p = a.flag f p) ∧
        ∀ (f p : ℕ) (nu : ℚ), d.freqs[f]? = some nu → ¬ PStokes (d.pols.getD p 0) →
          b.dat f p = (a.dat f p).map (fun z : ℂ => z * ((1000 / j nu (d.pols.getD p 0) : ℝ) : ℂ)) := by
  have hfr := (whitened_rows whiten d).2.1
  have hfp := (whitened_rows whiten d).2.2.2.1
  unfold noiseSim at hk ⊢
  simp only [Bool.false_eq_true, if_false] at hk ⊢
  cases hex : extended dt dl nt nextend (whitened whiten d) with
  | error e => rw [hex] at hk; simp at hk
  | ok x =>
    rw [hex] at hk
    simp only [Option.isSome_none, Bool.false_eq_true, false_and, if_false] at hk
    injection hk with hk
    injection hk with hk
    subst hk
    have hx : x.freqs = d.freqs ∧ x.pols = d.pols := by
      unfold extended at hex
      split at hex
      · injection hex with hex; subst hex; exact ⟨hfr, hfp⟩
      · split at hex
        · cases hex
        · injection hex with hex; subst hex; exact ⟨hfr, hfp⟩
    have hu : uniqueFreqs d.freqs = d.freqs := by
      unfold uniqueFreqs
      rw [List.Nodup.dedup (hd.imp (fun h => h.ne))]
      exact List.Pairwise.insertionSort_eq (hd.imp (fun h => h.le))
    refine ⟨fill (some j) tsys g x, ?_, rfl, rfl, by simp [fill], ?_⟩
    · simp only []
      rw [if_neg (by rw [hx.1, hu]; simp)]
    · intro k a b ha hb
      simp only [fill, List.getElem?_mapIdx, Option.map_eq_some_iff] at ha hb
      obtain ⟨r, hr, rfl⟩ := ha
      obtain ⟨r', hr', rfl⟩ := hb
      rw [hr] at hr'
      injection hr' with hr'
      subst hr'
      refine ⟨rfl, rfl, ?_, ?_⟩
      · intro f p
        simp [rms]
      · intro f p nu hf hp
        simp only []
        rw [C134_jansky_partial j tsys x (hx.1 ▸ hd) r f p nu (hx.1 ▸ hf) (hx.2 ▸ hp), hx.2]
        cases rms none tsys x r f p with
        | none => rfl
        | some t => simp [mul_assoc]

/-- C134 finding: for pseudo-Stokes polarizations the division by the square root of two is made twice: the noise in Jansky is too small by that factor. -/
theorem C134_finding_stokes_twice (j : ℚ → ℤ → ℝ) (tsys : ℝ) (d : Vis) (hd : d.freqs.Pairwise (· < ·)) (r : Row) (f p : ℕ) (nu : ℚ) (hf : d.freqs[f]? = some nu)
    (hp : PStokes (d.pols.getD p 0)) :
    rms (some j) tsys d r f p = (rms none tsys d r f p).map (fun t => t * (1000 / j nu (d.pols.getD p 0)) / Real.sqrt 2) := by
  have hu : uniqueFreqs d.freqs = d.freqs := by
    unfold uniqueFreqs
    rw [List.Nodup.dedup (hd.imp (fun h => h.ne))]
    exact List.Pairwise.insertionSort_eq (hd.imp (fun h => h.le))
  simp only [rms, kToJy, hu, polcorr_stokes hp]
  congr 1
  funext t
  have : d.freqs.getD f 0 = nu := by simp [List.getD, hf]
  rw [this]
  ring

/-- C134 finding: on a decreasing frequency axis the factor of the first channel is that of the last frequency. -/
theorem C134_finding_decreasing_axis (j : ℚ → ℤ → ℝ) (w : ℕ → ℝ) : kToJy j ⟨[], [150, 100], w, [-5], true⟩ 0 0 = 1000 / j 100 (-5) := by
  have : uniqueFreqs [150, 100] = [100, 150] := by
    unfold uniqueFreqs
    decide +kernel
  simp [kToJy, this, polcorr]
  norm_num

/-- C134: a beam is refused when frequencies repeat, and only then. -/
theorem C134_beam_refused (beam : Option (ℚ → ℤ → ℝ)) (tsys dt dl : ℝ) (nt : ℕ) (nextend : ℤ) (inplace whiten : Bool) (g : ℕ → ℕ → ℕ → ℂ) (d : Vis)
    (hx : ¬ (0 < nextend ∧ d.unprojected = false)) :
    (noiseSim beam tsys dt dl nt nextend inplace whiten g d).2 = .error .shape ↔ beam ≠ none ∧ ¬ d.freqs.Nodup := by
  have hu := (whitened_rows whiten d).2.2.2.2.1
  have hfr := (whitened_rows whiten d).2.1
  have hlen : (uniqueFreqs d.freqs).length ≠ d.freqs.length ↔ ¬ d.freqs.Nodup := by
    unfold uniqueFreqs
    rw [List.length_insertionSort, not_iff_not]
    constructor
    · intro h
      have := (List.dedup_sublist d.freqs).eq_of_length h
      rw [← List.dedup_eq_self]; exact this
    · intro h; rw [List.Nodup.dedup h]
  have key : ∀ x : Vis, x.freqs = d.freqs → ((beam.isSome = true ∧ (uniqueFreqs x.freqs).length ≠ x.freqs.length) ↔ beam ≠ none ∧ ¬ d.freqs.Nodup) := by
    intro x h
    rw [h, hlen]
    cases beam <;> simp
  obtain ⟨x, hex, hxf⟩ : ∃ x, extended dt dl nt nextend (whitened whiten d) = .ok x ∧ x.freqs = d.freqs := by
    unfold extended
    by_cases hn : nextend ≤ 0
    · rw [if_pos hn]; exact ⟨_, rfl, hfr⟩
    · rw [if_neg hn, hu]
      have : d.unprojected = true := by
        by_contra hc
        exact hx ⟨by omega, by simpa using hc⟩
      rw [this]
      exact ⟨_, rfl, hfr⟩
  unfold noiseSim
  simp only [hex]
  rw [← key x hxf]
  by_cases hc : beam.isSome = true ∧ (uniqueFreqs x.freqs).length ≠ x.freqs.length
  · rw [if_pos hc]; exact iff_of_true rfl hc
  · rw [if_neg hc]
    refine iff_of_false ?_ hc
    cases inplace <;> simp

/-- C134: an extension of phased data is refused. -/
theorem C134_refused (beam : Option (ℚ → ℤ → ℝ)) (tsys dt dl : ℝ) (nt : ℕ) (nextend : ℤ) (inplace whiten : Bool) (g : ℕ → ℕ → ℕ → ℂ) (d : Vis) :
    (noiseSim beam tsys dt dl nt nextend inplace whiten g d).2 = .error .assertion ↔ 0 < nextend ∧ d.unprojected = false := by
  have hu := (whitened_rows whiten d).2.2.2.2.1
  unfold noiseSim
  simp only []
  unfold extended
  by_cases hn : nextend ≤ 0
  · rw [if_pos hn]
    simp only []
    constructor
    · intro h
      split at h
      · simp at h
      · split at h <;> simp at h
    · rintro ⟨h, _⟩; omega
  · rw [if_neg hn, hu]
    by_cases hp : d.unprojected = true
    · simp only [hp, Bool.not_true, Bool.false_eq_true, if_false]
      constructor
      · intro h
        split at h
        · simp at h
        · split at h <;> simp at h
      · rintro ⟨_, h⟩; simp at h
    · have : d.unprojected = false := by simpa using hp
      simp [this]; omega

example : ∃ (d : Vis) (r : Row), d.rows[0]? = some r ∧ 0 < r.itime * samples false r 0 0 * d.width 0 ∧ ¬ 0 < r.itime * samples false r 1 0 * d.width 1 :=
  ⟨⟨[⟨0, 0, 10, fun f _ => if f = 0 then 2 else 0, fun _ _ => false, fun _ _ => none⟩], [100, 101], fun _ => 1000, [-5], true⟩, _, rfl,
    by norm_num [samples], by norm_num [samples]⟩

end
end HeraPspec.NoiseSim
