import Verif.Model.ApproxCov
import Verif.Props.GetCov
import Verif.Props.Noise
import Verif.Lemmas.MapE

/-! C113: `add_approximate_covariance`. -/
namespace HeraPspec.ApproxCov
open HeraPspec.ArgParse (Str)
open HeraPspec.UVP HeraPspec.Access HeraPspec.GetCov
open scoped BigOperators

variable {D : Type}

/-! ### Specification -/

/-- The delay-delay correlation of noise with a taper `w`: the squared magnitude of the Fourier transform of the squared taper at the
separation of the two delays, relative to its value at separation zero. -/
noncomputable def tapCorr (w : ℕ → ℝ) (n i j : ℕ) : ℝ :=
  ‖∑ a ∈ Finset.range n, ((w a ^ 2 : ℝ) : ℂ) * Complex.exp (-2 * Real.pi * Complex.I * a * ((i : ℂ) - j) / n)‖ ^ 2 /
    (∑ a ∈ Finset.range n, w a ^ 2) ^ 2

/-- `M` is a covariance matrix with standard deviations `v` and the correlation of the taper. -/
structure CovWith (w : ℕ → ℝ) (v : List ℝ) (M : List (List ℝ)) : Prop where
  rows : M.length = v.length
  cols : ∀ r ∈ M, r.length = v.length
  entry : ∀ i j : ℕ, ∀ r : List ℝ, M[i]? = some r → ∀ x y : ℝ, v[i]? = some x → v[j]? = some y → r[j]? = some (x * y * tapCorr w v.length i j)
  diag : ∀ i : ℕ, ∀ r : List ℝ, M[i]? = some r → ∀ x : ℝ, v[i]? = some x → r[i]? = some (x ^ 2)
  symm : ∀ i j : ℕ, (M[i]?.bind (fun r => r[j]?)) = (M[j]?.bind (fun r => r[i]?))
  bound : ∀ i j : ℕ, ∀ r : List ℝ, M[i]? = some r → ∀ c x y : ℝ, r[j]? = some c → v[i]? = some x → v[j]? = some y → |c| ≤ |x| * |y|
  psd : ∀ x : ℕ → ℝ, 0 ≤ ∑ i ∈ Finset.range v.length, ∑ j ∈ Finset.range v.length, x i * ((M[i]?.bind (fun r => r[j]?)).getD 0) * x j

/-- The matrix of zeros. -/
def zeros (n : ℕ) : List (List ℝ) := List.replicate n (List.replicate n 0)

/-- The number of channels of a window. -/
def nChans (o : Obj D ℚ) (s : ℕ) : ℕ := (windowFreqs o s).length

/-- The values of a statistic for one polarization pair: real part. -/
def realPol (pols : List ℤ) (p : ℤ) (st : List (List ℂ)) : List ℝ := st.filterMap (fun d => ((pols.zip d).lookup p).map Complex.re)

/-! ### The correlation matrix -/

theorem corr_eq (w : ℕ → ℝ) (n : ℕ) [NeZero n] (hw : ∃ a, a < n ∧ w a ≠ 0) (i j : ℕ) (hi : i < n) (hj : j < n) :
    Noise.corrMatrix (fun a : Fin n => w a) ⟨i, hi⟩ ⟨j, hj⟩ = tapCorr w n i j := by
  unfold Noise.corrMatrix
  rw [Matrix.circulant_apply, Noise.npMax_eq, Noise.corrCov_zero, Fin.sum_univ_eq_sum_range (fun a => w a ^ 2) n]
  unfold tapCorr
  congr 1
  unfold Noise.corrCov
  rw [Noise.fft_ph]
  congr 2
  rw [← Fin.sum_univ_eq_sum_range (fun a => ((w a ^ 2 : ℝ) : ℂ) * Complex.exp (-2 * Real.pi * Complex.I * a * ((i : ℂ) - j) / n)) n]
  refine Finset.sum_congr rfl (fun a _ => ?_)
  congr 1
  have h : (((⟨i, hi⟩ - ⟨j, hj⟩ : Fin n) : ℕ) : ℤ) = ((i : ℤ) - j) % n := by
    rw [Fin.coe_sub]
    simp only
    push_cast [Nat.cast_sub hj.le]
    rw [show ((n : ℤ) - j + i) = (i : ℤ) - j + n by ring, Int.add_emod_right]
  rw [h, Noise.ph_emod]
  unfold Noise.ph
  congr 1
  push_cast; ring

theorem corrOf_spec (win : ℕ → ℕ → ℝ) (n : ℕ) (hn : 0 < n) (hw : ∃ a, a < n ∧ win n a ≠ 0) :
    ∃ c, corrOf win n = .ok c ∧ (∀ i j, i < n → j < n → c i j = tapCorr (win n) n i j) ∧
      (∀ i, i < n → c i i = 1) ∧ (∀ i j, i < n → j < n → c i j = c j i) ∧ (∀ i j, i < n → j < n → 0 ≤ c i j ∧ c i j ≤ 1) ∧
      ∀ x : ℕ → ℝ, 0 ≤ ∑ i ∈ Finset.range n, ∑ j ∈ Finset.range n, x i * c i j * x j := by
  obtain ⟨m, rfl⟩ : ∃ m, n = m + 1 := ⟨n - 1, by omega⟩
  obtain ⟨a, ha, hwa⟩ := hw
  have hof : ∀ i, (hi : i < m + 1) → Fin.ofNat (m + 1) i = ⟨i, hi⟩ := by
    intro i hi; apply Fin.ext; simp [Fin.ofNat, Nat.mod_eq_of_lt hi]
  obtain ⟨h1, h2, h3, h4⟩ := Noise.C85_correlation_matrix (fun a : Fin (m + 1) => win (m + 1) a) ⟨⟨a, ha⟩, hwa⟩
  refine ⟨_, rfl, ?_, ?_, ?_, ?_, ?_⟩
  · intro i j hi hj
    simp only [hof i hi, hof j hj]
    exact corr_eq _ _ ⟨a, ha, hwa⟩ i j hi hj
  · intro i hi; exact h1 _
  · intro i j hi hj; exact h2 _ _
  · intro i j hi hj; exact h3 _ _
  · intro x
    have := h4 (fun i => x i)
    rw [← Fin.sum_univ_eq_sum_range (fun i => ∑ j ∈ Finset.range (m + 1), x i * Noise.corrMatrix (fun a : Fin (m + 1) => win (m + 1) a)
      (Fin.ofNat (m + 1) i) (Fin.ofNat (m + 1) j) * x j) (m + 1)]
    refine this.trans (le_of_eq ?_)
    refine Finset.sum_congr rfl (fun i _ => ?_)
    rw [← Fin.sum_univ_eq_sum_range (fun j => x i * Noise.corrMatrix (fun a : Fin (m + 1) => win (m + 1) a)
      (Fin.ofNat (m + 1) i) (Fin.ofNat (m + 1) j) * x j) (m + 1)]
    refine Finset.sum_congr rfl (fun j _ => ?_)
    rw [hof i i.isLt, hof j j.isLt]

/-! ### One matrix -/

/-- The matrix of one row and pair. -/
noncomputable def matOf (n : ℕ) (c : ℕ → ℕ → ℝ) (pn : List ℝ) : List (List ℝ) :=
  (List.range n).map (fun i => (List.range n).map (fun j => bget pn i * bget pn j * c i j))

theorem bget_of {pn : List ℝ} {i : ℕ} (hi : i < pn.length) : pn[i]? = some (bget pn i) := by
  unfold bget
  rw [List.getElem?_eq_getElem hi]
  split_ifs with h
  · have : i = 0 := by omega
    subst this; simp [List.getD, List.getElem?_eq_getElem hi]
  · simp [List.getD, List.getElem?_eq_getElem hi]

theorem matOf_entry (n : ℕ) (c : ℕ → ℕ → ℝ) (pn : List ℝ) (i j : ℕ) :
    ((matOf n c pn)[i]?.bind (fun r => r[j]?)) = if i < n ∧ j < n then some (bget pn i * bget pn j * c i j) else none := by
  unfold matOf
  rw [List.getElem?_map, List.getElem?_range']
  by_cases hi : i < n
  · simp only [hi, if_true, Option.map_some, Option.bind_some, true_and]
    rw [List.getElem?_map, List.getElem?_range']
    by_cases hj : j < n <;> simp [hj]
  · simp [hi]
where
  List.getElem?_range' {n i : ℕ} : (List.range n)[i]? = if i < n then some i else none := by
    split_ifs with h
    · rw [List.getElem?_eq_getElem (by simpa using h)]; simp
    · rw [List.getElem?_eq_none]; simpa using h

theorem matOf_cov (w : ℕ → ℝ) {n : ℕ} {c : ℕ → ℕ → ℝ} {pn : List ℝ} (hpn : pn.length = n)
    (h0 : ∀ i j, i < n → j < n → c i j = tapCorr w n i j) (h1 : ∀ i, i < n → c i i = 1) (h2 : ∀ i j, i < n → j < n → c i j = c j i)
    (h3 : ∀ i j, i < n → j < n → 0 ≤ c i j ∧ c i j ≤ 1)
    (h4 : ∀ x : ℕ → ℝ, 0 ≤ ∑ i ∈ Finset.range n, ∑ j ∈ Finset.range n, x i * c i j * x j) : CovWith w pn (matOf n c pn) := by
  have key : ∀ (i j : ℕ) (r : List ℝ), (matOf n c pn)[i]? = some r → r[j]? = if i < n ∧ j < n then some (bget pn i * bget pn j * c i j) else none := by
    intro i j r hr
    rw [← matOf_entry n c pn i j, hr]; rfl
  have hlt : ∀ (i : ℕ) (x : ℝ), pn[i]? = some x → i < n ∧ x = bget pn i := by
    intro i x hx
    have hi := (List.getElem?_eq_some_iff.1 hx).1
    rw [bget_of hi] at hx
    exact ⟨by omega, (Option.some.inj hx).symm⟩
  constructor
  · simp [matOf, hpn]
  · intro r hr
    unfold matOf at hr
    rw [List.mem_map] at hr
    obtain ⟨i, _, rfl⟩ := hr
    simp [hpn]
  · intro i j r hr x y hx hy
    obtain ⟨hi, rfl⟩ := hlt i x hx
    obtain ⟨hj, rfl⟩ := hlt j y hy
    rw [key i j r hr, if_pos ⟨hi, hj⟩, hpn, h0 i j hi hj]
  · intro i r hr x hx
    obtain ⟨hi, rfl⟩ := hlt i x hx
    rw [key i i r hr, if_pos ⟨hi, hi⟩, h1 i hi]
    congr 1; ring
  · intro i j
    rw [matOf_entry, matOf_entry]
    by_cases h : i < n ∧ j < n
    · rw [if_pos h, if_pos ⟨h.2, h.1⟩, h2 i j h.1 h.2]
      congr 1; ring
    · rw [if_neg h, if_neg (fun hh => h ⟨hh.2, hh.1⟩)]
  · intro i j r hr cc x y hc hx hy
    obtain ⟨hi, rfl⟩ := hlt i x hx
    obtain ⟨hj, rfl⟩ := hlt j y hy
    rw [key i j r hr, if_pos ⟨hi, hj⟩, Option.some.injEq] at hc
    obtain ⟨hp, hq⟩ := h3 i j hi hj
    rw [← hc, abs_mul, abs_mul, abs_of_nonneg hp]
    have := mul_nonneg (abs_nonneg (bget pn i)) (abs_nonneg (bget pn j))
    nlinarith
  · intro x
    refine (h4 (fun i => x i * bget pn i)).trans (le_of_eq ?_)
    rw [hpn]
    refine Finset.sum_congr rfl (fun i hi => Finset.sum_congr rfl (fun j hj => ?_))
    rw [matOf_entry, if_pos ⟨Finset.mem_range.1 hi, Finset.mem_range.1 hj⟩]
    simp only [Option.getD_some]
    ring

/-! ### One row and one window -/

theorem statRow_ok {a : List (List (List ℂ))} {b p : ℕ} {r : List (List ℂ)} (hb : a[b]? = some r) (hp : ∀ d ∈ r, p < d.length) :
    statRow a b p = .ok (r.map (fun d => (d.getD p 0).re)) := by
  unfold statRow
  rw [hb]
  simp only
  rw [mapE_ok_iff]
  clear hb
  induction r with
  | nil => simp
  | cons d r ih =>
    rw [List.map_cons, List.forall₂_cons]
    refine ⟨?_, ih (fun x hx => hp x (List.mem_cons_of_mem _ hx))⟩
    have := hp d (by simp)
    rw [List.getElem?_eq_getElem this]
    simp [List.getD, List.getElem?_eq_getElem this]

theorem mapE_ok_map {α β ε : Type} {f : α → Except ε β} {g : α → β} {l : List α} (h : ∀ x ∈ l, f x = .ok (g x)) : mapE f l = .ok (l.map g) := by
  rw [mapE_ok_iff]
  induction l with
  | nil => simp
  | cons a l ih => exact .cons (h a (by simp)) (ih (fun x hx => h x (List.mem_cons_of_mem _ hx)))

/-- The covariance of one row as a function of the statistic. -/
noncomputable def rowCov (n np : ℕ) (c : ℕ → ℕ → ℝ) (r : List (List ℂ)) : List (List (List ℝ)) :=
  covRow n c ((List.range np).map (fun p => r.map (fun d => (d.getD p 0).re)))

theorem cov4d_ok {win : ℕ → ℕ → ℝ} {n np : ℕ} {c : ℕ → ℕ → ℝ} (hc : corrOf win n = .ok c) (a : List (List (List ℂ)))
    (h1 : ∀ r ∈ a, r.length = n) (h2 : ∀ r ∈ a, ∀ d ∈ r, d.length = np) :
    cov4d win n a.length np a = .ok (a.map (rowCov n np c)) := by
  unfold cov4d
  rw [hc]
  simp only
  have key : mapE (fun b => (mapE (fun p => statRow a b p >>= fits n) (List.range np)).map (covRow n c)) (List.range a.length) =
      .ok ((List.range a.length).map (fun b => rowCov n np c (a.getD b []))) := by
    apply mapE_ok_map
    intro b hb
    have hb' : b < a.length := List.mem_range.1 hb
    have hab : a[b]? = some (a.getD b []) := by simp [List.getD, List.getElem?_eq_getElem hb']
    have hmem : a.getD b [] ∈ a := List.mem_of_getElem? hab
    have : mapE (fun p => statRow a b p >>= fits n) (List.range np) =
        .ok ((List.range np).map (fun p => (a.getD b []).map (fun d => (d.getD p 0).re))) := by
      apply mapE_ok_map
      intro p hp
      rw [statRow_ok hab (fun d hd => by rw [h2 _ hmem d hd]; exact List.mem_range.1 hp)]
      show fits n _ = _
      unfold fits
      rw [if_pos (Or.inl (by rw [List.length_map, h1 _ hmem]))]
    rw [this]; rfl
  rw [key]
  congr 1
  apply List.ext_getElem (by simp)
  intro k hk1 hk2
  have : k < a.length := by simpa using hk2
  simp [List.getD, List.getElem?_eq_getElem this]

theorem rowCov_pol {pols : List ℤ} (hn : pols.Nodup) {p : ℤ} (hp : p ∈ pols) (n : ℕ) (c : ℕ → ℕ → ℝ) (r : List (List ℂ))
    (h2 : ∀ d ∈ r, d.length = pols.length) : forPol pols p (rowCov n pols.length c r) = matOf n c (realPol pols p r) := by
  obtain ⟨i, hi⟩ := List.getElem?_of_mem hp
  have hil : i < pols.length := (List.getElem?_eq_some_iff.1 hi).1
  have hr : realPol pols p r = r.map (fun d => (d.getD i 0).re) := by
    unfold realPol
    rw [← List.filterMap_eq_map]
    apply List.filterMap_congr
    intro d hd
    rw [lookup_zip_getElem hn hi]
    have : i < d.length := by rw [h2 d hd]; exact hil
    simp [List.getD, List.getElem?_eq_getElem this]
  unfold forPol rowCov covRow matOf
  rw [List.map_map]
  apply List.map_congr_left
  intro x _
  simp only [Function.comp_apply]
  rw [List.filterMap_map]
  apply filterMap_map_of
  intro y _
  simp only [Function.comp_apply]
  rw [lookup_zip_getElem hn hi, hr]
  simp [List.getElem?_eq_getElem, hil]

theorem forPol_zero {pols : List ℤ} (hn : pols.Nodup) {p : ℤ} (hp : p ∈ pols) (n : ℕ) (c : ℕ → ℕ → ℝ) (r : List (List ℂ)) :
    forPol pols p ((rowCov n pols.length c r).map (fun i => i.map (fun j => j.map (fun _ => (0 : ℝ))))) = zeros n := by
  obtain ⟨i, hi⟩ := List.getElem?_of_mem hp
  have hil : i < pols.length := (List.getElem?_eq_some_iff.1 hi).1
  unfold forPol rowCov covRow zeros
  rw [List.map_map, List.map_map]
  rw [List.eq_replicate_iff]
  refine ⟨by simp, ?_⟩
  intro b hb
  rw [List.mem_map] at hb
  obtain ⟨x, _, rfl⟩ := hb
  simp only [Function.comp_apply]
  rw [List.map_map, List.filterMap_map]
  have : (List.range n).filterMap ((fun x => List.lookup p (pols.zip x)) ∘ (fun j : List ℝ => j.map (fun _ => (0 : ℝ))) ∘ fun j =>
      ((List.range pols.length).map (fun p => r.map (fun d => (d.getD p 0).re))).map (fun pn => bget pn x * bget pn j * c x j)) =
      (List.range n).map (fun _ => (0 : ℝ)) := by
    apply filterMap_map_of
    intro y _
    simp only [Function.comp_apply]
    rw [lookup_zip_getElem hn hi]
    simp [List.getElem?_eq_getElem, hil]
  rw [this]
  simp

/-! ### The loop -/

theorem loop_ok {win : ℕ → ℕ → ℝ} {u : UVP D ℚ} {d : Dict ℕ (List (List (List ℂ)))} (l : List ℕ) (g : ℕ → List (List (List (List ℝ))))
    (h : ∀ s ∈ l, oneSpw win u d s = .ok (g s)) (st : Arr4 ℝ × Arr4 ℝ) :
    ∃ r, loop win u d l st = (r, none) ∧ (∀ s, Dict.get r.1 s = if s ∈ l then some (g s) else Dict.get st.1 s) ∧
      (∀ s, Dict.get r.2 s = if s ∈ l then some (zerosLike (g s)) else Dict.get st.2 s) := by
  induction l generalizing st with
  | nil => exact ⟨st, rfl, by simp, by simp⟩
  | cons a l ih =>
    unfold loop
    rw [h a (by simp)]
    simp only
    obtain ⟨r, h1, h2, h3⟩ := ih (fun s hs => h s (List.mem_cons_of_mem _ hs)) (Dict.set st.1 a (g a), Dict.set st.2 a (zerosLike (g a)))
    refine ⟨r, h1, ?_, ?_⟩
    · intro s
      rw [h2, Dict.get_set]
      by_cases hs : s ∈ l
      · simp [hs]
      · by_cases hsa : a = s
        · subst hsa; simp [hs]
        · simp [hs, hsa, Ne.symm hsa]
    · intro s
      rw [h3, Dict.get_set]
      by_cases hs : s ∈ l
      · simp [hs]
      · by_cases hsa : a = s
        · subst hsa; simp [hs]
        · simp [hs, hsa, Ne.symm hsa]

/-! ### Theorems -/

/-- **C113** If the statistic has, in every window, as many delays as the window has channels, then `add_approximate_covariance` succeeds:
in every window, for every row and polarization pair, the new real covariance is the covariance matrix with standard deviations the real
part of the statistic of that row, window and pair, and the correlation of the taper (hence symmetric and positive semidefinite, with the
squared statistic on the diagonal); the imaginary covariance is zero; statistics, data and indices are untouched; and the object itself
changes only if so asked. -/
theorem C113_covariance (win : ℕ → ℕ → ℝ) (x : CObj D) (o : Obj D ℚ) (hr : Represents x.u o) (hv : Valid o) (hn : o.pols.Nodup)
    (st : Stats ℂ) (hst : x.stats = some st) (stat : Str) (d : Dict ℕ (List (List (List ℂ)))) (hd : Dict.get st stat = some d)
    (σ : ℕ → Meas D ℚ → List (List ℂ)) (hσ : Holds d o σ)
    (hdl : ∀ s, s < o.nspw → ∀ m ∈ o.rows, (σ s m).length = nChans o s) (hpl : ∀ s, s < o.nspw → ∀ m ∈ o.rows, ∀ e ∈ σ s m, e.length = o.pols.length)
    (hwin : ∀ s, s < o.nspw → ∃ a, a < nChans o s ∧ win (nChans o s) a ≠ 0) (inplace : Bool) :
    ∃ y re im, addApprox win x stat inplace = (if inplace then y else x, .ok y) ∧ y = { x with re := some re, im := some im } ∧
      ∃ cr ci : ℕ → Meas D ℚ → List (List (List ℝ)), Holds re o cr ∧ Holds im o ci ∧
        ∀ s, s < o.nspw → ∀ m ∈ o.rows, (cr s m).length = nChans o s ∧ (∀ r ∈ cr s m, r.length = nChans o s) ∧
          ∀ p ∈ o.pols, CovWith (win (nChans o s)) (realPol o.pols p (σ s m)) (forPol o.pols p (cr s m)) ∧
            forPol o.pols p (ci s m) = zeros (nChans o s) := by
  have hcount : ∀ s, x.u.spwFreqArray.count s = nChans o s := by
    intro s
    unfold nChans windowFreqs
    rw [hr.spwFreq, List.count, List.countP_map, List.countP_eq_length_filter, List.length_map]
    congr 1
  have hpos : ∀ s, s < o.nspw → 0 < nChans o s := by
    intro s hs; obtain ⟨a, ha, _⟩ := hwin s hs; omega
  choose! c hc h0 h1 h2 h3 h4 using fun s (hs : s < o.nspw) => corrOf_spec win (nChans o s) (hpos s hs) (hwin s hs)
  have hone : ∀ s ∈ x.u.spwArray, oneSpw win x.u d s = .ok (o.rows.map (fun m => rowCov (nChans o s) o.pols.length (c s) (σ s m))) := by
    intro s hs
    rw [hr.spw, List.mem_range] at hs
    unfold oneSpw
    rw [hσ s hs]
    simp only
    rw [hcount, hr.blpair, hr.pols, List.length_map]
    have := cov4d_ok (hc s hs) (np := o.pols.length) (o.rows.map (σ s)) (by
      intro r hrm; rw [List.mem_map] at hrm; obtain ⟨m, hm, rfl⟩ := hrm; exact hdl s hs m hm) (by
      intro r hrm; rw [List.mem_map] at hrm; obtain ⟨m, hm, rfl⟩ := hrm; exact hpl s hs m hm)
    rw [List.length_map, List.map_map] at this
    exact this
  obtain ⟨r, hl, hre, him⟩ := loop_ok x.u.spwArray _ hone (x.re.getD [], x.im.getD [])
  refine ⟨{ x with re := some r.1, im := some r.2 }, r.1, r.2, ?_, rfl,
    fun s m => rowCov (nChans o s) o.pols.length (c s) (σ s m),
    fun s m => (rowCov (nChans o s) o.pols.length (c s) (σ s m)).map (fun i => i.map (fun j => j.map (fun _ => (0 : ℝ)))), ?_, ?_, ?_⟩
  · unfold addApprox work
    simp only [hst, hd, hl]
  · intro s hs
    rw [hre, if_pos (by rw [hr.spw]; exact List.mem_range.2 hs)]
  · intro s hs
    rw [him, if_pos (by rw [hr.spw]; exact List.mem_range.2 hs)]
    unfold zerosLike
    rw [List.map_map]; rfl
  · intro s hs m hm
    refine ⟨by simp [rowCov, covRow], ?_, ?_⟩
    · intro r hrm
      unfold rowCov covRow at hrm
      rw [List.mem_map] at hrm
      obtain ⟨_, _, rfl⟩ := hrm
      simp
    · intro p hp
      refine ⟨?_, forPol_zero hn hp _ _ _⟩
      rw [rowCov_pol hn hp _ _ _ (hpl s hs m hm)]
      refine matOf_cov _ ?_ (h0 s hs) (h1 s hs) (h2 s hs) (h3 s hs) (h4 s hs)
      obtain ⟨i, hi⟩ := List.getElem?_of_mem hp
      have hil : i < o.pols.length := (List.getElem?_eq_some_iff.1 hi).1
      rw [← hdl s hs m hm]
      unfold realPol
      have : ∀ l : List (List ℂ), (∀ e ∈ l, e.length = o.pols.length) →
          (l.filterMap (fun d => ((o.pols.zip d).lookup p).map Complex.re)).length = l.length := by
        intro l hl
        induction l with
        | nil => rfl
        | cons e l ih =>
          have he : i < e.length := by rw [hl e (by simp)]; exact hil
          rw [List.filterMap_cons, lookup_zip_getElem hn hi, List.getElem?_eq_getElem he]
          simp [ih (fun y hy => hl y (List.mem_cons_of_mem _ hy))]
      exact this _ (hpl s hs m hm)

/-- **C113** After it, `get_cov` of an object that is not folded returns, for every key, one matrix per spectrum of `get_stats`, in the
same order: the covariance matrix with standard deviations the real part of that spectrum. -/
theorem C113_get_cov (win : ℕ → ℕ → ℝ) (x : CObj D) (o : Obj D ℚ) (hr : Represents x.u o) (hv : Valid o) (hn : o.pols.Nodup) (hf : o.folded = false)
    (st : Stats ℂ) (hst : x.stats = some st) (stat : Str) (d : Dict ℕ (List (List (List ℂ)))) (hd : Dict.get st stat = some d)
    (σ : ℕ → Meas D ℚ → List (List ℂ)) (hσ : Holds d o σ)
    (hdl : ∀ s, s < o.nspw → ∀ m ∈ o.rows, (σ s m).length = nChans o s) (hpl : ∀ s, s < o.nspw → ∀ m ∈ o.rows, ∀ e ∈ σ s m, e.length = o.pols.length)
    (hwin : ∀ s, s < o.nspw → ∃ a, a < nChans o s ∧ win (nChans o s) a ≠ 0) (inplace : Bool)
    (s : ℕ) (b p : ℤ) (hs : s < o.nspw) (hb : ∃ m ∈ o.rows, m.blpair = b) (hp : p ∈ o.pols) (om : Bool) :
    ∃ y covs spectra, addApprox win x stat inplace = (if inplace then y else x, .ok y) ∧
      getCov y.u y.re y.im s b p om .real = .ok covs ∧ getStats y.u y.stats stat s b p om = .ok spectra ∧
      covs.length = spectra.length ∧
      (∀ t : ℕ, ∀ M v, covs[t]? = some M → spectra[t]? = some v → CovWith (win (nChans o s)) (v.map Complex.re) M) ∧
      getCov y.u y.re y.im s b p om .imag = .ok (covs.map (fun _ => zeros (nChans o s))) := by
  obtain ⟨y, re, im, h1, rfl, cr, ci, hre, him, hall⟩ := C113_covariance win x o hr hv hn st hst stat d hd σ hσ hdl hpl hwin inplace
  obtain ⟨g1, g2, -, -, -⟩ := C112_get_cov_and_window hr hv hn hf s b p hs hb hp om re im re cr ci cr hre him hre
    ((List.range o.nspw).map (fun s => (s, o.rows.map (fun _ => ([] : List (List (List (List ℝ)))))))) (fun _ _ => []) (by
      intro s hs
      unfold Dict.get
      have : ∀ (l : List ℕ), s ∈ l → (List.find? (fun e : ℕ × List (List (List (List (List ℝ)))) => decide (e.1 = s)) (l.map (fun s => (s, o.rows.map (fun _ => []))))) = some (s, o.rows.map (fun _ => [])) := by
        intro l hl
        induction l with
        | nil => simp at hl
        | cons a l ih =>
          by_cases ha : a = s
          · subst ha; simp
          · rw [List.map_cons, List.find?_cons_of_neg (by simp [ha])]
            exact ih (by simpa [Ne.symm ha] using hl)
      rw [this _ (List.mem_range.2 hs)]; rfl)
  obtain ⟨i, hk, hi⟩ := omit_spec hr hv hn hs hb hp om
  have hstats : getStats x.u x.stats stat s b p om = .ok ((rowsOf o s b p om).map (fun m => (σ s m).filterMap (fun e => (o.pols.zip e).lookup p))) := by
    unfold getStats
    simp only [hst, hd]
    rw [hk]
    show sliceData x.u d _ = _
    unfold sliceData
    rw [hσ s hs, hr.folded, hf]
    simp only [Bool.false_eq_true, if_false]
    rw [take_rows, List.map_map]
    unfold rowsOf
    congr 1
    apply List.map_congr_left
    intro m _
    simp only [Function.comp_apply]
    congr 1
    funext e
    exact (lookup_zip_getElem hn hi e).symm
  refine ⟨_, _, _, h1, g1, hstats, by simp, ?_, ?_⟩
  · intro t M v hM hv'
    rw [List.getElem?_map, Option.map_eq_some_iff] at hM hv'
    obtain ⟨m, hm, rfl⟩ := hM
    obtain ⟨m', hm', rfl⟩ := hv'
    rw [hm] at hm'
    cases hm'
    have hmem : m ∈ o.rows := List.mem_of_mem_filter (List.mem_of_getElem? hm)
    have := (hall s hs m hmem).2.2 p hp |>.1
    unfold realPol at this
    rw [List.map_filterMap]
    exact this
  · rw [g2, List.map_map]
    congr 1
    apply List.map_congr_left
    intro m hm
    exact ((hall s hs m (List.mem_of_mem_filter hm)).2.2 p hp).2

/-- **C113** Without the statistic (or without any statistics) the call is refused and nothing changes. -/
theorem C113_missing_statistic (win : ℕ → ℕ → ℝ) (x : CObj D) (stat : Str) (inplace : Bool)
    (h : ∀ st, x.stats = some st → Dict.get st stat = none) : ∃ e, addApprox win x stat inplace = (x, .error e) := by
  unfold addApprox work
  cases hs : x.stats with
  | none => exact ⟨.attribute, by simp⟩
  | some st => exact ⟨.value, by simp [h st hs]⟩

/-- **C113** If in the first window a row has a number of delays that is neither one nor the number of channels, the call is refused;
the object is left as it was, except (with `inplace`) that it now has a covariance attribute, empty if there was none. -/
theorem C113_other_delays_refused (win : ℕ → ℕ → ℝ) (x : CObj D) (st : Stats ℂ) (hst : x.stats = some st) (stat : Str)
    (d : Dict ℕ (List (List (List ℂ)))) (hd : Dict.get st stat = some d) (s : ℕ) (l : List ℕ) (hsp : x.u.spwArray = s :: l)
    (a : List (List (List ℂ))) (ha : Dict.get d s = some a) (r : List (List ℂ)) (h0 : a[0]? = some r)
    (hlen : r.length ≠ x.u.spwFreqArray.count s ∧ r.length ≠ 1) (hrow : 0 < x.u.blpairArray.length) (hpol : 0 < x.u.polpairArray.length)
    (inplace : Bool) : ∃ e, addApprox win x stat inplace =
      (if inplace then { x with re := some (x.re.getD []), im := some (x.im.getD []) } else x, .error e) := by
  have hrange : ∀ n, 0 < n → ∃ t, List.range n = 0 :: t := by
    intro n hn; obtain ⟨m, rfl⟩ : ∃ m, n = m + 1 := ⟨n - 1, by omega⟩
    exact ⟨_, List.range_succ_eq_map⟩
  have hone : ∃ e, oneSpw win x.u d s = .error e := by
    unfold oneSpw
    rw [ha]
    simp only
    unfold cov4d
    cases corrOf win (x.u.spwFreqArray.count s) with
    | error e => exact ⟨e, rfl⟩
    | ok c =>
      simp only
      obtain ⟨t, ht⟩ := hrange _ hrow
      obtain ⟨t', ht'⟩ := hrange _ hpol
      rw [ht]
      have : ∃ e, mapE (fun p => statRow a 0 p >>= fits (x.u.spwFreqArray.count s)) (List.range x.u.polpairArray.length) = .error e := by
        rw [ht']
        unfold mapE
        cases hr : statRow a 0 0 with
        | error e => exact ⟨e, rfl⟩
        | ok pn =>
          have hl : pn.length = r.length := by
            unfold statRow at hr
            rw [h0] at hr
            exact (List.Forall₂.length_eq (mapE_ok_iff.1 hr)).symm
          refine ⟨.value, ?_⟩
          have hfit : (Except.ok pn >>= fits (x.u.spwFreqArray.count s)) = .error .value := by
            show fits _ pn = _
            unfold fits
            rw [hl, if_neg (by omega)]
          rw [hfit]
      obtain ⟨e, he⟩ := this
      exact ⟨e, by unfold mapE; simp only [he, Except.map]⟩
  obtain ⟨e, he⟩ := hone
  refine ⟨e, ?_⟩
  unfold addApprox work
  simp only [hst, hd, hsp]
  unfold loop
  rw [he]

/-- **C113** finding: a spectrum with ONE delay in a window of `n` channels (legal with `set_Ndlys(1)`) is broadcast: it gets an `n` by `n`
covariance instead of a one by one matrix or a refusal. -/
theorem C113_finding_one_delay (win : ℕ → ℕ → ℝ) (n : ℕ) (hn : 0 < n) (z : ℂ) :
    ∃ c, cov4d win n 1 1 [[[z]]] = .ok [c] ∧ c.length = n ∧ ∀ r ∈ c, r.length = n := by
  obtain ⟨m, rfl⟩ : ∃ m, n = m + 1 := ⟨n - 1, by omega⟩
  refine ⟨covRow (m + 1) (fun i j => Noise.corrMatrix (fun a : Fin (m + 1) => win (m + 1) a) (Fin.ofNat (m + 1) i) (Fin.ofNat (m + 1) j))
    [[z.re]], ?_, by simp [covRow], ?_⟩
  · simp [cov4d, corrOf, mapE, statRow, fits, bind, Except.bind, Except.map, List.range_succ]
  intro r hr
  unfold covRow at hr
  rw [List.mem_map] at hr
  obtain ⟨_, _, rfl⟩ := hr
  simp

/-! ### Concrete cases -/

/-- Two rows, two windows (two and one channels), one polarization pair. -/
def exO : Obj ℚ ℚ where
  nspw := 2
  chans := [(0, 100), (0, 101), (1, 110)]
  dlys := [(0, -1), (0, 0), (1, 0)]
  folded := false
  pols := [1515]
  rows := [{ bl1 := 101102, bl2 := 102103, t1 := 1, t2 := 2, tAvg := 3/2, l1 := 0, l2 := 0, lAvg := 0,
             dat := fun s => if s = 0 then [[1], [2]] else [[3]], itg := fun _ => [1] },
           { bl1 := 101102, bl2 := 102104, t1 := 1, t2 := 2, tAvg := 3/2, l1 := 0, l2 := 0, lAvg := 0,
             dat := fun s => if s = 0 then [[4], [5]] else [[6]], itg := fun _ => [1] }]

/-- A statistic for `exO`. -/
noncomputable def exD : Dict ℕ (List (List (List ℂ))) := [(0, [[[2], [3]], [[4], [5]]]), (1, [[[7]], [[8]]])]

/-- Its content. -/
noncomputable def exσ (s : ℕ) (m : Meas ℚ ℚ) : List (List ℂ) :=
  if s = 0 then (if m.bl2 = 102103 then [[2], [3]] else [[4], [5]]) else (if m.bl2 = 102103 then [[7]] else [[8]])

/-- The object with the statistic `"P_N"`. -/
noncomputable def exX : CObj ℚ := { u := store exO, stats := some [(['P', '_', 'N'], exD)], re := none, im := none }

theorem exValid : Valid exO := by
  constructor <;> decide +kernel

theorem exHolds : Holds exD exO exσ := by
  intro s hs
  have : s = 0 ∨ s = 1 := by change s < 2 at hs; omega
  rcases this with rfl | rfl <;> simp [exD, exO, exσ, Dict.get]

/-- The hypotheses are met, so the covariance of the second row in the first window has 16 and 25 on its diagonal. -/
example : ∃ y covs, addApprox (fun _ _ => 1) exX ['P', '_', 'N'] true = (y, .ok y) ∧
    getCov y.u y.re y.im 0 101102102104 1515 false .real = .ok covs ∧
    ((covs[0]?.bind (fun M => M[1]?)).bind (fun r => r[1]?)) = some 25 := by
  obtain ⟨y, covs, spectra, h1, h2, h3, h4, h5, -⟩ := C113_get_cov (fun _ _ => 1) exX exO (store_represents exO) exValid (by decide) rfl
    [(['P', '_', 'N'], exD)] rfl ['P', '_', 'N'] exD rfl exσ exHolds
    (by intro s hs m hm
        have : s = 0 ∨ s = 1 := by change s < 2 at hs; omega
        rcases this with rfl | rfl <;> simp [exσ] <;> split_ifs <;> rfl)
    (by intro s hs m hm e he
        have : s = 0 ∨ s = 1 := by change s < 2 at hs; omega
        rcases this with rfl | rfl <;> simp only [exσ, if_true, one_ne_zero, if_false] at he <;> split_ifs at he <;>
          simp at he <;> (try rcases he with rfl | rfl) <;> (try subst he) <;> rfl)
    (by intro s hs
        have : s = 0 ∨ s = 1 := by change s < 2 at hs; omega
        rcases this with rfl | rfl
        · exact ⟨0, by decide +kernel, one_ne_zero⟩
        · exact ⟨0, by decide +kernel, one_ne_zero⟩) true 0 101102102104 1515 (by decide) (by decide +kernel) (by decide) false
  refine ⟨y, covs, h1, h2, ?_⟩
  have hy : getStats y.u y.stats ['P', '_', 'N'] 0 101102102104 1515 false = .ok [[4, 5]] := by
    have e1 : y.u = store exO ∧ y.stats = some [(['P', '_', 'N'], exD)] := by
      have : y = (work (fun _ _ => 1) exX ['P', '_', 'N']).1 := by
        have := congrArg Prod.fst h1
        simpa [addApprox] using this.symm
      subst this
      exact ⟨rfl, rfl⟩
    rw [e1.1, e1.2]
    unfold getStats
    have hk : keyToIndicesOmit (store exO) 0 101102102104 1515 false = .ok (0, [1], 0) := by decide +kernel
    simp only [Dict.get, List.find?_cons_of_pos, decide_true, Option.map_some]
    rw [hk]
    simp [bind, Except.bind, sliceData, exD, Dict.get, store, exO]
  rw [hy] at h3
  cases h3
  obtain ⟨M, hM⟩ : ∃ M, covs[0]? = some M := ⟨covs[0]'(by rw [h4]; simp), List.getElem?_eq_getElem _⟩
  have hc := h5 0 M [4, 5] hM rfl
  have hlen := hc.rows
  obtain ⟨r, hr⟩ : ∃ r, M[1]? = some r := ⟨M[1]'(by rw [hlen]; simp), List.getElem?_eq_getElem _⟩
  rw [hM, Option.bind_some, hr, Option.bind_some, hc.diag 1 r hr 5 (by simp)]
  norm_num

end HeraPspec.ApproxCov
