import Verif.Model.DelayAxis
import Verif.Props.KBins
import Verif.Props.DelayAdj

/-! C152: every delay bin carries the power at its own delay. -/
namespace HeraPspec.DelayAxis
open Matrix Complex
open HeraPspec.KBins (channels getDelays C115_delays)
open HeraPspec.Oqe
open HeraPspec.DelayAdj (tones_sum aliased_small getG_finish)
noncomputable section

/-! ### Specification -/

/-- The Fourier transform of a spectrum with channels at the frequencies `ν` (Hz), at the delay `τ` (seconds). -/
def transform {n : ℕ} (ν : Fin n → ℝ) (y : Fin n → ℂ) (τ : ℝ) : ℂ := ∑ k, y k * Complex.exp (-(2 * Real.pi * I * (ν k * τ : ℝ)))

/-- The frequency of channel `k` of a window that starts at channel `lo`, for channels spaced by `δ` from `f0`. -/
def chan (f0 δ : ℝ) (lo : ℕ) {n : ℕ} (k : Fin n) : ℝ := f0 + ((lo + k.1 : ℕ) : ℝ) * δ

/-- The weighted spectrum at one time: the sum of `R x` over the keys. -/
def spectrum {nf ne : ℕ} {T : Type} (l : List (Matrix (Fin nf) (Fin ne) ℂ × Matrix (Fin ne) T ℂ)) (t : T) : Fin nf → ℂ :=
  fun k => (l.map (fun p => p.1 * p.2)).sum k t

/-! ### The axis -/

theorem channels_window (f0 δ : ℝ) (N lo hi : ℕ) (h : hi ≤ N) : ((channels f0 δ N).take hi).drop lo = channels (f0 + lo * δ) δ (hi - lo) := by
  apply List.ext_getElem?
  intro i
  rw [List.getElem?_drop, List.getElem?_take]
  unfold channels
  by_cases hi' : lo + i < hi
  · rw [if_pos hi', List.getElem?_map, List.getElem?_map, List.getElem?_range (by omega), List.getElem?_range (by omega)]
    simp only [Option.map_some, Option.some.injEq]
    push_cast; ring
  · rw [if_neg hi', eq_comm, List.getElem?_eq_none]
    simp; omega

/-- The delays of a window: multiples of `1 / (nd δ)`, in nanoseconds. -/
theorem axis (nDsets : ℕ) (f0 δ : ℝ) (hδ : 0 < δ) (N lo hi : ℕ) (h : hi ≤ N) (h2 : lo + 2 ≤ hi) (nd : ℕ) (hn : 0 < nd) (d : List ℝ)
    (hd : delaysNs nDsets (channels f0 δ N) lo hi nd = .ok (some d)) :
    d.length = nd ∧ ∀ i : ℕ, i < nd → d.getD i 0 = (delayIdx nd i : ℝ) / (nd * δ) * 1e9 := by
  unfold delaysNs at hd
  split at hd
  · exact absurd hd (by simp)
  rw [channels_window _ _ _ _ _ h] at hd
  obtain ⟨l, e, hlen, -, hval, -⟩ := C115_delays (f0 + lo * δ) δ hδ (hi - lo) (by omega) nd hn
  rw [e, Option.map_some, Except.ok.injEq, Option.some.injEq] at hd
  subst hd
  refine ⟨by simpa using hlen, fun i hi => ?_⟩
  rw [List.getD, List.getElem?_map, hval i hi]
  simp only [Option.map_some, Option.getD_some, delayIdx]
  push_cast
  rfl

theorem e9 (x : ℝ) : x * 1e9 * 1e-9 = x := by norm_num [mul_assoc]

theorem exp_wave (f0 δ : ℝ) (hδ : 0 < δ) (lo : ℕ) {nf nd : ℕ} (hn : 0 < nd) (s : ℤ) (k : Fin nf) :
    Complex.exp (-(2 * Real.pi * I * (chan f0 δ lo k * ((s : ℝ) / (nd * δ)) : ℝ))) =
      Complex.exp (((-(2 * Real.pi * ((f0 + lo * δ) * ((s : ℝ) / (nd * δ)))) : ℝ) : ℂ) * I) * wave nd s (k.1 : ℕ) := by
  have hd : (δ : ℂ) ≠ 0 := by exact_mod_cast hδ.ne'
  have hnd : (nd : ℂ) ≠ 0 := by exact_mod_cast hn.ne'
  unfold wave chan
  rw [← Complex.exp_add]
  congr 1
  push_cast
  field_simp
  ring

theorem transform_amp (f0 δ : ℝ) (hδ : 0 < δ) (lo : ℕ) {nf nd : ℕ} (hn : 0 < nd) (s : ℤ) (y : Fin nf → ℂ) :
    transform (chan f0 δ lo) y ((s : ℝ) / (nd * δ)) =
      Complex.exp (((-(2 * Real.pi * ((f0 + lo * δ) * ((s : ℝ) / (nd * δ)))) : ℝ) : ℂ) * I) * amp nd s y := by
  unfold transform amp
  rw [Finset.mul_sum]
  refine Finset.sum_congr rfl (fun k _ => ?_)
  rw [exp_wave f0 δ hδ lo hn]; ring

theorem star_unit (x : ℝ) : star (Complex.exp ((x : ℂ) * I)) * Complex.exp ((x : ℂ) * I) = 1 := by
  rw [Complex.star_def, ← Complex.exp_conj, ← Complex.exp_add]
  simp

theorem star_mul_unit (x : ℝ) (a b : ℂ) : star (Complex.exp ((x : ℂ) * I) * a) * (Complex.exp ((x : ℂ) * I) * b) = star a * b := by
  rw [star_mul']
  linear_combination (star a * b) * star_unit x

/-- **C152** For any window of evenly spaced channels, any number of delays, either algorithm and any weighting: bandpower `a` is half the
product of the Fourier transforms, over the true channel frequencies, of the two weighted spectra at the `a`-th delay that `delays()`
lists, the first conjugated. -/
theorem C152_transform {nf nd ne : ℕ} {T : Type} (nDsets : ℕ) (f0 δ : ℝ) (hδ : 0 < δ) (N lo hi : ℕ) (hN : hi ≤ N) (h2 : lo + 2 ≤ hi)
    (hnf : nf = hi - lo) (hn : 0 < nd) (d : List ℝ) (hd : delaysNs nDsets (channels f0 δ N) lo hi nd = .ok (some d))
    (allowFft : Bool) (norm : Norm nf) (hx : norm.exact = false)
    (l1 l2 : List (Matrix (Fin nf) (Fin ne) ℂ × Matrix (Fin ne) T ℂ)) :
    ∃ q : Fin nd → T → ℂ, qHat allowFft norm l1 l2 = .ok q ∧ d.length = nd ∧ ∀ a t,
      q a t = 1 / 2 * (star (transform (chan f0 δ lo) (spectrum l1 t) (d.getD a 0 * 1e-9)) *
        transform (chan f0 δ lo) (spectrum l2 t) (d.getD a 0 * 1e-9)) := by
  obtain ⟨hl, hv⟩ := axis nDsets f0 δ hδ N lo hi hN h2 nd hn d hd
  refine ⟨_, C48_value allowFft norm hx l1 l2, hl, fun a t => ?_⟩
  rw [hv a a.2, e9, transform_amp f0 δ hδ lo hn, transform_amp f0 δ hδ lo hn, star_mul_unit]
  rfl

/-! ### Consequences, for any bandpowers with this property -/

theorem transform_conj {n : ℕ} (ν : Fin n → ℝ) (y : Fin n → ℂ) (τ : ℝ) : transform ν (fun k => star (y k)) (-τ) = star (transform ν y τ) := by
  unfold transform
  rw [star_sum]
  refine Finset.sum_congr rfl (fun k _ => ?_)
  rw [star_mul']
  congr 1
  rw [Complex.star_def, ← Complex.exp_conj]
  congr 1
  simp [map_ofNat]

theorem qHat_transform {nf nd ne : ℕ} {T : Type} {nDsets : ℕ} {f0 δ : ℝ} (hδ : 0 < δ) {N lo hi : ℕ} (hN : hi ≤ N) (h2 : lo + 2 ≤ hi)
    (hnf : nf = hi - lo) (hn : 0 < nd) {d : List ℝ} (hd : delaysNs nDsets (channels f0 δ N) lo hi nd = .ok (some d))
    {allowFft : Bool} {norm : Norm nf} (hx : norm.exact = false)
    {l1 l2 : List (Matrix (Fin nf) (Fin ne) ℂ × Matrix (Fin ne) T ℂ)} {q : Fin nd → T → ℂ} (hq : qHat allowFft norm l1 l2 = .ok q) (a : Fin nd) (t : T) :
      q a t = 1 / 2 * (star (transform (chan f0 δ lo) (spectrum l1 t) (d.getD a 0 * 1e-9)) *
        transform (chan f0 δ lo) (spectrum l2 t) (d.getD a 0 * 1e-9)) := by
  obtain ⟨q', h, -, hv⟩ := C152_transform nDsets f0 δ hδ N lo hi hN h2 hnf hn d hd allowFft norm hx l1 l2
  rw [hq, Except.ok.injEq] at h
  rw [h]; exact hv a t

/-- **C152** Complex-conjugated spectra reverse the delay axis: the bandpower at minus a delay is the conjugate of the one that the
original spectra have at that delay. -/
theorem C152_conjugation {nf nd ne : ℕ} {T : Type} (nDsets : ℕ) (f0 δ : ℝ) (hδ : 0 < δ) (N lo hi : ℕ) (hN : hi ≤ N) (h2 : lo + 2 ≤ hi)
    (hnf : nf = hi - lo) (hn : 0 < nd) (d : List ℝ) (hd : delaysNs nDsets (channels f0 δ N) lo hi nd = .ok (some d))
    (allowFft : Bool) (norm : Norm nf) (hx : norm.exact = false)
    (l1 l2 m1 m2 : List (Matrix (Fin nf) (Fin ne) ℂ × Matrix (Fin ne) T ℂ)) (q r : Fin nd → T → ℂ)
    (hq : qHat allowFft norm l1 l2 = .ok q) (hr : qHat allowFft norm m1 m2 = .ok r)
    (t : T) (h1 : ∀ k, spectrum m1 t k = star (spectrum l1 t k)) (h2' : ∀ k, spectrum m2 t k = star (spectrum l2 t k))
    (a b : Fin nd) (hab : d.getD b 0 = -d.getD a 0) : r b t = star (q a t) := by
  rw [qHat_transform hδ hN h2 hnf hn hd hx hq, qHat_transform hδ hN h2 hnf hn hd hx hr, hab]
  rw [show spectrum m1 t = fun k => star (spectrum l1 t k) from funext h1, show spectrum m2 t = fun k => star (spectrum l2 t k) from funext h2']
  rw [neg_mul, transform_conj, transform_conj]
  simp [Complex.star_def]

/-- **C152** A delay added to both spectra moves the power by that delay: spectra multiplied by `exp(2 pi i ν T)` have at each delay `τ + T`
(up to multiples of the inverse channel width, where the axis wraps round) the power the original ones have at `τ`. -/
theorem C152_shift {nf nd ne : ℕ} {T : Type} (nDsets : ℕ) (f0 δ : ℝ) (hδ : 0 < δ) (N lo hi : ℕ) (hN : hi ≤ N) (h2 : lo + 2 ≤ hi)
    (hnf : nf = hi - lo) (hn : 0 < nd) (d : List ℝ) (hd : delaysNs nDsets (channels f0 δ N) lo hi nd = .ok (some d))
    (allowFft : Bool) (norm : Norm nf) (hx : norm.exact = false)
    (l1 l2 m1 m2 : List (Matrix (Fin nf) (Fin ne) ℂ × Matrix (Fin ne) T ℂ)) (q r : Fin nd → T → ℂ)
    (hq : qHat allowFft norm l1 l2 = .ok q) (hr : qHat allowFft norm m1 m2 = .ok r) (t : T) (Δ : ℝ)
    (h1 : ∀ k, spectrum m1 t k = spectrum l1 t k * Complex.exp (2 * Real.pi * I * (chan f0 δ lo k * Δ : ℝ)))
    (h2' : ∀ k, spectrum m2 t k = spectrum l2 t k * Complex.exp (2 * Real.pi * I * (chan f0 δ lo k * Δ : ℝ)))
    (a b : Fin nd) (w : ℤ) (hab : d.getD b 0 * 1e-9 = d.getD a 0 * 1e-9 + Δ + w / δ) : r b t = q a t := by
  have key : ∀ y z : Fin nf → ℂ, (∀ k, z k = y k * Complex.exp (2 * Real.pi * I * (chan f0 δ lo k * Δ : ℝ))) →
      transform (chan f0 δ lo) z (d.getD b 0 * 1e-9) =
        Complex.exp (((-(2 * Real.pi * (f0 * (w / δ))) : ℝ) : ℂ) * I) * transform (chan f0 δ lo) y (d.getD a 0 * 1e-9) := by
    intro y z hz
    unfold transform
    rw [Finset.mul_sum]
    refine Finset.sum_congr rfl (fun k _ => ?_)
    rw [hz, hab, mul_assoc, ← Complex.exp_add]
    rw [show ∀ A B C : ℂ, A * (B * C) = B * (A * C) from fun A B C => by ring, ← Complex.exp_add]
    congr 1
    rw [Complex.exp_eq_exp_iff_exists_int]
    refine ⟨-((lo + k.1 : ℕ) : ℤ) * w, ?_⟩
    have hd : (δ : ℂ) ≠ 0 := by exact_mod_cast hδ.ne'
    unfold chan
    push_cast
    field_simp
    ring
  rw [qHat_transform hδ hN h2 hnf hn hd hx hq, qHat_transform hδ hN h2 hnf hn hd hx hr, key _ _ h1, key _ _ h2', star_mul_unit]

/-- **C152** With at least as many delays as channels no power is lost or added: the bandpowers sum to half the number of delays times the
product of the weighted spectra summed over the channels. -/
theorem C152_total {nf nd ne : ℕ} {T : Type} (hnd : nf ≤ nd) (hn : 0 < nd) (allowFft : Bool) (norm : Norm nf) (hx : norm.exact = false)
    (l1 l2 : List (Matrix (Fin nf) (Fin ne) ℂ × Matrix (Fin ne) T ℂ)) (q : Fin nd → T → ℂ) (hq : qHat allowFft norm l1 l2 = .ok q) (t : T) :
    ∑ a, q a t = nd / 2 * ∑ k, star (spectrum l1 t k) * spectrum l2 t k := by
  rw [C48_value allowFft norm hx, Except.ok.injEq] at hq
  subst hq
  have hA : ∀ (a : Fin nd) (y : Fin nf → ℂ), amp nd (delayIdx nd a) y = ∑ k, y k * star (tone nd (delayIdx nd a) nf 0 0 k) := by
    intro a y
    unfold amp
    refine Finset.sum_congr rfl (fun k _ => ?_)
    congr 1
    unfold wave tone
    rw [Complex.star_def, ← Complex.exp_conj]
    congr 1
    simp [map_ofNat]
    ring
  have e : ∀ a : Fin nd, 1 / 2 * (star (amp nd (delayIdx nd a) (spectrum l1 t)) * amp nd (delayIdx nd a) (spectrum l2 t)) =
      ∑ i, ∑ j, (1 / 2 * (star (spectrum l1 t i) * spectrum l2 t j)) * (tone nd (delayIdx nd a) nf 0 0 i * star (tone nd (delayIdx nd a) nf 0 0 j)) := by
    intro a
    rw [hA, hA, star_sum, Finset.sum_mul_sum, Finset.mul_sum]
    refine Finset.sum_congr rfl (fun i _ => ?_)
    rw [Finset.mul_sum]
    refine Finset.sum_congr rfl (fun j _ => ?_)
    rw [star_mul', star_star]; ring
  show ∑ a : Fin nd, 1 / 2 * (star (amp nd (delayIdx nd a) (spectrum l1 t)) * amp nd (delayIdx nd a) (spectrum l2 t)) = _
  simp only [e]
  rw [Finset.sum_comm, Finset.mul_sum]
  refine Finset.sum_congr rfl (fun i _ => ?_)
  rw [Finset.sum_comm, Finset.sum_eq_single i]
  · rw [← Finset.mul_sum, tones_sum hn, if_pos ((aliased_small hnd i i).2 rfl)]; ring
  · intro j _ hj
    rw [← Finset.mul_sum, tones_sum hn, if_neg (fun h => hj ((aliased_small hnd i j).1 h).symm), mul_zero]
  · intro h; exact absurd (Finset.mem_univ i) h

/-! ### A tone -/

/-- The sum over the channels of the waves of two delay indices less than `n` apart. -/
theorem wave_orth {n : ℕ} (s u : ℤ) (h : |s - u| < n) : ∑ k : Fin n, wave n s (k.1 : ℕ) * star (wave n u (k.1 : ℕ)) = if s = u then (n : ℂ) else 0 := by
  by_cases hs : s = u
  · subst hs
    rw [if_pos rfl]
    simp only [mul_comm (wave _ _ _), wave_norm]
    simp
  rw [if_neg hs]
  have hn : (n : ℂ) ≠ 0 := by
    have : n ≠ 0 := by
      rintro rfl
      have := abs_nonneg (s - u)
      simp at h
      omega
    exact_mod_cast this
  set w : ℂ := Complex.exp (2 * Real.pi * I * ((u - s : ℤ) : ℂ) / n) with hw
  have e : ∀ k : Fin n, wave n s (k.1 : ℕ) * star (wave n u (k.1 : ℕ)) = w ^ k.1 := by
    intro k
    rw [hw, ← Complex.exp_nat_mul, star_wave]
    unfold wave
    rw [← Complex.exp_add]
    congr 1
    push_cast
    field_simp
    ring
  simp only [e]
  rw [Fin.sum_univ_eq_sum_range (fun k => w ^ k)]
  have hpow : w ^ n = 1 := by
    rw [hw, ← Complex.exp_nat_mul, Complex.exp_eq_one_iff]
    exact ⟨u - s, by field_simp⟩
  have hne : w ≠ 1 := by
    rw [hw, Ne, Complex.exp_eq_one_iff]
    rintro ⟨k, hk⟩
    have h2 : (2 * Real.pi * I : ℂ) ≠ 0 := Complex.two_pi_I_ne_zero
    have h3 : ((u - s : ℤ) : ℂ) = k * n := by
      field_simp at hk
      linear_combination hk
    have h4 : u - s = k * n := by exact_mod_cast h3
    have h5 : k ≠ 0 := by rintro rfl; simp at h4; omega
    have h6 : (1 : ℤ) ≤ |k| := Int.one_le_abs h5
    rw [abs_sub_comm, h4, abs_mul, Nat.abs_cast] at h
    nlinarith
  have hg : (w - 1) * ∑ k ∈ Finset.range n, w ^ k = 0 := by
    rw [mul_comm, geom_sum_mul, hpow, sub_self]
  rcases mul_eq_zero.1 hg with h | h
  · exact absurd (sub_eq_zero.1 h) hne
  · exact h

theorem delayIdx_diff (n : ℕ) (a b : Fin n) : |delayIdx n a - delayIdx n b| < n ∧ (delayIdx n a = delayIdx n b ↔ a = b) := by
  have ha := a.2
  have hb := b.2
  unfold delayIdx
  refine ⟨by rw [abs_lt]; omega, ?_⟩
  rw [Fin.ext_iff]; omega

/-- With identity weights and as many delays as channels, the normalisation matrix is a multiple of the identity. -/
theorem getG_one {n : ℕ} (hn : 0 < n) (a b : Fin n) :
    getG (left := 0) (right := 0) n (1 : Matrix (Fin n) (Fin (n + (0 + 0))) ℂ) 1 a b = if a = b then (n : ℂ) ^ 2 / 2 else 0 := by
  have e : rawG (left := 0) (right := 0) n (1 : Matrix (Fin n) (Fin (n + (0 + 0))) ℂ) 1 = Matrix.of (fun a b => if a = b then (n : ℂ) ^ 2 else 0) := by
    ext a b
    rw [rawG_eq, Matrix.of_apply]
    have : respTo n (delayIdx n a) (1 : Matrix (Fin n) (Fin (n + (0 + 0))) ℂ) (tone n (delayIdx n b) (n + (0 + 0)) 0 0) = if a = b then (n : ℂ) else 0 := by
      unfold respTo amp
      rw [one_mulVec]
      rw [← if_congr (delayIdx_diff n a b).2 rfl rfl, ← wave_orth _ _ (delayIdx_diff n a b).1]
      refine Finset.sum_congr rfl (fun k _ => ?_)
      rw [mul_comm]
      congr 1
      unfold wave tone
      rw [Complex.star_def, ← Complex.exp_conj]
      congr 1
      simp [map_ofNat]
      ring
    rw [this]
    split <;> simp [pow_two]
  have hnz : Matrix.of (fun a b : Fin n => if a = b then (n : ℂ) ^ 2 else 0) ≠ 0 := by
    intro h
    have := congrFun (congrFun h ⟨0, hn⟩) ⟨0, hn⟩
    simp at this
    omega
  rw [getG_finish]
  unfold finishGH
  rw [e, if_neg hnz]
  simp only [Matrix.smul_apply, smul_eq_mul, Matrix.of_apply]
  split <;> ring

/-- **C152** A spectral tone comes out at its own delay and nowhere else, with its power: for unweighted spectra
`A exp(2 pi i ν τ)` whose delay `τ` is the `b`-th one that `delays()` lists, as many delays as channels, the bandpowers normalised with
norm 'I' are `conj(A_1) A_2` at `b` and zero at all other delays. -/
theorem C152_tone {nf : ℕ} {T : Type} (nDsets : ℕ) (f0 δ : ℝ) (hδ : 0 < δ) (N lo hi : ℕ) (hN : hi ≤ N) (h2 : lo + 2 ≤ hi)
    (hnf : nf = hi - lo) (d : List ℝ) (hd : delaysNs nDsets (channels f0 δ N) lo hi nf = .ok (some d))
    (allowFft : Bool) (norm : Norm nf) (hx : norm.exact = false) (A1 A2 : T → ℂ) (b : Fin nf)
    (x1 x2 : Matrix (Fin (nf + (0 + 0))) T ℂ)
    (h1 : ∀ k t, x1 k t = A1 t * Complex.exp (2 * Real.pi * I * (chan f0 δ lo k * (d.getD b 0 * 1e-9) : ℝ)))
    (h2' : ∀ k t, x2 k t = A2 t * Complex.exp (2 * Real.pi * I * (chan f0 δ lo k * (d.getD b 0 * 1e-9) : ℝ)))
    (q : Fin nf → T → ℂ) (hq : qHat allowFft norm [((1 : Matrix (Fin nf) (Fin (nf + (0 + 0))) ℂ), x1)] [(1, x2)] = .ok q)
    (pinv : Matrix (Fin nf) (Fin nf) ℂ → Matrix (Fin nf) (Fin nf) ℂ) (H M W : Matrix (Fin nf) (Fin nf) ℂ) (eig : Option (Eig nf)) (ex : Bool)
    (hM : getMW pinv (getG (left := 0) (right := 0) nf (1 : Matrix (Fin nf) (Fin (nf + (0 + 0))) ℂ) 1) H .I eig ex = .ok (M, W)) (a : Fin nf) (t : T) :
    pHat M q a t = if a = b then star (A1 t) * A2 t else 0 := by
  have hn : 0 < nf := by omega
  obtain ⟨hl, hv⟩ := axis nDsets f0 δ hδ N lo hi hN h2 nf hn d hd
  have hnn : (nf : ℂ) ≠ 0 := by exact_mod_cast hn.ne'
  have hs : ∀ (A : T → ℂ) (x : Matrix (Fin (nf + (0 + 0))) T ℂ),
      (∀ k t, x k t = A t * Complex.exp (2 * Real.pi * I * (chan f0 δ lo k * (d.getD b 0 * 1e-9) : ℝ))) →
      amp nf (delayIdx nf a) (spectrum [((1 : Matrix (Fin nf) (Fin (nf + (0 + 0))) ℂ), x)] t) =
        Complex.exp ((((2 * Real.pi * ((f0 + lo * δ) * ((delayIdx nf b : ℝ) / (nf * δ)))) : ℝ) : ℂ) * I) * (A t * if a = b then (nf : ℂ) else 0) := by
    intro A x hA
    rw [← if_congr (delayIdx_diff nf a b).2 rfl rfl, ← wave_orth _ _ (delayIdx_diff nf a b).1, Finset.mul_sum, Finset.mul_sum]
    unfold amp
    refine Finset.sum_congr rfl (fun k _ => ?_)
    have : spectrum [((1 : Matrix (Fin nf) (Fin (nf + (0 + 0))) ℂ), x)] t k = x k t := by
      unfold spectrum
      rw [List.map_singleton, List.sum_singleton]
      exact congrFun (congrFun (Matrix.one_mul x) k) t
    rw [this, hA, hv b b.2, e9]
    have e := congrArg star (exp_wave f0 δ hδ lo hn (delayIdx nf b) k)
    rw [star_mul'] at e
    rw [show ∀ z : ℂ, star (Complex.exp z) = Complex.exp ((starRingEnd ℂ) z) from fun z => by rw [Complex.star_def, ← Complex.exp_conj]] at e
    rw [show ∀ z : ℂ, star (Complex.exp z) = Complex.exp ((starRingEnd ℂ) z) from fun z => by rw [Complex.star_def, ← Complex.exp_conj]] at e
    have e2 : (starRingEnd ℂ) (-(2 * Real.pi * I * ((chan f0 δ lo k * ((delayIdx nf b : ℝ) / (nf * δ)) : ℝ) : ℂ))) =
        2 * Real.pi * I * ((chan f0 δ lo k * ((delayIdx nf b : ℝ) / (nf * δ)) : ℝ) : ℂ) := by
      simp only [map_neg, map_mul, Complex.conj_I, Complex.conj_ofReal, map_ofNat]; ring
    have e3 : ∀ c : ℝ, (starRingEnd ℂ) (((-c : ℝ) : ℂ) * I) = ((c : ℝ) : ℂ) * I := by
      intro c; simp
    rw [e2, e3] at e
    have e4 : Complex.exp (2 * Real.pi * I * ((chan f0 δ lo (n := nf + (0 + 0)) k * ((delayIdx nf b : ℝ) / (nf * δ)) : ℝ) : ℂ)) = _ := e
    rw [e4]
    ring
  unfold getMW at hM
  simp only [reduceCtorEq, if_false, ne_eq, not_true, false_and] at hM
  injection hM with hM
  injection hM with hM1 hM2
  rw [C48_value allowFft norm hx, Except.ok.injEq] at hq
  have hqa : q a t = 1 / 2 * (star (amp nf (delayIdx nf a) (spectrum [((1 : Matrix (Fin nf) (Fin (nf + (0 + 0))) ℂ), x1)] t)) *
      amp nf (delayIdx nf a) (spectrum [((1 : Matrix (Fin nf) (Fin (nf + (0 + 0))) ℂ), x2)] t)) := by rw [← hq]; rfl
  have s1 := hs A1 x1 h1
  have s2 := hs A2 x2 h2'
  rw [s1, s2, star_mul_unit] at hqa
  have hG : rowSum (getG (left := 0) (right := 0) nf (1 : Matrix (Fin nf) (Fin (nf + (0 + 0))) ℂ) 1) a = (nf : ℂ) ^ 2 / 2 := by
    unfold rowSum
    simp only [getG_one hn]
    simp
  have hp : pHat M q a t = 1 / rowSum (getG (left := 0) (right := 0) nf (1 : Matrix (Fin nf) (Fin (nf + (0 + 0))) ℂ) 1) a * q a t := by
    unfold pHat
    rw [← hM1]
    exact Matrix.diagonal_mul _ (Matrix.of q) a t
  rw [hp, hG, hqa]
  by_cases hab : a = b
  · rw [if_pos hab, if_pos hab, star_mul', show star (nf : ℂ) = nf from Complex.conj_natCast nf]
    field_simp
  · rw [if_neg hab, if_neg hab]; simp

/-- Non-vacuous: a data set of 1024 channels of 97 kHz from 100 MHz, a window of 100 channels from number 300 on, a tone in the third bin. -/
example : ∃ d x M W q, delaysNs 1 (channels 100e6 97e3 1024) 300 400 100 = .ok (some d) ∧
    (∀ k (t : Unit), x k t = 7 * Complex.exp (2 * Real.pi * I * (chan 100e6 97e3 300 k * (d.getD 3 0 * 1e-9) : ℝ))) ∧
    qHat (nd := 100) true ⟨false, 0, 0⟩ [((1 : Matrix (Fin 100) (Fin (100 + (0 + 0))) ℂ), x)] [(1, x)] = .ok q ∧
    getMW id (getG (left := 0) (right := 0) 100 (1 : Matrix (Fin 100) (Fin (100 + (0 + 0))) ℂ) 1) 1 .I none false = .ok (M, W) := by
  obtain ⟨l, e, -⟩ := C115_delays (100e6 + (300 : ℕ) * 97e3) 97e3 (by norm_num) (400 - 300) (by norm_num) 100 (by norm_num)
  exact ⟨l.map (fun x => x * 1e9), fun k _ => 7 * Complex.exp (2 * Real.pi * I * (chan 100e6 97e3 300 k * ((l.map (fun x => x * 1e9)).getD 3 0 * 1e-9) : ℝ)),
    _, _, _, by unfold delaysNs; rw [if_neg one_ne_zero, channels_window _ _ _ _ _ (by norm_num), e]; rfl, fun _ _ => rfl, C48_value _ _ rfl _ _, rfl⟩

/-- **C152** The axis: for a window of evenly spaced channels `delays()` lists, in nanoseconds, `nd` increasing delays spaced by the inverse of
`nd` channel widths, with zero at index `nd // 2`; without data sets it raises an `IndexError`. -/
theorem C152_axis (nDsets : ℕ) (f0 δ : ℝ) (hδ : 0 < δ) (N lo hi : ℕ) (hN : hi ≤ N) (h2 : lo + 2 ≤ hi) (nd : ℕ) (hn : 0 < nd) :
    (nDsets = 0 → delaysNs nDsets (channels f0 δ N) lo hi nd = .error .index) ∧
    (nDsets ≠ 0 → ∃ d, delaysNs nDsets (channels f0 δ N) lo hi nd = .ok (some d) ∧ d.length = nd ∧ d.getD (nd / 2) 0 = 0 ∧
      ∀ i : ℕ, i + 1 < nd → d.getD (i + 1) 0 - d.getD i 0 = 1e9 / (nd * δ)) := by
  refine ⟨fun h => by simp [delaysNs, h], fun h => ?_⟩
  obtain ⟨l, e, -⟩ := C115_delays (f0 + lo * δ) δ hδ (hi - lo) (by omega) nd hn
  have hd : delaysNs nDsets (channels f0 δ N) lo hi nd = .ok (some (l.map (fun x => x * 1e9))) := by
    unfold delaysNs
    rw [if_neg h, channels_window _ _ _ _ _ hN, e]; rfl
  obtain ⟨hl, hv⟩ := axis nDsets f0 δ hδ N lo hi hN h2 nd hn _ hd
  refine ⟨_, hd, hl, ?_, fun i hi => ?_⟩
  · rw [hv _ (by omega)]; simp [delayIdx]
  · rw [hv _ (by omega), hv _ (by omega)]
    unfold delayIdx
    have : (nd : ℝ) ≠ 0 := by exact_mod_cast hn.ne'
    push_cast
    field_simp
    ring

/-- The spectrum 1, 0, 0, 1. -/
def gapX : Matrix (Fin 4) Unit ℂ := fun k _ => if k.1 = 0 ∨ k.1 = 3 then 1 else 0

/-- **C152**, finding: `delays()` takes the median channel spacing, so for channels with a gap (here 0, 1, 2, 4) it lists delays although the
bandpowers are not the transform at them: the transform of the spectrum 1, 0, 0, 1 at the delay 1/4 has the power 4, bandpower
3 is 1/2 of 2. -/
theorem C152_finding_gap : ∃ d q, delaysNs 1 [0, 1, 2, 4] 0 4 4 = .ok (some d) ∧ d.getD 3 0 * 1e-9 = 1 / 4 ∧
    qHat (nd := 4) false ⟨false, 0, 0⟩ [((1 : Matrix (Fin 4) (Fin 4) ℂ), gapX)] [(1, gapX)] = .ok q ∧ q 3 () = 1 ∧
    transform ![0, 1, 2, 4] (fun k => gapX k ()) (1 / 4) = 2 := by
  obtain ⟨l, e, -, hv⟩ := KBins.C115_gaps [0, 1, 2, 4] 1 one_pos (by norm_num [List.countP, List.countP.go]) 4 (by norm_num)
  refine ⟨_, _, by unfold delaysNs; simp only [one_ne_zero, if_false]; rw [show ((([0, 1, 2, 4] : List ℝ).take 4).drop 0) = [0, 1, 2, 4] from rfl, e]; rfl, ?_, C48_value _ _ rfl _ _, ?_, ?_⟩
  · rw [List.getD, List.getElem?_map, hv 3 (by norm_num)]; norm_num
  · have h1 : delayIdx 4 ((3 : Fin 4) : ℕ) = 1 := by decide
    have hw : wave 4 1 ((3 : Fin 4).1 : ℕ) = I := by
      unfold wave
      rw [show (-2 * Real.pi * I * ((1 : ℤ) : ℂ) * ((((3 : Fin 4).1 : ℕ) : ℝ) : ℂ) / ((4 : ℕ) : ℂ)) = Real.pi / 2 * I + ((-1 : ℤ) : ℂ) * (2 * Real.pi * I) by
        push_cast; norm_num; ring]
      rw [Complex.exp_add, Complex.exp_int_mul_two_pi_mul_I, mul_one, Complex.exp_pi_div_two_mul_I]
    have hy : ∀ k : Fin 4, ((1 : Matrix (Fin 4) (Fin 4) ℂ) * gapX) k () = if k.1 = 0 ∨ k.1 = 3 then (1 : ℂ) else 0 := by
      intro k; rw [Matrix.one_mul]; rfl
    have ha : amp 4 (delayIdx 4 ((3 : Fin 4) : ℕ)) (fun k => ([((1 : Matrix (Fin 4) (Fin 4) ℂ), gapX)].map (fun p => p.1 * p.2)).sum k ()) = 1 + I := by
      unfold amp
      simp only [List.map_singleton, List.sum_singleton, hy, h1]
      rw [Fin.sum_univ_four, hw]
      simp [wave_zero]
    rw [ha]
    simp only [star_add, star_one, Complex.star_def, Complex.conj_I]
    linear_combination (-1 / 2 : ℂ) * Complex.I_sq
  · unfold transform
    have : Complex.exp (-(2 * Real.pi * I)) = 1 := by rw [Complex.exp_neg, Complex.exp_two_pi_mul_I, inv_one]
    simp [Fin.sum_univ_four, gapX, this]
    norm_num

end
end HeraPspec.DelayAxis
