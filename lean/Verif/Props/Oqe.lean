import Verif.Model.Oqe
import Verif.Props.Noise
import Mathlib.Analysis.Complex.Order
import Mathlib.Analysis.Complex.Basic
import Mathlib.Tactic.Ring
import Mathlib.Tactic.NormNum
import Mathlib.Tactic.FieldSimp
import Mathlib.Tactic.Linarith
import Mathlib.LinearAlgebra.Matrix.Rank

/-!
C46, C47, C48: delay-mode matrices and unnormalised bandpowers.
-/
namespace HeraPspec.Oqe
open Matrix Complex
open HeraPspec.Noise (fft ph ph_add ph_conj ph_emod fft_ph)
noncomputable section

/-! ### Specification -/

/-- The delay index of a mode: modes count from `-(nd // 2)` upwards. -/
def delayIdx (nd : ℕ) (mode : ℕ) : ℤ := (mode : ℤ) - (nd / 2 : ℕ)

/-- The wave of delay index `s`: `exp(-2 pi i s u / nd)`. -/
def wave (nd : ℕ) (s : ℤ) (u : ℝ) : ℂ := Complex.exp (-2 * Real.pi * I * s * u / nd)

/-- The Fourier amplitude of a spectrum at delay index `s`. -/
def amp {n : ℕ} (nd : ℕ) (s : ℤ) (y : Fin n → ℂ) : ℂ := ∑ k, y k * wave nd s (k.1 : ℕ)

/-! ### Waves -/

theorem wave_add (nd : ℕ) (s : ℤ) (u v : ℝ) : wave nd s (u + v) = wave nd s u * wave nd s v := by
  unfold wave; rw [← Complex.exp_add]; congr 1; push_cast; ring

theorem star_wave (nd : ℕ) (s : ℤ) (u : ℝ) : star (wave nd s u) = wave nd s (-u) := by
  unfold wave
  rw [Complex.star_def, ← Complex.exp_conj]
  congr 1
  simp [map_ofNat]

theorem wave_zero (nd : ℕ) (s : ℤ) : wave nd s 0 = 1 := by unfold wave; simp

theorem wave_norm (nd : ℕ) (s : ℤ) (u : ℝ) : star (wave nd s u) * wave nd s u = 1 := by
  rw [star_wave, ← wave_add]; simp [wave_zero]

theorem startIdx_eq (nd mode : ℕ) : startIdx nd + mode = (delayIdx nd mode : ℝ) := by
  unfold startIdx delayIdx
  rcases Nat.even_or_odd' nd with ⟨c, h | h⟩
  · rw [if_pos (by omega), show nd / 2 = c by omega, h]; push_cast; ring
  · rw [if_neg (by omega), show nd / 2 = c by omega, h]; push_cast; ring

theorem ph_eq_wave (n : ℕ) (s : ℤ) (k : ℕ) : ph n (s * k) = wave n s k := by
  unfold ph wave; congr 1; push_cast; ring

theorem modeVec_eq (mode nd n : ℕ) (hm : mode < nd) (allowFft : Bool) (phase : ℝ) :
    ∃ c : ℝ, ∀ k : Fin n, modeVec mode nd n allowFft phase k = wave nd (delayIdx nd mode) ((k.1 : ℝ) - c) := by
  unfold modeVec
  by_cases h : nd = n ∧ allowFft = true
  · rw [if_pos h]
    obtain ⟨rfl, -⟩ := h
    haveI : NeZero nd := ⟨by omega⟩
    refine ⟨0, fun k => ?_⟩
    rw [fft_ph]
    unfold ifftshift
    have ha : (mode + (nd - nd / 2)) % nd < nd := Nat.mod_lt _ (by omega)
    have hiff : ∀ a : Fin nd, ((a.1 + nd / 2) % nd = mode) ↔ a = ⟨(mode + (nd - nd / 2)) % nd, ha⟩ := by
      intro a
      rw [Fin.ext_iff]
      have := a.2
      constructor
      · intro h
        show a.1 = (mode + (nd - nd / 2)) % nd
        rw [← h, Nat.mod_add_mod, show a.1 + nd / 2 + (nd - nd / 2) = a.1 + nd by omega, Nat.add_mod_right, Nat.mod_eq_of_lt this]
      · intro h
        simp only at h
        rw [h, Nat.mod_add_mod, show mode + (nd - nd / 2) + nd / 2 = mode + nd by omega, Nat.add_mod_right, Nat.mod_eq_of_lt hm]
    simp only [hiff, ite_mul, one_mul, zero_mul, Finset.sum_ite_eq', Finset.mem_univ, if_true]
    rw [sub_zero, ← ph_eq_wave, mul_comm]
    push_cast
    rw [ph_emod]
    have : (k.1 : ℤ) * ((mode : ℤ) + ((nd - nd / 2 : ℕ) : ℤ)) = (k.1 : ℤ) * (delayIdx nd mode) + nd * k.1 := by
      unfold delayIdx
      rw [Nat.cast_sub (by omega)]; ring
    rw [this, ph_add, Noise.ph_mul_n, mul_one, mul_comm]
  · rw [if_neg h]
    refine ⟨phase, fun k => ?_⟩
    unfold wave
    rw [startIdx_eq]
    congr 1
    push_cast; ring

theorem qMat_eq (mode nd nf : ℕ) (hm : mode < nd) (allowFft : Bool) (ext : ℕ) (phase : ℝ) (i j : Fin (nf + ext)) :
    qMat mode nd nf allowFft ext phase i j = wave nd (delayIdx nd mode) ((j.1 : ℝ) - i.1) := by
  unfold qMat
  obtain ⟨c, hc⟩ := modeVec_eq mode nd (nf + ext) hm allowFft (if ext ≠ 0 then phase else 0)
  simp only [hc]
  rw [star_wave, ← wave_add]
  congr 1; ring

theorem qPlain_eq (nf : ℕ) {nd : ℕ} (a : Fin nd) (i j : Fin nf) :
    qPlain nf a i j = star (wave nd (delayIdx nd a) i.1) * wave nd (delayIdx nd a) j.1 := by
  unfold qPlain
  rw [star_wave, ← wave_add]
  refine (qMat_eq a nd nf a.2 true 0 0 i j).trans ?_
  congr 1; ring

/-! ### C46 -/

/-- C46: modes outside `[0, Ndlys)` are rejected, and only those. -/
theorem C46_rejects (mode : ℤ) (nd nf : ℕ) (allowFft : Bool) (ext : ℕ) (phase : ℝ) :
    getQalt mode nd nf allowFft ext phase = .error .index ↔ ¬ (0 ≤ mode ∧ mode < nd) := by
  unfold getQalt
  split
  · simp; omega
  · simp; omega

/-- C46: for every mode, number of delays, number of channels, extension and phase correction, with or without the FFT shortcut, the
matrix is `Q_ij = exp(2 pi i (mode - Ndlys//2)(i - j) / Ndlys)`: the shortcut, the extension and the phase correction never change
an entry. -/
theorem C46_entries (mode : ℤ) (nd nf : ℕ) (allowFft : Bool) (ext : ℕ) (phase : ℝ) (Q : Matrix (Fin (nf + ext)) (Fin (nf + ext)) ℂ)
    (h : getQalt mode nd nf allowFft ext phase = .ok Q) (i j : Fin (nf + ext)) :
    Q i j = Complex.exp (2 * Real.pi * I * (mode - (nd / 2 : ℕ)) * ((i.1 : ℂ) - j.1) / nd) := by
  unfold getQalt at h
  split at h
  · cases h
  · rename_i hn
    injection h with h
    subst h
    push Not at hn
    obtain ⟨k, rfl⟩ := Int.eq_ofNat_of_zero_le hn.2
    rw [Int.toNat_natCast, qMat_eq k nd nf (by omega)]
    unfold wave delayIdx
    generalize nd / 2 = d
    congr 1
    push_cast; ring

/-- C46: the matrix is `conj(m) mᵀ` for a vector `m` of unit-modulus entries, hence Hermitian and of rank one (unless there are no
channels). -/
theorem C46_rank_one (mode : ℤ) (nd nf : ℕ) (allowFft : Bool) (ext : ℕ) (phase : ℝ) (Q : Matrix (Fin (nf + ext)) (Fin (nf + ext)) ℂ)
    (h : getQalt mode nd nf allowFft ext phase = .ok Q) :
    (∃ m : Fin (nf + ext) → ℂ, Q = vecMulVec (star m) m ∧ ∀ k, ‖m k‖ = 1) ∧ Q.IsHermitian ∧ (0 < nf + ext → Q.rank = 1) := by
  have hq : ∃ m : Fin (nf + ext) → ℂ, Q = vecMulVec (star m) m ∧ ∀ k, ‖m k‖ = 1 := by
    unfold getQalt at h
    split at h
    · cases h
    · rename_i hn
      injection h with h
      subst h
      push Not at hn
      refine ⟨fun k => wave nd (delayIdx nd mode.toNat) k.1, ?_, ?_⟩
      · ext i j
        rw [qMat_eq _ nd nf (by omega)]
        simp only [vecMulVec_apply, Pi.star_apply]
        rw [star_wave, ← wave_add]
        congr 1; ring
      · intro k
        have := wave_norm nd (delayIdx nd mode.toNat) k.1
        have h2 := congrArg (‖·‖) this
        simp only [norm_mul, norm_star, norm_one] at h2
        nlinarith [norm_nonneg (wave nd (delayIdx nd mode.toNat) k.1)]
  refine ⟨hq, ?_, ?_⟩
  · obtain ⟨m, rfl, _⟩ := hq
    ext i j
    simp only [conjTranspose_apply, vecMulVec_apply, Pi.star_apply, star_mul', star_star]
    ring
  · intro hpos
    obtain ⟨m, rfl, hm⟩ := hq
    apply le_antisymm (rank_vecMulVec_le _ _)
    rw [Nat.one_le_iff_ne_zero]
    intro h0
    unfold Matrix.rank at h0
    rw [Submodule.finrank_eq_zero, LinearMap.range_eq_bot] at h0
    have h00 := congrFun (LinearMap.congr_fun h0 (Pi.single ⟨0, hpos⟩ 1)) ⟨0, hpos⟩
    rw [Matrix.mulVecLin_apply, Matrix.mulVec_single_one] at h00
    have h000 : star (m ⟨0, hpos⟩) * m ⟨0, hpos⟩ = 0 := h00
    have this : m ⟨0, hpos⟩ = 0 := by
      rcases mul_eq_zero.1 h000 with h | h
      · exact star_eq_zero.1 h
      · exact h
    have h1 := hm ⟨0, hpos⟩
    rw [this] at h1; simp at h1

/-- C46: sandwiching the matrix between two spectra gives the product of their Fourier amplitudes at the mode's delay, the first
conjugated. -/
theorem C46_delay_transform (mode nd nf : ℕ) (hm : mode < nd) (allowFft : Bool) (phase : ℝ) (Q : Matrix (Fin nf) (Fin nf) ℂ)
    (h : getQalt mode nd nf allowFft 0 phase = .ok Q) (x y : Fin nf → ℂ) :
    star x ⬝ᵥ (Q *ᵥ y) = star (amp nd (delayIdx nd mode) x) * amp nd (delayIdx nd mode) y := by
  unfold getQalt at h
  rw [if_neg (by omega)] at h
  injection h with h
  subst h
  unfold amp
  simp only [dotProduct, mulVec, Int.toNat_natCast, star_sum, Finset.mul_sum]
  rw [← Finset.mul_sum, Finset.sum_mul_sum]
  refine Finset.sum_congr rfl (fun i _ => Finset.sum_congr rfl (fun j _ => ?_))
  have e : qMat mode nd nf allowFft 0 phase i j = star (wave nd (delayIdx nd mode) i.1) * wave nd (delayIdx nd mode) j.1 := by
    refine (qMat_eq mode nd nf hm allowFft 0 phase i j).trans ?_
    rw [star_wave, ← wave_add]; congr 1; ring
  have e' : (qMat mode nd nf allowFft 0 phase : Matrix (Fin nf) (Fin nf) ℂ) i j = _ := e
  rw [e']
  simp only [Pi.star_apply, star_mul']
  ring

/-! ### q_hat -/

theorem sandwich {nf nd : ℕ} (a : Fin nd) (x y : Fin nf → ℂ) :
    ∑ i, star (x i) * ∑ j, qPlain nf a i j * y j = star (amp nd (delayIdx nd a) x) * amp nd (delayIdx nd a) y := by
  unfold amp
  simp only [star_sum, Finset.mul_sum]
  rw [← Finset.mul_sum, Finset.sum_mul_sum]
  refine Finset.sum_congr rfl (fun i _ => Finset.sum_congr rfl (fun j _ => ?_))
  rw [qPlain_eq]
  simp only [star_mul']
  ring

theorem fftshift_fft {n : ℕ} (x : Fin n → ℂ) (a : Fin n) : fftshift (fft x) a = amp n (delayIdx n a) x := by
  haveI : NeZero n := ⟨by have := a.2; omega⟩
  unfold fftshift amp
  rw [fft_ph]
  refine Finset.sum_congr rfl (fun k _ => ?_)
  congr 1
  rw [← ph_eq_wave]
  push_cast
  rw [ph_emod]
  have : (k.1 : ℤ) * ((a.1 : ℤ) + ((n - n / 2 : ℕ) : ℤ)) = (k.1 : ℤ) * (delayIdx n a) + n * k.1 := by
    unfold delayIdx
    rw [Nat.cast_sub (by omega)]; ring
  rw [this, ph_add, Noise.ph_mul_n, mul_one, mul_comm]

theorem sumRx_nil {nf ne : ℕ} {T : Type} : sumRx ([] : List (Matrix (Fin nf) (Fin ne) ℂ × Matrix (Fin ne) T ℂ)) = 0 := rfl

theorem foldl_add {α M : Type} [AddCommMonoid M] (f : α → M) (l : List α) (z : M) : l.foldl (fun acc p => acc + f p) z = z + (l.map f).sum := by
  induction l generalizing z with
  | nil => simp
  | cons a l ih => simp [ih, add_assoc]

theorem sumRx_eq {nf ne : ℕ} {T : Type} (l : List (Matrix (Fin nf) (Fin ne) ℂ × Matrix (Fin ne) T ℂ)) : sumRx l = (l.map (fun p => p.1 * p.2)).sum := by
  unfold sumRx; rw [foldl_add, zero_add]

theorem sumRx_one {nf ne : ℕ} {T : Type} (R : Matrix (Fin nf) (Fin ne) ℂ) (x : Matrix (Fin ne) T ℂ) : sumRx [(R, x)] = R * x := by
  rw [sumRx_eq]; simp

/-- C47: with as many delays as channels, the FFT and the matrix form of `q_hat` agree for all data and weightings, odd or even. -/
theorem C47_fft_equals_matrix {n ne : ℕ} {T : Type} (norm : Norm n) (hn : norm.exact = false)
    (l1 l2 : List (Matrix (Fin n) (Fin ne) ℂ × Matrix (Fin ne) T ℂ)) :
    (qHat true norm l1 l2 : Except Err (Fin n → T → ℂ)) = qHat false norm l1 l2 := by
  unfold qHat
  simp only [hn, Bool.false_eq_true, false_and, if_false, true_and, and_self, dite_true, dite_false]
  congr 1
  funext a t
  rw [sandwich]
  simp only [Fin.cast_eq_self, fftshift_fft]
  ring

/-- C47: the FFT is silently not used when the number of delays differs from the number of channels. -/
theorem C47_fft_ignored {nf nd ne : ℕ} {T : Type} (h : nf ≠ nd) (norm : Norm nf) (hn : norm.exact = false)
    (l1 l2 : List (Matrix (Fin nf) (Fin ne) ℂ × Matrix (Fin ne) T ℂ)) :
    (qHat true norm l1 l2 : Except Err (Fin nd → T → ℂ)) = qHat false norm l1 l2 := by
  unfold qHat
  simp [hn, h]

/-- C47: exact normalisation refuses the FFT. -/
theorem C47_exact_refuses_fft {nf nd ne : ℕ} {T : Type} (norm : Norm nf) (hn : norm.exact = true)
    (l1 l2 : List (Matrix (Fin nf) (Fin ne) ℂ × Matrix (Fin ne) T ℂ)) :
    (qHat true norm l1 l2 : Except Err (Fin nd → T → ℂ)) = .error .notImpl := by
  unfold qHat
  simp [hn]

/-- C48: every bandpower is half the product of the Fourier amplitudes of the weighted spectra (summed over the keys) at the delay of the
mode, the first conjugated. -/
theorem C48_value {nf nd ne : ℕ} {T : Type} (allowFft : Bool) (norm : Norm nf) (hn : norm.exact = false)
    (l1 l2 : List (Matrix (Fin nf) (Fin ne) ℂ × Matrix (Fin ne) T ℂ)) :
    (qHat allowFft norm l1 l2 : Except Err (Fin nd → T → ℂ)) = .ok (fun a t =>
      1 / 2 * (star (amp nd (delayIdx nd a) (fun k => (l1.map (fun p => p.1 * p.2)).sum k t)) *
        amp nd (delayIdx nd a) (fun k => (l2.map (fun p => p.1 * p.2)).sum k t))) := by
  have hm : (qHat allowFft norm l1 l2 : Except Err (Fin nd → T → ℂ)) = qHat false norm l1 l2 := by
    cases allowFft
    · rfl
    · by_cases h : nf = nd
      · subst h; exact C47_fft_equals_matrix norm hn l1 l2
      · exact C47_fft_ignored h norm hn l1 l2
  rw [hm]
  unfold qHat
  simp only [hn, Bool.false_eq_true, false_and, if_false, dite_false]
  congr 1
  funext a t
  rw [sandwich, sumRx_eq, sumRx_eq]

end
end HeraPspec.Oqe
