import Verif.Props.Oqe4

/-!
C132: `get_H` is the response of the unnormalised bandpowers to the true ones, and normalised bandpowers are the true ones seen through
the window functions that are returned with them.
-/
namespace HeraPspec.Oqe
open Matrix Complex
open scoped ComplexOrder
noncomputable section

/-! ### Specification -/

/-- Average of a quantity over an ensemble of realisations with weights `P`. -/
def ensemble {Ω : Type} (S : Finset Ω) (P : Ω → ℂ) (f : Ω → ℂ) : ℂ := ∑ r ∈ S, P r * f r

/-- Correlation between channels `i` (conjugated) and `j` of a signal made of uncorrelated tones with power `p b` at delay `b`: exactly at the
centre of each delay bin (`sampling`), or spread evenly across it. -/
def signalCov (sampling : Bool) {nd : ℕ} (n left : ℕ) (p : Fin nd → ℂ) (i j : Fin n) : ℂ :=
  ∑ b, p b * (if sampling then star (tone nd (delayIdx nd b) n left 0 i) * tone nd (delayIdx nd b) n left 0 j
    else ∫ u in (-(1 / 2) : ℝ)..(1 / 2), star (tone nd (delayIdx nd b) n left u i) * tone nd (delayIdx nd b) n left u j)

/-- The two weighted data sets respond to some tone. -/
def Responds (sampling : Bool) {nf ne : ℕ} (nd left : ℕ) (R1 R2 : Matrix (Fin nf) (Fin ne) ℂ) : Prop :=
  if sampling then ∃ a b : Fin nd, star (respTo nd (delayIdx nd a) R1 (tone nd (delayIdx nd b) ne left 0)) *
      respTo nd (delayIdx nd a) R2 (tone nd (delayIdx nd b) ne left 0) ≠ 0
  else ∃ a b : Fin nd, binResp nd left R1 R2 a b ≠ 0

/-! ### Proofs -/

/-- The tensor that `get_H` contracts. -/
def kern (sampling : Bool) {nd : ℕ} (nf left right : ℕ) (b : Fin nd) : Matrix (Fin (nf + (left + right))) (Fin (nf + (left + right))) ℂ :=
  if sampling then qExt nf b left right else Matrix.of (fun i j => qExt nf b left right i j * (sincMat (nf + (left + right)) i j : ℂ))

def rawGH (sampling : Bool) {nf left right : ℕ} (nd : ℕ) (R1 R2 : Matrix (Fin nf) (Fin (nf + (left + right))) ℂ) : Matrix (Fin nd) (Fin nd) ℂ :=
  fun a b => trace (R1ᴴ * qPlain nf a * (R2 * kern sampling nf left right b))

theorem rawGH_sum (sampling : Bool) {nf left right nd : ℕ} (R1 R2 : Matrix (Fin nf) (Fin (nf + (left + right))) ℂ) (a b : Fin nd) :
    rawGH sampling nd R1 R2 a b = ∑ i, ∑ j, ((fun k : Fin nf => wave nd (delayIdx nd a) k.1) ᵥ* R2) i * kern sampling nf left right b i j *
      star (((fun k : Fin nf => wave nd (delayIdx nd a) k.1) ᵥ* R1) j) := by
  unfold rawGH
  rw [qPlain_vec, traceForm]

theorem rawGH_true {nf left right nd : ℕ} (R1 R2 : Matrix (Fin nf) (Fin (nf + (left + right))) ℂ) : rawGH true nd R1 R2 = rawG nd R1 R2 := rfl
theorem rawGH_false {nf left right nd : ℕ} (R1 R2 : Matrix (Fin nf) (Fin (nf + (left + right))) ℂ) : rawGH false nd R1 R2 = rawH nd R1 R2 := rfl

theorem rawGH_ne {sampling : Bool} {nf left right nd : ℕ} {R1 R2 : Matrix (Fin nf) (Fin (nf + (left + right))) ℂ} (h : Responds sampling nd left R1 R2) :
    rawGH sampling nd R1 R2 ≠ 0 := by
  intro hz
  cases sampling with
  | true =>
    obtain ⟨a, b, h⟩ := h
    apply h
    rw [mul_comm, ← rawG_eq, ← rawGH_true, hz]; rfl
  | false =>
    obtain ⟨a, b, h⟩ := h
    apply h
    have : binResp nd left R1 R2 a b = rawH nd R1 R2 a b := by
      rw [rawH_eq]; unfold binResp
      congr 1
      funext u
      exact mul_comm _ _
    rw [this, ← rawGH_false, hz]; rfl

theorem getH_raw {sampling : Bool} {nf left right nd : ℕ} {R1 R2 : Matrix (Fin nf) (Fin (nf + (left + right))) ℂ} (h : Responds sampling nd left R1 R2)
    (a b : Fin nd) : getH nd sampling R1 R2 a b = 1 / 2 * rawGH sampling nd R1 R2 a b := by
  have hg : getH nd sampling R1 R2 = (1 / 2 : ℂ) • (if rawGH sampling nd R1 R2 = 0 then 1 else rawGH sampling nd R1 R2) := rfl
  rw [hg, if_neg (rawGH_ne h), Matrix.smul_apply, smul_eq_mul]

theorem kern_cov (sampling : Bool) {nd nf left right : ℕ} (b : Fin nd) (i j : Fin (nf + (left + right))) :
    kern sampling nf left right b j i = (if sampling then star (tone nd (delayIdx nd b) (nf + (left + right)) left 0 i) * tone nd (delayIdx nd b) (nf + (left + right)) left 0 j
    else ∫ u in (-(1 / 2) : ℝ)..(1 / 2), star (tone nd (delayIdx nd b) (nf + (left + right)) left u i) * tone nd (delayIdx nd b) (nf + (left + right)) left u j) := by
  cases sampling with
  | true =>
    simp only [kern, if_true]
    rw [qExt_tone, mul_comm]
  | false =>
    simp only [kern, Bool.false_eq_true, if_false, Matrix.of_apply]
    have e : ∀ u : ℝ, star (tone nd (delayIdx nd b) (nf + (left + right)) left u i) * tone nd (delayIdx nd b) (nf + (left + right)) left u j =
        (tone nd (delayIdx nd b) (nf + (left + right)) left 0 j * star (tone nd (delayIdx nd b) (nf + (left + right)) left 0 i)) *
          Complex.exp (2 * Real.pi * I * (u * (((j.1 : ℝ) - i.1) / (nf + (left + right) : ℕ) : ℝ))) := by
      intro u
      rw [mul_comm, tone_prod]
    rw [intervalIntegral.integral_congr (fun u _ => e u), intervalIntegral.integral_const_mul, integral_phase, qExt_tone]
    rfl

/-- C132: `<q_a> = sum_b H_ab p_b`, as documented, for every ensemble of data whose cross-correlation is that of a signal with bandpowers `p`
(noise that is uncorrelated between the two data sets does not matter), every pair of weightings, extension, number of delays and choice of
`sampling`, unless the response vanishes altogether. -/
theorem C132_response {Ω T : Type} (S : Finset Ω) (P : Ω → ℂ) {nf left right nd : ℕ} (sampling allowFft : Bool) (norm : Norm nf) (hn : norm.exact = false)
    (R1 R2 : Matrix (Fin nf) (Fin (nf + (left + right))) ℂ) (hR : Responds sampling nd left R1 R2) (p : Fin nd → ℂ)
    (x1 x2 : Ω → Matrix (Fin (nf + (left + right))) T ℂ) (t : T)
    (hcov : ∀ i j, ensemble S P (fun r => star (x1 r i t) * x2 r j t) = signalCov sampling (nf + (left + right)) left p i j)
    (q : Ω → Fin nd → T → ℂ) (hq : ∀ r ∈ S, qHat allowFft norm [(R1, x1 r)] [(R2, x2 r)] = .ok (q r)) (a : Fin nd) :
    ensemble S P (fun r => q r a t) = ∑ b, getH nd sampling R1 R2 a b * p b := by
  set c1 := (fun k : Fin nf => wave nd (delayIdx nd a) k.1) ᵥ* R1 with hc1
  set c2 := (fun k : Fin nf => wave nd (delayIdx nd a) k.1) ᵥ* R2 with hc2
  have hqr : ∀ r ∈ S, q r a t = 1 / 2 * ∑ i, ∑ j, star (c1 i) * c2 j * (star (x1 r i t) * x2 r j t) := by
    intro r hr
    have h := hq r hr
    rw [C48_value allowFft norm hn] at h
    injection h with h
    rw [← h]
    have e : ∀ (R : Matrix (Fin nf) (Fin (nf + (left + right))) ℂ) (x : Matrix (Fin (nf + (left + right))) T ℂ),
        amp nd (delayIdx nd a) (fun k => (List.map (fun p : Matrix (Fin nf) (Fin (nf + (left + right))) ℂ × Matrix (Fin (nf + (left + right))) T ℂ => p.1 * p.2) [(R, x)]).sum k t) =
          ∑ i, ((fun k : Fin nf => wave nd (delayIdx nd a) k.1) ᵥ* R) i * x i t := by
      intro R x
      rw [resp_eq nd (delayIdx nd a) R (fun i => x i t)]
      unfold respTo
      congr 1
      funext k
      simp [Matrix.mul_apply, Matrix.mulVec, dotProduct]
    simp only [e]
    rw [star_sum, Finset.sum_mul_sum]
    congr 1
    refine Finset.sum_congr rfl (fun i _ => Finset.sum_congr rfl (fun j _ => ?_))
    rw [star_mul']
    ring
  have h1 : ensemble S P (fun r => q r a t) = 1 / 2 * ∑ i, ∑ j, star (c1 i) * c2 j * ensemble S P (fun r => star (x1 r i t) * x2 r j t) := by
    unfold ensemble
    have e : ∑ r ∈ S, P r * q r a t = ∑ r ∈ S, P r * (1 / 2 * ∑ i, ∑ j, star (c1 i) * c2 j * (star (x1 r i t) * x2 r j t)) :=
      Finset.sum_congr rfl (fun r hr => by rw [hqr r hr])
    rw [e]
    simp only [Finset.mul_sum]
    rw [Finset.sum_comm]
    refine Finset.sum_congr rfl (fun i _ => ?_)
    rw [Finset.sum_comm]
    refine Finset.sum_congr rfl (fun j _ => Finset.sum_congr rfl (fun r _ => ?_))
    ring
  rw [h1]
  simp only [hcov, getH_raw hR, rawGH_sum, signalCov, ← kern_cov]
  simp only [Finset.mul_sum, Finset.sum_mul]
  rw [Finset.sum_comm]
  rw [Finset.sum_congr rfl (fun i _ => Finset.sum_comm), Finset.sum_comm]
  refine Finset.sum_congr rfl (fun b _ => ?_)
  refine Finset.sum_congr rfl (fun i _ => Finset.sum_congr rfl (fun j _ => ?_))
  rw [← hc1, ← hc2]
  ring

theorem sum_tones {nf left right nd : ℕ} (hnd : nf + (left + right) ≤ nd) {i j : Fin (nf + (left + right))} (hij : i ≠ j) :
    ∑ b : Fin nd, qExt nf b left right i j = 0 := by
  have hnd0 : (nd : ℂ) ≠ 0 := by
    have := i.2
    exact_mod_cast (by omega : nd ≠ 0)
  set w : ℂ := Complex.exp (2 * Real.pi * I * ((i.1 : ℂ) - j.1) / nd) with hw
  have hb : ∀ b : Fin nd, qExt nf b left right i j = Complex.exp (2 * Real.pi * I * (-(nd / 2 : ℕ)) * ((i.1 : ℂ) - j.1) / nd) * w ^ b.1 := by
    intro b
    rw [qExt_tone, hw, ← Complex.exp_nat_mul, ← Complex.exp_add]
    unfold tone delayIdx
    rw [Complex.star_def, ← Complex.exp_conj, ← Complex.exp_add]
    congr 1
    have e2 : (((nd : ℤ) / 2 : ℤ) : ℂ) = ((nd / 2 : ℕ) : ℂ) := by norm_cast
    simp [map_ofNat]
    rw [e2]
    field_simp
    ring
  simp only [hb]
  rw [← Finset.mul_sum, Fin.sum_univ_eq_sum_range (fun k => w ^ k)]
  have hpow : w ^ nd = 1 := by
    rw [hw, ← Complex.exp_nat_mul, Complex.exp_eq_one_iff]
    refine ⟨(i.1 : ℤ) - j.1, ?_⟩
    push_cast
    field_simp
  have hne : w ≠ 1 := by
    rw [hw, Ne, Complex.exp_eq_one_iff]
    rintro ⟨k, hk⟩
    have h2 : (2 * Real.pi * I : ℂ) ≠ 0 := Complex.two_pi_I_ne_zero
    have h3 : (i.1 : ℂ) - j.1 = k * nd := by
      field_simp at hk
      linear_combination hk
    have h4 : (i.1 : ℤ) - j.1 = k * nd := by exact_mod_cast h3
    have hi := i.2
    have hj := j.2
    have hij' : (i.1 : ℤ) ≠ j.1 := by
      intro h; exact hij (Fin.ext (by exact_mod_cast h))
    rcases lt_trichotomy k 0 with h | h | h
    · nlinarith
    · subst h; simp at h4; omega
    · nlinarith
  have hg : (w - 1) * ∑ k ∈ Finset.range nd, w ^ k = 0 := by
    rw [mul_comm, geom_sum_mul, hpow, sub_self]
  rcases mul_eq_zero.1 hg with h | h
  · exact absurd (sub_eq_zero.1 h) hne
  · rw [h, mul_zero]

/-- C132: the cross-correlation required above is that of one signal of uncorrelated tones seen by both data sets, plus noise in each that is uncorrelated with
the signal and with the noise of the other. -/
theorem C132_signal_and_noise {Ω T : Type} (S : Finset Ω) (P : Ω → ℂ) {nd : ℕ} (n left : ℕ) (p : Fin nd → ℂ) (A : Ω → Fin nd → ℂ) (t : T)
    (n1 n2 : Ω → Matrix (Fin n) T ℂ) (hA : ∀ b c, ensemble S P (fun r => star (A r b) * A r c) = if b = c then p b else 0)
    (h1 : ∀ i b, ensemble S P (fun r => star (n1 r i t) * A r b) = 0) (h2 : ∀ b j, ensemble S P (fun r => star (A r b) * n2 r j t) = 0)
    (h12 : ∀ i j, ensemble S P (fun r => star (n1 r i t) * n2 r j t) = 0) (i j : Fin n) :
    ensemble S P (fun r => star ((∑ b, A r b * tone nd (delayIdx nd b) n left 0 i) + n1 r i t) * ((∑ b, A r b * tone nd (delayIdx nd b) n left 0 j) + n2 r j t)) =
      signalCov true n left p i j := by
  set f : Fin nd → Fin n → ℂ := fun b k => tone nd (delayIdx nd b) n left 0 k
  have e : ∀ r, star ((∑ b, A r b * f b i) + n1 r i t) * ((∑ b, A r b * f b j) + n2 r j t) =
      (∑ b, ∑ c, star (f b i) * f c j * (star (A r b) * A r c)) + (∑ b, f b j * (star (n1 r i t) * A r b)) +
        (∑ b, star (f b i) * (star (A r b) * n2 r j t)) + star (n1 r i t) * n2 r j t := by
    intro r
    rw [star_add, star_sum, add_mul, mul_add, mul_add, Finset.sum_mul_sum, Finset.sum_mul, Finset.mul_sum]
    have a1 : ∑ b, ∑ c, star (A r b * f b i) * (A r c * f c j) = ∑ b, ∑ c, star (f b i) * f c j * (star (A r b) * A r c) :=
      Finset.sum_congr rfl (fun b _ => Finset.sum_congr rfl (fun c _ => by rw [star_mul']; ring))
    have a2 : ∑ b, star (A r b * f b i) * n2 r j t = ∑ b, star (f b i) * (star (A r b) * n2 r j t) :=
      Finset.sum_congr rfl (fun b _ => by rw [star_mul']; ring)
    have a3 : ∑ b, star (n1 r i t) * (A r b * f b j) = ∑ b, f b j * (star (n1 r i t) * A r b) :=
      Finset.sum_congr rfl (fun b _ => by ring)
    rw [a1, a2, a3]; ring
  have lin2 : ∀ (g : Fin nd → Fin nd → ℂ) (X : Ω → Fin nd → Fin nd → ℂ), ensemble S P (fun r => ∑ b, ∑ c, g b c * X r b c) = ∑ b, ∑ c, g b c * ensemble S P (fun r => X r b c) := by
    intro g X
    unfold ensemble
    simp only [Finset.mul_sum]
    rw [Finset.sum_comm]
    refine Finset.sum_congr rfl (fun b _ => ?_)
    rw [Finset.sum_comm]
    exact Finset.sum_congr rfl (fun c _ => Finset.sum_congr rfl (fun r _ => by ring))
  have lin1 : ∀ (g : Fin nd → ℂ) (X : Ω → Fin nd → ℂ), ensemble S P (fun r => ∑ b, g b * X r b) = ∑ b, g b * ensemble S P (fun r => X r b) := by
    intro g X
    unfold ensemble
    simp only [Finset.mul_sum]
    rw [Finset.sum_comm]
    exact Finset.sum_congr rfl (fun c _ => Finset.sum_congr rfl (fun r _ => by ring))
  have add : ∀ X Y : Ω → ℂ, ensemble S P (fun r => X r + Y r) = ensemble S P X + ensemble S P Y := by
    intro X Y
    unfold ensemble
    simp only [mul_add, Finset.sum_add_distrib]
  have main : ensemble S P (fun r => star ((∑ b, A r b * f b i) + n1 r i t) * ((∑ b, A r b * f b j) + n2 r j t)) = ∑ b, ∑ c, star (f b i) * f c j * (if b = c then p b else 0) := by
    rw [funext e, add, add, add, h12, lin2 (fun b c => star (f b i) * f c j) (fun r b c => star (A r b) * A r c), lin1 (fun b => f b j) (fun r b => star (n1 r i t) * A r b),
      lin1 (fun b => star (f b i)) (fun r b => star (A r b) * n2 r j t)]
    simp only [hA, h1, h2, mul_zero, Finset.sum_const_zero, add_zero]
  rw [main]
  unfold signalCov
  refine Finset.sum_congr rfl (fun b _ => ?_)
  simp only [mul_ite, mul_zero, Finset.sum_ite_eq, Finset.mem_univ, if_true]
  ring

/-- With at least as many delays as channels of the extended band, the row sums of `G` and `H` agree. -/
theorem rowSum_agree {nf left right nd : ℕ} (hnd : nf + (left + right) ≤ nd) (R1 R2 : Matrix (Fin nf) (Fin (nf + (left + right))) ℂ) (sampling : Bool) (a : Fin nd) :
    ∑ b, rawGH sampling nd R1 R2 a b = ∑ b, rawGH true nd R1 R2 a b := by
  cases sampling with
  | true => rfl
  | false =>
    simp only [rawGH_sum]
    rw [Finset.sum_comm, Finset.sum_comm (s := Finset.univ (α := Fin nd))]
    refine Finset.sum_congr rfl (fun i _ => ?_)
    rw [Finset.sum_comm, Finset.sum_comm (s := Finset.univ (α := Fin nd))]
    refine Finset.sum_congr rfl (fun j _ => ?_)
    rw [← Finset.sum_mul, ← Finset.sum_mul, ← Finset.mul_sum, ← Finset.mul_sum]
    congr 2
    simp only [kern, Bool.false_eq_true, if_false, if_true, Matrix.of_apply]
    rw [← Finset.sum_mul]
    by_cases hij : i = j
    · subst hij
      have : (sincMat (nf + (left + right)) i i : ℂ) = 1 := by simp [sincMat, npSinc]
      rw [this, mul_one]
    · have : ∑ b : Fin nd, qExt nf b left right i j = 0 := by
        exact sum_tones hnd hij
      rw [this, zero_mul]

/-- Row sums in the terms of the specification: with `sampling`, or with at least as many delays as channels of the extended band, the
normalisation in mode 'I' (from `G`) is the one of the window functions (from `H`). -/
theorem C132_row_sums {nf left right nd : ℕ} (sampling : Bool) (R1 R2 : Matrix (Fin nf) (Fin (nf + (left + right))) ℂ)
    (hG : Responds true nd left R1 R2) (hH : Responds sampling nd left R1 R2) (hn : sampling = true ∨ nf + (left + right) ≤ nd) (a : Fin nd) :
    ∑ b, getG nd R1 R2 a b = ∑ b, getH nd sampling R1 R2 a b := by
  rw [← C88_sampling]
  simp only [getH_raw hG, getH_raw hH]
  rw [← Finset.mul_sum, ← Finset.mul_sum]
  congr 1
  rcases hn with h | h
  · subst h; rfl
  · exact (rowSum_agree h R1 R2 sampling a).symm

/-- C132: normalised bandpowers are, on average, the true ones seen through the window functions returned with them: `<p_hat> = W p`, in
every supported mode. Missing: mode 'I' without `sampling` and with fewer delays than channels of the extended band (see the
counterexample), mode 'H^-1' with a singular response (`C132_counterexample_singular`; `C132_bias` covers both), and exact normalisation
(C137). -/
theorem C132_window_partial {Ω T : Type} (S : Finset Ω) (P : Ω → ℂ) {nf left right nd : ℕ} (sampling allowFft : Bool) (norm : Norm nf) (hn : norm.exact = false)
    (R1 R2 : Matrix (Fin nf) (Fin (nf + (left + right))) ℂ) (hG : Responds true nd left R1 R2) (hR : Responds sampling nd left R1 R2) (p : Fin nd → ℂ)
    (x1 x2 : Ω → Matrix (Fin (nf + (left + right))) T ℂ) (t : T)
    (hcov : ∀ i j, ensemble S P (fun r => star (x1 r i t) * x2 r j t) = signalCov sampling (nf + (left + right)) left p i j)
    (q : Ω → Fin nd → T → ℂ) (hq : ∀ r ∈ S, qHat allowFft norm [(R1, x1 r)] [(R2, x2 r)] = .ok (q r))
    (pinv : Matrix (Fin nd) (Fin nd) ℂ → Matrix (Fin nd) (Fin nd) ℂ) (mode : Mode) (eig : Option (Eig nd)) (M W : Matrix (Fin nd) (Fin nd) ℂ)
    (hMW : getMW pinv (getG nd R1 R2) (getH nd sampling R1 R2) mode eig norm.exact = .ok (M, W))
    (hI : mode = .I → sampling = true ∨ nf + (left + right) ≤ nd) (hH : mode = .Hinv → (getH nd sampling R1 R2).det ≠ 0) (a : Fin nd) :
    ensemble S P (fun r => pHat M (Matrix.of (q r)) a t) = ∑ b, W a b * p b := by
  have hlin : ensemble S P (fun r => pHat M (Matrix.of (q r)) a t) = ∑ c, M a c * ensemble S P (fun r => q r c t) := by
    unfold ensemble pHat
    simp only [Matrix.mul_apply, Matrix.of_apply, Finset.mul_sum]
    rw [Finset.sum_comm]
    refine Finset.sum_congr rfl (fun c _ => Finset.sum_congr rfl (fun r _ => ?_))
    ring
  have hresp := C132_response S P sampling allowFft norm hn R1 R2 hR p x1 x2 t hcov q hq
  have hMH : ensemble S P (fun r => pHat M (Matrix.of (q r)) a t) = ∑ b, (M * getH nd sampling R1 R2) a b * p b := by
    rw [hlin]
    simp only [hresp, Matrix.mul_apply, Finset.mul_sum, Finset.sum_mul]
    rw [Finset.sum_comm]
    refine Finset.sum_congr rfl (fun c _ => Finset.sum_congr rfl (fun r _ => ?_))
    ring
  rw [hMH]
  suffices h : M * getH nd sampling R1 R2 = W by rw [h]
  rw [hn] at hMW
  cases mode with
  | other => simp [getMW] at hMW
  | Linv => simp [getMW] at hMW
  | Hinv =>
    obtain ⟨h1, h2⟩ := (C50_inverse pinv _ _ M W eig false hMW).2 (hH rfl)
    rw [h1, h2]
  | Vhalf => exact ((C50_root pinv _ _ M W eig false hMW).1).symm
  | I =>
    unfold getMW at hMW
    simp only [reduceCtorEq, if_false, ne_eq, not_true, false_and] at hMW
    injection hMW with hMW
    injection hMW with h1 h2
    have e : (fun i => 1 / rowSum (getG nd R1 R2) i) = (fun i => 1 / rowSum (getH nd sampling R1 R2) i) := by
      funext i
      unfold rowSum
      rw [C132_row_sums sampling R1 R2 hG hR (hI rfl) i]
    rw [← h1, ← h2, e]

/-- C132: a signal with the same power at all delays is recovered without bias in mode 'I', whatever the weightings and tapers (where the rows do not sum to
zero). -/
theorem C132_flat_spectrum {Ω T : Type} (S : Finset Ω) (P : Ω → ℂ) {nf left right nd : ℕ} (sampling allowFft : Bool) (norm : Norm nf) (hn : norm.exact = false)
    (R1 R2 : Matrix (Fin nf) (Fin (nf + (left + right))) ℂ) (hG : Responds true nd left R1 R2) (hR : Responds sampling nd left R1 R2) (p : ℂ)
    (x1 x2 : Ω → Matrix (Fin (nf + (left + right))) T ℂ) (t : T)
    (hcov : ∀ i j, ensemble S P (fun r => star (x1 r i t) * x2 r j t) = signalCov sampling (nd := nd) (nf + (left + right)) left (fun _ => p) i j)
    (q : Ω → Fin nd → T → ℂ) (hq : ∀ r ∈ S, qHat allowFft norm [(R1, x1 r)] [(R2, x2 r)] = .ok (q r))
    (pinv : Matrix (Fin nd) (Fin nd) ℂ → Matrix (Fin nd) (Fin nd) ℂ) (M W : Matrix (Fin nd) (Fin nd) ℂ)
    (hMW : getMW pinv (getG nd R1 R2) (getH nd sampling R1 R2) .I none norm.exact = .ok (M, W))
    (hI : sampling = true ∨ nf + (left + right) ≤ nd) (a : Fin nd) (ha : ∑ b, getH nd sampling R1 R2 a b ≠ 0) :
    ensemble S P (fun r => pHat M (Matrix.of (q r)) a t) = p := by
  rw [C132_window_partial S P sampling allowFft norm hn R1 R2 hG hR (fun _ => p) x1 x2 t hcov q hq pinv .I none M W hMW (fun _ => hI) (by simp) a,
    ← Finset.sum_mul, (C50_identity pinv _ _ M W none norm.exact hMW a).1 ha, one_mul]

theorem few_G : getG (nf := 2) (left := 0) (right := 0) 1 (1 : Matrix (Fin 2) (Fin (2 + (0 + 0))) ℂ) 1 0 0 = 2 ∧
    Responds true (nf := 2) (ne := 2 + (0 + 0)) 1 0 1 1 := by
  have hr : star (respTo 1 (delayIdx 1 ((0 : Fin 1) : ℕ)) (1 : Matrix (Fin 2) (Fin 2) ℂ) (tone 1 (delayIdx 1 ((0 : Fin 1) : ℕ)) 2 0 0)) *
      respTo 1 (delayIdx 1 ((0 : Fin 1) : ℕ)) (1 : Matrix (Fin 2) (Fin 2) ℂ) (tone 1 (delayIdx 1 ((0 : Fin 1) : ℕ)) 2 0 0) = 4 := by
    simp [respTo, amp, tone, wave, delayIdx, Fin.sum_univ_two]
    norm_num
  have hne : Responds true (nf := 2) (ne := 2 + (0 + 0)) 1 0 1 1 := ⟨0, 0, fun h => absurd (hr.symm.trans h) (by norm_num)⟩
  refine ⟨?_, hne⟩
  rw [(C49_value (nf := 2) (left := 0) (right := 0) 1 1 1).1 hne 0 0]
  exact (congrArg (fun z => 1 / 2 * z) hr).trans (by norm_num)

theorem npSinc_half : npSinc (1 / 2) = 2 / Real.pi ∧ npSinc (-(1 / 2)) = 2 / Real.pi ∧ npSinc 0 = 1 := by
  have hpi := Real.pi_ne_zero
  have e : npSinc (1 / 2) = 2 / Real.pi := by
    unfold npSinc
    rw [Real.sinc_of_ne_zero (by positivity), show Real.pi * (1 / 2) = Real.pi / 2 by ring, Real.sin_pi_div_two]
    field_simp
  refine ⟨e, ?_, by simp [npSinc]⟩
  rw [← e]
  unfold npSinc
  rw [mul_neg, Real.sinc_neg]

/-- The correlations of a signal spread evenly across the single delay bin of a two-channel window. -/
theorem few_kern (i j : Fin 2) : kern false (nd := 1) 2 0 0 0 i j = if i = j then 1 else 2 / Real.pi := by
  have hq : qExt (nd := 1) 2 0 0 0 i j = 1 := by
    rw [qExt_tone]
    simp [tone, delayIdx]
  have hk : kern false (nd := 1) 2 0 0 0 i j = qExt (nd := 1) 2 0 0 0 i j * ((npSinc (((i.1 : ℝ) - j.1) / (2 : ℕ)) : ℝ) : ℂ) := rfl
  rw [hk, hq, one_mul]
  obtain ⟨h1, h2, h3⟩ := npSinc_half
  fin_cases i <;> fin_cases j <;> simp
  · exact_mod_cast h3
  · rw [show (-1 / 2 : ℝ) = -(1 / 2) by norm_num, h2]; push_cast; rfl
  · rw [show (2⁻¹ : ℝ) = 1 / 2 by norm_num, h1]; push_cast; rfl
  · exact_mod_cast h3

theorem few_H : rawGH false (nf := 2) (left := 0) (right := 0) 1 (1 : Matrix (Fin 2) (Fin (2 + (0 + 0))) ℂ) 1 0 0 = 2 + 4 / Real.pi := by
  rw [rawGH_sum]
  change ∑ i : Fin 2, ∑ j : Fin 2, ((fun k : Fin 2 => wave 1 (delayIdx 1 ((0 : Fin 1) : ℕ)) k.1) ᵥ* (1 : Matrix (Fin 2) (Fin 2) ℂ)) i * kern false (nd := 1) 2 0 0 0 i j *
    star (((fun k : Fin 2 => wave 1 (delayIdx 1 ((0 : Fin 1) : ℕ)) k.1) ᵥ* (1 : Matrix (Fin 2) (Fin 2) ℂ)) j) = _
  simp only [Matrix.vecMul_one, few_kern, Fin.sum_univ_two]
  simp [wave, delayIdx]
  ring

/-- The hypotheses hold: two tones of power 1 and 4 in two channels, two delays, no weights. -/
example : ∃ A : Fin 2 → Fin 2 → ℂ, (∀ b c, ensemble Finset.univ (fun _ => 1) (fun r => star (A r b) * A r c) = if b = c then ![1, 4] b else 0) ∧
    Responds true (nf := 2) (ne := 2 + (0 + 0)) 2 0 1 1 := by
  refine ⟨fun r b => if r = b then ![1, 2] b else 0, ?_, ⟨1, 1, ?_⟩⟩
  · intro b c
    fin_cases b <;> fin_cases c <;> simp [ensemble, map_ofNat] <;> norm_num
  · have hr : star (respTo 2 (delayIdx 2 ((1 : Fin 2) : ℕ)) (1 : Matrix (Fin 2) (Fin 2) ℂ) (tone 2 (delayIdx 2 ((1 : Fin 2) : ℕ)) 2 0 0)) *
      respTo 2 (delayIdx 2 ((1 : Fin 2) : ℕ)) (1 : Matrix (Fin 2) (Fin 2) ℂ) (tone 2 (delayIdx 2 ((1 : Fin 2) : ℕ)) 2 0 0) = 4 := by
      simp [respTo, amp, tone, wave, delayIdx, Fin.sum_univ_two]
      norm_num
    exact fun h => absurd (hr.symm.trans h) (by norm_num)

/-- C132 counterexample: with one delay for two channels (unweighted, without `sampling`), a signal of unit power comes out of mode 'I' as
`1/2 + 1/pi`, about 0.82, although the window function says it should be one. The same happens with a filter extension, which
makes the extended band wider than the number of delays. -/
theorem C132_counterexample_few_delays : ∃ (x1 x2 : Fin 2 → Matrix (Fin (2 + (0 + 0))) Unit ℂ) (q : Fin 2 → Fin 1 → Unit → ℂ) (M W : Matrix (Fin 1) (Fin 1) ℂ),
    (∀ i j, ensemble Finset.univ (fun _ => 1) (fun r => star (x1 r i ()) * x2 r j ()) = signalCov false (nd := 1) (2 + (0 + 0)) 0 (fun _ => 1) i j) ∧
    (∀ r, qHat true ⟨false, 0, 0⟩ [((1 : Matrix (Fin 2) (Fin (2 + (0 + 0))) ℂ), x1 r)] [(1, x2 r)] = .ok (q r)) ∧
    getMW id (getG (nf := 2) (left := 0) (right := 0) 1 1 1) (getH (nf := 2) (left := 0) (right := 0) 1 false 1 1) .I none false = .ok (M, W) ∧
    W = 1 ∧ ensemble Finset.univ (fun _ => 1) (fun r => pHat M (Matrix.of (q r)) 0 ()) = 1 / 2 + 1 / Real.pi := by
  set x1 : Fin 2 → Matrix (Fin (2 + (0 + 0))) Unit ℂ := fun r => Matrix.of (fun i _ => if i = r then 1 else 0)
  set x2 : Fin 2 → Matrix (Fin (2 + (0 + 0))) Unit ℂ := fun r => Matrix.of (fun j _ => kern false (nd := 1) 2 0 0 0 j r)
  have hcov : ∀ i j, ensemble Finset.univ (fun _ => 1) (fun r => star (x1 r i ()) * x2 r j ()) = signalCov false (nd := 1) (2 + (0 + 0)) 0 (fun _ => 1) i j := by
    intro i j
    have h2 := kern_cov false (nd := 1) (nf := 2) (left := 0) (right := 0) 0 i j
    have e1 : ensemble Finset.univ (fun _ => 1) (fun r => star (x1 r i ()) * x2 r j ()) = kern false (nd := 1) 2 0 0 0 j i := by
      unfold ensemble
      rw [Finset.sum_eq_single i]
      · simp [x1, x2]
      · intro r _ hr
        simp [x1, Ne.symm hr]
      · simp
    rw [e1, h2]
    simp [signalCov]
  have hq : ∀ r, qHat true (nd := 1) ⟨false, 0, 0⟩ [((1 : Matrix (Fin 2) (Fin (2 + (0 + 0))) ℂ), x1 r)] [(1, x2 r)] = .ok _ := fun r => C48_value _ _ rfl _ _
  have hpi : (Real.pi : ℂ) ≠ 0 := by exact_mod_cast Real.pi_ne_zero
  have hpos : (2 + 4 / Real.pi : ℂ) ≠ 0 := by
    have : (0 : ℝ) < 2 + 4 / Real.pi := by have := Real.pi_pos; positivity
    exact_mod_cast this.ne'
  have hR : Responds false (nf := 2) (ne := 2 + (0 + 0)) 1 0 1 1 := by
    refine ⟨0, 0, ?_⟩
    have : binResp 1 0 (1 : Matrix (Fin 2) (Fin (2 + (0 + 0))) ℂ) 1 (0 : Fin 1) 0 = rawH (nf := 2) (left := 0) (right := 0) 1 1 1 0 0 := by
      rw [rawH_eq]; unfold binResp
      congr 1
      funext u
      exact mul_comm _ _
    rw [this, ← rawGH_false, few_H]
    exact hpos
  have hH : getH (nf := 2) (left := 0) (right := 0) 1 false 1 1 0 0 = 1 / 2 * (2 + 4 / Real.pi) := by
    rw [getH_raw hR, few_H]
  refine ⟨x1, x2, _, _, _, hcov, hq, rfl, ?_, ?_⟩
  · ext i j
    fin_cases i; fin_cases j
    simp only [Matrix.diagonal_mul, rowSum, Finset.univ_unique, Finset.sum_singleton]
    change 1 / getH (nf := 2) (left := 0) (right := 0) 1 false 1 1 0 0 * getH (nf := 2) (left := 0) (right := 0) 1 false 1 1 0 0 = 1
    rw [hH]
    field_simp
  · have h := C132_response Finset.univ (fun _ => 1) false true ⟨false, 0, 0⟩ rfl (1 : Matrix (Fin 2) (Fin (2 + (0 + 0))) ℂ) 1 hR (fun _ => 1) x1 x2 () hcov _ (fun r _ => hq r) 0
    have hlin : ∀ (d : Fin 1 → ℂ) (q : Fin 2 → Fin 1 → Unit → ℂ), ensemble Finset.univ (fun _ => 1) (fun r => pHat (Matrix.diagonal d) (Matrix.of (q r)) 0 ()) =
        d 0 * ensemble Finset.univ (fun _ => 1) (fun r => q r 0 ()) := by
      intro d q
      unfold ensemble pHat
      simp [Finset.mul_sum]
      ring
    rw [hlin, h]
    simp only [rowSum, Finset.univ_unique, Finset.sum_singleton]
    change 1 / getG (nf := 2) (left := 0) (right := 0) 1 1 1 0 0 * (getH (nf := 2) (left := 0) (right := 0) 1 false 1 1 0 0 * 1) = _
    rw [hH, few_G.1]
    field_simp
    ring

end
end HeraPspec.Oqe
