import Verif.Model.ExactNorm
import Verif.Props.Oqe5

/-!
C137: with exact normalisation the bandpowers measure the sky power through the beam overlap integral, without a further beam or bandwidth factor.
-/
namespace HeraPspec.Oqe
open Matrix Complex
open scoped ComplexOrder
noncomputable section

/-! ### Specification -/

/-- The beam overlap of two channels: the integral over the sky of the product of the two beams, each divided by its own solid angle. The sky
is `12 N²` pixels of equal area. Without a beam it is one. -/
def overlap {nf np : ℕ} (beam : Option (Matrix (Fin nf) (Fin np) ℝ × (Fin nf → ℝ) × ℝ)) (i j : Fin nf) : ℝ :=
  match beam with
  | none => 1
  | some (res, omega, N) => ∑ k, (4 * Real.pi / (12 * N ^ 2)) * ((res i k / omega i) * (res j k / omega j))

/-- Correlation between channels `i` (conjugated) and `j` for a sky with power `p b` per unit delay in delay bin `b` of width `delTau`, seen through the beam. -/
def skyCov {nd nf np : ℕ} (sampling : Bool) (delTau : ℝ) (beam : Option (Matrix (Fin nf) (Fin np) ℝ × (Fin nf → ℝ) × ℝ)) (p : Fin nd → ℂ) (i j : Fin nf) : ℂ :=
  (delTau * overlap beam i j : ℝ) * signalCov sampling nf 0 p i j

/-- The mean of the estimator for delay `a` on data of cross-correlation `C`: the weighted correlations, each with the beam overlap and the phase of the delay. -/
def meanBand {nd nf np : ℕ} (delTau : ℝ) (beam : Option (Matrix (Fin nf) (Fin np) ℝ × (Fin nf → ℝ) × ℝ)) (R1 R2 : Matrix (Fin nf) (Fin nf) ℂ) (a : Fin nd)
    (C : Fin nf → Fin nf → ℂ) : ℂ :=
  1 / 2 * ∑ k, ∑ l, (delTau * overlap beam k l : ℝ) * (star (wave nd (delayIdx nd a) k.1) * wave nd (delayIdx nd a) l.1) *
    ∑ i, ∑ j, star (R1 k i) * R2 l j * C i j

/-- Some delay responds to unit power in some delay bin. -/
def RespondsExact {nf np : ℕ} (sampling : Bool) (nd : ℕ) (delTau : ℝ) (beam : Option (Matrix (Fin nf) (Fin np) ℝ × (Fin nf → ℝ) × ℝ))
    (R1 R2 : Matrix (Fin nf) (Fin nf) ℂ) : Prop :=
  ∃ a b : Fin nd, meanBand delTau beam R1 R2 a (skyCov sampling delTau beam (fun c => if c = b then 1 else 0)) ≠ 0

/-! ### Proofs -/

/-- C137: `get_integral_beam` is the beam overlap integral. -/
theorem C137_beam_overlap {nf np : ℕ} (beam : Option (Matrix (Fin nf) (Fin np) ℝ × (Fin nf → ℝ) × ℝ)) : integralBeam beam = overlap beam := by
  funext i j
  cases beam with
  | none => rfl
  | some b =>
    obtain ⟨res, omega, N⟩ := b
    simp only [integralBeam, overlap, Matrix.smul_apply, Matrix.mul_apply, Matrix.transpose_apply, smul_eq_mul, beamProd, Matrix.of_apply, Finset.mul_sum]
    refine Finset.sum_congr rfl (fun k _ => ?_)
    by_cases hN : N = 0
    · subst hN; simp
    · field_simp
      ring

theorem overlap_comm {nf np : ℕ} (beam : Option (Matrix (Fin nf) (Fin np) ℝ × (Fin nf → ℝ) × ℝ)) (i j : Fin nf) : overlap beam i j = overlap beam j i := by
  have h := C48_beam_symmetric beam
  rw [← C137_beam_overlap]
  conv_lhs => rw [← h]
  rfl

theorem bcast_same {n : ℕ} (B : Matrix (Fin n) (Fin n) ℝ) : bcast n B = .ok B := by
  unfold bcast; simp

/-- C137: with a filter extension exact normalisation is refused (unless the window is a single channel), although `q_hat` accepts it. -/
theorem C137_extension_refused {nf left right nd : ℕ} (sampling : Bool) (norm : Norm nf) (R1 R2 : Matrix (Fin nf) (Fin (nf + (left + right))) ℂ)
    (hext : 0 < left + right) (hnf : nf ≠ 1) : getGexact nd norm R1 R2 = .error .value ∧ getHexact nd sampling norm R1 R2 = .error .value := by
  have h : bcast (nf + (left + right)) norm.beam = .error .value := by
    unfold bcast
    rw [dif_neg (by omega), dif_neg (fun h => hnf h.symm)]
  unfold getGexact getHexact
  rw [h]
  exact ⟨rfl, rfl⟩

theorem trace_form {nf : ℕ} (R1 R2 K S : Matrix (Fin nf) (Fin nf) ℂ) :
    trace (R1ᴴ * K * (R2 * S)) = ∑ k, ∑ l, K k l * ∑ i, ∑ j, star (R1 k i) * R2 l j * S j i := by
  simp only [trace, Matrix.diag_apply, Matrix.mul_apply, Matrix.conjTranspose_apply, Finset.mul_sum, Finset.sum_mul]
  -- left: sum over i, l, j, k
  have h1 : ∀ i : Fin nf, ∑ l : Fin nf, ∑ j : Fin nf, ∑ k : Fin nf, star (R1 k i) * K k l * (R2 l j * S j i) =
      ∑ k : Fin nf, ∑ l : Fin nf, ∑ j : Fin nf, star (R1 k i) * K k l * (R2 l j * S j i) := by
    intro i
    rw [Finset.sum_congr rfl (fun l _ => Finset.sum_comm), Finset.sum_comm]
  rw [Finset.sum_congr rfl (fun i _ => h1 i), Finset.sum_comm]
  refine Finset.sum_congr rfl (fun k _ => ?_)
  rw [Finset.sum_comm]
  refine Finset.sum_congr rfl (fun l _ => Finset.sum_congr rfl (fun i _ => Finset.sum_congr rfl (fun j _ => ?_)))
  ring

def rawExact {nf : ℕ} (nd : ℕ) (sampling : Bool) (norm : Norm nf) (R1 R2 : Matrix (Fin nf) (Fin nf) ℂ) : Matrix (Fin nd) (Fin nd) ℂ :=
  fun a b => trace (R1ᴴ * q1Exact norm a * (R2 * q2Exact (left := 0) (right := 0) sampling norm.delTau norm.beam b))

theorem getHexact_eq {nf nd : ℕ} (sampling : Bool) (norm : Norm nf) (R1 R2 : Matrix (Fin nf) (Fin (nf + (0 + 0))) ℂ) :
    getHexact nd sampling norm R1 R2 = .ok (finishGH (rawExact nd sampling norm R1 R2)) := by
  unfold getHexact
  have : bcast (nf + (0 + 0)) norm.beam = .ok norm.beam := bcast_same norm.beam
  rw [this]
  rfl

theorem getGexact_eq {nf nd : ℕ} (norm : Norm nf) (R1 R2 : Matrix (Fin nf) (Fin (nf + (0 + 0))) ℂ) :
    getGexact nd norm R1 R2 = .ok (finishGH (rawExact nd true norm R1 R2)) := by
  unfold getGexact
  have : bcast (nf + (0 + 0)) norm.beam = .ok norm.beam := bcast_same norm.beam
  rw [this]
  rfl

theorem q2_cov {nf nd np : ℕ} (sampling : Bool) (norm : Norm nf) (beam : Option (Matrix (Fin nf) (Fin np) ℝ × (Fin nf → ℝ) × ℝ)) (hb : norm.beam = integralBeam beam)
    (b : Fin nd) (i j : Fin nf) :
    q2Exact (left := 0) (right := 0) sampling norm.delTau norm.beam b j i = skyCov sampling norm.delTau beam (fun c => if c = b then 1 else 0) i j := by
  have hk := kern_cov sampling (nf := nf) (left := 0) (right := 0) b i j
  have hs : signalCov sampling nf 0 (fun c : Fin nd => if c = b then 1 else 0) i j = kern sampling nf 0 0 b j i := by
    rw [hk]
    unfold signalCov
    simp only [ite_mul, one_mul, zero_mul, Finset.sum_ite_eq', Finset.mem_univ, if_true]
    rfl
  unfold skyCov
  rw [hs, overlap_comm beam i j, ← C137_beam_overlap, ← hb]
  cases sampling
  · simp only [q2Exact, kern, Bool.false_eq_true, if_false]
    simp only [Matrix.of_apply]
    ring
  · simp only [q2Exact, kern, if_true]
    ring

theorem signalCov_sum {nd n left : ℕ} (sampling : Bool) (p : Fin nd → ℂ) (i j : Fin n) :
    signalCov sampling n left p i j = ∑ b, p b * signalCov sampling n left (fun c => if c = b then 1 else 0) i j := by
  unfold signalCov
  refine Finset.sum_congr rfl (fun b _ => ?_)
  simp only [ite_mul, one_mul, zero_mul, Finset.sum_ite_eq', Finset.mem_univ, if_true]

theorem raw_mean {nf nd np : ℕ} (sampling : Bool) (norm : Norm nf) (beam : Option (Matrix (Fin nf) (Fin np) ℝ × (Fin nf → ℝ) × ℝ)) (hb : norm.beam = integralBeam beam)
    (R1 R2 : Matrix (Fin nf) (Fin nf) ℂ) (a b : Fin nd) :
    1 / 2 * rawExact nd sampling norm R1 R2 a b = meanBand norm.delTau beam R1 R2 a (skyCov sampling norm.delTau beam (fun c => if c = b then 1 else 0)) := by
  unfold rawExact meanBand
  rw [trace_form]
  congr 1
  refine Finset.sum_congr rfl (fun k _ => Finset.sum_congr rfl (fun l _ => ?_))
  congr 1
  · unfold q1Exact
    rw [qPlain_eq, hb, C137_beam_overlap]
    ring
  · refine Finset.sum_congr rfl (fun i _ => Finset.sum_congr rfl (fun j _ => ?_))
    rw [q2_cov sampling norm beam hb]

theorem meanBand_sum {nf nd np : ℕ} (sampling : Bool) (delTau : ℝ) (beam : Option (Matrix (Fin nf) (Fin np) ℝ × (Fin nf → ℝ) × ℝ))
    (R1 R2 : Matrix (Fin nf) (Fin nf) ℂ) (a : Fin nd) (p : Fin nd → ℂ) :
    meanBand delTau beam R1 R2 a (skyCov sampling delTau beam p) =
      ∑ b, meanBand delTau beam R1 R2 a (skyCov sampling delTau beam (fun c => if c = b then 1 else 0)) * p b := by
  unfold meanBand skyCov
  simp only [signalCov_sum sampling p]
  simp only [Finset.mul_sum, Finset.sum_mul]
  -- bring the sum over b to the front
  rw [Finset.sum_congr rfl (fun k _ => Finset.sum_congr rfl (fun l _ => Finset.sum_congr rfl (fun i _ => Finset.sum_comm))),
    Finset.sum_congr rfl (fun k _ => Finset.sum_congr rfl (fun l _ => Finset.sum_comm)),
    Finset.sum_congr rfl (fun k _ => Finset.sum_comm), Finset.sum_comm]
  refine Finset.sum_congr rfl (fun b _ => Finset.sum_congr rfl (fun k _ => Finset.sum_congr rfl (fun l _ =>
    Finset.sum_congr rfl (fun i _ => Finset.sum_congr rfl (fun j _ => ?_)))))
  ring

theorem finish_ne {nd : ℕ} {G : Matrix (Fin nd) (Fin nd) ℂ} (h : G ≠ 0) (a b : Fin nd) : finishGH G a b = 1 / 2 * G a b := by
  unfold finishGH
  rw [if_neg h, Matrix.smul_apply, smul_eq_mul]

theorem raw_ne {nf nd np : ℕ} {sampling : Bool} {norm : Norm nf} {beam : Option (Matrix (Fin nf) (Fin np) ℝ × (Fin nf → ℝ) × ℝ)} (hb : norm.beam = integralBeam beam)
    {R1 R2 : Matrix (Fin nf) (Fin nf) ℂ} (h : RespondsExact sampling nd norm.delTau beam R1 R2) : rawExact nd sampling norm R1 R2 ≠ 0 := by
  intro hz
  obtain ⟨a, b, h⟩ := h
  apply h
  rw [← raw_mean sampling norm beam hb, hz]
  simp

/-- C137: without an extension `get_H` and `get_G` succeed; `H_ab` is the mean of the estimator at delay `a` for unit power in delay bin `b`, and `G_ab` the
same with the power at the centre of the bin. -/
theorem C137_value {nf nd np : ℕ} (sampling : Bool) (norm : Norm nf) (beam : Option (Matrix (Fin nf) (Fin np) ℝ × (Fin nf → ℝ) × ℝ)) (hb : norm.beam = integralBeam beam)
    (R1 R2 : Matrix (Fin nf) (Fin (nf + (0 + 0))) ℂ) :
    (RespondsExact sampling nd norm.delTau beam R1 R2 → ∃ H, getHexact nd sampling norm R1 R2 = .ok H ∧
      ∀ a b, H a b = meanBand norm.delTau beam R1 R2 a (skyCov sampling norm.delTau beam (fun c => if c = b then 1 else 0))) ∧
    (RespondsExact true nd norm.delTau beam R1 R2 → ∃ G, getGexact nd norm R1 R2 = .ok G ∧
      ∀ a b, G a b = meanBand norm.delTau beam R1 R2 a (skyCov true norm.delTau beam (fun c => if c = b then 1 else 0))) := by
  constructor
  · intro h
    exact ⟨_, getHexact_eq sampling norm R1 R2, fun a b => by rw [finish_ne (raw_ne hb h), raw_mean sampling norm beam hb]⟩
  · intro h
    exact ⟨_, getGexact_eq norm R1 R2, fun a b => by rw [finish_ne (raw_ne hb h), raw_mean true norm beam hb]⟩

/-- C137: `<q_a> = sum_b H_ab p_b`, as documented: for every ensemble of data whose cross-correlation is that of a sky of power `p` seen through the beam, every
pair of weightings, number of delays and choice of `sampling`, unless the response vanishes altogether. -/
theorem C137_response {Ω T : Type} (S : Finset Ω) (P : Ω → ℂ) {nf nd np : ℕ} (sampling : Bool) (norm : Norm nf) (hn : norm.exact = true)
    (beam : Option (Matrix (Fin nf) (Fin np) ℝ × (Fin nf → ℝ) × ℝ)) (hb : norm.beam = integralBeam beam)
    (R1 R2 : Matrix (Fin nf) (Fin (nf + (0 + 0))) ℂ) (hR : RespondsExact sampling nd norm.delTau beam R1 R2) (p : Fin nd → ℂ)
    (x1 x2 : Ω → Matrix (Fin (nf + (0 + 0))) T ℂ) (t : T)
    (hcov : ∀ i j, ensemble S P (fun r => star (x1 r i t) * x2 r j t) = skyCov sampling norm.delTau beam p i j)
    (allowFft : Bool) (q : Ω → Fin nd → T → ℂ) (hq : ∀ r ∈ S, qHat allowFft norm [(R1, x1 r)] [(R2, x2 r)] = .ok (q r))
    (H : Matrix (Fin nd) (Fin nd) ℂ) (hH : getHexact nd sampling norm R1 R2 = .ok H) (a : Fin nd) :
    ensemble S P (fun r => q r a t) = ∑ b, H a b * p b := by
  obtain ⟨H', hH', hval⟩ := (C137_value sampling norm beam hb R1 R2).1 hR
  obtain rfl : H = H' := Except.ok.inj (hH.symm.trans hH')
  simp only [hval]
  rw [← meanBand_sum]
  have hqr : ∀ r ∈ S, q r a t = 1 / 2 * ∑ k, ∑ l, (norm.delTau * overlap beam k l : ℝ) * (star (wave nd (delayIdx nd a) k.1) * wave nd (delayIdx nd a) l.1) *
      ∑ i, ∑ j, star (R1 k i) * R2 l j * (star (x1 r i t) * x2 r j t) := by
    intro r hr
    rw [qHat_kernel (hq r hr)]
    simp only [sumRx_one]
    congr 1
    refine Finset.sum_congr rfl (fun k _ => ?_)
    rw [Finset.mul_sum]
    refine Finset.sum_congr rfl (fun l _ => ?_)
    simp only [kernel, hn, if_true]
    rw [qPlain_eq, hb, C137_beam_overlap]
    have e : ∑ i, ∑ j, star (R1 k i) * R2 l j * (star (x1 r i t) * x2 r j t) = star ((R1 * x1 r) k t) * (R2 * x2 r) l t := by
      simp only [Matrix.mul_apply, star_sum, star_mul']
      rw [Finset.sum_mul_sum]
      refine Finset.sum_congr rfl (fun i _ => Finset.sum_congr rfl (fun j _ => ?_))
      ring
    rw [e]
    push_cast
    ring
  unfold meanBand
  have e2 : ensemble S P (fun r => q r a t) = ∑ r ∈ S, P r * (1 / 2 * ∑ k, ∑ l, (norm.delTau * overlap beam k l : ℝ) * (star (wave nd (delayIdx nd a) k.1) * wave nd (delayIdx nd a) l.1) *
      ∑ i, ∑ j, star (R1 k i) * R2 l j * (star (x1 r i t) * x2 r j t)) := Finset.sum_congr rfl (fun r hr => by
        show P r * q r a t = _
        rw [hqr r hr])
  rw [e2]
  simp only [← hcov]
  unfold ensemble
  simp only [Finset.mul_sum]
  rw [Finset.sum_comm]
  refine Finset.sum_congr rfl (fun k _ => ?_)
  rw [Finset.sum_comm]
  refine Finset.sum_congr rfl (fun l _ => ?_)
  rw [Finset.sum_comm]
  refine Finset.sum_congr rfl (fun i _ => ?_)
  rw [Finset.sum_comm]
  refine Finset.sum_congr rfl (fun j _ => Finset.sum_congr rfl (fun r _ => ?_))
  ring

/-- With `sampling`, or at least as many delays as channels, the row sums of `G` and `H` agree. -/
theorem rowSum_exact {nf nd : ℕ} (hnd : nf ≤ nd) (norm : Norm nf) (R1 R2 : Matrix (Fin nf) (Fin nf) ℂ) (sampling : Bool) (a : Fin nd) :
    ∑ b, rawExact nd sampling norm R1 R2 a b = ∑ b, rawExact nd true norm R1 R2 a b := by
  cases sampling with
  | true => rfl
  | false =>
    have h : ∀ s : Bool, ∑ b, rawExact nd s norm R1 R2 a b =
        trace (R1ᴴ * q1Exact norm a * (R2 * ∑ b : Fin nd, (q2Exact (left := 0) (right := 0) s norm.delTau norm.beam b : Matrix (Fin nf) (Fin nf) ℂ))) := by
      intro s
      rw [Matrix.mul_sum, Matrix.mul_sum, trace_sum]
      rfl
    rw [h, h]
    congr 3
    ext i j
    simp only [Matrix.sum_apply, q2Exact, Bool.false_eq_true, if_false, if_true, mul_one]
    rw [← Finset.sum_mul, ← Finset.sum_mul]
    by_cases hij : i = j
    · subst hij
      have : (sincMat (nf + (0 + 0)) i i : ℂ) = 1 := by simp [sincMat, npSinc]
      rw [this, mul_one]
    · have : ∑ b : Fin nd, qExt nf b 0 0 i j = 0 := sum_tones (nf := nf) (left := 0) (right := 0) hnd hij
      simp [this]

/-- C137: the normalised bandpowers are the true ones seen through the window functions returned with them, `<p_hat> = W p`, and each window sums to one.
Missing: fewer delays than channels without `sampling` (as in `C132_counterexample_few_delays`); a filter extension (`C137_extension_refused`). Modes other
than 'I' are refused (`C50_errors`), as is the FFT (`C47_exact_refuses_fft`). -/
theorem C137_window_partial {Ω T : Type} (S : Finset Ω) (P : Ω → ℂ) {nf nd np : ℕ} (sampling : Bool) (norm : Norm nf) (hn : norm.exact = true)
    (beam : Option (Matrix (Fin nf) (Fin np) ℝ × (Fin nf → ℝ) × ℝ)) (hb : norm.beam = integralBeam beam)
    (R1 R2 : Matrix (Fin nf) (Fin (nf + (0 + 0))) ℂ) (hG : RespondsExact true nd norm.delTau beam R1 R2) (hR : RespondsExact sampling nd norm.delTau beam R1 R2)
    (hnd : sampling = true ∨ nf ≤ nd) (p : Fin nd → ℂ) (x1 x2 : Ω → Matrix (Fin (nf + (0 + 0))) T ℂ) (t : T)
    (hcov : ∀ i j, ensemble S P (fun r => star (x1 r i t) * x2 r j t) = skyCov sampling norm.delTau beam p i j)
    (allowFft : Bool) (q : Ω → Fin nd → T → ℂ) (hq : ∀ r ∈ S, qHat allowFft norm [(R1, x1 r)] [(R2, x2 r)] = .ok (q r))
    (G H : Matrix (Fin nd) (Fin nd) ℂ) (hGv : getGexact nd norm R1 R2 = .ok G) (hHv : getHexact nd sampling norm R1 R2 = .ok H)
    (pinv : Matrix (Fin nd) (Fin nd) ℂ → Matrix (Fin nd) (Fin nd) ℂ) (mode : Mode) (eig : Option (Eig nd)) (M W : Matrix (Fin nd) (Fin nd) ℂ)
    (hMW : getMW pinv G H mode eig norm.exact = .ok (M, W)) (a : Fin nd) :
    ensemble S P (fun r => pHat M (Matrix.of (q r)) a t) = ∑ b, W a b * p b ∧ ((∑ b, H a b ≠ 0) → ∑ b, W a b = 1) := by
  have hresp := C137_response S P sampling norm hn beam hb R1 R2 hR p x1 x2 t hcov allowFft q hq H hHv
  have hmode : mode = .I := by
    rw [hn] at hMW
    cases mode <;> simp [getMW] at hMW ⊢
  subst hmode
  have hsum : ∀ i, ∑ b, G i b = ∑ b, H i b := by
    intro i
    rw [getGexact_eq] at hGv
    rw [getHexact_eq] at hHv
    rw [← Except.ok.inj hGv, ← Except.ok.inj hHv]
    simp only [finish_ne (raw_ne hb hG), finish_ne (raw_ne hb hR)]
    rw [← Finset.mul_sum, ← Finset.mul_sum]
    congr 1
    rcases hnd with h | h
    · subst h; rfl
    · exact (rowSum_exact h norm R1 R2 sampling i).symm
  have hlin : ensemble S P (fun r => pHat M (Matrix.of (q r)) a t) = ∑ c, M a c * ensemble S P (fun r => q r c t) := by
    unfold ensemble pHat
    simp only [Matrix.mul_apply, Matrix.of_apply, Finset.mul_sum]
    rw [Finset.sum_comm]
    refine Finset.sum_congr rfl (fun c _ => Finset.sum_congr rfl (fun r _ => ?_))
    ring
  refine ⟨?_, fun h => (C50_identity pinv G H M W eig norm.exact hMW a).1 h⟩
  rw [hlin]
  simp only [hresp]
  have hMH : ∑ c, M a c * ∑ b, H c b * p b = ∑ b, (M * H) a b * p b := by
    simp only [Matrix.mul_apply, Finset.mul_sum, Finset.sum_mul]
    rw [Finset.sum_comm]
    refine Finset.sum_congr rfl (fun c _ => Finset.sum_congr rfl (fun r _ => ?_))
    ring
  rw [hMH]
  suffices h : M * H = W by rw [h]
  unfold getMW at hMW
  simp only [reduceCtorEq, if_false, ne_eq, not_true, false_and] at hMW
  injection hMW with hMW
  injection hMW with h1 h2
  have e : (fun i => 1 / rowSum G i) = (fun i => 1 / rowSum H i) := by
    funext i
    unfold rowSum
    rw [hsum i]
  rw [← h1, ← h2, e]

/-- One channel and one pixel: the estimator responds, so the hypotheses above can be met. -/
theorem one_channel (sampling : Bool) (d w : ℝ) (hd : d ≠ 0) (hw : w ≠ 0) :
    RespondsExact (nf := 1) (np := 1) sampling 1 d (some (fun _ _ => w, fun _ => 1, 1)) (1 : Matrix (Fin 1) (Fin 1) ℂ) 1 := by
  refine ⟨0, 0, ?_⟩
  have hs : signalCov sampling (nd := 1) 1 0 (fun c : Fin 1 => if c = 0 then 1 else 0) 0 0 = 1 := by
    cases sampling
    · simp [signalCov, tone, delayIdx]; norm_num
    · simp [signalCov, tone, delayIdx]
  have ho : overlap (nf := 1) (np := 1) (some (fun _ _ => w, fun _ => 1, 1)) 0 0 = 4 * Real.pi / 12 * (w * w) := by
    simp [overlap]
  have hw0 : star (wave 1 (delayIdx 1 0) ((0 : ℕ) : ℝ)) * wave 1 (delayIdx 1 0) ((0 : ℕ) : ℝ) = 1 := wave_norm _ _ _
  unfold meanBand skyCov
  simp only [Finset.univ_unique, Fin.default_eq_zero, Finset.sum_singleton, Matrix.one_apply_eq, star_one, one_mul, hs, ho]
  have hw1 : star (wave 1 (delayIdx 1 ((0 : Fin 1) : ℕ)) (((0 : Fin 1) : ℕ) : ℝ)) * wave 1 (delayIdx 1 ((0 : Fin 1) : ℕ)) (((0 : Fin 1) : ℕ) : ℝ) = 1 := wave_norm _ _ _
  rw [hw1]
  have hp := Real.pi_ne_zero
  have : d * (4 * Real.pi / 12 * (w * w)) ≠ 0 := by positivity
  have h2 : ((d * (4 * Real.pi / 12 * (w * w)) : ℝ) : ℂ) ≠ 0 := by exact_mod_cast this
  simp only [mul_one]
  exact mul_ne_zero (by norm_num) (mul_ne_zero h2 h2)

/-- C137: the hypotheses of the theorems above are met: one realisation with the required correlation. -/
example (t : Unit) : (∀ i j, ensemble ({()} : Finset Unit) (fun _ => 1) (fun _ => star ((fun _ _ => 1 : Matrix (Fin 1) Unit ℂ) i t) * (fun _ _ => skyCov (nd := 1) true 2
      (some (fun (_ : Fin 1) (_ : Fin 1) => 3, fun _ => 1, 1)) (fun _ => 5) 0 0 : Matrix (Fin 1) Unit ℂ) j t) =
      skyCov true 2 (some (fun (_ : Fin 1) (_ : Fin 1) => 3, fun _ => 1, 1)) (fun _ : Fin 1 => 5) i j) := by
  intro i j
  fin_cases i; fin_cases j
  simp [ensemble]

example : ∃ (G H M W : Matrix (Fin 1) (Fin 1) ℂ), getGexact (nf := 1) (left := 0) (right := 0) 1 ⟨true, 2, integralBeam (some (fun _ (_ : Fin 1) => 3, fun _ => 1, 1))⟩ 1 1 = .ok G ∧
    getHexact (nf := 1) (left := 0) (right := 0) 1 false ⟨true, 2, integralBeam (some (fun _ (_ : Fin 1) => 3, fun _ => 1, 1))⟩ 1 1 = .ok H ∧ getMW id G H .I none true = .ok (M, W) :=
  ⟨_, _, _, _, getGexact_eq _ _ _, getHexact_eq _ _ _ _, rfl⟩

/-- C137: a beam that cannot be evaluated (no beam, or a Gaussian one) only gives a warning: the overlap is one, and a sky seen through a beam of constant
overlap `c` is then reported with its power multiplied by `c`. -/
theorem C137_finding_no_beam {nf nd np : ℕ} (sampling : Bool) (delTau : ℝ) (beam : Option (Matrix (Fin nf) (Fin np) ℝ × (Fin nf → ℝ) × ℝ)) (c : ℝ)
    (hc : ∀ i j, overlap beam i j = c) (p : Fin nd → ℂ) (i j : Fin nf) :
    skyCov sampling delTau beam p i j = skyCov (np := np) sampling delTau none (fun b => c * p b) i j := by
  unfold skyCov
  rw [hc]
  have : signalCov sampling nf 0 (fun b => (c : ℂ) * p b) i j = c * signalCov sampling nf 0 p i j := by
    unfold signalCov
    rw [Finset.mul_sum]
    exact Finset.sum_congr rfl (fun b _ => by ring)
  rw [this]
  simp only [overlap]
  push_cast
  ring

end
end HeraPspec.Oqe
