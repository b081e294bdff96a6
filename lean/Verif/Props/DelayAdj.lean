import Verif.Model.DelayAdj
import Verif.Props.Oqe3

/-!
C98: the adjustment of the scalar for the number of delays.
-/
namespace HeraPspec.DelayAdj
open Matrix Complex
open HeraPspec.Oqe
noncomputable section

/-! ### Specification -/

/-- Two channels that cannot be told apart by `nd` delays. -/
def aliased (nd : ℕ) {n : ℕ} (i j : Fin n) : Prop := (nd : ℤ) ∣ ((i.1 : ℤ) - j.1)

instance (nd : ℕ) {n : ℕ} (i j : Fin n) : Decidable (aliased nd i j) := by unfold aliased; infer_instance

/-- The sum over aliased pairs of channels of a product of weights and a kernel. -/
def pairSum (nd : ℕ) {n : ℕ} (w1 w2 : Fin n → ℝ) (S : Fin n → Fin n → ℝ) : ℝ :=
  ∑ i, ∑ j, if aliased nd i j then w2 i * w1 j * S i j else 0

/-- The loss of power by averaging over delay bins: the mean of `sinc((i - j)/nf)` over aliased pairs of channels, weighted. -/
def binLoss (nd : ℕ) {n : ℕ} (w1 w2 : Fin n → ℝ) : ℝ :=
  if pairSum nd w1 w2 (fun _ _ => 1) = 0 then 1
  else pairSum nd w1 w2 (fun i j => npSinc (((i.1 : ℝ) - j.1) / n)) / pairSum nd w1 w2 (fun _ _ => 1)

/-- Mean square of the taper, 1 without a taper. -/
def taperPower {nf : ℕ} (taper : Option (Fin nf → ℝ)) : ℝ :=
  match taper with
  | none => 1
  | some t => (∑ i, t i * t i) / nf

theorem taperFactor_eq {nf : ℕ} (taper : Option (Fin nf → ℝ)) : taperFactor taper = taperPower taper := by
  cases taper with
  | none => rfl
  | some t => show mean _ = _; unfold mean taperPower; simp only [pow_two]

/-! ### Sums of tones -/

theorem exp_int_one (k : ℤ) : Complex.exp (2 * Real.pi * I * k) = 1 := by
  rw [Complex.exp_eq_one_iff]; exact ⟨k, by ring⟩

theorem tones_sum {nd n left : ℕ} (hnd : 0 < nd) (i j : Fin n) :
    ∑ b : Fin nd, tone nd (delayIdx nd b) n left 0 i * star (tone nd (delayIdx nd b) n left 0 j) = if aliased nd i j then (nd : ℂ) else 0 := by
  have hne : (nd : ℂ) ≠ 0 := by exact_mod_cast hnd.ne'
  set k : ℤ := (i.1 : ℤ) - j.1 with hk
  have hterm : ∀ b : Fin nd, tone nd (delayIdx nd b) n left 0 i * star (tone nd (delayIdx nd b) n left 0 j) =
      Complex.exp (2 * Real.pi * I * (-((nd / 2 : ℕ) : ℂ) * k / nd)) * (Complex.exp (2 * Real.pi * I * (k / nd))) ^ b.1 := by
    intro b
    rw [← Complex.exp_nat_mul, ← Complex.exp_add]
    unfold tone delayIdx
    generalize nd / 2 = c
    rw [Complex.star_def, ← Complex.exp_conj, ← Complex.exp_add]
    congr 1
    simp only [map_mul, Complex.conj_I, Complex.conj_ofReal, map_ofNat, hk]
    push_cast
    field_simp
    ring
  simp only [hterm]
  rw [← Finset.mul_sum]
  by_cases ha : aliased nd i j
  · rw [if_pos ha]
    obtain ⟨q, hq⟩ := ha
    have hq' : (k : ℂ) = nd * q := by rw [hk]; exact_mod_cast hq
    have e1 : Complex.exp (2 * Real.pi * I * (k / nd)) = 1 := by
      rw [hq', mul_div_cancel_left₀ _ hne]; exact exp_int_one q
    have e2 : Complex.exp (2 * Real.pi * I * (-((nd / 2 : ℕ) : ℂ) * k / nd)) = 1 := by
      generalize nd / 2 = c
      have := exp_int_one (-(c : ℤ) * q)
      rw [← this]
      congr 1
      rw [hq']
      push_cast
      field_simp
    rw [e1, e2]
    simp
  · rw [if_neg ha]
    have hz : Complex.exp (2 * Real.pi * I * (k / nd)) ≠ 1 := by
      intro h
      rw [Complex.exp_eq_one_iff] at h
      obtain ⟨q, hq⟩ := h
      apply ha
      refine ⟨q, ?_⟩
      have hpi : (2 * Real.pi * I : ℂ) ≠ 0 := by simp [Real.pi_ne_zero]
      have : (k : ℂ) / nd = q := by
        have : (2 * Real.pi * I : ℂ) * (k / nd) = (2 * Real.pi * I) * q := by rw [hq]; ring
        exact mul_left_cancel₀ hpi this
      rw [div_eq_iff hne] at this
      have h2 : (k : ℂ) = nd * q := by rw [this]; ring
      have h3 : k = nd * q := by exact_mod_cast h2
      rw [← hk]; exact h3
    rw [Fin.sum_univ_eq_sum_range (fun b => Complex.exp (2 * Real.pi * I * (k / nd)) ^ b) nd, geom_sum_eq hz, ← Complex.exp_nat_mul]
    have : (nd : ℂ) * (2 * Real.pi * I * (k / nd)) = 2 * Real.pi * I * k := by field_simp
    rw [this, exp_int_one]
    simp

/-- `H` before the treatment of all-zero matrices, with any kernel in place of the sinc (1 gives `G`). -/
def raw {nf left right : ℕ} (nd : ℕ) (R1 R2 : Matrix (Fin nf) (Fin (nf + (left + right))) ℂ)
    (S : Fin (nf + (left + right)) → Fin (nf + (left + right)) → ℝ) : Matrix (Fin nd) (Fin nd) ℂ :=
  fun a b => trace (R1ᴴ * qPlain nf a * (R2 * Matrix.of (fun i j => qExt nf b left right i j * (S i j : ℂ))))

/-- The amplitude of channel `i` in mode `a`. -/
def coef {nf ne nd : ℕ} (R : Matrix (Fin nf) (Fin ne) ℂ) (a : Fin nd) : Fin ne → ℂ :=
  (fun k : Fin nf => wave nd (delayIdx nd a) k.1) ᵥ* R

theorem raw_eq {nf left right : ℕ} (nd : ℕ) (R1 R2 : Matrix (Fin nf) (Fin (nf + (left + right))) ℂ)
    (S : Fin (nf + (left + right)) → Fin (nf + (left + right)) → ℝ) (a b : Fin nd) :
    raw nd R1 R2 S a b = ∑ i, ∑ j, coef R2 a i * (qExt nf b left right i j * (S i j : ℂ)) * star (coef R1 a j) := by
  unfold raw
  rw [qPlain_vec, traceForm]
  rfl

theorem raw_one {nf left right : ℕ} (nd : ℕ) (R1 R2 : Matrix (Fin nf) (Fin (nf + (left + right))) ℂ) :
    raw nd R1 R2 (fun _ _ => 1) = rawG nd R1 R2 := by
  funext a b
  unfold raw rawG
  congr 3
  ext i j
  simp

theorem raw_rowSum {nf left right : ℕ} {nd : ℕ} (hnd : 0 < nd) (R1 R2 : Matrix (Fin nf) (Fin (nf + (left + right))) ℂ)
    (S : Fin (nf + (left + right)) → Fin (nf + (left + right)) → ℝ) (a : Fin nd) :
    rowSum (raw nd R1 R2 S) a = nd * ∑ i, ∑ j, if aliased nd i j then coef R2 a i * (S i j : ℂ) * star (coef R1 a j) else 0 := by
  unfold rowSum
  simp only [raw_eq]
  rw [Finset.sum_comm, Finset.mul_sum]
  refine Finset.sum_congr rfl (fun i _ => ?_)
  rw [Finset.sum_comm, Finset.mul_sum]
  refine Finset.sum_congr rfl (fun j _ => ?_)
  have : ∀ b : Fin nd, coef R2 a i * (qExt nf b left right i j * (S i j : ℂ)) * star (coef R1 a j) =
      (tone nd (delayIdx nd b) (nf + (left + right)) left 0 i * star (tone nd (delayIdx nd b) (nf + (left + right)) left 0 j)) *
        (coef R2 a i * (S i j : ℂ) * star (coef R1 a j)) := by
    intro b; rw [qExt_tone]; ring
  simp only [this]
  rw [← Finset.sum_mul, tones_sum hnd]
  by_cases h : aliased nd i j
  · rw [if_pos h, if_pos h]
  · rw [if_neg h, if_neg h]; simp

theorem aliased_small {nd n : ℕ} (h : n ≤ nd) (i j : Fin n) : aliased nd i j ↔ i = j := by
  unfold aliased
  constructor
  · rintro ⟨q, hq⟩
    have hi := i.2
    have hj := j.2
    apply Fin.ext
    have h1 : |(i.1 : ℤ) - j.1| < nd := by rw [abs_lt]; omega
    rw [hq, abs_mul, Nat.abs_cast] at h1
    have : |q| < 1 := by
      by_contra hc
      push Not at hc
      have : (nd : ℤ) * 1 ≤ nd * |q| := mul_le_mul_of_nonneg_left hc (by omega)
      omega
    have hq0 : q = 0 := by rw [abs_lt] at this; omega
    rw [hq0] at hq
    omega
  · rintro rfl
    simp

theorem rowSum_small {nf left right : ℕ} {nd : ℕ} (hnd : 0 < nd) (h : nf + (left + right) ≤ nd)
    (R1 R2 : Matrix (Fin nf) (Fin (nf + (left + right))) ℂ) (S : Fin (nf + (left + right)) → Fin (nf + (left + right)) → ℝ)
    (hS : ∀ i, S i i = 1) (a : Fin nd) :
    rowSum (raw nd R1 R2 S) a = nd * ∑ i, coef R2 a i * star (coef R1 a i) := by
  rw [raw_rowSum hnd]
  congr 1
  refine Finset.sum_congr rfl (fun i _ => ?_)
  simp only [aliased_small h]
  rw [Finset.sum_ite_eq]
  simp [hS]

theorem sinc_diag (n : ℕ) (i : Fin n) : npSinc (((i.1 : ℝ) - i.1) / n) = 1 := by simp [npSinc]

theorem rawH_raw {nf left right : ℕ} (nd : ℕ) (R1 R2 : Matrix (Fin nf) (Fin (nf + (left + right))) ℂ) :
    rawH nd R1 R2 = raw nd R1 R2 (fun i j => npSinc (((i.1 : ℝ) - j.1) / (nf + (left + right) : ℕ))) := rfl

/-! ### The ratio -/

theorem ratio_eq {nd : ℕ} (G' H' : Matrix (Fin nd) (Fin nd) ℂ) (hz : G' = 0 ↔ H' = 0) (a : Fin nd) :
    ratio (finishGH G') (finishGH H') a = if (rowSum G' a).re = 0 then 1 else (rowSum H' a).re / (rowSum G' a).re := by
  have hs : ∀ A : Matrix (Fin nd) (Fin nd) ℂ, rowSum ((1 / 2 : ℂ) • A) a = (1 / 2 : ℂ) * rowSum A a := by
    intro A; unfold rowSum; simp [Finset.mul_sum]
  have hre : ∀ A : Matrix (Fin nd) (Fin nd) ℂ, (rowSum ((1 / 2 : ℂ) • A) a).re = 1 / 2 * (rowSum A a).re := by
    intro A
    rw [hs]
    have : (1 / 2 : ℂ) = ((1 / 2 : ℝ) : ℂ) := by push_cast; ring
    rw [this, Complex.re_ofReal_mul]
  by_cases h : G' = 0
  · have h' := hz.1 h
    subst h; subst h'
    unfold ratio finishGH
    simp only [if_true]
    have h0 : rowSum (0 : Matrix (Fin nd) (Fin nd) ℂ) a = 0 := by simp [rowSum]
    have h1 : rowSum (1 : Matrix (Fin nd) (Fin nd) ℂ) a = 1 := by simp [rowSum, Matrix.one_apply]
    rw [h0, hre, h1]
    norm_num
  · have h' : H' ≠ 0 := fun e => h (hz.2 e)
    unfold ratio finishGH
    rw [if_neg h, if_neg h', hre, hre]
    by_cases hr : (rowSum G' a).re = 0
    · simp [hr]
    · rw [if_neg (by simpa using hr), if_neg hr]
      field_simp

theorem adjustment_const {nd nf : ℕ} (hnd : 0 < nd) (G H : Matrix (Fin nd) (Fin nd) ℂ) (taper : Option (Fin nf → ℝ)) (ρ : ℝ) (hρ : 0 ≤ ρ)
    (h : ∀ a, ratio G H a = ρ) (identity : Bool) :
    adjustment identity G H taper = .ok (fun _ => nd / (nf * ρ) * taperFactor taper) := by
  have hm : mean (ratio G H) = ρ := by
    unfold mean
    rw [Finset.sum_congr rfl (fun a _ => h a)]
    simp only [Finset.sum_const, Finset.card_univ, Fintype.card_fin, nsmul_eq_mul]
    have : (nd : ℝ) ≠ 0 := by exact_mod_cast hnd.ne'
    field_simp
  unfold adjustment
  cases identity with
  | false => simp [h]
  | true =>
    rw [if_pos rfl, hm, if_neg]
    rintro ⟨a, ha⟩
    rw [h a] at ha
    simp at ha
    linarith

/-- The `G`-type response of mode `a` to a tone at delay `b` plus `u` bins. -/
def resp {nf ne : ℕ} (nd left : ℕ) (R1 R2 : Matrix (Fin nf) (Fin ne) ℂ) (a b : Fin nd) (u : ℝ) : ℂ :=
  star (respTo nd (delayIdx nd a) R1 (tone nd (delayIdx nd b) ne left u)) * respTo nd (delayIdx nd a) R2 (tone nd (delayIdx nd b) ne left u)

theorem rawG_zero_iff {nf left right : ℕ} (nd : ℕ) (R1 R2 : Matrix (Fin nf) (Fin (nf + (left + right))) ℂ) :
    rawG nd R1 R2 = 0 ↔ ∀ a b : Fin nd, resp nd left R1 R2 a b 0 = 0 := by
  constructor
  · intro h a b
    have := congrFun (congrFun h a) b
    rw [rawG_eq] at this
    unfold resp
    rw [mul_comm]; exact this
  · intro h
    funext a b
    rw [rawG_eq, mul_comm]; exact h a b

theorem rawH_zero_iff {nf left right : ℕ} (nd : ℕ) (R1 R2 : Matrix (Fin nf) (Fin (nf + (left + right))) ℂ) :
    rawH nd R1 R2 = 0 ↔ ∀ a b : Fin nd, binResp nd left R1 R2 a b = 0 := by
  have hb : ∀ a b, rawH nd R1 R2 a b = binResp nd left R1 R2 a b := by
    intro a b
    rw [rawH_eq]
    unfold binResp
    congr 1
    funext u
    rw [mul_comm]
  constructor
  · intro h a b; rw [← hb, h]; rfl
  · intro h; funext a b; rw [hb, h]; rfl

theorem getG_finish {nf left right : ℕ} (nd : ℕ) (R1 R2 : Matrix (Fin nf) (Fin (nf + (left + right))) ℂ) : getG nd R1 R2 = finishGH (rawG nd R1 R2) := rfl
theorem getH_finish {nf left right : ℕ} (nd : ℕ) (R1 R2 : Matrix (Fin nf) (Fin (nf + (left + right))) ℂ) : getH nd false R1 R2 = finishGH (rawH nd R1 R2) := rfl

/-- **C98** With at least as many delays as channels (extension included) the adjustment is `Ndlys / Nfreqs` times the mean square of
the taper, for every weighting, and the band-dependence error is never raised. (The hypothesis excludes that only one of the two
response matrices vanishes identically; see the next theorem.) -/
theorem C98_enough_delays {nf left right nd : ℕ} (hnd : 0 < nd) (h : nf + (left + right) ≤ nd)
    (R1 R2 : Matrix (Fin nf) (Fin (nf + (left + right))) ℂ) (taper : Option (Fin nf → ℝ)) (identity : Bool)
    (hz : (∀ a b : Fin nd, resp nd left R1 R2 a b 0 = 0) ↔ ∀ a b : Fin nd, binResp nd left R1 R2 a b = 0) :
    adjustment identity (getG nd R1 R2) (getH nd false R1 R2) taper = .ok (fun _ => (nd : ℝ) / nf * taperPower taper) := by
  rw [← taperFactor_eq]
  have hr : ∀ a, ratio (getG nd R1 R2) (getH nd false R1 R2) a = 1 := by
    intro a
    rw [getG_finish, getH_finish, ratio_eq _ _ (by rw [rawG_zero_iff, rawH_zero_iff]; exact hz)]
    rw [← raw_one, rawH_raw, rowSum_small hnd h _ _ _ (fun _ => rfl), rowSum_small hnd h _ _ _ (fun i => sinc_diag _ i)]
    split
    · rfl
    · rename_i hne; exact div_self hne
  rw [adjustment_const hnd _ _ taper 1 zero_le_one hr, mul_one]

/-- **C98** The same weighting for both data sets needs no hypothesis. -/
theorem C98_enough_delays_same {nf left right nd : ℕ} (hnd : 0 < nd) (h : nf + (left + right) ≤ nd)
    (R : Matrix (Fin nf) (Fin (nf + (left + right))) ℂ) (taper : Option (Fin nf → ℝ)) (identity : Bool) :
    adjustment identity (getG nd R R) (getH nd false R R) taper = .ok (fun _ => (nd : ℝ) / nf * taperPower taper) := by
  apply C98_enough_delays hnd h
  rw [← rawG_zero_iff, ← rawH_zero_iff]
  have hc : ∀ S : Fin (nf + (left + right)) → Fin (nf + (left + right)) → ℝ, (∀ i, S i i = 1) →
      (raw nd R R S = 0 ↔ ∀ a : Fin nd, ∀ i, coef R a i = 0) := by
    intro S hS
    constructor
    · intro hz a i
      have h0 : rowSum (raw nd R R S) a = 0 := by rw [hz]; simp [rowSum]
      rw [rowSum_small hnd h _ _ _ hS] at h0
      have hne : (nd : ℂ) ≠ 0 := by exact_mod_cast hnd.ne'
      have hs : ∑ i, coef R a i * star (coef R a i) = 0 := (mul_eq_zero.1 h0).resolve_left hne
      have hn : ∀ i, coef R a i * star (coef R a i) = ((Complex.normSq (coef R a i) : ℝ) : ℂ) := fun i => Complex.mul_conj _
      simp only [hn] at hs
      rw [← Complex.ofReal_sum, Complex.ofReal_eq_zero, Finset.sum_eq_zero_iff_of_nonneg (fun i _ => Complex.normSq_nonneg _)] at hs
      exact Complex.normSq_eq_zero.1 (hs i (Finset.mem_univ i))
    · intro hz
      funext a b
      rw [raw_eq]
      simp [hz]
  rw [← raw_one, rawH_raw, hc _ (fun _ => rfl), hc _ (fun i => sinc_diag _ i)]

/-! ### Identity weighting with any number of delays -/

theorem npSinc_pos {x : ℝ} (h : |x| < 1) : 0 < npSinc x := by
  unfold npSinc
  by_cases hx : x = 0
  · simp [hx]
  · rw [Real.sinc_of_ne_zero (by simp [Real.pi_ne_zero, hx])]
    rcases lt_or_gt_of_ne hx with hn | hp
    · have h1 : 0 < Real.sin (Real.pi * (-x)) := by
        apply Real.sin_pos_of_pos_of_lt_pi
        · have := Real.pi_pos; nlinarith
        · have := Real.pi_pos; rw [abs_lt] at h; nlinarith
      have e : Real.pi * (-x) = -(Real.pi * x) := by ring
      rw [e, Real.sin_neg] at h1
      apply div_pos_of_neg_of_neg
      · linarith
      · have := Real.pi_pos; nlinarith
    · apply div_pos
      · apply Real.sin_pos_of_pos_of_lt_pi
        · have := Real.pi_pos; nlinarith
        · have := Real.pi_pos; rw [abs_lt] at h; nlinarith
      · have := Real.pi_pos; nlinarith

theorem sinc_chan_pos {n : ℕ} (i j : Fin n) : 0 < npSinc (((i.1 : ℝ) - j.1) / n) := by
  apply npSinc_pos
  have hi := i.2
  have hj := j.2
  have hn : (0 : ℝ) < n := by exact_mod_cast (lt_of_le_of_lt (Nat.zero_le _) hi)
  rw [abs_div, abs_of_pos hn, div_lt_one hn, abs_lt]
  have h1 : (i.1 : ℝ) < n := by exact_mod_cast hi
  have h2 : (j.1 : ℝ) < n := by exact_mod_cast hj
  have h3 : (0 : ℝ) ≤ i.1 := Nat.cast_nonneg _
  have h4 : (0 : ℝ) ≤ j.1 := Nat.cast_nonneg _
  constructor <;> linarith

theorem npSinc_le (x : ℝ) : npSinc x ≤ 1 := Real.sinc_le_one _

/-- A diagonal weighting with real entries. -/
def diagR {nf : ℕ} (w : Fin nf → ℝ) : Matrix (Fin nf) (Fin (nf + (0 + 0))) ℂ := Matrix.diagonal (fun i => (w i : ℂ))

theorem coef_diag {nf nd : ℕ} (w : Fin nf → ℝ) (a : Fin nd) (i : Fin nf) :
    coef (diagR w) a i = wave nd (delayIdx nd a) i.1 * (w i : ℂ) := by
  unfold coef diagR
  exact vecMul_diagonal _ _ _

theorem wave_tone {nf nd : ℕ} (a : ℤ) (i : Fin nf) : wave nd a i.1 * tone nd a nf 0 0 i = 1 := by
  unfold wave tone
  rw [← Complex.exp_add, ← Complex.exp_zero]
  congr 1
  push_cast
  ring

theorem wave_alias {nf nd : ℕ} (hnd : 0 < nd) (a : ℤ) (i j : Fin nf) (h : aliased nd i j) :
    wave nd a i.1 * star (wave nd a j.1) = 1 := by
  obtain ⟨q, hq⟩ := h
  have hne : (nd : ℂ) ≠ 0 := by exact_mod_cast hnd.ne'
  unfold wave
  rw [Complex.star_def, ← Complex.exp_conj, ← Complex.exp_add]
  have := exp_int_one (-a * q)
  rw [← this]
  congr 1
  have hi : ((i.1 : ℕ) : ℂ) = j.1 + nd * q := by
    have : ((i.1 : ℤ) : ℂ) = ((j.1 + nd * q : ℤ) : ℂ) := by congr 1; omega
    simpa using this
  simp only [map_mul, map_div₀, map_neg, Complex.conj_I, Complex.conj_ofReal, map_ofNat, map_intCast, map_natCast]
  simp only [Complex.ofReal_natCast, hi]
  push_cast
  field_simp
  ring

theorem rowSum_diag {nf nd : ℕ} (hnd : 0 < nd) (w1 w2 : Fin nf → ℝ) (S : Fin nf → Fin nf → ℝ) (a : Fin nd) :
    rowSum (raw (left := 0) (right := 0) nd (diagR w1) (diagR w2) S) a = ((nd * pairSum nd w1 w2 S : ℝ) : ℂ) := by
  rw [raw_rowSum hnd]
  unfold pairSum
  push_cast
  congr 1
  refine Finset.sum_congr rfl (fun i _ => Finset.sum_congr rfl (fun j _ => ?_))
  by_cases h : aliased nd i j
  · rw [if_pos h, if_pos h]
    rw [coef_diag, coef_diag]
    have := wave_alias hnd (delayIdx nd a) i j h
    simp only [Complex.star_def, map_mul, Complex.conj_ofReal] at this ⊢
    calc _ = (wave nd (delayIdx nd a) i.1 * (starRingEnd ℂ) (wave nd (delayIdx nd a) j.1)) * (w2 i * w1 j * S i j) := by ring
      _ = _ := by rw [this]; push_cast; ring
  · rw [if_neg h, if_neg h]; simp

theorem raw_diag_entry {nf nd : ℕ} (w1 w2 : Fin nf → ℝ) (S : Fin nf → Fin nf → ℝ) (a : Fin nd) :
    raw (left := 0) (right := 0) nd (diagR w1) (diagR w2) S a a = ((∑ i, ∑ j, w2 i * w1 j * S i j : ℝ) : ℂ) := by
  rw [raw_eq]
  push_cast
  refine Finset.sum_congr rfl (fun i _ => Finset.sum_congr rfl (fun j _ => ?_))
  rw [coef_diag, coef_diag, qExt_tone]
  have h1 : wave nd (delayIdx nd a) i.1 * tone nd (delayIdx nd a) nf 0 0 i = 1 := wave_tone _ i
  have h2 : wave nd (delayIdx nd a) j.1 * tone nd (delayIdx nd a) nf 0 0 j = 1 := wave_tone _ j
  have h2' := congrArg star h2
  simp only [Complex.star_def, map_mul, Complex.conj_ofReal, map_one] at h2' ⊢
  calc _ = (wave nd (delayIdx nd a) i.1 * tone nd (delayIdx nd a) nf 0 0 i) *
        ((starRingEnd ℂ) (wave nd (delayIdx nd a) j.1) * (starRingEnd ℂ) (tone nd (delayIdx nd a) nf 0 0 j)) * (w2 i * w1 j * S i j) := by
        show _ * ((tone nd (delayIdx nd a) nf 0 0 i * (starRingEnd ℂ) (tone nd (delayIdx nd a) nf 0 0 j)) * _) * _ = _
        ring
    _ = _ := by rw [h1, h2']; ring

theorem raw_diag_zero {nf nd : ℕ} (hnd : 0 < nd) (w1 w2 : Fin nf → ℝ) (h1 : ∀ i, 0 ≤ w1 i) (h2 : ∀ i, 0 ≤ w2 i)
    (S : Fin nf → Fin nf → ℝ) (hS : ∀ i j, 0 < S i j) :
    raw (left := 0) (right := 0) nd (diagR w1) (diagR w2) S = 0 ↔ ∀ i j, w2 i * w1 j = 0 := by
  constructor
  · intro hz
    have h0 := raw_diag_entry w1 w2 S (⟨0, hnd⟩ : Fin nd)
    rw [hz] at h0
    have h3 : (∑ i, ∑ j, w2 i * w1 j * S i j) = 0 := by
      have : (0 : ℂ) = ((∑ i, ∑ j, w2 i * w1 j * S i j : ℝ) : ℂ) := h0
      exact_mod_cast this.symm
    have hnn : ∀ i j, 0 ≤ w2 i * w1 j * S i j := fun i j => mul_nonneg (mul_nonneg (h2 i) (h1 j)) (hS i j).le
    intro i j
    have h4 := (Finset.sum_eq_zero_iff_of_nonneg (fun i _ => Finset.sum_nonneg (fun j _ => hnn i j))).1 h3 i (Finset.mem_univ i)
    have h5 := (Finset.sum_eq_zero_iff_of_nonneg (fun j _ => hnn i j)).1 h4 j (Finset.mem_univ j)
    exact (mul_eq_zero.1 h5).resolve_right (hS i j).ne'
  · intro hz
    funext a b
    rw [raw_eq]
    apply Finset.sum_eq_zero; intro i _
    apply Finset.sum_eq_zero; intro j _
    rw [coef_diag, coef_diag]
    have : ((w2 i : ℝ) : ℂ) * (w1 j : ℂ) = 0 := by exact_mod_cast hz i j
    simp only [Complex.star_def, map_mul, Complex.conj_ofReal]
    calc _ = (w2 i : ℂ) * (w1 j : ℂ) * (wave nd (delayIdx nd a) i.1 * (qExt nf b 0 0 i j * (S i j : ℂ)) * (starRingEnd ℂ) (wave nd (delayIdx nd a) j.1)) := by ring
      _ = _ := by rw [this]; simp

theorem binLoss_bounds (nd : ℕ) {n : ℕ} (w1 w2 : Fin n → ℝ) (h1 : ∀ i, 0 ≤ w1 i) (h2 : ∀ i, 0 ≤ w2 i) :
    0 < binLoss nd w1 w2 ∧ binLoss nd w1 w2 ≤ 1 := by
  have hnn : ∀ i j, 0 ≤ (if aliased nd i j then w2 i * w1 j * (1 : ℝ) else 0) := by
    intro i j; split
    · simpa using mul_nonneg (h2 i) (h1 j)
    · exact le_refl _
  have hle : pairSum nd w1 w2 (fun i j => npSinc (((i.1 : ℝ) - j.1) / n)) ≤ pairSum nd w1 w2 (fun _ _ => 1) := by
    unfold pairSum
    refine Finset.sum_le_sum (fun i _ => Finset.sum_le_sum (fun j _ => ?_))
    split
    · exact mul_le_mul_of_nonneg_left (npSinc_le _) (mul_nonneg (h2 i) (h1 j))
    · exact le_refl _
  have hge : 0 ≤ pairSum nd w1 w2 (fun _ _ => 1) := Finset.sum_nonneg (fun i _ => Finset.sum_nonneg (fun j _ => hnn i j))
  unfold binLoss
  by_cases h0 : pairSum nd w1 w2 (fun _ _ => 1) = 0
  · rw [if_pos h0]; exact ⟨one_pos, le_refl _⟩
  · rw [if_neg h0]
    have hpos : 0 < pairSum nd w1 w2 (fun _ _ => 1) := lt_of_le_of_ne hge (Ne.symm h0)
    refine ⟨div_pos ?_ hpos, (div_le_one hpos).2 hle⟩
    have hnn' : ∀ i j : Fin n, 0 ≤ (if aliased nd i j then w2 i * w1 j * npSinc (((i.1 : ℝ) - j.1) / n) else 0) := by
      intro i j; split
      · exact mul_nonneg (mul_nonneg (h2 i) (h1 j)) (sinc_chan_pos i j).le
      · exact le_refl _
    unfold pairSum at hpos ⊢
    obtain ⟨i, _, hi⟩ := Finset.exists_lt_of_sum_lt (s := Finset.univ) (f := fun _ : Fin n => (0 : ℝ)) (by simpa using hpos)
    obtain ⟨j, _, hj⟩ := Finset.exists_lt_of_sum_lt (s := Finset.univ) (f := fun _ : Fin n => (0 : ℝ)) (by simpa using hi)
    refine Finset.sum_pos' (fun i _ => Finset.sum_nonneg (fun j _ => hnn' i j)) ⟨i, Finset.mem_univ i, ?_⟩
    refine Finset.sum_pos' (fun j _ => hnn' i j) ⟨j, Finset.mem_univ j, ?_⟩
    by_cases ha : aliased nd i j
    · rw [if_pos ha] at hj ⊢
      exact mul_pos (by simpa using hj) (sinc_chan_pos i j)
    · rw [if_neg ha] at hj; exact absurd hj (lt_irrefl _)

/-- **C98** With identity weighting (any real non-negative weights and tapers per channel, so in particular any flags) the adjustment
is one number for all delays, for every number of delays: `Ndlys / (Nfreqs · binLoss)` times the mean square of the taper, where the
loss lies in (0, 1]. So the error "The normalization scalar is band-dependent!" is never raised, and the adjustment is never smaller
than `Ndlys / Nfreqs` times the taper factor. -/
theorem C98_identity {nf nd : ℕ} (hnd : 0 < nd) (w1 w2 : Fin nf → ℝ) (h1 : ∀ i, 0 ≤ w1 i) (h2 : ∀ i, 0 ≤ w2 i)
    (taper : Option (Fin nf → ℝ)) (identity : Bool) :
    adjustment identity (getG (left := 0) (right := 0) nd (diagR w1) (diagR w2)) (getH (left := 0) (right := 0) nd false (diagR w1) (diagR w2)) taper =
      .ok (fun _ => (nd : ℝ) / (nf * binLoss nd w1 w2) * taperPower taper) ∧ 0 < binLoss nd w1 w2 ∧ binLoss nd w1 w2 ≤ 1 := by
  rw [← taperFactor_eq]
  have hb := binLoss_bounds nd w1 w2 h1 h2
  refine ⟨?_, hb⟩
  apply adjustment_const hnd _ _ taper _ hb.1.le
  intro a
  have hz : rawG (left := 0) (right := 0) nd (diagR w1) (diagR w2) = 0 ↔ rawH (left := 0) (right := 0) nd (diagR w1) (diagR w2) = 0 := by
    rw [← raw_one, rawH_raw]
    exact (raw_diag_zero hnd w1 w2 h1 h2 (fun _ _ => 1) (fun _ _ => one_pos)).trans
      (raw_diag_zero hnd w1 w2 h1 h2 (fun i j => npSinc (((i.1 : ℝ) - j.1) / (nf : ℕ))) (fun i j => sinc_chan_pos i j)).symm
  rw [getG_finish, getH_finish, ratio_eq _ _ hz, ← raw_one, rawH_raw]
  have g1 := rowSum_diag hnd w1 w2 (fun _ _ => 1) a
  have g2 := rowSum_diag hnd w1 w2 (fun i j => npSinc (((i.1 : ℝ) - j.1) / (nf : ℕ))) a
  erw [g1, g2]
  rw [Complex.ofReal_re, Complex.ofReal_re]
  have hne : (nd : ℝ) ≠ 0 := by exact_mod_cast hnd.ne'
  unfold binLoss
  by_cases h0 : pairSum nd w1 w2 (fun _ _ => 1) = 0
  · rw [if_pos h0, if_pos (by rw [h0, mul_zero])]
  · rw [if_neg h0, if_neg (mul_ne_zero hne h0), mul_div_mul_left _ _ hne]

/-- **C98** For other weightings the adjustment is per delay, and turns the normalisation by the row sums of `G` into one by the row
sums of `H`: adjustment over `sum_b G_ab` is `Ndlys / Nfreqs` times the taper factor over `sum_b H_ab`. -/
theorem C98_normalises_by_H {nf nd : ℕ} (G H : Matrix (Fin nd) (Fin nd) ℂ) (taper : Option (Fin nf → ℝ)) (adj : Fin nd → ℝ)
    (h : adjustment false G H taper = .ok adj) (a : Fin nd) (hG : (∑ b, G a b).re ≠ 0) :
    adj a / (∑ b, G a b).re = (nd : ℝ) / nf * taperPower taper / (∑ b, H a b).re := by
  rw [← taperFactor_eq]
  have h' : (fun a => (nd : ℝ) / (nf * ratio G H a) * taperFactor taper) = adj := by
    unfold adjustment at h
    simpa using h
  rw [← h']
  show (nd : ℝ) / (nf * ratio G H a) * taperFactor taper / _ = _
  have hr : ratio G H a = (∑ b, H a b).re / (∑ b, G a b).re := by
    unfold ratio rowSum
    rw [if_neg hG]
  rw [hr]
  field_simp

/-- Non-vacuity: one delay and two unflagged channels. Both channels are aliased, and the loss is `(1 + 1 + 2 sinc(1/2)) / 4 = 1/2 + 1/π`. -/
example : binLoss 1 (fun _ : Fin 2 => 1) (fun _ => 1) = 1 / 2 + 1 / Real.pi := by
  have ha : ∀ i j : Fin 2, aliased 1 i j := fun i j => by unfold aliased; simp
  have hp : Real.pi / 2 ≠ 0 := by have := Real.pi_pos; positivity
  have hs : npSinc (1 / 2) = 2 / Real.pi := by
    unfold npSinc
    rw [mul_one_div, Real.sinc_of_ne_zero hp, Real.sin_pi_div_two]
    field_simp
  have hs' : npSinc (-(1 / 2)) = 2 / Real.pi := by
    rw [← hs]; unfold npSinc; rw [mul_neg, Real.sinc_neg]
  have h0 : npSinc 0 = 1 := by simp [npSinc]
  unfold binLoss pairSum
  simp only [ha, if_true, Fin.sum_univ_two, mul_one, one_mul]
  norm_num
  rw [h0]
  rw [hs, hs']
  field_simp
  ring

end
end HeraPspec.DelayAdj
