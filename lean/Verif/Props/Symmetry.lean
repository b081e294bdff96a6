import Verif.Props.PspecValue
import Verif.Model.FlagR
import Verif.Props.Cov

/-!
C155: the symmetries of a stored power spectrum, end to end (`R`, `q_hat`, `get_G`, `get_H`, `get_MW`, `p_hat`, the scalar and its adjustment):
exchanging the two data sets conjugates it; conjugating both visibilities (reversing both baselines) conjugates it and mirrors the delays; complex
gains multiply it by their product, also when the weighting is the inverse of the covariance of the data; and each time is on its own.

Without `exact_norm`, in the modes 'I' and 'H^-1'.
-/
namespace HeraPspec.PspecValue
open Matrix HeraPspec.Oqe HeraPspec.DelayAdj
noncomputable section

variable {nf left right nd nt nt' : ℕ}

/-! ### Specification -/

/-- The delay bin opposite to bin `a`: its delay is minus that of `a` (modulo the period of the delay axis; for an even number of delays the
first bin is its own opposite). -/
def opposite (a : Fin nd) : Fin nd := ⟨(2 * (nd / 2) + nd - a.1) % nd, Nat.mod_lt _ (Nat.lt_of_le_of_lt (Nat.zero_le _) a.2)⟩

/-- `delayIdx (opposite a) = - delayIdx a` modulo the number of delays. -/
theorem opposite_delay (a : Fin nd) : ∃ k : ℤ, delayIdx nd (opposite a) = - delayIdx nd a + k * nd := by
  unfold delayIdx opposite
  refine ⟨1 - (((2 * (nd / 2) + nd - a.1) / nd : ℕ) : ℤ), ?_⟩
  have h := Nat.mod_add_div (2 * (nd / 2) + nd - a.1) nd
  have ha := a.2
  simp only
  have h' : (((2 * (nd / 2) + nd - a.1) % nd : ℕ) : ℤ) + nd * (((2 * (nd / 2) + nd - a.1) / nd : ℕ) : ℤ) = ((2 * (nd / 2) + nd - a.1 : ℕ) : ℤ) := by
    exact_mod_cast h
  have h2 : ((2 * (nd / 2) + nd - a.1 : ℕ) : ℤ) = 2 * ((nd / 2 : ℕ) : ℤ) + nd - a.1 := by omega
  rw [h2] at h'
  linarith

/-- The modes covered. -/
def Plain (m : Mode) : Prop := m = .I ∨ m = .Hinv

/-- Permuting and conjugating a matrix. -/
def cj {n : ℕ} (e : Fin n → Fin n) (A : Matrix (Fin n) (Fin n) ℂ) : Matrix (Fin n) (Fin n) ℂ := fun a b => star (A (e a) (e b))

/-- The pseudo-inverse of a conjugated and reordered matrix, and of a multiple, as for the Moore-Penrose inverse. -/
structure PinvOk (pinv : Matrix (Fin nd) (Fin nd) ℂ → Matrix (Fin nd) (Fin nd) ℂ) : Prop where
  conj : ∀ (e : Equiv.Perm (Fin nd)) A, pinv (cj e A) = cj e (pinv A)
  scale : ∀ (k : ℝ) A, k ≠ 0 → pinv ((k : ℂ) • A) = (k : ℂ)⁻¹ • pinv A

/-- What the weighting gets from outside behaves like an inverse under conjugation, and the lazy covariance of 'dayenu' is real (a filter that
treats positive and negative delays alike). -/
def WtConj {ne : ℕ} : FlagR.Wt ne → Prop
  | .identity => True
  | .iC inv => ∀ C, inv (C.map star) = (inv C).map star
  | .dayenu pinv D => D.map star = D ∧ ∀ C, pinv (C.map star) = (pinv C).map star

/-- ... and under multiplication by a number. -/
def WtScale {ne : ℕ} : FlagR.Wt ne → Prop
  | .iC inv => ∀ (k : ℝ) C, k ≠ 0 → inv ((k : ℂ) • C) = (k : ℂ)⁻¹ • inv C
  | _ => True

/-- The weighting is computed from the data. -/
def FromData {ne : ℕ} : FlagR.Wt ne → Prop
  | .iC _ => True
  | _ => False

/-! ### Proofs -/

theorem opposite_invol (a : Fin nd) : opposite (opposite a) = a := by
  apply Fin.ext
  unfold opposite
  simp only
  have ha := a.2
  rcases Nat.even_or_odd' nd with ⟨c, h | h⟩
  · have h2 : 2 * (nd / 2) = nd := by omega
    rw [h2]
    by_cases h0 : a.1 = 0
    · rw [h0]; simp
    · have e1 : (nd + nd - a.1) % nd = nd - a.1 := by
        rw [show nd + nd - a.1 = (nd - a.1) + nd by omega, Nat.add_mod_right, Nat.mod_eq_of_lt (by omega)]
      rw [e1, show nd + nd - (nd - a.1) = a.1 + nd by omega, Nat.add_mod_right, Nat.mod_eq_of_lt ha]
  · have h2 : 2 * (nd / 2) = nd - 1 := by omega
    rw [h2]
    have e1 : (nd - 1 + nd - a.1) % nd = nd - 1 - a.1 := by
      rw [show nd - 1 + nd - a.1 = (nd - 1 - a.1) + nd by omega, Nat.add_mod_right, Nat.mod_eq_of_lt (by omega)]
    rw [e1, show nd - 1 + nd - (nd - 1 - a.1) = a.1 + nd by omega, Nat.add_mod_right, Nat.mod_eq_of_lt ha]

/-- `opposite` as a permutation. -/
def oppPerm : Equiv.Perm (Fin nd) := ⟨opposite, opposite, opposite_invol, opposite_invol⟩

theorem cj_eq {n : ℕ} (e : Equiv.Perm (Fin n)) (A : Matrix (Fin n) (Fin n) ℂ) : cj e A = (Aᴴᵀ).submatrix e e := rfl

theorem cj_mul {n : ℕ} (e : Equiv.Perm (Fin n)) (A B : Matrix (Fin n) (Fin n) ℂ) : cj e (A * B) = cj e A * cj e B := by
  simp only [cj_eq, conjTranspose_mul, transpose_mul]
  rw [Matrix.submatrix_mul_equiv]

theorem cj_one {n : ℕ} (e : Equiv.Perm (Fin n)) : cj e (1 : Matrix (Fin n) (Fin n) ℂ) = 1 := by
  rw [cj_eq, conjTranspose_one, transpose_one, Matrix.submatrix_one_equiv]

theorem cj_det {n : ℕ} (e : Equiv.Perm (Fin n)) (A : Matrix (Fin n) (Fin n) ℂ) : (cj e A).det = star A.det := by
  rw [cj_eq, Matrix.det_submatrix_equiv_self, Matrix.det_transpose, Matrix.det_conjTranspose]

theorem cj_inv {n : ℕ} (e : Equiv.Perm (Fin n)) (A : Matrix (Fin n) (Fin n) ℂ) : (cj e A)⁻¹ = cj e A⁻¹ := by
  rw [cj_eq, cj_eq, Matrix.inv_submatrix_equiv, ← Matrix.transpose_nonsing_inv, ← Matrix.conjTranspose_nonsing_inv]

theorem cj_rowSum {n : ℕ} (e : Equiv.Perm (Fin n)) (A : Matrix (Fin n) (Fin n) ℂ) (a : Fin n) : rowSum (cj e A) a = star (rowSum A (e a)) := by
  unfold rowSum cj
  rw [star_sum]
  exact Equiv.sum_comp e (fun b => star (A (e a) b))

theorem cj_zero {n : ℕ} (e : Equiv.Perm (Fin n)) (A : Matrix (Fin n) (Fin n) ℂ) : cj e A = 0 ↔ A = 0 := by
  constructor
  · intro h
    ext a b
    have := congrFun (congrFun h (e.symm a)) (e.symm b)
    simp only [cj, Equiv.apply_symm_apply, Matrix.zero_apply] at this ⊢
    rw [← star_star (A a b), this, star_zero]
  · rintro rfl; ext a b; simp [cj]

theorem cj_finish {n : ℕ} (e : Equiv.Perm (Fin n)) (A : Matrix (Fin n) (Fin n) ℂ) : finishGH (cj e A) = cj e (finishGH A) := by
  unfold finishGH
  by_cases h : A = 0
  · rw [if_pos h, if_pos ((cj_zero e A).2 h)]
    nth_rw 1 [← cj_one e]
    ext a b; simp [cj]
  · rw [if_neg h, if_neg (fun hc => h ((cj_zero e A).1 hc))]
    ext a b; simp [cj]

theorem getMW_cj {pinv : Matrix (Fin nd) (Fin nd) ℂ → Matrix (Fin nd) (Fin nd) ℂ} {G H : Matrix (Fin nd) (Fin nd) ℂ} {mode : Mode} (hm : Plain mode)
    (e : Equiv.Perm (Fin nd)) (hp : mode = .Hinv → pinv (cj e H) = cj e (pinv H)) {eig : Option (Eig nd)} {MW : Matrix (Fin nd) (Fin nd) ℂ × Matrix (Fin nd) (Fin nd) ℂ}
    (h : getMW pinv G H mode eig false = .ok MW) (eig' : Option (Eig nd)) :
    getMW pinv (cj e G) (cj e H) mode eig' false = .ok (cj e MW.1, cj e MW.2) := by
  rcases hm with rfl | rfl
  · unfold getMW at h ⊢
    simp only [reduceCtorEq, if_false, ne_eq, not_true, false_and] at h ⊢
    injection h with h
    rw [← h]
    congr 1
    have hd : ∀ A : Matrix (Fin nd) (Fin nd) ℂ, diagonal (fun i => 1 / rowSum (cj e A) i) = cj e (diagonal (fun i => 1 / rowSum A i)) := by
      intro A
      ext a b
      unfold cj
      by_cases hab : a = b
      · subst hab
        rw [diagonal_apply_eq, diagonal_apply_eq, star_div₀, star_one]
        have := cj_rowSum e A a
        unfold cj at this
        rw [this]
      · rw [diagonal_apply_ne _ hab, diagonal_apply_ne _ (fun hc => hab (e.injective hc)), star_zero]
    rw [hd, hd, cj_mul]
  · unfold getMW at h ⊢
    simp only [reduceCtorEq, if_false, ne_eq, not_false_eq_true, true_and, Bool.false_eq_true] at h ⊢
    injection h with h
    rw [← h]
    congr 1
    have hM : (if (cj e H).det ≠ 0 then (cj e H)⁻¹ else pinv (cj e H)) = cj e (if H.det ≠ 0 then H⁻¹ else pinv H) := by
      rw [cj_det]
      by_cases hd : H.det = 0
      · rw [if_neg (by simp [hd]), if_neg (by simp [hd]), hp rfl]
      · rw [if_pos (by simpa using hd), if_pos hd, cj_inv]
    simp only [ne_eq] at hM
    rw [hM]
    refine Prod.ext rfl ?_
    ext a b
    show (cj e _ * cj e H) a b / rowSum (cj e _ * cj e H) a = _
    rw [← cj_mul, cj_rowSum]
    exact (star_div₀ _ _).symm

theorem ratio_cj (e : Equiv.Perm (Fin nd)) (G H : Matrix (Fin nd) (Fin nd) ℂ) (a : Fin nd) : ratio (cj e G) (cj e H) a = ratio G H (e a) := by
  unfold ratio
  rw [cj_rowSum, cj_rowSum]
  simp only [Complex.star_def, Complex.conj_re]

theorem mean_perm (e : Equiv.Perm (Fin nd)) (f : Fin nd → ℝ) : mean (fun a => f (e a)) = mean f := by
  unfold mean
  rw [Equiv.sum_comp e f]

theorem adj_cj (identity : Bool) (e : Equiv.Perm (Fin nd)) (G H : Matrix (Fin nd) (Fin nd) ℂ) (taper : Option (Fin nf → ℝ)) (f : Fin nd → ℝ)
    (h : adjustment identity G H taper = .ok f) : adjustment identity (cj e G) (cj e H) taper = .ok (fun a => f (e a)) := by
  have hr : ratio (cj e G) (cj e H) = fun a => ratio G H (e a) := funext (ratio_cj e G H)
  unfold adjustment at h ⊢
  cases identity with
  | false =>
    simp only [Bool.false_eq_true, if_false, hr] at h ⊢
    injection h with h
    rw [← h]
  | true =>
    simp only [if_true, hr] at h ⊢
    rw [mean_perm]
    split at h
    · cases h
    · rename_i hn
      injection h with h
      rw [if_neg, ← h]
      rintro ⟨a, ha⟩
      exact hn ⟨e a, ha⟩

theorem adjOf_cj (o : Opts) (norm : Norm nf) (taper : Option (Fin nf → ℝ)) (e : Equiv.Perm (Fin nd)) (G H : Matrix (Fin nd) (Fin nd) ℂ)
    (sa : Option (Fin nd → ℝ)) (h : adjOf o norm taper G H = .ok sa) : adjOf o norm taper (cj e G) (cj e H) = .ok (sa.map (fun f a => f (e a))) := by
  unfold adjOf at h ⊢
  split at h
  · rename_i hc
    rw [if_pos hc]
    cases ha : adjustment o.identity G H taper with
    | error x => rw [ha] at h; cases h
    | ok f =>
      rw [ha] at h
      rw [adj_cj _ e _ _ _ f ha]
      cases h
      rfl
  · rename_i hc
    rw [if_neg hc]
    cases h
    rfl

/-- From the parts of a call to the call. -/
theorem blpair_mk {o : Opts} {norm : Norm nf} {scal : String → ℝ} {p q : Int} {taper : Option (Fin nf → ℝ)}
    {pinv : Matrix (Fin nd) (Fin nd) ℂ → Matrix (Fin nd) (Fin nd) ℂ} {eig : Option (Eig nd)}
    (E : Fin nd → Matrix (Fin (nf + (left + right))) (Fin (nf + (left + right))) ℂ) (kind : AnCov.Kind) (inp : ℕ → AnCov.Inp (Fin (nf + (left + right))))
    {R1 R2 : Matrix (Fin nf) (Fin (nf + (left + right))) ℂ} {x1 x2 : Matrix (Fin (nf + (left + right))) (Fin nt) ℂ} {s : ℝ} {GH qv MW sa}
    (h1 : scalarOf o scal p q = .ok s) (h2 : fisher o norm nd R1 R2 = .ok GH)
    (h3 : (qHat o.allowFft norm [(R1, x1)] [(R2, x2)] : Except Err (Fin nd → Fin nt → ℂ)) = .ok qv)
    (h4 : getMW pinv GH.1 GH.2 o.norm (if o.norm = .Vhalf then eig else none) norm.exact = .ok MW)
    (h5 : adjOf o norm taper GH.1 GH.2 = .ok sa) :
    ∃ row, blpair o norm scal p q taper pinv eig E kind inp R1 R2 x1 x2 = .ok row ∧ row.scalar = s ∧
      (row.data = if o.returnQ then fun t a => qv a t else fun t a => spectra o s sa MW.1 (Matrix.of qv) a t) ∧
      (row.window = if o.storeWindow then some (fun _ => MW.2.map Complex.re) else none) := by
  unfold blpair
  rw [h1, h2, h3]
  change ∃ row, (getMW pinv GH.1 GH.2 o.norm (if o.norm = .Vhalf then eig else none) norm.exact >>= _) = Except.ok row ∧ _
  rw [h4]
  change ∃ row, (adjOf o norm taper GH.1 GH.2 >>= _) = Except.ok row ∧ _
  rw [h5]
  exact ⟨_, rfl, rfl, rfl, rfl⟩

/-- A call whose `q`, `G`, `H` are permuted conjugates. -/
theorem blpair_cj {o : Opts} (hm : Plain o.norm) {norm : Norm nf} (hn : norm.exact = false) {scal : String → ℝ} {p q : Int} {taper : Option (Fin nf → ℝ)}
    {pinv : Matrix (Fin nd) (Fin nd) ℂ → Matrix (Fin nd) (Fin nd) ℂ} (e : Equiv.Perm (Fin nd)) (hp : o.norm = .Hinv → ∀ A, pinv (cj e A) = cj e (pinv A)) {eig eig' : Option (Eig nd)}
    {E : Fin nd → Matrix (Fin (nf + (left + right))) (Fin (nf + (left + right))) ℂ} {kind : AnCov.Kind} {inp : ℕ → AnCov.Inp (Fin (nf + (left + right)))}
    (E' : Fin nd → Matrix (Fin (nf + (left + right))) (Fin (nf + (left + right))) ℂ) (inp' : ℕ → AnCov.Inp (Fin (nf + (left + right))))
    {R1 R2 R1' R2' : Matrix (Fin nf) (Fin (nf + (left + right))) ℂ} {x1 x2 x1' x2' : Matrix (Fin (nf + (left + right))) (Fin nt) ℂ} {row : Row nd nt}
    (h : blpair o norm scal p q taper pinv eig E kind inp R1 R2 x1 x2 = .ok row) {p' q' : Int} (hs : scalarOf o scal p' q' = scalarOf o scal p q)
    (hG : getG nd R1' R2' = cj e (getG nd R1 R2)) (hH : getH nd o.sampling R1' R2' = cj e (getH nd o.sampling R1 R2))
    (hq : ∀ qv, (qHat o.allowFft norm [(R1, x1)] [(R2, x2)] : Except Err (Fin nd → Fin nt → ℂ)) = .ok qv →
      (qHat o.allowFft norm [(R1', x1')] [(R2', x2')] : Except Err (Fin nd → Fin nt → ℂ)) = .ok (fun a t => star (qv (e a) t))) :
    ∃ row', blpair o norm scal p' q' taper pinv eig' E' kind inp' R1' R2' x1' x2' = .ok row' ∧ row'.scalar = row.scalar ∧
      (∀ t a, row'.data t a = star (row.data t (e a))) ∧ row'.window = row.window.map (fun w t => (w t).submatrix e e) := by
  obtain ⟨s, GH, qv, MW, sa, h1, h2, h3, h4, h5, rfl⟩ := blpair_ok h
  unfold fisher at h2
  rw [hn] at h2
  simp only [Bool.false_eq_true, if_false] at h2
  injection h2 with h2
  subst h2
  rw [hn] at h4
  have h4' := getMW_cj hm e (fun hc => hp hc _) h4 (if o.norm = .Vhalf then eig' else none)
  have h5' := adjOf_cj o norm taper e _ _ sa h5
  have h2' : fisher o norm nd R1' R2' = .ok (cj e (getG nd R1 R2), cj e (getH nd o.sampling R1 R2)) := by
    unfold fisher
    rw [hn, hG, hH]
    rfl
  obtain ⟨row', r1, r2, r3, r4⟩ := blpair_mk (eig := eig') (pinv := pinv) E' kind inp' (hs.trans h1) h2' (hq qv h3) (by rw [hn]; exact h4') h5'
  refine ⟨row', r1, r2, ?_, ?_⟩
  · intro t a
    rw [r3]
    cases hrq : o.returnQ with
    | true => rfl
    | false =>
      simp only [Bool.false_eq_true, if_false]
      rw [spectra_apply h1, spectra_apply h1]
      have hf : factor (sa.map (fun f a => f (e a))) a = factor sa (e a) := by cases sa <;> rfl
      rw [hf, star_mul', star_sum]
      congr 1
      · simp
      · rw [← Equiv.sum_comp e (fun c => star (MW.1 (e a) c * (Matrix.of qv) c t))]
        exact Finset.sum_congr rfl (fun c _ => by simp [cj])
  · rw [r4]
    cases o.storeWindow with
    | false => rfl
    | true =>
      simp only [if_true, Option.map_some]
      congr 1

theorem kern_herm (sampling : Bool) (b : Fin nd) (i j : Fin (nf + (left + right))) : star (kern sampling nf left right b i j) = kern sampling nf left right b j i := by
  cases sampling with
  | true =>
    show star (qExt nf b left right i j) = qExt nf b left right j i
    rw [qExt_tone, qExt_tone, star_mul', star_star, mul_comm]
  | false =>
    show star (qExt nf b left right i j * (sincMat (nf + (left + right)) i j : ℂ)) = qExt nf b left right j i * (sincMat (nf + (left + right)) j i : ℂ)
    have hs : sincMat (nf + (left + right)) i j = sincMat (nf + (left + right)) j i := by
      unfold sincMat npSinc
      rw [show Real.pi * (((i.1 : ℝ) - j.1) / (nf + (left + right) : ℕ)) = -(Real.pi * (((j.1 : ℝ) - i.1) / (nf + (left + right) : ℕ))) by ring, Real.sinc_neg]
    rw [star_mul', qExt_tone, qExt_tone, star_mul', star_star, hs]
    simp only [Complex.star_def, Complex.conj_ofReal]
    ring

theorem rawGH_exchange (sampling : Bool) (R1 R2 : Matrix (Fin nf) (Fin (nf + (left + right))) ℂ) :
    rawGH sampling nd R2 R1 = cj (Equiv.refl (Fin nd)) (rawGH sampling nd R1 R2) := by
  ext a b
  simp only [cj, Equiv.refl_apply]
  rw [rawGH_sum, rawGH_sum, star_sum, Finset.sum_comm]
  refine Finset.sum_congr rfl (fun i _ => ?_)
  rw [star_sum]
  refine Finset.sum_congr rfl (fun j _ => ?_)
  rw [star_mul', star_mul', star_star, kern_herm]
  ring

theorem getH_def (sampling : Bool) (R1 R2 : Matrix (Fin nf) (Fin (nf + (left + right))) ℂ) : getH nd sampling R1 R2 = finishGH (rawGH sampling nd R1 R2) := rfl

theorem wave_period (s k : ℤ) (u : ℕ) (hnd : nd ≠ 0) : wave nd (s + k * nd) ((u : ℕ) : ℝ) = wave nd s ((u : ℕ) : ℝ) := by
  unfold wave
  have : (-2 * (Real.pi : ℂ) * Complex.I * ((s + k * nd : ℤ) : ℂ) * (((u : ℕ) : ℝ) : ℂ) / nd) =
      (-2 * Real.pi * Complex.I * s * ((u : ℕ) : ℝ) / nd) + ((-(k * u) : ℤ) : ℂ) * (2 * Real.pi * Complex.I) := by
    have : (nd : ℂ) ≠ 0 := by exact_mod_cast hnd
    push_cast
    field_simp
    ring
  rw [this, Complex.exp_add, Complex.exp_int_mul_two_pi_mul_I, mul_one]

theorem wave_opp (a : Fin nd) (u : ℕ) : wave nd (delayIdx nd (opposite a)) ((u : ℕ) : ℝ) = star (wave nd (delayIdx nd a) ((u : ℕ) : ℝ)) := by
  have hnd : nd ≠ 0 := fun h => by have := a.2; omega
  obtain ⟨k, hk⟩ := opposite_delay a
  rw [hk, wave_period _ _ _ hnd, star_wave]
  unfold wave
  congr 1
  push_cast
  ring

theorem tone_period (s k : ℤ) (n left : ℕ) (j : Fin n) (hnd : nd ≠ 0) : tone nd (s + k * nd) n left 0 j = tone nd s n left 0 j := by
  unfold tone
  have : (2 * (Real.pi : ℂ) * Complex.I * ((((s + k * nd : ℤ) : ℝ) / nd + 0 / n : ℝ) : ℂ) * (((j.1 : ℝ) - left : ℝ) : ℂ)) =
      (2 * Real.pi * Complex.I * (((s : ℝ) / nd + 0 / n : ℝ) : ℂ) * (((j.1 : ℝ) - left : ℝ) : ℂ)) + ((k * (j.1 - left) : ℤ) : ℂ) * (2 * Real.pi * Complex.I) := by
    have : (nd : ℂ) ≠ 0 := by exact_mod_cast hnd
    push_cast
    field_simp
    ring
  rw [this, Complex.exp_add, Complex.exp_int_mul_two_pi_mul_I, mul_one]

theorem tone_opp (a : Fin nd) (n left : ℕ) (j : Fin n) : tone nd (delayIdx nd (opposite a)) n left 0 j = star (tone nd (delayIdx nd a) n left 0 j) := by
  have hnd : nd ≠ 0 := fun h => by have := a.2; omega
  obtain ⟨k, hk⟩ := opposite_delay a
  rw [hk, tone_period _ _ _ _ _ hnd]
  unfold tone
  rw [Complex.star_def, ← Complex.exp_conj]
  congr 1
  simp only [map_mul, Complex.conj_I, Complex.conj_ofReal, map_ofNat]
  push_cast
  ring

theorem kern_opp (sampling : Bool) (b : Fin nd) (i j : Fin (nf + (left + right))) :
    kern sampling nf left right (opposite b) i j = star (kern sampling nf left right b i j) := by
  have hq : qExt nf (opposite b) left right i j = star (qExt nf b left right i j) := by
    rw [qExt_tone, qExt_tone, star_mul', tone_opp, tone_opp]
  cases sampling with
  | true => exact hq
  | false =>
    show qExt nf (opposite b) left right i j * (sincMat (nf + (left + right)) i j : ℂ) = star (qExt nf b left right i j * (sincMat (nf + (left + right)) i j : ℂ))
    rw [hq, star_mul']
    simp only [Complex.star_def, Complex.conj_ofReal]

theorem coef_conj (R : Matrix (Fin nf) (Fin (nf + (left + right))) ℂ) (a : Fin nd) (i : Fin (nf + (left + right))) :
    ((fun k : Fin nf => wave nd (delayIdx nd a) k.1) ᵥ* (R.map star)) i = star (((fun k : Fin nf => wave nd (delayIdx nd (opposite a)) k.1) ᵥ* R) i) := by
  simp only [Matrix.vecMul, dotProduct, star_sum, star_mul', wave_opp, star_star, Matrix.map_apply]

theorem rawGH_conj (sampling : Bool) (R1 R2 : Matrix (Fin nf) (Fin (nf + (left + right))) ℂ) :
    rawGH sampling nd (R1.map star) (R2.map star) = cj oppPerm (rawGH sampling nd R1 R2) := by
  ext a b
  have hk : ∀ i j, kern sampling nf left right b i j = star (kern sampling nf left right (opposite b) i j) := by
    intro i j; rw [kern_opp, star_star]
  show _ = star (rawGH sampling nd R1 R2 (opposite a) (opposite b))
  rw [rawGH_sum, rawGH_sum, star_sum]
  refine Finset.sum_congr rfl (fun i _ => ?_)
  rw [star_sum]
  refine Finset.sum_congr rfl (fun j _ => ?_)
  rw [coef_conj, coef_conj, hk, star_mul', star_mul']

theorem rawGH_scale (sampling : Bool) (R1 R2 : Matrix (Fin nf) (Fin (nf + (left + right))) ℂ) (c1 c2 : ℂ) :
    rawGH sampling nd (c1 • R1) (c2 • R2) = (star c1 * c2) • rawGH sampling nd R1 R2 := by
  ext a b
  rw [Matrix.smul_apply]
  unfold rawGH
  rw [Matrix.conjTranspose_smul, Matrix.smul_mul, Matrix.smul_mul, Matrix.smul_mul, Matrix.mul_smul, Matrix.trace_smul, Matrix.trace_smul, smul_eq_mul, smul_eq_mul, smul_eq_mul, mul_assoc]

theorem getG_cj {e : Equiv.Perm (Fin nd)} {R1 R2 R1' R2' : Matrix (Fin nf) (Fin (nf + (left + right))) ℂ}
    (h : ∀ s, rawGH s nd R1' R2' = cj e (rawGH s nd R1 R2)) : getG nd R1' R2' = cj e (getG nd R1 R2) := by
  rw [← C88_sampling, ← C88_sampling, getH_def, getH_def, h, cj_finish]

theorem getH_cj {e : Equiv.Perm (Fin nd)} {R1 R2 R1' R2' : Matrix (Fin nf) (Fin (nf + (left + right))) ℂ}
    (h : ∀ s, rawGH s nd R1' R2' = cj e (rawGH s nd R1 R2)) (s : Bool) : getH nd s R1' R2' = cj e (getH nd s R1 R2) := by
  rw [getH_def, getH_def, h, cj_finish]

theorem amp_conj (a : Fin nd) (y : Fin nf → ℂ) : amp nd (delayIdx nd a) (fun k => star (y k)) = star (amp nd (delayIdx nd (opposite a)) y) := by
  unfold amp
  rw [star_sum]
  refine Finset.sum_congr rfl (fun k _ => ?_)
  rw [star_mul', wave_opp, star_star]

theorem qHat_conj (allowFft : Bool) {norm : Norm nf} (hn : norm.exact = false) {ne : ℕ} (R1 R2 : Matrix (Fin nf) (Fin ne) ℂ) (x1 x2 : Matrix (Fin ne) (Fin nt) ℂ)
    (qv : Fin nd → Fin nt → ℂ) (h : qHat allowFft norm [(R1, x1)] [(R2, x2)] = .ok qv) :
    (qHat allowFft norm [(R1.map star, x1.map star)] [(R2.map star, x2.map star)] : Except Err (Fin nd → Fin nt → ℂ)) = .ok (fun a t => star (qv (opposite a) t)) := by
  rw [C48_value _ _ hn] at h ⊢
  injection h with h
  subst h
  congr 1
  funext a t
  have hm : ∀ (R : Matrix (Fin nf) (Fin ne) ℂ) (x : Matrix (Fin ne) (Fin nt) ℂ) (k : Fin nf), (R.map star * x.map star) k t = star ((R * x) k t) := by
    intro R x k
    simp [Matrix.mul_apply]
  simp only [List.map_cons, List.map_nil, List.sum_cons, List.sum_nil, add_zero, hm, amp_conj, star_mul', star_star]
  congr 1
  simp

theorem rowSum_smul {n : ℕ} (k : ℂ) (A : Matrix (Fin n) (Fin n) ℂ) (a : Fin n) : rowSum (k • A) a = k * rowSum A a := by
  unfold rowSum
  rw [Finset.mul_sum]
  rfl

theorem getMW_scale {pinv : Matrix (Fin nd) (Fin nd) ℂ → Matrix (Fin nd) (Fin nd) ℂ} (hp : PinvOk pinv) {G H : Matrix (Fin nd) (Fin nd) ℂ} {mode : Mode} (hm : Plain mode)
    {k : ℝ} (hk : k ≠ 0) {eig : Option (Eig nd)} {MW : Matrix (Fin nd) (Fin nd) ℂ × Matrix (Fin nd) (Fin nd) ℂ} (h : getMW pinv G H mode eig false = .ok MW)
    (eig' : Option (Eig nd)) : getMW pinv ((k : ℂ) • G) ((k : ℂ) • H) mode eig' false = .ok ((k : ℂ)⁻¹ • MW.1, MW.2) := by
  have hk' : (k : ℂ) ≠ 0 := by exact_mod_cast hk
  rcases hm with rfl | rfl
  · unfold getMW at h ⊢
    simp only [reduceCtorEq, if_false, ne_eq, not_true, false_and] at h ⊢
    injection h with h
    rw [← h]
    congr 1
    have hd : ∀ A : Matrix (Fin nd) (Fin nd) ℂ, diagonal (fun i => 1 / rowSum ((k : ℂ) • A) i) = (k : ℂ)⁻¹ • diagonal (fun i => 1 / rowSum A i) := by
      intro A
      rw [← Matrix.diagonal_smul]
      congr 1
      funext i
      rw [rowSum_smul, Pi.smul_apply, smul_eq_mul, one_div, mul_inv, one_div]
    rw [hd, hd, Matrix.smul_mul, Matrix.mul_smul, smul_smul, inv_mul_cancel₀ hk', one_smul]
  · unfold getMW at h ⊢
    simp only [reduceCtorEq, if_false, ne_eq, not_false_eq_true, true_and, Bool.false_eq_true] at h ⊢
    injection h with h
    rw [← h]
    have hM : (if ¬ ((k : ℂ) • H).det = 0 then ((k : ℂ) • H)⁻¹ else pinv ((k : ℂ) • H)) = (k : ℂ)⁻¹ • (if ¬ H.det = 0 then H⁻¹ else pinv H) := by
      rw [Matrix.det_smul]
      by_cases hd : H.det = 0
      · rw [if_neg (by simp [hd]), if_neg (by simp [hd]), hp.scale k H hk]
      · rw [if_pos (by simp [hd, hk]), if_pos hd]
        letI := invertibleOfNonzero hk'
        rw [Matrix.inv_smul _ _ (Ne.isUnit hd), invOf_eq_inv]
    have hW : (k : ℂ)⁻¹ • (if ¬ H.det = 0 then H⁻¹ else pinv H) * (k : ℂ) • H = (if ¬ H.det = 0 then H⁻¹ else pinv H) * H := by
      rw [Matrix.smul_mul, Matrix.mul_smul, smul_smul, inv_mul_cancel₀ hk', one_smul]
    rw [hM, hW]

theorem ratio_scale {k : ℝ} (hk : k ≠ 0) (G H : Matrix (Fin nd) (Fin nd) ℂ) : ratio ((k : ℂ) • G) ((k : ℂ) • H) = ratio G H := by
  funext a
  unfold ratio
  rw [rowSum_smul, rowSum_smul, Complex.re_ofReal_mul, Complex.re_ofReal_mul]
  by_cases h : (rowSum G a).re = 0
  · rw [if_pos h, if_pos (by rw [h, mul_zero])]
  · rw [if_neg h, if_neg (mul_ne_zero hk h), mul_div_mul_left _ _ hk]

theorem adjOf_scale (o : Opts) (norm : Norm nf) (taper : Option (Fin nf → ℝ)) {k : ℝ} (hk : k ≠ 0) (G H : Matrix (Fin nd) (Fin nd) ℂ) :
    adjOf o norm taper ((k : ℂ) • G) ((k : ℂ) • H) = adjOf o norm taper G H := by
  unfold adjOf adjustment
  rw [ratio_scale hk]

theorem finish_scale {k : ℂ} (hk : k ≠ 0) {A : Matrix (Fin nd) (Fin nd) ℂ} (h : A ≠ 0) : finishGH (k • A) = k • finishGH A := by
  unfold finishGH
  rw [if_neg h, if_neg (smul_ne_zero hk h), smul_comm]

theorem amp_scale (a : Fin nd) (k : ℂ) (y : Fin nf → ℂ) : amp nd (delayIdx nd a) (fun i => k * y i) = k * amp nd (delayIdx nd a) y := by
  unfold amp
  rw [Finset.mul_sum]
  exact Finset.sum_congr rfl (fun i _ => mul_assoc _ _ _)

theorem qHat_scale (allowFft : Bool) {norm : Norm nf} (hn : norm.exact = false) {ne : ℕ} (R1 R2 : Matrix (Fin nf) (Fin ne) ℂ) (x1 x2 : Matrix (Fin ne) (Fin nt) ℂ)
    (c1 c2 : ℝ) (α β : ℂ) (qv : Fin nd → Fin nt → ℂ) (h : qHat allowFft norm [(R1, x1)] [(R2, x2)] = .ok qv) :
    (qHat allowFft norm [((c1 : ℂ) • R1, α • x1)] [((c2 : ℂ) • R2, β • x2)] : Except Err (Fin nd → Fin nt → ℂ)) =
      .ok (fun a t => ((c1 * c2 : ℝ) : ℂ) * (star α * β) * qv a t) := by
  rw [C48_value _ _ hn] at h ⊢
  injection h with h
  subst h
  congr 1
  funext a t
  have hm : ∀ (c : ℝ) (γ : ℂ) (R : Matrix (Fin nf) (Fin ne) ℂ) (x : Matrix (Fin ne) (Fin nt) ℂ) (k : Fin nf), ((c : ℂ) • R * γ • x) k t = ((c : ℂ) * γ) * ((R * x) k t) := by
    intro c γ R x k
    rw [Matrix.smul_mul, Matrix.mul_smul, smul_smul]; rfl
  simp only [List.map_cons, List.map_nil, List.sum_cons, List.sum_nil, add_zero, hm, amp_scale, star_mul']
  simp only [Complex.star_def, Complex.conj_ofReal]
  push_cast
  ring

theorem sandwich_conj {ne : ℕ} (y : Fin ne → ℝ) (A : Matrix (Fin ne) (Fin ne) ℂ) : (FlagR.sandwich y A).map star = FlagR.sandwich y (A.map star) := by
  ext i j
  simp [FlagR.sandwich]

theorem one_conj {ne : ℕ} : (1 : Matrix (Fin ne) (Fin ne) ℂ).map star = 1 := by
  ext i j
  by_cases h : i = j
  · subst h; simp
  · simp [h]

theorem wavg_conj {m n : Type} [Fintype n] (d : Matrix m n ℂ) (w : Matrix m n ℝ) (i : m) : Cov.wavg (d.map star) w i = star (Cov.wavg d w i) := by
  unfold Cov.wavg
  simp [star_sum, star_div₀]

theorem cov_conj {m n : Type} [Fintype n] (d : Matrix m n ℂ) (w : Matrix m n ℝ) {C : Matrix m m ℂ} (h : Cov.cov d w = .ok C) : Cov.cov (d.map star) w = .ok (C.map star) := by
  unfold Cov.cov at h ⊢
  unfold Cov.cov2 at h ⊢
  split at h
  · cases h
  · rename_i hw
    rw [if_neg hw]
    injection h with h
    rw [← h]
    congr 1
    ext i j
    simp only [Cov.covRaw, wavg_conj, Matrix.map_apply, star_sub, star_div₀, star_sum, star_mul', Cov.conjIf]
    simp

theorem inner_conj {ne : ℕ} [NeZero nt] {wt : FlagR.Wt ne} (hw : WtConj wt) {x : Matrix (Fin ne) (Fin nt) ℂ} {w : Matrix (Fin ne) (Fin nt) ℝ} {y : Fin ne → ℝ}
    {A : Matrix (Fin ne) (Fin ne) ℂ} (h : FlagR.inner wt x w y = .ok A) : FlagR.inner wt (x.map star) w y = .ok (A.map star) := by
  cases wt with
  | identity =>
    injection h with h
    rw [← h, sandwich_conj, one_conj]; rfl
  | iC inv =>
    unfold FlagR.inner at h ⊢
    simp only at h ⊢
    cases hC : Cov.cov x w with
    | error e => rw [hC] at h; cases h
    | ok C =>
      rw [hC] at h
      injection h with h
      rw [cov_conj x w hC, ← h, sandwich_conj, ← hw C]
  | dayenu pinv D =>
    injection h with h
    rw [← h, ← hw.2, sandwich_conj, hw.1]; rfl

theorem tapered_conj {symm : Bool} {tap : Fin nf → ℝ} {A : Matrix (Fin (nf + (left + right))) (Fin (nf + (left + right))) ℂ} {R}
    (h : FlagR.tapered symm tap A = .ok R) : FlagR.tapered symm tap (A.map star) = .ok (R.map star) := by
  unfold FlagR.tapered at h ⊢
  split at h
  · rename_i hs
    rw [if_pos hs]
    split at h
    · rename_i h0
      rw [dif_pos h0]
      injection h with h
      congr 1
      ext i j
      rw [Matrix.map_apply (M := R), ← congrFun (congrFun h i) j]
      simp
    · cases h
  · rename_i hs
    rw [if_neg hs]
    injection h with h
    congr 1
    ext i j
    rw [Matrix.map_apply (M := R), ← congrFun (congrFun h i) j]
    simp

theorem rMat_parts [NeZero nt] {symm : Bool} {tap : Fin nf → ℝ} {wt : FlagR.Wt (nf + (left + right))} {x : Matrix (Fin (nf + (left + right))) (Fin nt) ℂ}
    {w : Matrix (Fin (nf + (left + right))) (Fin nt) ℝ} {R} : FlagR.rMat symm tap wt x w = .ok R ↔
      ∃ y A, FlagR.yOf w = .ok y ∧ FlagR.inner wt x w y = .ok A ∧ FlagR.tapered symm tap A = .ok R := by
  unfold FlagR.rMat
  constructor
  · intro h
    cases hy : FlagR.yOf w with
    | error e => rw [hy] at h; cases h
    | ok y =>
      rw [hy] at h
      change (FlagR.inner wt x w y >>= _) = _ at h
      cases hA : FlagR.inner wt x w y with
      | error e => rw [hA] at h; cases h
      | ok A => rw [hA] at h; exact ⟨y, A, rfl, hA, h⟩
  · rintro ⟨y, A, hy, hA, hR⟩
    rw [hy]
    change (FlagR.inner wt x w y >>= _) = _
    rw [hA]
    exact hR

theorem rMat_conj [NeZero nt] {symm : Bool} {tap : Fin nf → ℝ} {wt : FlagR.Wt (nf + (left + right))} (hw : WtConj wt) {x : Matrix (Fin (nf + (left + right))) (Fin nt) ℂ}
    {w : Matrix (Fin (nf + (left + right))) (Fin nt) ℝ} {R} (h : FlagR.rMat symm tap wt x w = .ok R) : FlagR.rMat symm tap wt (x.map star) w = .ok (R.map star) := by
  obtain ⟨y, A, hy, hA, hR⟩ := rMat_parts.1 h
  exact rMat_parts.2 ⟨y, _, hy, inner_conj hw hA, tapered_conj hR⟩

theorem tapered_scale {symm : Bool} {tap : Fin nf → ℝ} {A : Matrix (Fin (nf + (left + right))) (Fin (nf + (left + right))) ℂ} {R} (k : ℂ)
    (h : FlagR.tapered symm tap A = .ok R) : FlagR.tapered symm tap (k • A) = .ok (k • R) := by
  unfold FlagR.tapered at h ⊢
  split at h
  · rename_i hs
    rw [if_pos hs]
    split at h
    · rename_i h0
      rw [dif_pos h0]
      injection h with h
      congr 1
      ext i j
      rw [Matrix.smul_apply k R, ← congrFun (congrFun h i) j]
      simp only [Matrix.smul_apply, smul_eq_mul]
      ring
    · cases h
  · rename_i hs
    rw [if_neg hs]
    injection h with h
    congr 1
    ext i j
    rw [Matrix.smul_apply k R, ← congrFun (congrFun h i) j]
    simp only [Matrix.smul_apply, smul_eq_mul]
    ring

/-- Multiplying the data by `α` multiplies the weighting by a number: 1, unless it is computed from the data. -/
theorem rMat_scale [NeZero nt] {symm : Bool} {tap : Fin nf → ℝ} {wt : FlagR.Wt (nf + (left + right))} (hw : WtScale wt) {x : Matrix (Fin (nf + (left + right))) (Fin nt) ℂ}
    {w : Matrix (Fin (nf + (left + right))) (Fin nt) ℝ} {R} (h : FlagR.rMat symm tap wt x w = .ok R) {α : ℂ} (hα : α ≠ 0) :
    ∃ c : ℝ, c ≠ 0 ∧ (¬ FromData wt → c = 1) ∧ FlagR.rMat symm tap wt (α • x) w = .ok ((c : ℂ) • R) := by
  obtain ⟨y, A, hy, hA, hR⟩ := rMat_parts.1 h
  cases wt with
  | identity => exact ⟨1, one_ne_zero, fun _ => rfl, rMat_parts.2 ⟨y, A, hy, hA, by simpa using hR⟩⟩
  | dayenu pinv D => exact ⟨1, one_ne_zero, fun _ => rfl, rMat_parts.2 ⟨y, A, hy, hA, by simpa using hR⟩⟩
  | iC inv =>
    have hne : ‖α‖ ^ 2 ≠ 0 := pow_ne_zero 2 (norm_ne_zero_iff.2 hα)
    refine ⟨(‖α‖ ^ 2)⁻¹, inv_ne_zero hne, fun hc => absurd trivial hc, rMat_parts.2 ⟨y, (((‖α‖ ^ 2)⁻¹ : ℝ) : ℂ) • A, hy, ?_, tapered_scale _ hR⟩⟩
    unfold FlagR.inner at hA ⊢
    simp only at hA ⊢
    cases hC : Cov.cov x w with
    | error e => rw [hC] at hA; cases hA
    | ok C =>
      rw [hC] at hA
      injection hA with hA
      rw [Cov.C45_scaling_auto x w α C hC, ← hA]
      simp only
      rw [hw _ C hne]
      congr 1
      ext i j
      simp only [FlagR.sandwich, Matrix.of_apply, Matrix.smul_apply, smul_eq_mul]
      push_cast
      ring

/-! ### C155 -/

/-- C155: exchanging the two data sets (with their weightings and polarizations) conjugates the stored spectrum and changes neither the window functions nor
the scalar. -/
theorem C155_exchange {o : Opts} (hm : Plain o.norm) {norm : Norm nf} (hn : norm.exact = false) {scal : String → ℝ} {p q : Int} {taper : Option (Fin nf → ℝ)}
    {pinv : Matrix (Fin nd) (Fin nd) ℂ → Matrix (Fin nd) (Fin nd) ℂ} (hp : PinvOk pinv) {eig eig' : Option (Eig nd)}
    {E E' : Fin nd → Matrix (Fin (nf + (left + right))) (Fin (nf + (left + right))) ℂ} {kind : AnCov.Kind} {inp inp' : ℕ → AnCov.Inp (Fin (nf + (left + right)))}
    {R1 R2 : Matrix (Fin nf) (Fin (nf + (left + right))) ℂ} {x1 x2 : Matrix (Fin (nf + (left + right))) (Fin nt) ℂ} {row : Row nd nt}
    (h : blpair o norm scal p q taper pinv eig E kind inp R1 R2 x1 x2 = .ok row) :
    ∃ row', blpair o norm scal q p taper pinv eig' E' kind inp' R2 R1 x2 x1 = .ok row' ∧ row'.scalar = row.scalar ∧
      (∀ t a, row'.data t a = star (row.data t a)) ∧ row'.window = row.window := by
  have hs : scalarOf o scal q p = scalarOf o scal p q := by
    unfold scalarOf
    simp only [ne_comm]
  obtain ⟨row', r1, r2, r3, r4⟩ := blpair_cj hm hn (Equiv.refl (Fin nd)) (fun _ A => hp.conj _ A) E' inp' h hs
    (getG_cj (fun s => rawGH_exchange s R1 R2)) (getH_cj (fun s => rawGH_exchange s R1 R2) _)
    (fun qv hq => C48_exchange o.allowFft norm (fun hc => by rw [hn] at hc; cases hc) _ _ qv hq) (eig' := eig')
  refine ⟨row', r1, r2, r3, r4.trans ?_⟩
  cases row.window <;> rfl

/-- C155: conjugating the visibilities of both data sets (as reversing both baselines does) conjugates the stored spectrum and mirrors the delays; the
weightings are those that the code computes from the conjugated data. -/
theorem C155_conjugate [NeZero nt] {o : Opts} (hm : Plain o.norm) {norm : Norm nf} (hn : norm.exact = false) {scal : String → ℝ} {p q : Int} {taper : Option (Fin nf → ℝ)}
    {pinv : Matrix (Fin nd) (Fin nd) ℂ → Matrix (Fin nd) (Fin nd) ℂ} (hp : PinvOk pinv) {eig eig' : Option (Eig nd)}
    {E E' : Fin nd → Matrix (Fin (nf + (left + right))) (Fin (nf + (left + right))) ℂ} {kind : AnCov.Kind} {inp inp' : ℕ → AnCov.Inp (Fin (nf + (left + right)))}
    {symm : Bool} {tap : Fin nf → ℝ} {wt1 wt2 : FlagR.Wt (nf + (left + right))} (hw1 : WtConj wt1) (hw2 : WtConj wt2)
    {w1 w2 : Matrix (Fin (nf + (left + right))) (Fin nt) ℝ} {R1 R2 : Matrix (Fin nf) (Fin (nf + (left + right))) ℂ}
    {x1 x2 : Matrix (Fin (nf + (left + right))) (Fin nt) ℂ} {row : Row nd nt}
    (h1 : FlagR.rMat symm tap wt1 x1 w1 = .ok R1) (h2 : FlagR.rMat symm tap wt2 x2 w2 = .ok R2)
    (h : blpair o norm scal p q taper pinv eig E kind inp R1 R2 x1 x2 = .ok row) :
    ∃ R1' R2' row', FlagR.rMat symm tap wt1 (x1.map star) w1 = .ok R1' ∧ FlagR.rMat symm tap wt2 (x2.map star) w2 = .ok R2' ∧
      blpair o norm scal p q taper pinv eig' E' kind inp' R1' R2' (x1.map star) (x2.map star) = .ok row' ∧ row'.scalar = row.scalar ∧
      (∀ t a, row'.data t a = star (row.data t (opposite a))) ∧ row'.window = row.window.map (fun w t => Matrix.of (fun a b => w t (opposite a) (opposite b))) := by
  obtain ⟨row', r1, r2, r3, r4⟩ := blpair_cj hm hn oppPerm (fun _ A => hp.conj _ A) E' inp' h rfl
    (getG_cj (fun s => rawGH_conj s R1 R2)) (getH_cj (fun s => rawGH_conj s R1 R2) _)
    (fun qv hq => qHat_conj o.allowFft hn R1 R2 x1 x2 qv hq) (eig' := eig')
  exact ⟨_, _, row', rMat_conj hw1 h1, rMat_conj hw2 h2, r1, r2, r3, r4⟩

/-- C155: multiplying the visibilities of the two data sets by `α` and `β` (gains) multiplies the stored spectrum by `α* β` and leaves the window functions
and the scalar as they are, also when the weightings are inverse covariances of the data. -/
theorem C155_gain [NeZero nt] {o : Opts} (hm : Plain o.norm) (hrq : o.returnQ = false) {norm : Norm nf} (hn : norm.exact = false) {scal : String → ℝ} {p q : Int}
    {taper : Option (Fin nf → ℝ)} {pinv : Matrix (Fin nd) (Fin nd) ℂ → Matrix (Fin nd) (Fin nd) ℂ} (hp : PinvOk pinv) {eig eig' : Option (Eig nd)}
    {E E' : Fin nd → Matrix (Fin (nf + (left + right))) (Fin (nf + (left + right))) ℂ} {kind : AnCov.Kind} {inp inp' : ℕ → AnCov.Inp (Fin (nf + (left + right)))}
    {symm : Bool} {tap : Fin nf → ℝ} {wt1 wt2 : FlagR.Wt (nf + (left + right))} (hw1 : WtScale wt1) (hw2 : WtScale wt2)
    {w1 w2 : Matrix (Fin (nf + (left + right))) (Fin nt) ℝ} {R1 R2 : Matrix (Fin nf) (Fin (nf + (left + right))) ℂ}
    {x1 x2 : Matrix (Fin (nf + (left + right))) (Fin nt) ℂ} {row : Row nd nt}
    (h1 : FlagR.rMat symm tap wt1 x1 w1 = .ok R1) (h2 : FlagR.rMat symm tap wt2 x2 w2 = .ok R2)
    (hr : FromData wt1 ∨ FromData wt2 → Responds true nd left R1 R2 ∧ Responds o.sampling nd left R1 R2)
    (h : blpair o norm scal p q taper pinv eig E kind inp R1 R2 x1 x2 = .ok row) {α β : ℂ} (hα : α ≠ 0) (hβ : β ≠ 0) :
    ∃ R1' R2' row', FlagR.rMat symm tap wt1 (α • x1) w1 = .ok R1' ∧ FlagR.rMat symm tap wt2 (β • x2) w2 = .ok R2' ∧
      blpair o norm scal p q taper pinv eig' E' kind inp' R1' R2' (α • x1) (β • x2) = .ok row' ∧ row'.scalar = row.scalar ∧
      (∀ t a, row'.data t a = star α * β * row.data t a) ∧ row'.window = row.window := by
  obtain ⟨c1, c10, c11, hR1⟩ := rMat_scale hw1 h1 hα
  obtain ⟨c2, c20, c21, hR2⟩ := rMat_scale hw2 h2 hβ
  have hk : c1 * c2 ≠ 0 := mul_ne_zero c10 c20
  have hk' : ((c1 * c2 : ℝ) : ℂ) ≠ 0 := by exact_mod_cast hk
  have hraw : ∀ s, rawGH s nd ((c1 : ℂ) • R1) ((c2 : ℂ) • R2) = ((c1 * c2 : ℝ) : ℂ) • rawGH s nd R1 R2 := by
    intro s
    rw [rawGH_scale]
    simp
  have hfin : ∀ s, (FromData wt1 ∨ FromData wt2 → Responds s nd left R1 R2) →
      getH nd s ((c1 : ℂ) • R1) ((c2 : ℂ) • R2) = ((c1 * c2 : ℝ) : ℂ) • getH nd s R1 R2 := by
    intro s hs
    rw [getH_def, getH_def, hraw]
    by_cases hd : FromData wt1 ∨ FromData wt2
    · exact finish_scale hk' (rawGH_ne (hs hd))
    · rw [not_or] at hd
      rw [c11 hd.1, c21 hd.2]
      simp
  have hG : getG nd ((c1 : ℂ) • R1) ((c2 : ℂ) • R2) = ((c1 * c2 : ℝ) : ℂ) • getG nd R1 R2 := by
    rw [← C88_sampling, ← C88_sampling]
    exact hfin true (fun hd => (hr hd).1)
  have hH := hfin o.sampling (fun hd => (hr hd).2)
  obtain ⟨s, GH, qv, MW, sa, e1, e2, e3, e4, e5, rfl⟩ := blpair_ok h
  unfold fisher at e2
  rw [hn] at e2
  simp only [Bool.false_eq_true, if_false] at e2
  injection e2 with e2
  subst e2
  rw [hn] at e4
  have e2' : fisher o norm nd ((c1 : ℂ) • R1) ((c2 : ℂ) • R2) = .ok (((c1 * c2 : ℝ) : ℂ) • getG nd R1 R2, ((c1 * c2 : ℝ) : ℂ) • getH nd o.sampling R1 R2) := by
    unfold fisher
    rw [hn, hG, hH]
    rfl
  have e4' := getMW_scale hp hm hk e4 (if o.norm = .Vhalf then eig' else none)
  have e5' := (adjOf_scale o norm taper hk (getG nd R1 R2) (getH nd o.sampling R1 R2)).trans e5
  obtain ⟨row', r1, r2, r3, r4⟩ := blpair_mk (eig := eig') (pinv := pinv) E' kind inp' e1 e2' (qHat_scale o.allowFft hn R1 R2 x1 x2 c1 c2 α β qv e3) (by rw [hn]; exact e4') e5'
  refine ⟨_, _, row', hR1, hR2, r1, r2, ?_, r4⟩
  intro t a
  rw [r3, hrq]
  simp only [Bool.false_eq_true, if_false]
  rw [spectra_apply e1, spectra_apply e1, mul_left_comm (star α * β)]
  congr 1
  rw [Finset.mul_sum]
  refine Finset.sum_congr rfl (fun c _ => ?_)
  simp only [Matrix.smul_apply, smul_eq_mul, Matrix.of_apply]
  field_simp

/-- C155: with given weightings each time is on its own: a call on some of the times (in any order, also repeated) stores the spectra of these times. -/
theorem C155_times {o : Opts} {norm : Norm nf} (hn : norm.exact = false) {scal : String → ℝ} {p q : Int} {taper : Option (Fin nf → ℝ)}
    {pinv : Matrix (Fin nd) (Fin nd) ℂ → Matrix (Fin nd) (Fin nd) ℂ} {eig : Option (Eig nd)}
    {E E' : Fin nd → Matrix (Fin (nf + (left + right))) (Fin (nf + (left + right))) ℂ} {kind : AnCov.Kind} {inp inp' : ℕ → AnCov.Inp (Fin (nf + (left + right)))}
    {R1 R2 : Matrix (Fin nf) (Fin (nf + (left + right))) ℂ} {x1 x2 : Matrix (Fin (nf + (left + right))) (Fin nt) ℂ} {row : Row nd nt}
    (h : blpair o norm scal p q taper pinv eig E kind inp R1 R2 x1 x2 = .ok row) (σ : Fin nt' → Fin nt) :
    ∃ row' : Row nd nt', blpair o norm scal p q taper pinv eig E' kind inp' R1 R2 (x1.submatrix id σ) (x2.submatrix id σ) = .ok row' ∧ row'.scalar = row.scalar ∧
      (∀ t a, row'.data t a = row.data (σ t) a) ∧ row'.window = row.window.map (fun w t => w (σ t)) := by
  obtain ⟨s, GH, qv, MW, sa, e1, e2, e3, e4, e5, rfl⟩ := blpair_ok h
  have e3' : (qHat o.allowFft norm [(R1, x1.submatrix id σ)] [(R2, x2.submatrix id σ)] : Except Err (Fin nd → Fin nt' → ℂ)) = .ok (fun a t => qv a (σ t)) := by
    rw [C48_value _ _ hn] at e3 ⊢
    injection e3 with e3
    subst e3
    congr 1
  obtain ⟨row', r1, r2, r3, r4⟩ := blpair_mk (eig := eig) (pinv := pinv) E' kind inp' e1 e2 e3' e4 e5
  refine ⟨row', r1, r2, ?_, ?_⟩
  · intro t a
    rw [r3]
    cases o.returnQ with
    | true => rfl
    | false =>
      simp only [Bool.false_eq_true, if_false]
      rw [spectra_apply e1, spectra_apply e1]
      rfl
  · rw [r4]
    cases o.storeWindow <;> rfl

theorem yDiag_perm {ne : ℕ} [NeZero nt] (w : Matrix (Fin ne) (Fin nt) ℝ) (σ : Equiv.Perm (Fin nt)) : FlagR.yDiag (w.submatrix id σ) = FlagR.yDiag w := by
  funext i
  unfold FlagR.yDiag
  apply le_antisymm
  · exact Finset.sup'_le _ _ (fun t _ => Finset.le_sup' (fun t => w i t) (Finset.mem_univ (σ t)))
  · refine Finset.sup'_le _ _ (fun t _ => ?_)
    have := Finset.le_sup' (fun t => w.submatrix id σ i t) (Finset.mem_univ (σ.symm t))
    simpa using this

theorem cov_perm {m : Type} (d : Matrix m (Fin nt) ℂ) (w : Matrix m (Fin nt) ℝ) (σ : Equiv.Perm (Fin nt)) :
    Cov.cov (d.submatrix id σ) (w.submatrix id σ) = Cov.cov d w := by
  have hw : (∃ i t, (w.submatrix id σ) i t < 0) ↔ ∃ i t, w i t < 0 :=
    ⟨fun ⟨i, t, h⟩ => ⟨i, σ t, h⟩, fun ⟨i, t, h⟩ => ⟨i, σ.symm t, by simpa using h⟩⟩
  have ha : Cov.wavg (d.submatrix id σ) (w.submatrix id σ) = Cov.wavg d w := by
    funext i
    unfold Cov.wavg
    congr 1
    · exact Equiv.sum_comp σ (fun t => (w i t : ℂ) * d i t)
    · congr 2
      exact Equiv.sum_comp σ (fun t => w i t)
  unfold Cov.cov Cov.cov2
  by_cases hc : ∃ i t, w i t < 0
  · rw [if_pos (Or.inl (hw.2 hc)), if_pos (Or.inl hc)]
  rw [if_neg (by rw [or_self]; exact fun h => hc (hw.1 h)), if_neg (by rw [or_self]; exact hc)]
  congr 1
  funext i j
  unfold Cov.covRaw
  rw [ha]
  congr 2
  · exact Equiv.sum_comp σ (fun t => Cov.conjIf false ((w i t : ℂ) * d i t) * Cov.conjIf true ((w j t : ℂ) * d j t))
  · congr 2
    exact Equiv.sum_comp σ (fun t => w i t * w j t)

/-- C155: reordering the times (of data and weights) changes no weighting, so with `C155_times` it only reorders the spectra. -/
theorem C155_times_weighting [NeZero nt] (symm : Bool) (tap : Fin nf → ℝ) (wt : FlagR.Wt (nf + (left + right))) (x : Matrix (Fin (nf + (left + right))) (Fin nt) ℂ)
    (w : Matrix (Fin (nf + (left + right))) (Fin nt) ℝ) (σ : Equiv.Perm (Fin nt)) :
    FlagR.rMat symm tap wt (x.submatrix id σ) (w.submatrix id σ) = FlagR.rMat symm tap wt x w := by
  have hy : FlagR.yOf (w.submatrix id σ) = FlagR.yOf w := by
    unfold FlagR.yOf
    rw [yDiag_perm]
  have hA : ∀ y, FlagR.inner wt (x.submatrix id σ) (w.submatrix id σ) y = FlagR.inner wt x w y := by
    intro y
    cases wt with
    | identity => rfl
    | dayenu pinv D => rfl
    | iC inv => unfold FlagR.inner; rw [cov_perm]
  unfold FlagR.rMat
  rw [hy]
  simp only [hA]

/-! ### Examples -/

/-- The inverse (0 for a singular matrix) commutes with multiples. -/
theorem inv_scale {n : ℕ} (k : ℝ) (A : Matrix (Fin n) (Fin n) ℂ) (hk : k ≠ 0) : ((k : ℂ) • A)⁻¹ = (k : ℂ)⁻¹ • A⁻¹ := by
  have hk' : (k : ℂ) ≠ 0 := by exact_mod_cast hk
  by_cases h : IsUnit A.det
  · letI := invertibleOfNonzero hk'
    rw [Matrix.inv_smul _ _ h, invOf_eq_inv]
  · rw [Matrix.nonsing_inv_apply_not_isUnit A h, Matrix.nonsing_inv_apply_not_isUnit, smul_zero]
    rw [Matrix.det_smul, isUnit_iff_ne_zero]
    rw [isUnit_iff_ne_zero, not_not] at h
    simp [h]

/-- A function with the properties asked of `np.linalg.pinv`. -/
theorem pinv_example : PinvOk (fun A : Matrix (Fin nd) (Fin nd) ℂ => A⁻¹) := ⟨cj_inv, fun k A hk => inv_scale k A hk⟩

theorem wt_example {ne : ℕ} : WtScale (.iC (fun C : Matrix (Fin ne) (Fin ne) ℂ => C⁻¹)) ∧ WtConj (.iC (fun C : Matrix (Fin ne) (Fin ne) ℂ => C⁻¹)) := by
  refine ⟨fun k C hk => inv_scale k C hk, fun C => ?_⟩
  have := cj_inv (Equiv.refl (Fin ne)) C
  exact this

/-- Two times of one channel with mean 1 and variance 1: the inverse covariance is 1. -/
theorem iC_example : FlagR.rMat (nf := 1) (left := 0) (right := 0) false (fun _ => 1) (.iC (fun C => C⁻¹)) (Matrix.of fun _ t => if t = (0 : Fin 2) then 0 else 2) (fun _ _ => 1) =
    .ok (diagR fun _ => 1) := by
  have hy : FlagR.yDiag (fun (_ : Fin (1 + (0 + 0))) (_ : Fin 2) => (1 : ℝ)) = fun _ => 1 := by
    funext i; exact Finset.sup'_const _ _
  refine rMat_parts.2 ⟨fun _ => 1, 1, ?_, ?_, ?_⟩
  · unfold FlagR.yOf
    rw [hy, if_pos]
    intro i; right; norm_num
  · have hC : Cov.cov (Matrix.of fun (_ : Fin (1 + (0 + 0))) t => if t = (0 : Fin 2) then (0 : ℂ) else 2) (fun _ _ => (1 : ℝ)) = .ok 1 := by
      unfold Cov.cov Cov.cov2
      rw [if_neg (by rintro (⟨i, t, h⟩ | ⟨i, t, h⟩) <;> norm_num at h)]
      congr 1
      ext i j
      have hi : i = 0 := Fin.ext (by have := i.2; omega)
      have hj : j = 0 := Fin.ext (by have := j.2; omega)
      subst hi; subst hj
      have h2 : (starRingEnd ℂ) 2 = 2 := map_ofNat _ 2
      simp [Cov.covRaw, Cov.wavg, Cov.conjIf, Cov.safe, Fin.sum_univ_two, h2]
      norm_num
    unfold FlagR.inner
    simp only [hC]
    congr 1
    ext i j
    simp [FlagR.sandwich]
  · unfold FlagR.tapered
    simp only [Bool.false_eq_true, if_false]
    congr 1
    ext i j
    have hi : i = 0 := Subsingleton.elim _ _
    have hj : j = 0 := Fin.ext (by have := j.2; omega)
    subst hi; subst hj
    simp [diagR, FlagR.place, Matrix.one_apply]

/-- Non-vacuity of C155: a call with inverse-covariance weighting that succeeds, and the call with gains 2i and 3. -/
example : ∃ R1 R2, ∃ row row' : Row 1 2, ∃ R1' R2',
    FlagR.rMat (nf := 1) (left := 0) (right := 0) false (fun _ => 1) (.iC (fun C => C⁻¹)) (Matrix.of fun _ t => if t = (0 : Fin 2) then 0 else 2) (fun _ _ => 1) = .ok R1 ∧
    FlagR.rMat (nf := 1) (left := 0) (right := 0) false (fun _ => 1) (.iC (fun C => C⁻¹)) (Matrix.of fun _ t => if t = (0 : Fin 2) then 0 else 2) (fun _ _ => 1) = .ok R2 ∧
    blpair (nf := 1) (left := 0) (right := 0) ⟨true, false, false, true, false, true, true, true, .I⟩ ⟨false, 0, 0⟩ (fun _ => 5) (-5) (-5) none
      (fun A => A⁻¹) none (fun _ => 0) .diagonal (fun _ => ⟨0, 0, 0, 0, 0, 0, 0, 0, 0, 0, 0, 0⟩) R1 R2 (Matrix.of fun _ t => if t = (0 : Fin 2) then 0 else 2) (Matrix.of fun _ t => if t = (0 : Fin 2) then 0 else 2) = .ok row ∧
    blpair (nf := 1) (left := 0) (right := 0) ⟨true, false, false, true, false, true, true, true, .I⟩ ⟨false, 0, 0⟩ (fun _ => 5) (-5) (-5) none
      (fun A => A⁻¹) none (fun _ => 0) .diagonal (fun _ => ⟨0, 0, 0, 0, 0, 0, 0, 0, 0, 0, 0, 0⟩) R1' R2' ((2 * Complex.I) • Matrix.of fun _ t => if t = (0 : Fin 2) then 0 else 2)
      ((3 : ℂ) • Matrix.of fun _ t => if t = (0 : Fin 2) then 0 else 2) = .ok row' ∧
    ∀ t a, row'.data t a = -6 * Complex.I * row.data t a := by
  obtain ⟨row, h, _⟩ := C141_succeeds (nf := 1) (nd := 1) (nt := 2) one_pos ⟨true, false, false, true, false, true, true, true, .I⟩ rfl ⟨false, 0, 0⟩ rfl (fun _ => 5) (-5) (-5)
    (fun _ => rfl) none (fun A => A⁻¹) none (fun _ => 0) .diagonal (fun _ => ⟨0, 0, 0, 0, 0, 0, 0, 0, 0, 0, 0, 0⟩) (fun _ => 1) (fun _ => 1) (fun _ => zero_le_one) (fun _ => zero_le_one)
    (Matrix.of fun _ t => if t = (0 : Fin 2) then 0 else 2) (Matrix.of fun _ t => if t = (0 : Fin 2) then 0 else 2)
  have hr : ∀ s, Responds s (nf := 1) (ne := 1 + (0 + 0)) 1 0 (diagR fun _ => 1) (diagR fun _ => 1) := fun s =>
    (identity_ok (nf := 1) one_pos (fun _ => zero_le_one) (fun _ => zero_le_one) 0 (by norm_num) s).1
  obtain ⟨R1', R2', row', _, _, h', _, hd, _⟩ := C155_gain (eig' := none) (E' := fun _ => 0) (inp' := fun _ => ⟨0, 0, 0, 0, 0, 0, 0, 0, 0, 0, 0, 0⟩) (Or.inl rfl) rfl rfl pinv_example wt_example.1 wt_example.1
    iC_example iC_example (fun _ => ⟨hr true, hr _⟩) h (α := 2 * Complex.I) (β := 3) (by simp) (by simp)
  refine ⟨_, _, row, row', R1', R2', iC_example, iC_example, h, h', fun t a => ?_⟩
  rw [hd]
  simp
  left; ring

/-- The delays of 4 bins are -2, -1, 0, 1: the opposite of bin 1 is bin 3, and bin 0 is its own. -/
example : (opposite (1 : Fin 4), opposite (0 : Fin 4), opposite (2 : Fin 4), opposite (0 : Fin 5)) = (3, 0, 2, 4) := by decide +kernel

end
end HeraPspec.PspecValue
