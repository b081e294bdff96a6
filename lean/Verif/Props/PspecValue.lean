import Verif.Model.PspecValue
import Verif.Props.Oqe5
import Verif.Props.DelayAdj
import Verif.Props.AnCov
import Verif.Props.ExactNorm

/-!
C141: what `pspec` stores for a baseline-pair: the spectra are, on average, the bandpowers of the sky seen through the stored window functions, in the
units of the stored scalar; the stored covariances and error bars are those of the stored spectra.
-/
namespace HeraPspec.PspecValue
open Matrix HeraPspec.Oqe HeraPspec.DelayAdj HeraPspec.AnCovSpec
noncomputable section

variable {nf left right nd nt : ℕ}

/-! ### Specification -/

/-- The factor that the normalisation 'I' leaves behind: `Ndlys / Nfreqs` times the mean square of the taper. -/
def residual (o : Opts) (nd : ℕ) (taper : Option (Fin nf → ℝ)) : ℝ := if o.norm = .I then (nd : ℝ) / nf * taperPower taper else 1

/-! ### Proofs -/

/-- What a successful call went through. -/
theorem blpair_ok {o : Opts} {norm : Norm nf} {scal : String → ℝ} {p q : Int} {taper : Option (Fin nf → ℝ)}
    {pinv : Matrix (Fin nd) (Fin nd) ℂ → Matrix (Fin nd) (Fin nd) ℂ} {eig : Option (Eig nd)}
    {E : Fin nd → Matrix (Fin (nf + (left + right))) (Fin (nf + (left + right))) ℂ} {kind : AnCov.Kind} {inp : ℕ → AnCov.Inp (Fin (nf + (left + right)))}
    {R1 R2 : Matrix (Fin nf) (Fin (nf + (left + right))) ℂ} {x1 x2 : Matrix (Fin (nf + (left + right))) (Fin nt) ℂ} {row : Row nd nt}
    (h : blpair o norm scal p q taper pinv eig E kind inp R1 R2 x1 x2 = .ok row) :
    ∃ s GH qv MW sa, scalarOf o scal p q = .ok s ∧ fisher o norm nd R1 R2 = .ok GH ∧
      (qHat o.allowFft norm [(R1, x1)] [(R2, x2)] : Except Err (Fin nd → Fin nt → ℂ)) = .ok qv ∧
      getMW pinv GH.1 GH.2 o.norm (if o.norm = .Vhalf then eig else none) norm.exact = .ok MW ∧
      adjOf o norm taper GH.1 GH.2 = .ok sa ∧
      row = { scalar := s
              data := if o.returnQ then fun t a => qv a t else fun t a => spectra o s sa MW.1 (Matrix.of qv) a t
              cov := if o.storeCov then some ((AnCov.analytic kind E (fun _ => MW.1) nt inp).map (storedCov o s sa)) else none
              stats := if o.storeDiag then some (((AnCov.analytic kind E (fun _ => MW.1) nt inp).map (storedCov o s sa)).map errorBars) else none
              window := if o.storeWindow then some (fun _ => MW.2.map Complex.re) else none } := by
  unfold blpair at h
  cases h1 : scalarOf o scal p q with
  | error e => rw [h1] at h; exact absurd h (by rintro ⟨⟩)
  | ok s =>
  cases h2 : fisher o norm nd R1 R2 with
  | error e => rw [h1, h2] at h; exact absurd h (by rintro ⟨⟩)
  | ok GH =>
  cases h3 : (qHat o.allowFft norm [(R1, x1)] [(R2, x2)] : Except Err (Fin nd → Fin nt → ℂ)) with
  | error e => rw [h1, h2, h3] at h; exact absurd h (by rintro ⟨⟩)
  | ok qv =>
  cases h4 : getMW pinv GH.1 GH.2 o.norm (if o.norm = .Vhalf then eig else none) norm.exact with
  | error e =>
    rw [h1, h2, h3] at h
    change (getMW pinv GH.1 GH.2 o.norm (if o.norm = .Vhalf then eig else none) norm.exact >>= _) = _ at h
    rw [h4] at h; exact absurd h (by rintro ⟨⟩)
  | ok MW =>
  cases h5 : adjOf o norm taper GH.1 GH.2 with
  | error e =>
    rw [h1, h2, h3] at h
    change (getMW pinv GH.1 GH.2 o.norm (if o.norm = .Vhalf then eig else none) norm.exact >>= _) = _ at h
    rw [h4] at h
    change (adjOf o norm taper GH.1 GH.2 >>= _) = _ at h
    rw [h5] at h; exact absurd h (by rintro ⟨⟩)
  | ok sa =>
    rw [h1, h2, h3] at h
    change (getMW pinv GH.1 GH.2 o.norm (if o.norm = .Vhalf then eig else none) norm.exact >>= _) = _ at h
    rw [h4] at h
    change (adjOf o norm taper GH.1 GH.2 >>= _) = _ at h
    rw [h5] at h
    exact ⟨s, GH, qv, MW, sa, rfl, rfl, rfl, h4, h5, (Except.ok.inj h).symm⟩

theorem scalar_one {o : Opts} {scal : String → ℝ} {p q : Int} {s : ℝ} (h : scalarOf o scal p q = .ok s) (hb : o.beam = false) : s = 1 := by
  unfold scalarOf at h
  rw [hb] at h
  exact (Except.ok.inj h).symm

/-- The adjustment as a factor. -/
def factor (sa : Option (Fin nd → ℝ)) (a : Fin nd) : ℝ := (sa.getD (fun _ => 1)) a

theorem spectra_apply {o : Opts} {scal : String → ℝ} {p q : Int} {s : ℝ} (h : scalarOf o scal p q = .ok s) (sa : Option (Fin nd → ℝ))
    (M : Matrix (Fin nd) (Fin nd) ℂ) (qv : Matrix (Fin nd) (Fin nt) ℂ) (a : Fin nd) (t : Fin nt) :
    spectra o s sa M qv a t = ((s * factor sa a : ℝ) : ℂ) * ∑ c, M a c * qv c t := by
  have hb : o.beam = false → s = 1 := scalar_one h
  unfold spectra pHat factor
  cases hB : o.beam with
  | false =>
    rw [hb hB]
    cases sa <;> simp [Matrix.mul_apply]
  | true =>
    cases sa
    · simp [Matrix.mul_apply]
    · simp only [if_true, Matrix.of_apply, Matrix.smul_apply, smul_eq_mul, Matrix.mul_apply, Option.getD_some]
      push_cast
      ring

theorem scaleCov_apply {o : Opts} {scal : String → ℝ} {p q : Int} {s : ℝ} (h : scalarOf o scal p q = .ok s) (sa : Option (Fin nd → ℝ))
    (C : Matrix (Fin nd) (Fin nd) ℂ) (a c : Fin nd) :
    scaleCov o s sa C a c = ((s * factor sa a * (s * factor sa c) : ℝ) : ℂ) * C a c := by
  have hb : o.beam = false → s = 1 := scalar_one h
  unfold scaleCov factor
  cases hB : o.beam with
  | false =>
    rw [hb hB]
    cases sa
    · simp
    · simp only [Bool.false_eq_true, if_false, Matrix.of_apply, Option.getD_some, one_mul]
      ring
  | true =>
    cases sa
    · simp only [if_true, Matrix.smul_apply, smul_eq_mul, Option.getD_none]
      push_cast
      ring
    · simp only [if_true, Matrix.of_apply, Matrix.smul_apply, smul_eq_mul, Option.getD_some]
      push_cast
      ring

theorem mean_lin {Ω : Type} (S : Finset Ω) (P : Ω → ℂ) (k : ℂ) (M H : Matrix (Fin nd) (Fin nd) ℂ) (qv : Ω → Fin nd → ℂ) (p : Fin nd → ℂ)
    (h : ∀ a, ensemble S P (fun r => qv r a) = ∑ b, H a b * p b) (a : Fin nd) :
    ensemble S P (fun r => k * ∑ c, M a c * qv r c) = k * ∑ b, (M * H) a b * p b := by
  have h1 : ensemble S P (fun r => k * ∑ c, M a c * qv r c) = k * ∑ c, M a c * ensemble S P (fun r => qv r c) := by
    unfold ensemble
    simp only [Finset.mul_sum]
    rw [Finset.sum_comm]
    refine Finset.sum_congr rfl (fun c _ => Finset.sum_congr rfl (fun r _ => ?_))
    ring
  rw [h1]
  simp only [h, Matrix.mul_apply, Finset.mul_sum, Finset.sum_mul]
  rw [Finset.sum_comm]
  refine Finset.sum_congr rfl (fun c _ => Finset.sum_congr rfl (fun r _ => ?_))
  ring

/-- The adjustment turns the row sums of `G` into those of `H`. -/
theorem adj_mul {o : Opts} (G H : Matrix (Fin nd) (Fin nd) ℂ) (taper : Option (Fin nf → ℝ)) (f : Fin nd → ℝ)
    (h : DelayAdj.adjustment o.identity G H taper = .ok f) (ρ : Fin nd → ℝ) (hρ : ∀ a, ∑ b, H a b = ρ a * ∑ b, G a b)
    (h0 : ∀ a, ρ a ≠ 0 ∧ (∑ b, G a b).re ≠ 0) (hc : o.identity = true → ∀ a b, ρ a = ρ b) (a : Fin nd) :
    ((f a : ℝ) : ℂ) * (1 / ∑ b, G a b) = (((nd : ℝ) / nf * taperPower taper : ℝ) : ℂ) * (1 / ∑ b, H a b) := by
  have hr : ∀ a, ratio G H a = ρ a := by
    intro a
    unfold ratio rowSum
    rw [if_neg (h0 a).2, hρ a, Complex.re_ofReal_mul, mul_div_assoc, div_self (h0 a).2, mul_one]
  have hf : f a = (nd : ℝ) / (nf * ρ a) * taperPower taper := by
    unfold DelayAdj.adjustment at h
    by_cases hid : o.identity = true
    · rw [hid] at h
      simp only [if_true] at h
      have hm : mean (ratio G H) = ρ a := by
        unfold mean
        have : ∀ b, ratio G H b = ρ a := fun b => by rw [hr b]; exact hc hid b a
        simp only [this, Finset.sum_const, Finset.card_univ, Fintype.card_fin, nsmul_eq_mul]
        have hnd : (nd : ℝ) ≠ 0 := by have := a.pos; positivity
        field_simp
      split at h
      · cases h
      · rw [← Except.ok.inj h, hm, taperFactor_eq]
    · rw [if_neg hid] at h
      rw [← Except.ok.inj h]
      change (nd : ℝ) / (nf * ratio G H a) * taperFactor taper = _
      rw [hr, taperFactor_eq]
  have hg : (∑ b, G a b) ≠ 0 := fun hz => (h0 a).2 (by rw [hz]; rfl)
  have hp : (ρ a : ℂ) ≠ 0 := by exact_mod_cast (h0 a).1
  rw [hf, hρ a]
  push_cast
  field_simp

/-- The mean of the stored spectra before it is known what the normalisation does. -/
theorem mean_MH {Ω : Type} (S : Finset Ω) (P : Ω → ℂ) (o : Opts) (hq : o.returnQ = false) (norm : Norm nf) (hn : norm.exact = false)
    (scal : String → ℝ) (pol1 pol2 : Int) (taper : Option (Fin nf → ℝ)) (pinv : Matrix (Fin nd) (Fin nd) ℂ → Matrix (Fin nd) (Fin nd) ℂ)
    (eig : Option (Eig nd)) (E : Ω → Fin nd → Matrix (Fin (nf + (left + right))) (Fin (nf + (left + right))) ℂ) (kind : AnCov.Kind)
    (inp : Ω → ℕ → AnCov.Inp (Fin (nf + (left + right)))) (R1 R2 : Matrix (Fin nf) (Fin (nf + (left + right))) ℂ)
    (hR : Responds o.sampling nd left R1 R2) (x1 x2 : Ω → Matrix (Fin (nf + (left + right))) (Fin nt) ℂ) (row : Ω → Row nd nt)
    (hrow : ∀ r ∈ S, blpair o norm scal pol1 pol2 taper pinv eig (E r) kind (inp r) R1 R2 (x1 r) (x2 r) = .ok (row r)) (p : Fin nd → ℝ) (t : Fin nt)
    (hcov : ∀ i j, ensemble S P (fun r => star (x1 r i t) * x2 r j t) = signalCov o.sampling (nf + (left + right)) left (fun b => (p b : ℂ)) i j)
    (r0 : Ω) (h0 : r0 ∈ S) (a : Fin nd) :
    ∃ s MW sa, scalarOf o scal pol1 pol2 = .ok s ∧
      getMW pinv (getG nd R1 R2) (getH nd o.sampling R1 R2) o.norm (if o.norm = .Vhalf then eig else none) norm.exact = .ok MW ∧
      adjOf o norm taper (getG nd R1 R2) (getH nd o.sampling R1 R2) = .ok sa ∧ (row r0).scalar = s ∧
      (row r0).window = (if o.storeWindow then some (fun _ => MW.2.map Complex.re) else none) ∧
      ensemble S P (fun r => (row r).data t a) = ((s * factor sa a : ℝ) : ℂ) * ∑ b, (MW.1 * getH nd o.sampling R1 R2) a b * (p b : ℂ) := by
  obtain ⟨s, GH, qv0, MW, sa, e1, e2, e3, e4, e5, e6⟩ := blpair_ok (hrow r0 h0)
  have hGH : GH = (getG nd R1 R2, getH nd o.sampling R1 R2) := by
    unfold fisher at e2
    rw [hn] at e2
    exact (Except.ok.inj e2).symm
  subst hGH
  -- every realisation has the same matrices
  have hall : ∀ r ∈ S, ∃ qv, (qHat o.allowFft norm [(R1, x1 r)] [(R2, x2 r)] : Except Err (Fin nd → Fin nt → ℂ)) = .ok qv ∧
      ∀ a, (row r).data t a = ((s * factor sa a : ℝ) : ℂ) * ∑ c, MW.1 a c * qv c t := by
    intro r hr
    obtain ⟨s', GH', qv, MW', sa', g1, g2, g3, g4, g5, g6⟩ := blpair_ok (hrow r hr)
    rw [e1] at g1
    rw [e2] at g2
    have := Except.ok.inj g1; subst this
    have := Except.ok.inj g2; subst this
    rw [e4] at g4
    have := Except.ok.inj g4; subst this
    rw [e5] at g5
    have := Except.ok.inj g5; subst this
    refine ⟨qv, g3, fun a => ?_⟩
    rw [g6]
    simp only [hq, Bool.false_eq_true, if_false]
    exact spectra_apply e1 sa MW.1 (Matrix.of qv) a t
  classical
  let Q : Ω → Fin nd → Fin nt → ℂ := fun r => if h : r ∈ S then (hall r h).choose else 0
  have hQ : ∀ r ∈ S, qHat o.allowFft norm [(R1, x1 r)] [(R2, x2 r)] = .ok (Q r) := by
    intro r hr
    have := (hall r hr).choose_spec.1
    simp only [Q, dif_pos hr]; exact this
  have hD : ∀ r ∈ S, ∀ a, (row r).data t a = ((s * factor sa a : ℝ) : ℂ) * ∑ c, MW.1 a c * Q r c t := by
    intro r hr a
    have := (hall r hr).choose_spec.2 a
    simp only [Q, dif_pos hr]; exact this
  have hresp := C132_response S P o.sampling o.allowFft norm hn R1 R2 hR (fun b => (p b : ℂ)) x1 x2 t hcov Q hQ
  have hens : ensemble S P (fun r => (row r).data t a) = ensemble S P (fun r => ((s * factor sa a : ℝ) : ℂ) * ∑ c, MW.1 a c * Q r c t) :=
    by unfold ensemble; exact Finset.sum_congr rfl (fun r hr => by beta_reduce; rw [hD r hr a])
  refine ⟨s, MW, sa, e1, e4, e5, by rw [e6], by rw [e6], ?_⟩
  rw [hens, mean_lin S P _ MW.1 (getH nd o.sampling R1 R2) (fun r c => Q r c t) (fun b => (p b : ℂ)) hresp a]

/-- **C141** (partial). The stored spectra are, on average over realisations of sky and noise, the bandpowers of the sky seen through the stored window
functions, times the stored scalar (and, for the normalisation 'I', times `Ndlys / Nfreqs` and the mean square of the taper), for every weighting, taper,
extension, number of delays and normalisation mode.

Missing: mode 'I' with a response whose row sums have another phase than those of `G`, or vanish (`hI`; see `C141_identity` and `C141_same_weighting`
for cases where this cannot happen), mode 'H^-1' with a singular response, and exact normalisation (C137). -/
theorem C141_mean_partial {Ω : Type} (S : Finset Ω) (P : Ω → ℂ) (o : Opts) (hq : o.returnQ = false) (norm : Norm nf) (hn : norm.exact = false)
    (scal : String → ℝ) (pol1 pol2 : Int) (taper : Option (Fin nf → ℝ)) (pinv : Matrix (Fin nd) (Fin nd) ℂ → Matrix (Fin nd) (Fin nd) ℂ)
    (eig : Option (Eig nd)) (E : Ω → Fin nd → Matrix (Fin (nf + (left + right))) (Fin (nf + (left + right))) ℂ) (kind : AnCov.Kind)
    (inp : Ω → ℕ → AnCov.Inp (Fin (nf + (left + right)))) (R1 R2 : Matrix (Fin nf) (Fin (nf + (left + right))) ℂ)
    (hR : Responds o.sampling nd left R1 R2) (x1 x2 : Ω → Matrix (Fin (nf + (left + right))) (Fin nt) ℂ) (row : Ω → Row nd nt)
    (hrow : ∀ r ∈ S, blpair o norm scal pol1 pol2 taper pinv eig (E r) kind (inp r) R1 R2 (x1 r) (x2 r) = .ok (row r)) (p : Fin nd → ℝ) (t : Fin nt)
    (hcov : ∀ i j, ensemble S P (fun r => star (x1 r i t) * x2 r j t) = signalCov o.sampling (nf + (left + right)) left (fun b => (p b : ℂ)) i j)
    (hI : o.norm = .I → ∃ ρ : Fin nd → ℝ, (∀ a, ∑ b, getH nd o.sampling R1 R2 a b = ρ a * ∑ b, getG nd R1 R2 a b) ∧
      (∀ a, ρ a ≠ 0 ∧ (∑ b, getG nd R1 R2 a b).re ≠ 0) ∧ (o.identity = true → ∀ a b, ρ a = ρ b))
    (hH : o.norm = .Hinv → (getH nd o.sampling R1 R2).det ≠ 0)
    (r0 : Ω) (h0 : r0 ∈ S) (w : Fin nt → Matrix (Fin nd) (Fin nd) ℝ) (hw : (row r0).window = some w) (a : Fin nd) :
    (ensemble S P (fun r => (row r).data t a)).re = (row r0).scalar * residual o nd taper * ∑ b, w t a b * p b := by
  obtain ⟨s, MW, sa, e1, e4, e5, hs, hwd, hmean⟩ := mean_MH S P o hq norm hn scal pol1 pol2 taper pinv eig E kind inp R1 R2 hR x1 x2 row hrow p t hcov r0 h0 a
  rw [hmean]
  -- the window
  have hwin : w = fun _ => MW.2.map Complex.re := by
    rw [hwd] at hw
    split at hw
    · exact (Option.some.inj hw).symm
    · cases hw
  rw [hs, hwin]
  -- the claim for complex windows
  suffices hk : ∀ b, ((factor sa a : ℝ) : ℂ) * (MW.1 * getH nd o.sampling R1 R2) a b = ((residual o nd taper : ℝ) : ℂ) * MW.2 a b by
    have hsum : ((s * factor sa a : ℝ) : ℂ) * ∑ b, (MW.1 * getH nd o.sampling R1 R2) a b * (p b : ℂ) =
        ((s * residual o nd taper : ℝ) : ℂ) * ∑ b, MW.2 a b * (p b : ℂ) := by
      push_cast
      rw [mul_assoc, mul_assoc]
      congr 1
      rw [Finset.mul_sum, Finset.mul_sum]
      refine Finset.sum_congr rfl (fun b _ => ?_)
      rw [← mul_assoc, hk b, mul_assoc]
    rw [hsum, Complex.re_ofReal_mul, Complex.re_sum]
    congr 1
    refine Finset.sum_congr rfl (fun b _ => ?_)
    rw [Complex.re_mul_ofReal]
    rfl
  intro b
  have hMW := e4
  rw [hn] at hMW
  obtain ⟨M, W⟩ := MW
  cases hm : o.norm with
  | other => rw [hm] at hMW; simp [getMW] at hMW
  | Linv => rw [hm] at hMW; simp [getMW] at hMW
  | Hinv =>
    have hsa : sa = none := by unfold adjOf at e5; rw [hm] at e5; simpa using (Except.ok.inj e5).symm
    rw [hm] at hMW
    obtain ⟨h1, h2⟩ := (C50_inverse pinv _ _ M W _ false hMW).2 (hH hm)
    simp [hsa, factor, residual, hm, h1, h2]
  | Vhalf =>
    have hsa : sa = none := by unfold adjOf at e5; rw [hm] at e5; simpa using (Except.ok.inj e5).symm
    rw [hm] at hMW
    have := ((C50_root pinv _ _ M W _ false hMW).1).symm
    simp [hsa, factor, residual, hm, this]
  | I =>
    obtain ⟨ρ, hρ, h0, hc⟩ := hI hm
    unfold adjOf at e5
    rw [if_pos ⟨hm, hn⟩] at e5
    cases hadj : DelayAdj.adjustment o.identity (getG nd R1 R2) (getH nd o.sampling R1 R2) taper with
    | error e => rw [hadj] at e5; cases e5
    | ok f =>
      rw [hadj] at e5
      have hsa : sa = some f := (Except.ok.inj e5).symm
      have hk := adj_mul (o := o) _ _ taper f hadj ρ hρ h0 hc a
      rw [hm] at hMW
      unfold getMW at hMW
      simp only [reduceCtorEq, if_false, ne_eq, not_true, false_and] at hMW
      injection hMW with hMW
      injection hMW with h1 h2
      rw [← h1, ← h2, hsa]
      simp only [factor, Option.getD_some, residual, hm, if_true, Matrix.diagonal_mul]
      unfold rowSum
      rw [← mul_assoc, hk, mul_assoc]

/-- The kernel of `H` for either value of `sampling`. -/
def kernS (sampling : Bool) (n : ℕ) (i j : Fin n) : ℝ := if sampling then 1 else npSinc (((i.1 : ℝ) - j.1) / n)

theorem kernS_pos (sampling : Bool) (n : ℕ) (i j : Fin n) : 0 < kernS sampling n i j := by
  unfold kernS
  split
  · exact one_pos
  · exact sinc_chan_pos i j

theorem getH_kern (sampling : Bool) (R1 R2 : Matrix (Fin nf) (Fin (nf + (left + right))) ℂ) :
    getH nd sampling R1 R2 = finishGH (raw nd R1 R2 (kernS sampling (nf + (left + right)))) := by
  cases sampling with
  | true =>
    rw [C88_sampling, getG_finish, ← raw_one]
    rfl
  | false =>
    rw [getH_finish, rawH_raw]
    rfl

theorem responds_raw (sampling : Bool) (R1 R2 : Matrix (Fin nf) (Fin (nf + (left + right))) ℂ)
    (h : raw nd R1 R2 (kernS sampling (nf + (left + right))) ≠ 0) : Responds sampling nd left R1 R2 := by
  by_contra hc
  apply h
  cases sampling with
  | true =>
    have e : raw nd R1 R2 (kernS true (nf + (left + right))) = rawG nd R1 R2 := raw_one nd R1 R2
    rw [e]
    funext a b
    rw [rawG_eq]
    by_contra hne
    exact hc ⟨a, b, fun hz => hne (by rw [mul_comm]; exact hz)⟩
  | false =>
    have e : raw nd R1 R2 (kernS false (nf + (left + right))) = rawH nd R1 R2 := rfl
    rw [e, rawH_zero_iff]
    intro a b
    by_contra hne
    exact hc ⟨a, b, hne⟩

theorem finish_sum {A : Matrix (Fin nd) (Fin nd) ℂ} (h : A ≠ 0) (a : Fin nd) : ∑ b, finishGH A a b = 1 / 2 * rowSum A a := by
  unfold finishGH rowSum
  rw [if_neg h, Finset.mul_sum]
  rfl

theorem pairSum_pos {w1 w2 : Fin nf → ℝ} (h1 : ∀ i, 0 ≤ w1 i) (h2 : ∀ i, 0 ≤ w2 i) (i0 : Fin nf) (hi : w1 i0 * w2 i0 ≠ 0) (S : Fin nf → Fin nf → ℝ)
    (hS : ∀ i j, 0 < S i j) : 0 < pairSum nd w1 w2 S := by
  have hnn : ∀ i j, 0 ≤ (if aliased nd i j then w2 i * w1 j * S i j else 0) := by
    intro i j; split
    · exact mul_nonneg (mul_nonneg (h2 i) (h1 j)) (hS i j).le
    · exact le_refl _
  refine Finset.sum_pos' (fun i _ => Finset.sum_nonneg (fun j _ => hnn i j)) ⟨i0, Finset.mem_univ _, ?_⟩
  refine Finset.sum_pos' (fun j _ => hnn i0 j) ⟨i0, Finset.mem_univ _, ?_⟩
  have ha : aliased nd i0 i0 := by unfold aliased; simp
  rw [if_pos ha]
  have hpos : 0 < w2 i0 * w1 i0 := lt_of_le_of_ne (mul_nonneg (h2 _) (h1 _)) (fun h => hi (by rw [mul_comm]; exact h.symm))
  exact mul_pos hpos (hS _ _)

/-- With weights per channel, and one channel that is used in both data sets, `pspec` is unbiased in mode 'I'. -/
theorem identity_ok (hnd : 0 < nd) {w1 w2 : Fin nf → ℝ} (h1 : ∀ i, 0 ≤ w1 i) (h2 : ∀ i, 0 ≤ w2 i) (i0 : Fin nf) (hi : w1 i0 * w2 i0 ≠ 0) (sampling : Bool) :
    Responds sampling nd 0 (diagR w1) (diagR w2) ∧ ∃ ρ : ℝ, ρ ≠ 0 ∧
      ∀ a, ∑ b, getH (left := 0) (right := 0) nd sampling (diagR w1) (diagR w2) a b = ρ * ∑ b, getG (left := 0) (right := 0) nd (diagR w1) (diagR w2) a b ∧
        (∑ b, getG (left := 0) (right := 0) nd (diagR w1) (diagR w2) a b).re ≠ 0 := by
  have hne : ∀ s : Bool, raw (left := 0) (right := 0) nd (diagR w1) (diagR w2) (kernS s (nf + (0 + 0))) ≠ 0 := by
    intro s hz
    have := (raw_diag_zero hnd w1 w2 h1 h2 (kernS s nf) (kernS_pos s nf)).1 hz i0 i0
    exact hi (by rw [mul_comm]; exact this)
  have hp : ∀ s : Bool, 0 < pairSum nd w1 w2 (kernS s nf) := fun s => pairSum_pos h1 h2 i0 hi _ (kernS_pos s nf)
  have hsum : ∀ s a, ∑ b, getH (left := 0) (right := 0) nd s (diagR w1) (diagR w2) a b = ((1 / 2 * (nd * pairSum nd w1 w2 (kernS s nf)) : ℝ) : ℂ) := by
    intro s a
    rw [getH_kern, finish_sum (hne s)]
    have := rowSum_diag hnd w1 w2 (kernS s nf) a
    erw [this]
    push_cast
    rfl
  have hg : ∀ a, ∑ b, getG (left := 0) (right := 0) nd (diagR w1) (diagR w2) a b = ((1 / 2 * (nd * pairSum nd w1 w2 (kernS true nf)) : ℝ) : ℂ) := by
    intro a
    rw [← C88_sampling]; exact hsum true a
  have hn : (nd : ℝ) ≠ 0 := by exact_mod_cast hnd.ne'
  refine ⟨responds_raw sampling _ _ (hne sampling), pairSum nd w1 w2 (kernS sampling nf) / pairSum nd w1 w2 (kernS true nf),
    div_ne_zero (hp _).ne' (hp _).ne', fun a => ⟨?_, ?_⟩⟩
  · rw [hsum, hg, ← Complex.ofReal_mul]
    congr 1
    have := (hp true).ne'
    field_simp
  · rw [hg, Complex.ofReal_re]
    exact mul_ne_zero (by norm_num) (mul_ne_zero hn (hp true).ne')

/-- **C141** With weights and a taper per channel (identity weighting with any flags), and at least one channel used in both data sets, the stored spectra
of the normalisation 'I' are on average the bandpowers seen through the stored window functions, times the stored scalar, `Ndlys / Nfreqs` and the mean
square of the taper, for every number of delays. -/
theorem C141_identity {Ω : Type} (S : Finset Ω) (P : Ω → ℂ) (o : Opts) (hq : o.returnQ = false) (hm : o.norm = .I) (norm : Norm nf) (hn : norm.exact = false)
    (scal : String → ℝ) (pol1 pol2 : Int) (taper : Option (Fin nf → ℝ)) (pinv : Matrix (Fin nd) (Fin nd) ℂ → Matrix (Fin nd) (Fin nd) ℂ)
    (eig : Option (Eig nd)) (E : Ω → Fin nd → Matrix (Fin (nf + (0 + 0))) (Fin (nf + (0 + 0))) ℂ) (kind : AnCov.Kind)
    (inp : Ω → ℕ → AnCov.Inp (Fin (nf + (0 + 0)))) (w1 w2 : Fin nf → ℝ) (h1 : ∀ i, 0 ≤ w1 i) (h2 : ∀ i, 0 ≤ w2 i) (i0 : Fin nf) (hi : w1 i0 * w2 i0 ≠ 0)
    (x1 x2 : Ω → Matrix (Fin (nf + (0 + 0))) (Fin nt) ℂ) (row : Ω → Row nd nt)
    (hrow : ∀ r ∈ S, blpair (left := 0) (right := 0) o norm scal pol1 pol2 taper pinv eig (E r) kind (inp r) (diagR w1) (diagR w2) (x1 r) (x2 r) = .ok (row r))
    (p : Fin nd → ℝ) (t : Fin nt)
    (hcov : ∀ i j, ensemble S P (fun r => star (x1 r i t) * x2 r j t) = signalCov o.sampling (nf + (0 + 0)) 0 (fun b => (p b : ℂ)) i j)
    (r0 : Ω) (h0 : r0 ∈ S) (w : Fin nt → Matrix (Fin nd) (Fin nd) ℝ) (hw : (row r0).window = some w) (a : Fin nd) :
    (ensemble S P (fun r => (row r).data t a)).re = (row r0).scalar * ((nd : ℝ) / nf * taperPower taper) * ∑ b, w t a b * p b := by
  obtain ⟨hR, ρ, hρ, hall⟩ := identity_ok a.pos h1 h2 i0 hi o.sampling
  have := C141_mean_partial (left := 0) (right := 0) S P o hq norm hn scal pol1 pol2 taper pinv eig E kind inp (diagR w1) (diagR w2) hR x1 x2 row hrow p t hcov
    (fun _ => ⟨fun _ => ρ, fun a => (hall a).1, fun a => ⟨hρ, (hall a).2⟩, fun _ _ _ => rfl⟩) (by rw [hm]; intro h; cases h) r0 h0 w hw a
  rw [this]
  unfold residual
  rw [if_pos hm]

/-- **C141** The same for any weighting that is the same for both data sets, where no row of `G` or `H` sums to zero. -/
theorem C141_same_weighting {Ω : Type} (S : Finset Ω) (P : Ω → ℂ) (o : Opts) (hq : o.returnQ = false) (hm : o.norm = .I) (hid : o.identity = false) (norm : Norm nf)
    (hn : norm.exact = false) (scal : String → ℝ) (pol1 pol2 : Int) (taper : Option (Fin nf → ℝ)) (pinv : Matrix (Fin nd) (Fin nd) ℂ → Matrix (Fin nd) (Fin nd) ℂ)
    (eig : Option (Eig nd)) (E : Ω → Fin nd → Matrix (Fin (nf + (left + right))) (Fin (nf + (left + right))) ℂ) (kind : AnCov.Kind)
    (inp : Ω → ℕ → AnCov.Inp (Fin (nf + (left + right)))) (R : Matrix (Fin nf) (Fin (nf + (left + right))) ℂ) (hR : Responds o.sampling nd left R R)
    (hG : ∀ a, ∑ b, getG nd R R a b ≠ 0) (hH : ∀ a, ∑ b, getH nd o.sampling R R a b ≠ 0)
    (x1 x2 : Ω → Matrix (Fin (nf + (left + right))) (Fin nt) ℂ) (row : Ω → Row nd nt)
    (hrow : ∀ r ∈ S, blpair o norm scal pol1 pol2 taper pinv eig (E r) kind (inp r) R R (x1 r) (x2 r) = .ok (row r))
    (p : Fin nd → ℝ) (t : Fin nt)
    (hcov : ∀ i j, ensemble S P (fun r => star (x1 r i t) * x2 r j t) = signalCov o.sampling (nf + (left + right)) left (fun b => (p b : ℂ)) i j)
    (r0 : Ω) (h0 : r0 ∈ S) (w : Fin nt → Matrix (Fin nd) (Fin nd) ℝ) (hw : (row r0).window = some w) (a : Fin nd) :
    (ensemble S P (fun r => (row r).data t a)).re = (row r0).scalar * ((nd : ℝ) / nf * taperPower taper) * ∑ b, w t a b * p b := by
  have hreal : ∀ (s : Bool) a, (∑ b, getH nd s R R a b) = (((∑ b, getH nd s R R a b).re : ℝ) : ℂ) := by
    intro s a
    apply Complex.ext
    · simp
    · rw [Complex.ofReal_im, Complex.im_sum]
      exact Finset.sum_eq_zero (fun b _ => (C88_nonneg nd s R a b).1)
  have hg0 : ∀ a, (∑ b, getG nd R R a b).re ≠ 0 := by
    intro a hz
    have := hreal true a
    rw [C88_sampling, hz, Complex.ofReal_zero] at this
    exact hG a this
  have hh0 : ∀ a, (∑ b, getH nd o.sampling R R a b).re ≠ 0 := by
    intro a hz
    have := hreal o.sampling a
    rw [hz, Complex.ofReal_zero] at this
    exact hH a this
  have := C141_mean_partial S P o hq norm hn scal pol1 pol2 taper pinv eig E kind inp R R hR x1 x2 row hrow p t hcov
    (fun _ => ⟨fun a => (∑ b, getH nd o.sampling R R a b).re / (∑ b, getG nd R R a b).re, fun a => ?_, fun a => ⟨div_ne_zero (hh0 a) (hg0 a), hg0 a⟩,
      fun h => by rw [hid] at h; cases h⟩) (by rw [hm]; intro h; cases h) r0 h0 w hw a
  · rw [this]
    unfold residual
    rw [if_pos hm]
  · have e1 := hreal o.sampling a
    have e2 := hreal true a
    rw [C88_sampling] at e2
    have h3 : ((∑ b, getG nd R R a b).re : ℂ) ≠ 0 := by exact_mod_cast hg0 a
    rw [Complex.ofReal_div]
    conv_rhs => rw [e2]
    conv_lhs => rw [e1]
    rw [Complex.ofReal_re]
    field_simp

/-! ### Covariances -/

theorem re_smul {A : Type} [CommRing A] [StarRing A] [Algebra ℂ A] [StarModule ℂ A] (k : ℝ) (x : A) : re ((k : ℂ) • x) = (k : ℂ) • re x := by
  unfold re
  rw [star_smul, Complex.star_def, Complex.conj_ofReal, ← smul_add, smul_comm]

theorem im_smul {A : Type} [CommRing A] [StarRing A] [Algebra ℂ A] [StarModule ℂ A] (k : ℝ) (x : A) : im ((k : ℂ) • x) = (k : ℂ) • im x := by
  unfold im
  rw [star_smul, Complex.star_def, Complex.conj_ofReal, ← smul_sub, smul_comm]

theorem cov_smul {A : Type} [CommRing A] [StarRing A] [Algebra ℂ A] [StarModule ℂ A] (Ex : Expectation A) (k l : ℂ) (x y : A) :
    Cov Ex (k • x) (l • y) = k * l * Cov Ex x y := by
  unfold Cov
  rw [smul_mul_smul_comm, map_smul, map_smul, map_smul]
  simp only [smul_eq_mul]
  ring

/-- **C141** (partial). Over realisations of Gaussian data with the covariances given to the model, the stored covariances are those of the real and of the
imaginary parts of the stored spectra, and the stored error bars are their standard deviations, with or without a beam, for every normalisation and with
`return_q` or without.

Missing: as in `C110_covariance_partial`, inputs that are small but not zero, and inputs that change with time although the covariance of the first data
set is the same at the first and the last time; exact normalisation. -/
theorem C141_covariance_partial {Ω : Type} [Fintype Ω] (P : Ω → ℝ) (hP : ∑ r, P r = 1) (o : Opts) (norm : Norm nf) (hn : norm.exact = false)
    (scal : String → ℝ) (pol1 pol2 : Int) (taper : Option (Fin nf → ℝ)) (pinv : Matrix (Fin nd) (Fin nd) ℂ → Matrix (Fin nd) (Fin nd) ℂ)
    (eig : Option (Eig nd)) (kind : AnCov.Kind) (inp : ℕ → AnCov.Inp (Fin (nf + (left + right)))) (R1 R2 : Matrix (Fin nf) (Fin (nf + (left + right))) ℂ)
    (x1 x2 : Ω → Matrix (Fin (nf + (left + right))) (Fin nt) ℂ) (row : Ω → Row nd nt)
    (hrow : ∀ r, blpair o norm scal pol1 pol2 taper pinv eig (unnormedE R1 R2) kind inp R1 R2 (x1 r) (x2 r) = .ok (row r)) (t : Fin nt)
    (hu : kind ≠ .foreground → (∀ i j, ‖(inp 0).C11 i j - (inp (nt - 1)).C11 i j‖ ≤ 1e-8 + 1e-5 * ‖(inp (nt - 1)).C11 i j‖) → inp t = inp 0)
    (hg : Gaussian (AnCov.finEx P hP) (fun i r => x1 r i t) (fun i r => x2 r i t))
    (hf : AnCov.Fits kind (AnCov.finEx P hP) (fun i r => x1 r i t) (fun i r => x2 r i t) (inp t))
    (t1 : AnCov.NotTiny fun b c : Fin nd => Cov (AnCov.finEx P hP) (qOf (unnormedE R1 R2) (fun i r => x1 r i t) (fun i r => x2 r i t) b)
      (qOf (unnormedE R1 R2) (fun i r => x1 r i t) (fun i r => x2 r i t) c))
    (t2 : AnCov.NotTiny fun b c : Fin nd => Cov (AnCov.finEx P hP) (qOf (unnormedE R1 R2) (fun i r => x1 r i t) (fun i r => x2 r i t) b)
      (star (qOf (unnormedE R1 R2) (fun i r => x1 r i t) (fun i r => x2 r i t) c))) (r0 : Ω) :
    (∀ l, (row r0).cov = some l → ∃ c, l[t.1]? = some c ∧ ∀ a b,
      c.1 a b = (Cov (AnCov.finEx P hP) (re fun r => (row r).data t a) (re fun r => (row r).data t b)).re ∧
      c.2 a b = (Cov (AnCov.finEx P hP) (im fun r => (row r).data t a) (im fun r => (row r).data t b)).re) ∧
    (∀ l, (row r0).stats = some l → ∃ e, l[t.1]? = some e ∧ ∀ a,
      (e a).re = Real.sqrt (Cov (AnCov.finEx P hP) (re fun r => (row r).data t a) (re fun r => (row r).data t a)).re ∧
      (e a).im = Real.sqrt (Cov (AnCov.finEx P hP) (im fun r => (row r).data t a) (im fun r => (row r).data t a)).re) := by
  obtain ⟨s, GH, qv0, MW, sa, e1, e2, e3, e4, e5, e6⟩ := blpair_ok (hrow r0)
  set X1 : Fin (nf + (left + right)) → Ω → ℂ := fun i r => x1 r i t with hX1
  set X2 : Fin (nf + (left + right)) → Ω → ℂ := fun i r => x2 r i t with hX2
  have hdata : ∀ a, (fun r => (row r).data t a) = if o.returnQ then qOf (unnormedE R1 R2) X1 X2 a
      else ((s * factor sa a : ℝ) : ℂ) • pOf MW.1 (qOf (unnormedE R1 R2) X1 X2) a := by
    intro a
    have hq : ∀ r, ∃ qv : Fin nd → Fin nt → ℂ, (∀ b, qv b t = qOf (unnormedE R1 R2) X1 X2 b r) ∧
        (row r).data t a = if o.returnQ then qv a t else ((s * factor sa a : ℝ) : ℂ) * ∑ c, MW.1 a c * qv c t := by
      intro r
      obtain ⟨s', GH', qv, MW', sa', g1, g2, g3, g4, g5, g6⟩ := blpair_ok (hrow r)
      rw [e1] at g1
      rw [e2] at g2
      have := Except.ok.inj g1; subst this
      have := Except.ok.inj g2; subst this
      rw [e4] at g4
      have := Except.ok.inj g4; subst this
      rw [e5] at g5
      have := Except.ok.inj g5; subst this
      refine ⟨qv, fun b => ?_, ?_⟩
      · rw [C48_E_form o.allowFft norm hn R1 R2 (x1 r) (x2 r) qv g3 b t]
        simp only [sand, qOf, Finset.sum_apply, Pi.smul_apply, Pi.mul_apply, Pi.star_apply, smul_eq_mul, hX1, hX2, Finset.mul_sum]
        refine Finset.sum_congr rfl (fun i _ => Finset.sum_congr rfl (fun j _ => ?_))
        ring
      · rw [g6]
        cases o.returnQ
        · simp only [Bool.false_eq_true, if_false]
          exact spectra_apply e1 sa MW.1 (Matrix.of qv) a t
        · rfl
    funext r
    obtain ⟨qv, h1, h2⟩ := hq r
    rw [h2]
    cases o.returnQ
    · simp only [Bool.false_eq_true, if_false, h1, Pi.smul_apply, smul_eq_mul, pOf, Finset.sum_apply]
    · simp only [if_true, h1]
  obtain ⟨ou, ho, hcov⟩ := AnCov.C110_covariance_partial kind (unnormedE R1 R2) (fun _ => MW.1) nt inp t t.2 (fun h1 h2 => ⟨hu h1 h2, rfl⟩)
    (AnCov.finEx P hP) X1 X2 hg hf t1 t2
  have hc : ∀ a b, (storedCov o s sa ou).1 a b = (Cov (AnCov.finEx P hP) (re fun r => (row r).data t a) (re fun r => (row r).data t b)).re ∧
      (storedCov o s sa ou).2 a b = (Cov (AnCov.finEx P hP) (im fun r => (row r).data t a) (im fun r => (row r).data t b)).re := by
    intro a b
    obtain ⟨k1, k2, k3, k4⟩ := hcov a b
    rw [hdata a, hdata b]
    cases hq : o.returnQ
    · simp only [Bool.false_eq_true, if_false, storedCov, hq, Matrix.map_apply]
      rw [scaleCov_apply e1, scaleCov_apply e1, re_smul, re_smul, im_smul, im_smul, cov_smul, cov_smul, k3, k4]
      constructor <;> (congr 1; push_cast; ring)
    · simp only [if_true, storedCov, hq, Matrix.map_apply]
      rw [k1, k2]
      exact ⟨rfl, rfl⟩
  constructor
  · intro l hl
    rw [e6] at hl
    simp only at hl
    split at hl
    · rw [← Option.some.inj hl]
      refine ⟨storedCov o s sa ou, ?_, hc⟩
      rw [List.getElem?_map, ho]
      rfl
    · cases hl
  · intro l hl
    rw [e6] at hl
    simp only at hl
    split at hl
    · rw [← Option.some.inj hl]
      refine ⟨errorBars (storedCov o s sa ou), ?_, fun a => ?_⟩
      · rw [List.getElem?_map, List.getElem?_map, ho]
        rfl
      · rw [← (hc a a).1, ← (hc a a).2]
        exact ⟨rfl, rfl⟩
    · cases hl

/-! ### Errors and scaling -/

/-- **C141** With a primary beam, two different polarizations are refused; without one the scalar is 1. -/
theorem C141_scalar (o : Opts) (norm : Norm nf) (scal : String → ℝ) (p q : Int) (taper : Option (Fin nf → ℝ))
    (pinv : Matrix (Fin nd) (Fin nd) ℂ → Matrix (Fin nd) (Fin nd) ℂ) (eig : Option (Eig nd))
    (E : Fin nd → Matrix (Fin (nf + (left + right))) (Fin (nf + (left + right))) ℂ) (kind : AnCov.Kind) (inp : ℕ → AnCov.Inp (Fin (nf + (left + right))))
    (R1 R2 : Matrix (Fin nf) (Fin (nf + (left + right))) ℂ) (x1 x2 : Matrix (Fin (nf + (left + right))) (Fin nt) ℂ) :
    (o.beam = true → p ≠ q → blpair o norm scal p q taper pinv eig E kind inp R1 R2 x1 x2 = .error .notImpl) ∧
    (∀ row, blpair o norm scal p q taper pinv eig E kind inp R1 R2 x1 x2 = .ok row →
      row.scalar = if o.beam then (if o.norm = .Hinv then scal "none" else scal "no_override") else 1) := by
  constructor
  · intro hb hp
    unfold blpair scalarOf
    rw [hb, if_pos rfl, if_pos hp]
    rfl
  · intro row h
    obtain ⟨s, GH, qv0, MW, sa, e1, e2, e3, e4, e5, e6⟩ := blpair_ok h
    rw [e6]
    unfold scalarOf at e1
    cases hb : o.beam
    · rw [hb] at e1; exact (Except.ok.inj e1).symm
    · rw [hb] at e1
      simp only [if_true] at e1 ⊢
      split at e1
      · cases e1
      · split at e1
        · rename_i h1; rw [if_pos h1]; exact (Except.ok.inj e1).symm
        · rename_i h1; rw [if_neg h1]; exact (Except.ok.inj e1).symm

theorem blpair_of {o : Opts} {norm : Norm nf} {scal : String → ℝ} {p q : Int} {taper : Option (Fin nf → ℝ)}
    {pinv : Matrix (Fin nd) (Fin nd) ℂ → Matrix (Fin nd) (Fin nd) ℂ} {eig : Option (Eig nd)}
    {E : Fin nd → Matrix (Fin (nf + (left + right))) (Fin (nf + (left + right))) ℂ} {kind : AnCov.Kind} {inp : ℕ → AnCov.Inp (Fin (nf + (left + right)))}
    {R1 R2 : Matrix (Fin nf) (Fin (nf + (left + right))) ℂ} {x1 x2 : Matrix (Fin (nf + (left + right))) (Fin nt) ℂ}
    {s : ℝ} {GH MW : Matrix (Fin nd) (Fin nd) ℂ × Matrix (Fin nd) (Fin nd) ℂ} {qv : Fin nd → Fin nt → ℂ} {sa : Option (Fin nd → ℝ)}
    (e1 : scalarOf o scal p q = .ok s) (e2 : fisher o norm nd R1 R2 = .ok GH)
    (e3 : (qHat o.allowFft norm [(R1, x1)] [(R2, x2)] : Except Err (Fin nd → Fin nt → ℂ)) = .ok qv)
    (e4 : getMW pinv GH.1 GH.2 o.norm (if o.norm = .Vhalf then eig else none) norm.exact = .ok MW)
    (e5 : adjOf o norm taper GH.1 GH.2 = .ok sa) :
    blpair o norm scal p q taper pinv eig E kind inp R1 R2 x1 x2 =
      .ok { scalar := s
            data := if o.returnQ then fun t a => qv a t else fun t a => spectra o s sa MW.1 (Matrix.of qv) a t
            cov := if o.storeCov then some ((AnCov.analytic kind E (fun _ => MW.1) nt inp).map (storedCov o s sa)) else none
            stats := if o.storeDiag then some (((AnCov.analytic kind E (fun _ => MW.1) nt inp).map (storedCov o s sa)).map errorBars) else none
            window := if o.storeWindow then some (fun _ => MW.2.map Complex.re) else none } := by
  unfold blpair
  rw [e1, e2, e3]
  change (getMW pinv GH.1 GH.2 o.norm (if o.norm = .Vhalf then eig else none) norm.exact >>= _) = _
  rw [e4]
  change (adjOf o norm taper GH.1 GH.2 >>= _) = _
  rw [e5]
  rfl

/-- **C141** In the default mode (identity weighting with any flags and taper, normalisation 'I') a baseline-pair never fails, whatever its data, provided
the two polarizations are the same if there is a beam. -/
theorem C141_succeeds (hnd : 0 < nd) (o : Opts) (hm : o.norm = .I) (norm : Norm nf) (hn : norm.exact = false) (scal : String → ℝ) (p q : Int)
    (hpq : o.beam = true → p = q) (taper : Option (Fin nf → ℝ)) (pinv : Matrix (Fin nd) (Fin nd) ℂ → Matrix (Fin nd) (Fin nd) ℂ)
    (eig : Option (Eig nd)) (E : Fin nd → Matrix (Fin (nf + (0 + 0))) (Fin (nf + (0 + 0))) ℂ) (kind : AnCov.Kind)
    (inp : ℕ → AnCov.Inp (Fin (nf + (0 + 0)))) (w1 w2 : Fin nf → ℝ) (h1 : ∀ i, 0 ≤ w1 i) (h2 : ∀ i, 0 ≤ w2 i)
    (x1 x2 : Matrix (Fin (nf + (0 + 0))) (Fin nt) ℂ) :
    ∃ row, blpair (left := 0) (right := 0) o norm scal p q taper pinv eig E kind inp (diagR w1) (diagR w2) x1 x2 = .ok row ∧
      (row.cov.isSome = o.storeCov ∧ row.stats.isSome = o.storeDiag ∧ row.window.isSome = o.storeWindow) ∧
      (∀ l, row.cov = some l → l.length = nt) ∧ (∀ l, row.stats = some l → l.length = nt) := by
  have e1 : ∃ s, scalarOf o scal p q = .ok s := by
    unfold scalarOf
    cases hb : o.beam
    · exact ⟨1, rfl⟩
    · rw [if_pos rfl, if_neg (by rw [hpq hb]; simp)]
      split
      · exact ⟨_, rfl⟩
      · exact ⟨_, rfl⟩
  obtain ⟨s, e1⟩ := e1
  have e2 : fisher (left := 0) (right := 0) o norm nd (diagR w1) (diagR w2) =
      .ok (getG (left := 0) (right := 0) nd (diagR w1) (diagR w2), getH (left := 0) (right := 0) nd o.sampling (diagR w1) (diagR w2)) := by
    unfold fisher
    rw [hn]
    rfl
  have e3 := C48_value (nd := nd) o.allowFft norm hn [((diagR w1 : Matrix (Fin nf) (Fin (nf + (0 + 0))) ℂ), x1)] [(diagR w2, x2)]
  have e4 : ∃ MW, getMW pinv (getG (left := 0) (right := 0) nd (diagR w1) (diagR w2)) (getH (left := 0) (right := 0) nd o.sampling (diagR w1) (diagR w2)) o.norm
      (if o.norm = .Vhalf then eig else none) norm.exact = .ok MW := by
    rw [hm]
    unfold getMW
    simp
  obtain ⟨MW, e4⟩ := e4
  have e5 : ∃ sa, adjOf o norm taper (getG (left := 0) (right := 0) nd (diagR w1) (diagR w2)) (getH (left := 0) (right := 0) nd o.sampling (diagR w1) (diagR w2)) =
      .ok sa := by
    unfold adjOf
    rw [if_pos ⟨hm, hn⟩]
    cases hs : o.sampling with
    | false => rw [(C98_identity hnd w1 w2 h1 h2 taper o.identity).1]; exact ⟨_, rfl⟩
    | true =>
      rw [C88_sampling, adjustment_const hnd _ _ taper 1 zero_le_one (fun a => ?_) o.identity]
      · exact ⟨_, rfl⟩
      · unfold ratio
        split
        · rfl
        · rename_i h; exact div_self h
  obtain ⟨sa, e5⟩ := e5
  refine ⟨_, blpair_of e1 e2 e3 e4 e5, ⟨?_, ?_, ?_⟩, ?_, ?_⟩
  · cases o.storeCov <;> rfl
  · cases o.storeDiag <;> rfl
  · cases o.storeWindow <;> rfl
  · intro l hl
    simp only at hl
    split at hl
    · rw [← Option.some.inj hl, List.length_map, AnCov.C110_times]
    · cases hl
  · intro l hl
    simp only at hl
    split at hl
    · rw [← Option.some.inj hl, List.length_map, List.length_map, AnCov.C110_times]
    · cases hl

/-- **C141** A beam only changes the units: the spectra are those without a beam times the stored scalar, the covariances times its square, and the window
functions are the same. -/
theorem C141_beam_scales (o : Opts) (hb : o.beam = true) (norm : Norm nf) (scal : String → ℝ) (p q : Int) (taper : Option (Fin nf → ℝ))
    (pinv : Matrix (Fin nd) (Fin nd) ℂ → Matrix (Fin nd) (Fin nd) ℂ) (eig : Option (Eig nd))
    (E : Fin nd → Matrix (Fin (nf + (left + right))) (Fin (nf + (left + right))) ℂ) (kind : AnCov.Kind) (inp : ℕ → AnCov.Inp (Fin (nf + (left + right))))
    (R1 R2 : Matrix (Fin nf) (Fin (nf + (left + right))) ℂ) (x1 x2 : Matrix (Fin (nf + (left + right))) (Fin nt) ℂ) (row : Row nd nt)
    (h : blpair o norm scal p q taper pinv eig E kind inp R1 R2 x1 x2 = .ok row) :
    ∃ row', blpair { o with beam := false } norm scal p q taper pinv eig E kind inp R1 R2 x1 x2 = .ok row' ∧ row'.scalar = 1 ∧ row'.window = row.window ∧
      (∀ t a, row.data t a = if o.returnQ then row'.data t a else (row.scalar : ℂ) * row'.data t a) ∧
      (row.cov = row'.cov.map (fun l => l.map (fun c => if o.returnQ then c else (row.scalar ^ 2 • c.1, row.scalar ^ 2 • c.2)))) := by
  obtain ⟨s, GH, qv, MW, sa, e1, e2, e3, e4, e5, e6⟩ := blpair_ok h
  have e1' : scalarOf { o with beam := false } scal p q = .ok 1 := rfl
  refine ⟨_, blpair_of (o := { o with beam := false }) e1' e2 e3 e4 e5, rfl, by rw [e6], ?_, ?_⟩
  · intro t a
    rw [e6]
    by_cases hq : o.returnQ = true
    · simp only [if_pos hq]
    · simp only [if_neg hq]
      rw [spectra_apply e1, spectra_apply e1']
      push_cast
      ring
  · rw [e6]
    simp only
    by_cases hc : o.storeCov = true
    · simp only [if_pos hc, Option.map_some, List.map_map]
      congr 2
      funext c
      simp only [Function.comp_apply, storedCov]
      by_cases hq : o.returnQ = true
      · simp only [if_pos hq]
      · simp only [if_neg hq]
        apply Prod.ext <;>
        · ext a b
          simp only [Matrix.map_apply, Matrix.smul_apply, smul_eq_mul]
          rw [scaleCov_apply e1, scaleCov_apply e1', Complex.re_ofReal_mul, Complex.re_ofReal_mul]
          ring
    · simp only [if_neg hc, Option.map_none]

/-- **C141** (partial). With `exact_norm` the stored spectra are on average the bandpowers of the sky seen through the stored window functions, times the
stored scalar, without further factors. Missing: fewer delays than channels without `sampling`. -/
theorem C141_exact_partial {Ω : Type} {np : ℕ} (S : Finset Ω) (P : Ω → ℂ) (o : Opts) (hq : o.returnQ = false) (norm : Norm nf) (hn : norm.exact = true)
    (beam : Option (Matrix (Fin nf) (Fin np) ℝ × (Fin nf → ℝ) × ℝ)) (hb : norm.beam = integralBeam beam)
    (scal : String → ℝ) (pol1 pol2 : Int) (taper : Option (Fin nf → ℝ)) (pinv : Matrix (Fin nd) (Fin nd) ℂ → Matrix (Fin nd) (Fin nd) ℂ)
    (eig : Option (Eig nd)) (E : Ω → Fin nd → Matrix (Fin (nf + (0 + 0))) (Fin (nf + (0 + 0))) ℂ) (kind : AnCov.Kind)
    (inp : Ω → ℕ → AnCov.Inp (Fin (nf + (0 + 0)))) (R1 R2 : Matrix (Fin nf) (Fin (nf + (0 + 0))) ℂ)
    (hG : RespondsExact true nd norm.delTau beam R1 R2) (hR : RespondsExact o.sampling nd norm.delTau beam R1 R2) (hnd : o.sampling = true ∨ nf ≤ nd)
    (x1 x2 : Ω → Matrix (Fin (nf + (0 + 0))) (Fin nt) ℂ) (row : Ω → Row nd nt)
    (hrow : ∀ r ∈ S, blpair (left := 0) (right := 0) o norm scal pol1 pol2 taper pinv eig (E r) kind (inp r) R1 R2 (x1 r) (x2 r) = .ok (row r))
    (p : Fin nd → ℝ) (t : Fin nt)
    (hcov : ∀ i j, ensemble S P (fun r => star (x1 r i t) * x2 r j t) = skyCov o.sampling norm.delTau beam (fun b => (p b : ℂ)) i j)
    (r0 : Ω) (h0 : r0 ∈ S) (w : Fin nt → Matrix (Fin nd) (Fin nd) ℝ) (hw : (row r0).window = some w) (a : Fin nd) :
    (ensemble S P (fun r => (row r).data t a)).re = (row r0).scalar * ∑ b, w t a b * p b := by
  obtain ⟨s, GH, qv0, MW, sa, e1, e2, e3, e4, e5, e6⟩ := blpair_ok (hrow r0 h0)
  have hsa : sa = none := by
    unfold adjOf at e5
    rw [if_neg (by rw [hn]; simp)] at e5
    exact (Except.ok.inj e5).symm
  have hall : ∀ r ∈ S, ∃ qv, (qHat o.allowFft norm [(R1, x1 r)] [(R2, x2 r)] : Except Err (Fin nd → Fin nt → ℂ)) = .ok qv ∧
      ∀ a, (row r).data t a = ((s * factor sa a : ℝ) : ℂ) * ∑ c, MW.1 a c * qv c t := by
    intro r hr
    obtain ⟨s', GH', qv, MW', sa', g1, g2, g3, g4, g5, g6⟩ := blpair_ok (hrow r hr)
    rw [e1] at g1
    rw [e2] at g2
    have := Except.ok.inj g1; subst this
    have := Except.ok.inj g2; subst this
    rw [e4] at g4
    have := Except.ok.inj g4; subst this
    rw [e5] at g5
    have := Except.ok.inj g5; subst this
    refine ⟨qv, g3, fun a => ?_⟩
    rw [g6]
    simp only [hq, Bool.false_eq_true, if_false]
    exact spectra_apply e1 sa MW.1 (Matrix.of qv) a t
  classical
  let Q : Ω → Fin nd → Fin nt → ℂ := fun r => if h : r ∈ S then (hall r h).choose else 0
  have hQ : ∀ r ∈ S, qHat o.allowFft norm [(R1, x1 r)] [(R2, x2 r)] = .ok (Q r) := by
    intro r hr
    have := (hall r hr).choose_spec.1
    simp only [Q, dif_pos hr]; exact this
  have hD : ∀ r ∈ S, ∀ a, (row r).data t a = ((s * factor sa a : ℝ) : ℂ) * ∑ c, MW.1 a c * Q r c t := by
    intro r hr a
    have := (hall r hr).choose_spec.2 a
    simp only [Q, dif_pos hr]; exact this
  have hGH : getGexact nd norm R1 R2 = .ok GH.1 ∧ getHexact nd o.sampling norm R1 R2 = .ok GH.2 := by
    unfold fisher at e2
    rw [if_pos hn] at e2
    cases hg : getGexact nd norm R1 R2 with
    | error e => rw [hg] at e2; cases e2
    | ok G =>
      cases hh : getHexact nd o.sampling norm R1 R2 with
      | error e => rw [hg, hh] at e2; cases e2
      | ok H =>
        rw [hg, hh] at e2
        rw [← Except.ok.inj e2]
        exact ⟨rfl, rfl⟩
  have hmain := (C137_window_partial S P o.sampling norm hn beam hb R1 R2 hG hR hnd (fun b => (p b : ℂ)) x1 x2 t hcov o.allowFft Q hQ GH.1 GH.2 hGH.1 hGH.2 pinv o.norm _
    MW.1 MW.2 e4 a).1
  have hens : ensemble S P (fun r => (row r).data t a) = (s : ℂ) * ensemble S P (fun r => pHat MW.1 (Matrix.of (Q r)) a t) := by
    unfold ensemble pHat
    rw [Finset.mul_sum]
    refine Finset.sum_congr rfl (fun r hr => ?_)
    beta_reduce
    rw [hD r hr a, hsa]
    simp only [factor, Option.getD_none, mul_one, Matrix.mul_apply, Matrix.of_apply]
    ring
  have hwin : w = fun _ => MW.2.map Complex.re := by
    rw [e6] at hw
    simp only at hw
    split at hw
    · exact (Option.some.inj hw).symm
    · cases hw
  have hs : (row r0).scalar = s := by rw [e6]
  rw [hens, hmain, hs, hwin, Complex.re_ofReal_mul, Complex.re_sum]
  congr 1
  refine Finset.sum_congr rfl (fun b _ => ?_)
  rw [Complex.re_mul_ofReal]
  rfl

/-- Non-vacuity of `C141_identity` and `C141_succeeds`: one channel, one delay, one time, the same unit tone in both data sets. -/
example : ∃ row : Row 1 1, blpair (nf := 1) (left := 0) (right := 0) ⟨true, true, false, true, false, true, true, true, .I⟩ ⟨false, 0, 0⟩ (fun _ => 5) (-5) (-5) none
      (fun M => M) none (fun _ => 0) .diagonal (fun _ => ⟨0, 0, 0, 0, 0, 0, 0, 0, 0, 0, 0, 0⟩) (diagR fun _ => 1) (diagR fun _ => 1) (fun _ _ => 1) (fun _ _ => 1) = .ok row ∧
    (∀ i j : Fin 1, ensemble {()} (fun _ => 1) (fun _ => star (1 : ℂ) * 1) = signalCov (nd := 1) false 1 0 (fun _ => ((1 : ℝ) : ℂ)) i j) ∧
    ∃ w, row.window = some w ∧ (row.data 0 0).re = 5 * ((1 : ℕ) / (1 : ℕ) * 1) * (w 0 0 0 * 1) := by
  obtain ⟨row, h, ⟨_, _, hw⟩, _⟩ := C141_succeeds (nf := 1) (nd := 1) (nt := 1) one_pos ⟨true, true, false, true, false, true, true, true, .I⟩ rfl ⟨false, 0, 0⟩ rfl (fun _ => 5) (-5) (-5)
    (fun _ => rfl) none (fun M => M) none (fun _ => 0) .diagonal (fun _ => ⟨0, 0, 0, 0, 0, 0, 0, 0, 0, 0, 0, 0⟩) (fun _ => 1) (fun _ => 1) (fun _ => zero_le_one) (fun _ => zero_le_one)
    (fun _ _ => 1) (fun _ _ => 1)
  have hc : ∀ i j : Fin 1, ensemble {()} (fun _ => 1) (fun _ => star (1 : ℂ) * 1) = signalCov (nd := 1) false 1 0 (fun _ => ((1 : ℝ) : ℂ)) i j := by
    intro i j
    have hi : i = 0 := Subsingleton.elim _ _
    have hj : j = 0 := Subsingleton.elim _ _
    subst hi; subst hj
    simp [signalCov, tone, delayIdx, ensemble]
    norm_num
  refine ⟨row, h, hc, ?_⟩
  obtain ⟨w, hw⟩ := Option.isSome_iff_exists.1 hw
  refine ⟨w, hw, ?_⟩
  have := C141_identity {()} (fun _ => 1) ⟨true, true, false, true, false, true, true, true, .I⟩ rfl rfl ⟨false, 0, 0⟩ rfl (fun _ => 5) (-5) (-5) none (fun M => M) none (fun _ _ => 0) .diagonal
    (fun _ _ => ⟨0, 0, 0, 0, 0, 0, 0, 0, 0, 0, 0, 0⟩) (fun _ : Fin 1 => 1) (fun _ => 1) (fun _ => zero_le_one) (fun _ => zero_le_one) 0 (by norm_num) (fun _ _ _ => 1) (fun _ _ _ => 1) (fun _ => row)
    (fun _ _ => h) (fun _ => 1) 0 hc () (by simp) w hw 0
  have hs := (C141_scalar _ _ _ _ _ _ _ _ _ _ _ _ _ _ _).2 row h
  simp only [ensemble, Finset.sum_singleton, one_mul, taperPower, Finset.univ_unique, Fin.default_eq_zero] at this
  rw [this, hs]
  simp

/-- Non-vacuity of `C141_covariance_partial`: one channel without weights, and the independent noise of the example of C110. -/
example : AnCov.NotTiny (fun b c : Fin 1 => Cov AnCov.E2 (qOf (unnormedE (nf := 1) (ne := 1) (nd := 1) 1 1) AnCov.exX1 AnCov.exX2 b)
      (qOf (unnormedE (nf := 1) (ne := 1) (nd := 1) 1 1) AnCov.exX1 AnCov.exX2 c)) ∧
    AnCov.NotTiny (fun b c : Fin 1 => Cov AnCov.E2 (qOf (unnormedE (nf := 1) (ne := 1) (nd := 1) 1 1) AnCov.exX1 AnCov.exX2 b)
      (star (qOf (unnormedE (nf := 1) (ne := 1) (nd := 1) 1 1) AnCov.exX1 AnCov.exX2 c))) := by
  have hE : unnormedE (nf := 1) (ne := 1) (nd := 1) 1 1 0 0 0 = 1 / 2 := by
    have h := wave_norm 1 (delayIdx 1 ((0 : Fin 1) : ℕ)) (((0 : Fin 1) : ℕ) : ℝ)
    unfold unnormedE
    rw [qPlain_vec]
    simp [Matrix.vecMulVec]
    simpa using h
  have hq : ∀ b : Fin 1, qOf (unnormedE (nf := 1) (ne := 1) (nd := 1) 1 1) AnCov.exX1 AnCov.exX2 b = (1 / 2 : ℂ) • AnCov.tensor (star AnCov.exZ) AnCov.exZ := by
    intro b
    have hb : b = 0 := Subsingleton.elim _ _
    subst hb
    unfold qOf
    simp only [Finset.univ_unique, Fin.default_eq_zero, Finset.sum_singleton, hE, AnCov.exX1, AnCov.exX2, AnCov.tensor_star, AnCov.tensor_mul, star_one, mul_one, one_mul]
  obtain ⟨s1, s2, s3⟩ := AnCov.E1_second
  have z1 := AnCov.E1_single AnCov.exZ (.inl rfl)
  have z2 := AnCov.E1_single (star AnCov.exZ) (.inr rfl)
  constructor
  · intro _ b c
    beta_reduce
    rw [hq, hq, cov_smul]
    simp only [Cov, AnCov.tensor_mul, AnCov.E2_tensor, s1, z1, mul_zero, sub_zero]
  · intro h
    exfalso
    have h0 := h 0 0
    simp only [hq, star_smul, cov_smul] at h0
    simp only [Cov, AnCov.tensor_star, star_star, AnCov.tensor_mul, AnCov.E2_tensor, mul_comm (star AnCov.exZ) AnCov.exZ, s3, z1, mul_zero, zero_mul, sub_zero] at h0
    norm_num at h0

/-! ### A phase between the row sums -/

/-- A weighting that keeps the first of five channels. -/
def cR1 : Matrix (Fin 5) (Fin (5 + (0 + 0))) ℂ := fun i j => if i.1 = 0 ∧ j.1 = 0 then 1 else 0
/-- A weighting that keeps the first channel and moves the last one to the second. -/
def cR2 : Matrix (Fin 5) (Fin (5 + (0 + 0))) ℂ := fun i j => if (i.1 = 0 ∧ j.1 = 0) ∨ (i.1 = 1 ∧ j.1 = 4) then 1 else 0

theorem wave_i : wave 4 (delayIdx 4 ((1 : Fin 4) : ℕ)) ((1 : ℕ) : ℝ) = Complex.I := by
  unfold wave delayIdx
  have : (-2 * (Real.pi : ℂ) * Complex.I * (((((1 : Fin 4) : ℕ) : ℤ) - ((4 / 2 : ℕ) : ℤ) : ℤ) : ℂ) * (((1 : ℕ) : ℝ) : ℂ) / ((4 : ℕ) : ℂ)) = Real.pi / 2 * Complex.I := by
    simp
    ring
  rw [this, Complex.exp_pi_div_two_mul_I]

theorem coef_cR1 (j : Fin 5) : coef (nd := 4) cR1 1 j = if j.1 = 0 then 1 else 0 := by
  unfold coef
  simp only [Matrix.vecMul, dotProduct, Fin.sum_univ_five, cR1]
  fin_cases j <;> simp [wave_zero]

theorem coef_cR2 (j : Fin 5) : coef (nd := 4) cR2 1 j = if j.1 = 0 then 1 else if j.1 = 4 then Complex.I else 0 := by
  have hw := wave_i
  unfold coef
  simp only [Matrix.vecMul, dotProduct, Fin.sum_univ_five, cR2]
  fin_cases j
  · simp [wave_zero]
  · simp
  · simp
  · simp
  · simp
    simpa using hw

theorem rowSum_c (S : Fin (5 + (0 + 0)) → Fin (5 + (0 + 0)) → ℝ) :
    rowSum (raw (left := 0) (right := 0) 4 cR1 cR2 S) 1 = 4 * ((S 0 0 : ℂ) + Complex.I * (S 4 0 : ℂ)) := by
  rw [raw_rowSum (by norm_num)]
  congr 1
  have h1 : ∀ i j : Fin 5, (if aliased 4 i j then coef (nd := 4) cR2 1 i * (S i j : ℂ) * star (coef (nd := 4) cR1 1 j) else 0) =
      if j = 0 then (if i = 0 then (S 0 0 : ℂ) else if i = 4 then Complex.I * (S 4 0 : ℂ) else 0) else 0 := by
    intro i j
    rw [coef_cR1, coef_cR2]
    fin_cases i <;> fin_cases j <;> simp [aliased]
  change ∑ i : Fin 5, ∑ j : Fin 5, _ = _
  simp only [h1]
  simp [Fin.sum_univ_five]

/-- **C141** Without the hypothesis on the phases the claim is false: with four delays, five channels and real weightings that differ between the two data
sets (one mixes channels, as filters do), the mean of the stored spectrum is not the flat spectrum of the sky seen through the stored window. -/
theorem C141_counterexample_phase : ∃ (R1 R2 : Matrix (Fin 5) (Fin (5 + (0 + 0))) ℂ), (∀ i j, (R1 i j = 0 ∨ R1 i j = 1) ∧ (R2 i j = 0 ∨ R2 i j = 1)) ∧
    Responds false 4 0 R1 R2 ∧
    ∃ (Ω : Type) (S : Finset Ω) (P : Ω → ℂ) (o : Opts) (x1 x2 : Ω → Matrix (Fin (5 + (0 + 0))) (Fin 1) ℂ) (row : Ω → Row 4 1) (r0 : Ω) (w : Fin 1 → Matrix (Fin 4) (Fin 4) ℝ),
      o.norm = .I ∧ o.sampling = false ∧ o.returnQ = false ∧
      (∀ r ∈ S, blpair (left := 0) (right := 0) o ⟨false, 0, 0⟩ (fun _ => 1) 0 0 none (fun M => M) none (fun _ => 0) .diagonal
        (fun _ => ⟨0, 0, 0, 0, 0, 0, 0, 0, 0, 0, 0, 0⟩) R1 R2 (x1 r) (x2 r) = .ok (row r)) ∧
      (∀ i j, ensemble S P (fun r => star (x1 r i 0) * x2 r j 0) = signalCov (nd := 4) false (5 + (0 + 0)) 0 (fun _ => ((1 : ℝ) : ℂ)) i j) ∧
      r0 ∈ S ∧ (row r0).window = some w ∧
      (ensemble S P (fun r => (row r).data 0 1)).re ≠ (row r0).scalar * residual (nf := 5) o 4 none * ∑ b, w 0 1 b * 1 := by
  have hG1 : rowSum (raw (left := 0) (right := 0) 4 cR1 cR2 (kernS true (5 + (0 + 0)))) 1 = 4 * (1 + Complex.I) := by
    rw [rowSum_c]; simp [kernS]
  obtain ⟨σ, hσ⟩ : ∃ σ : ℝ, σ = npSinc (4 / 5) := ⟨_, rfl⟩
  have hσ1 : σ < 1 := by
    rw [hσ]; unfold npSinc
    have hp : (0 : ℝ) < Real.pi * (4 / 5) := by have := Real.pi_pos; positivity
    rw [Real.sinc_of_ne_zero hp.ne', div_lt_one hp]
    exact Real.sin_lt hp
  have hH1 : rowSum (raw (left := 0) (right := 0) 4 cR1 cR2 (kernS false (5 + (0 + 0)))) 1 = 4 * (1 + Complex.I * σ) := by
    rw [rowSum_c, hσ]
    congr 2
    · simp [kernS, npSinc]
    · congr 2
      simp only [kernS, Bool.false_eq_true, if_false]
      congr 1
      norm_num
  have hnG : raw (left := 0) (right := 0) 4 cR1 cR2 (kernS true (5 + (0 + 0))) ≠ 0 := by
    intro hz
    rw [hz] at hG1
    have := congrArg Complex.re hG1
    simp [rowSum] at this
  have hnH : raw (left := 0) (right := 0) 4 cR1 cR2 (kernS false (5 + (0 + 0))) ≠ 0 := by
    intro hz
    rw [hz] at hH1
    have := congrArg Complex.re hH1
    simp [rowSum] at this
  have hg : ∑ b, getG (left := 0) (right := 0) 4 cR1 cR2 1 b = 2 * (1 + Complex.I) := by
    rw [← C88_sampling, getH_kern, finish_sum hnG, hG1]; ring
  have hh : ∑ b, getH (left := 0) (right := 0) 4 false cR1 cR2 1 b = 2 * (1 + Complex.I * σ) := by
    rw [getH_kern, finish_sum hnH, hH1]; ring
  have hR := responds_raw (nd := 4) false cR1 cR2 hnH
  let o : Opts := ⟨false, false, false, false, false, false, false, true, .I⟩
  let x1 : Fin 5 × Fin 5 → Matrix (Fin (5 + (0 + 0))) (Fin 1) ℂ := fun r i _ => if i = r.1 then 1 else 0
  let x2 : Fin 5 × Fin 5 → Matrix (Fin (5 + (0 + 0))) (Fin 1) ℂ := fun r i _ => if i = r.2 then 1 else 0
  have hex : ∀ r, ∃ row : Row 4 1, blpair (left := 0) (right := 0) o ⟨false, 0, 0⟩ (fun _ => 1) 0 0 none (fun M => M) none (fun _ => 0) .diagonal
        (fun _ => ⟨0, 0, 0, 0, 0, 0, 0, 0, 0, 0, 0, 0⟩) cR1 cR2 (x1 r) (x2 r) = .ok row := by
    intro r
    have e4 : ∃ MW, getMW (fun M => M) (getG (left := 0) (right := 0) 4 cR1 cR2) (getH (left := 0) (right := 0) 4 false cR1 cR2) .I none false = .ok MW := by
      unfold getMW
      simp
    obtain ⟨MW, e4⟩ := e4
    exact ⟨_, blpair_of (s := 1) (GH := (getG (left := 0) (right := 0) 4 cR1 cR2, getH (left := 0) (right := 0) 4 false cR1 cR2)) rfl rfl
      (C48_value (nd := 4) false ⟨false, 0, 0⟩ rfl [(cR1, x1 r)] [(cR2, x2 r)]) e4 rfl⟩
  choose row hrow using hex
  let P : Fin 5 × Fin 5 → ℂ := fun r => signalCov (nd := 4) false (5 + (0 + 0)) 0 (fun _ => ((1 : ℝ) : ℂ)) r.1 r.2
  have hcov : ∀ i j, ensemble Finset.univ P (fun r => star (x1 r i 0) * x2 r j 0) = signalCov (nd := 4) false (5 + (0 + 0)) 0 (fun _ => ((1 : ℝ) : ℂ)) i j := by
    intro i j
    unfold ensemble
    rw [Finset.sum_eq_single (i, j)]
    · simp [x1, x2, P]
    · rintro ⟨a, b⟩ _ hne
      simp only [x1, x2]
      by_cases h1 : i = a
      · by_cases h2 : j = b
        · exact absurd (by rw [h1, h2]) hne
        · simp [h2]
      · simp [h1]
    · intro h; exact absurd (Finset.mem_univ _) h
  obtain ⟨s, MW, sa, e1, e4, e5, hs, hwd, hmean⟩ := mean_MH (left := 0) (right := 0) Finset.univ P o rfl ⟨false, 0, 0⟩ rfl (fun _ => 1) 0 0 none (fun M => M) none
    (fun _ _ => 0) .diagonal (fun _ _ => ⟨0, 0, 0, 0, 0, 0, 0, 0, 0, 0, 0, 0⟩) cR1 cR2 hR x1 x2 row (fun r _ => hrow r) (fun _ => 1) 0 hcov (0, 0) (Finset.mem_univ _) 1
  refine ⟨cR1, cR2, fun i j => ⟨?_, ?_⟩, hR, Fin 5 × Fin 5, Finset.univ, P, o, x1, x2, row, (0, 0), fun _ => MW.2.map Complex.re, rfl, rfl, rfl, fun r _ => hrow r, hcov, Finset.mem_univ _,
    hwd, ?_⟩
  · unfold cR1; split <;> simp
  · unfold cR2; split <;> simp
  have hs1 : s = 1 := (Except.ok.inj e1).symm
  have hM : MW = (diagonal (fun i => 1 / rowSum (getG (left := 0) (right := 0) 4 cR1 cR2) i),
      diagonal (fun i => 1 / rowSum (getH (left := 0) (right := 0) 4 false cR1 cR2) i) * getH (left := 0) (right := 0) 4 false cR1 cR2) := by
    have : getMW (fun M => M) (getG (left := 0) (right := 0) 4 cR1 cR2) (getH (left := 0) (right := 0) 4 false cR1 cR2) .I none false = .ok MW := e4
    unfold getMW at this
    simp only [reduceCtorEq, if_false, ne_eq, not_true, false_and] at this
    exact (Except.ok.inj this).symm
  have hre : (∑ b, getG (left := 0) (right := 0) 4 cR1 cR2 1 b).re = 2 := by rw [hg]; simp
  have hratio : ratio (getG (left := 0) (right := 0) 4 cR1 cR2) (getH (left := 0) (right := 0) 4 false cR1 cR2) 1 = 1 := by
    unfold ratio rowSum
    rw [hre, hh]
    simp
  have hfac : factor sa 1 = 4 / 5 := by
    have : adjOf o (⟨false, 0, 0⟩ : Norm 5) none (getG (left := 0) (right := 0) 4 cR1 cR2) (getH (left := 0) (right := 0) 4 false cR1 cR2) = .ok sa := e5
    unfold adjOf at this
    rw [if_pos ⟨rfl, rfl⟩] at this
    have h2 : sa = some (fun a => ((4 : ℕ) : ℝ) / (((5 : ℕ) : ℝ) * ratio (getG (left := 0) (right := 0) 4 cR1 cR2) (getH (left := 0) (right := 0) 4 false cR1 cR2) a) *
        taperFactor (none : Option (Fin 5 → ℝ))) := (Except.ok.inj this).symm
    rw [h2]
    simp only [factor, Option.getD_some, hratio, taperFactor]
    norm_num
  have hwsum : ∑ b, (MW.2.map Complex.re) 1 b * 1 = 1 := by
    have hc : ∑ b, MW.2 1 b = 1 := by
      rw [hM]
      simp only [Matrix.diagonal_mul, ← Finset.mul_sum]
      unfold rowSum
      rw [one_div, inv_mul_cancel₀]
      rw [hh]
      intro hz
      have := congrArg Complex.re hz
      simp at this
    have := congrArg Complex.re hc
    rw [Complex.re_sum] at this
    simpa using this
  have hsum : ∑ b, (MW.1 * getH (left := 0) (right := 0) 4 o.sampling cR1 cR2) 1 b * ((1 : ℝ) : ℂ) = (1 + Complex.I * σ) / (1 + Complex.I) := by
    rw [hM]
    simp only [Matrix.diagonal_mul, Complex.ofReal_one, mul_one]
    rw [← Finset.mul_sum]
    have e : ∑ b, getH (left := 0) (right := 0) 4 o.sampling cR1 cR2 1 b = 2 * (1 + Complex.I * σ) := hh
    rw [e]
    unfold rowSum
    rw [hg]
    have hne : (1 + Complex.I : ℂ) ≠ 0 := fun h => by have := congrArg Complex.re h; simp at this
    field_simp
  rw [hmean, hsum, hs, hs1, hwsum, hfac, Complex.re_ofReal_mul]
  have hq : ((1 + Complex.I * σ) / (1 + Complex.I)).re = (1 + σ) / 2 := by
    rw [Complex.div_re]
    simp [Complex.normSq]
    ring
  rw [hq]
  have hres : residual (nf := 5) o 4 none = 4 / 5 := by
    unfold residual taperPower
    rw [if_pos rfl]
    norm_num
  rw [hres]
  intro h
  linarith

end
end HeraPspec.PspecValue
