import Verif.Props.Oqe5

/-!
C132, the remaining cases: the exact factor between the mean of the normalised bandpowers and what the returned window functions
predict, in every mode, without conditions on the number of delays or on the response being invertible.
-/
namespace HeraPspec.Oqe
open Matrix Complex

/-- C132: in every mode, `<p_hat> = (M H) p`, with the `M` that was returned. -/
theorem C132_general {Ω T : Type} (S : Finset Ω) (P : Ω → ℂ) {nf left right nd : ℕ} (sampling allowFft : Bool) (norm : Norm nf) (hn : norm.exact = false)
    (R1 R2 : Matrix (Fin nf) (Fin (nf + (left + right))) ℂ) (hR : Responds sampling nd left R1 R2) (p : Fin nd → ℂ)
    (x1 x2 : Ω → Matrix (Fin (nf + (left + right))) T ℂ) (t : T)
    (hcov : ∀ i j, ensemble S P (fun r => star (x1 r i t) * x2 r j t) = signalCov sampling (nf + (left + right)) left p i j)
    (q : Ω → Fin nd → T → ℂ) (hq : ∀ r ∈ S, qHat allowFft norm [(R1, x1 r)] [(R2, x2 r)] = .ok (q r))
    (M : Matrix (Fin nd) (Fin nd) ℂ) (a : Fin nd) :
    ensemble S P (fun r => pHat M (Matrix.of (q r)) a t) = ∑ b, (M * getH nd sampling R1 R2) a b * p b := by
  have hlin : ensemble S P (fun r => pHat M (Matrix.of (q r)) a t) = ∑ c, M a c * ensemble S P (fun r => q r c t) := by
    unfold ensemble pHat
    simp only [Matrix.mul_apply, Matrix.of_apply, Finset.mul_sum]
    rw [Finset.sum_comm]
    refine Finset.sum_congr rfl (fun c _ => Finset.sum_congr rfl (fun r _ => ?_))
    ring
  have hresp := C132_response S P sampling allowFft norm hn R1 R2 hR p x1 x2 t hcov q hq
  rw [hlin]
  simp only [hresp, Matrix.mul_apply, Finset.mul_sum, Finset.sum_mul]
  rw [Finset.sum_comm]
  refine Finset.sum_congr rfl (fun c _ => Finset.sum_congr rfl (fun r _ => ?_))
  ring

/-- The factor by which the mean of a normalised bandpower differs from the prediction of the window function returned with it. -/
noncomputable def biasFactor {nd : ℕ} (mode : Mode) (G H M : Matrix (Fin nd) (Fin nd) ℂ) (a : Fin nd) : ℂ :=
  if mode = .I then (∑ b, H a b) / ∑ b, G a b
  else if mode = .Hinv then ∑ b, (M * H) a b
  else 1

/-- C132: the exact mean in every supported mode, for every number of delays, extension, and singular or regular response:
`<p_hat_a> = f_a (W p)_a`, where `f_a` is the ratio of the row sums of `H` and `G` in mode 'I', the row sum of `M H` in mode 'H^-1' and one in
mode 'V^-1/2' (rows without a normalisation, where numpy divides by zero, apart). `C132_window_partial` gives the cases where the factor
is one; `C132_counterexample_few_delays` and `C132_counterexample_singular` are cases where it is not. -/
theorem C132_bias {Ω T : Type} (S : Finset Ω) (P : Ω → ℂ) {nf left right nd : ℕ} (sampling allowFft : Bool) (norm : Norm nf) (hn : norm.exact = false)
    (R1 R2 : Matrix (Fin nf) (Fin (nf + (left + right))) ℂ) (hR : Responds sampling nd left R1 R2) (p : Fin nd → ℂ)
    (x1 x2 : Ω → Matrix (Fin (nf + (left + right))) T ℂ) (t : T)
    (hcov : ∀ i j, ensemble S P (fun r => star (x1 r i t) * x2 r j t) = signalCov sampling (nf + (left + right)) left p i j)
    (q : Ω → Fin nd → T → ℂ) (hq : ∀ r ∈ S, qHat allowFft norm [(R1, x1 r)] [(R2, x2 r)] = .ok (q r))
    (pinv : Matrix (Fin nd) (Fin nd) ℂ → Matrix (Fin nd) (Fin nd) ℂ) (mode : Mode) (eig : Option (Eig nd)) (M W : Matrix (Fin nd) (Fin nd) ℂ)
    (hMW : getMW pinv (getG nd R1 R2) (getH nd sampling R1 R2) mode eig norm.exact = .ok (M, W)) (a : Fin nd)
    (hI : mode = .I → ∑ b, getH nd sampling R1 R2 a b ≠ 0) (hH : mode = .Hinv → ∑ b, (M * getH nd sampling R1 R2) a b ≠ 0) :
    ensemble S P (fun r => pHat M (Matrix.of (q r)) a t) =
      biasFactor mode (getG nd R1 R2) (getH nd sampling R1 R2) M a * ∑ b, W a b * p b := by
  rw [C132_general S P sampling allowFft norm hn R1 R2 hR p x1 x2 t hcov q hq M a, Finset.mul_sum]
  refine Finset.sum_congr rfl (fun b _ => ?_)
  rw [← mul_assoc]
  congr 1
  rw [hn] at hMW
  unfold biasFactor
  cases mode with
  | other => simp [getMW] at hMW
  | Linv => simp [getMW] at hMW
  | Vhalf =>
    rw [if_neg (by decide), if_neg (by decide), one_mul, (C50_root pinv _ _ M W eig false hMW).1]
  | Hinv =>
    rw [if_neg (by decide), if_pos rfl]
    unfold getMW at hMW
    simp only [reduceCtorEq, if_false, ne_eq, not_false_eq_true, true_and, Bool.false_eq_true] at hMW
    injection hMW with hMW
    injection hMW with h1 h2
    rw [h1] at h2
    rw [← h2]
    have := hH rfl
    unfold rowSum
    field_simp
  | I =>
    rw [if_pos rfl]
    unfold getMW at hMW
    simp only [reduceCtorEq, if_false, ne_eq, not_true, false_and] at hMW
    injection hMW with hMW
    injection hMW with h1 h2
    rw [← h1, ← h2, Matrix.diagonal_mul, Matrix.diagonal_mul]
    have := hI rfl
    unfold rowSum
    field_simp

/-- A weighting that keeps one pattern only, as a strong foreground filter may do. -/
def onePattern : Matrix (Fin 2) (Fin (2 + (0 + 0))) ℂ := !![9, 3; 3, 1]

theorem onePattern_resp (a b : Fin 2) :
    respTo 2 (delayIdx 2 (a : ℕ)) onePattern (tone 2 (delayIdx 2 (b : ℕ)) (2 + (0 + 0)) 0 0) = ((![2, 4] a : ℝ) * (![2, 4] b : ℝ) : ℂ) := by
  have hw : ∀ a : Fin 2, wave 2 (delayIdx 2 (a : ℕ)) ((1 : ℕ) : ℝ) = (![-1, 1] a : ℝ) := by
    intro a
    fin_cases a
    · simp only [wave, delayIdx]
      rw [show (-2 * (Real.pi : ℂ) * I * (((((⟨0, by norm_num⟩ : Fin 2) : ℕ) : ℤ) - ((2 / 2 : ℕ) : ℤ) : ℤ) : ℂ) * (((1 : ℕ) : ℝ) : ℂ) / (2 : ℕ)) = Real.pi * I by
        push_cast; ring]
      simp
    · simp [wave, delayIdx]
  have hw0 : ∀ a : Fin 2, wave 2 (delayIdx 2 (a : ℕ)) ((0 : ℕ) : ℝ) = 1 := by intro a; simp [wave]
  have ht : ∀ b : Fin 2, tone 2 (delayIdx 2 (b : ℕ)) 2 0 0 (1 : Fin 2) = (![-1, 1] b : ℝ) := by
    intro b
    fin_cases b
    · have e : (2 * (Real.pi : ℂ) * I * ((((delayIdx 2 (((⟨0, by norm_num⟩ : Fin 2) : ℕ)) : ℤ) : ℝ) / (2 : ℕ) + (0 : ℝ) / (2 : ℕ) : ℝ) : ℂ) * ((((1 : Fin 2).1 : ℝ) - (0 : ℕ) : ℝ) : ℂ)) = -(Real.pi * I) := by
        simp [delayIdx]; ring
      simp only [tone]
      rw [e, Complex.exp_neg]
      simp
    · simp [tone, delayIdx]
  have ht0 : ∀ b : Fin 2, tone 2 (delayIdx 2 (b : ℕ)) 2 0 0 (0 : Fin 2) = 1 := by intro b; simp [tone]
  have e : respTo 2 (delayIdx 2 (a : ℕ)) onePattern (tone 2 (delayIdx 2 (b : ℕ)) (2 + (0 + 0)) 0 0) =
      ∑ k : Fin 2, (∑ j : Fin 2, (!![9, 3; 3, 1] : Matrix (Fin 2) (Fin 2) ℂ) k j * tone 2 (delayIdx 2 (b : ℕ)) 2 0 0 j) * wave 2 (delayIdx 2 (a : ℕ)) ((k.1 : ℕ) : ℝ) := rfl
  rw [e]
  simp only [Fin.sum_univ_two, ht, ht0]
  rw [show ((0 : Fin 2).1 : ℕ) = 0 from rfl, show ((1 : Fin 2).1 : ℕ) = 1 from rfl, hw, hw0]
  fin_cases a <;> fin_cases b <;> simp <;> norm_num

theorem onePattern_responds : Responds true (nf := 2) (ne := 2 + (0 + 0)) 2 0 onePattern onePattern := by
  refine ⟨1, 1, ?_⟩
  rw [onePattern_resp]
  simp [Complex.ext_iff, map_ofNat]

theorem onePattern_H : getH (nf := 2) (left := 0) (right := 0) 2 true onePattern onePattern = !![8, 32; 32, 128] := by
  have hv : ∀ a b, getG (nf := 2) (left := 0) (right := 0) 2 onePattern onePattern a b =
      1 / 2 * (star (respTo 2 (delayIdx 2 (a : ℕ)) onePattern (tone 2 (delayIdx 2 (b : ℕ)) (2 + (0 + 0)) 0 0)) *
        respTo 2 (delayIdx 2 (a : ℕ)) onePattern (tone 2 (delayIdx 2 (b : ℕ)) (2 + (0 + 0)) 0 0)) :=
    fun a b => (C49_value (nf := 2) (left := 0) (right := 0) 2 onePattern onePattern).1 onePattern_responds a b
  rw [C88_sampling]
  ext a b
  rw [hv, onePattern_resp]
  fin_cases a <;> fin_cases b <;> simp [map_ofNat] <;> norm_num

/-- C132 counterexample: mode 'H^-1' with a singular response. The weighting `onePattern` on two channels and two delays gives a rank-one `H`;
with the Moore-Penrose inverse that `get_MW` then uses (the four Penrose conditions are checked), a flat spectrum comes out with 5/17 and 20/17 of its
power, although the rows of the returned `W` sum to one and predict no bias. -/
theorem C132_counterexample_singular :
    ∃ X : Matrix (Fin 2) (Fin 2) ℂ, ∃ H : Matrix (Fin 2) (Fin 2) ℂ, H = getH (nf := 2) (left := 0) (right := 0) 2 true onePattern onePattern ∧
      (H * X * H = H ∧ X * H * X = X ∧ (H * X)ᴴ = H * X ∧ (X * H)ᴴ = X * H) ∧
      ∀ (pinv : Matrix (Fin 2) (Fin 2) ℂ → Matrix (Fin 2) (Fin 2) ℂ), pinv H = X →
      ∃ M W, getMW pinv (getG (nf := 2) (left := 0) (right := 0) 2 onePattern onePattern) H .Hinv none false = .ok (M, W) ∧
        (∀ a, ∑ b, W a b = 1) ∧
        ∀ {Ω T : Type} (S : Finset Ω) (P : Ω → ℂ) (p : ℂ) (x1 x2 : Ω → Matrix (Fin (2 + (0 + 0))) T ℂ) (t : T) (norm : Norm 2) (_ : norm.exact = false)
          (_ : ∀ i j, ensemble S P (fun r => star (x1 r i t) * x2 r j t) = signalCov true (nd := 2) (2 + (0 + 0)) 0 (fun _ => p) i j)
          (q : Ω → Fin 2 → T → ℂ) (_ : ∀ r ∈ S, qHat true norm [(onePattern, x1 r)] [(onePattern, x2 r)] = .ok (q r)),
          ensemble S P (fun r => pHat M (Matrix.of (q r)) 0 t) = 5 / 17 * p ∧
          ensemble S P (fun r => pHat M (Matrix.of (q r)) 1 t) = 20 / 17 * p := by
  have hX : (!![1 / 2312, 4 / 2312; 4 / 2312, 16 / 2312] : Matrix (Fin 2) (Fin 2) ℂ) * !![8, 32; 32, 128] = !![1 / 17, 4 / 17; 4 / 17, 16 / 17] := by
    ext a b
    fin_cases a <;> fin_cases b <;> simp [Matrix.mul_apply, Fin.sum_univ_two] <;> norm_num
  have hX' : (!![8, 32; 32, 128] : Matrix (Fin 2) (Fin 2) ℂ) * !![1 / 2312, 4 / 2312; 4 / 2312, 16 / 2312] = !![1 / 17, 4 / 17; 4 / 17, 16 / 17] := by
    ext a b
    fin_cases a <;> fin_cases b <;> simp [Matrix.mul_apply, Fin.sum_univ_two] <;> norm_num
  have hself : (!![1 / 17, 4 / 17; 4 / 17, 16 / 17] : Matrix (Fin 2) (Fin 2) ℂ)ᴴ = !![1 / 17, 4 / 17; 4 / 17, 16 / 17] := by
    ext a b
    fin_cases a <;> fin_cases b <;> simp [Matrix.conjTranspose_apply, map_ofNat]
  refine ⟨!![1 / 2312, 4 / 2312; 4 / 2312, 16 / 2312], !![8, 32; 32, 128], onePattern_H.symm, ⟨?_, ?_, ?_, ?_⟩, ?_⟩
  · rw [hX']
    ext a b
    fin_cases a <;> fin_cases b <;> simp [Matrix.mul_apply, Fin.sum_univ_two] <;> norm_num
  · rw [hX]
    ext a b
    fin_cases a <;> fin_cases b <;> simp [Matrix.mul_apply, Fin.sum_univ_two] <;> norm_num
  · rw [hX', hself]
  · rw [hX, hself]
  · intro pinv hp
    have hdet : ¬ (!![8, 32; 32, 128] : Matrix (Fin 2) (Fin 2) ℂ).det ≠ 0 := by
      rw [Matrix.det_fin_two]; simp; norm_num
    refine ⟨!![1 / 2312, 4 / 2312; 4 / 2312, 16 / 2312], _, by
      unfold getMW
      simp only [reduceCtorEq, if_false, ne_eq, not_false_eq_true, true_and, Bool.false_eq_true]
      simp only [if_neg hdet, hp]
      rfl, ?_, ?_⟩
    · intro a
      rw [hX]
      fin_cases a <;> simp [rowSum, Fin.sum_univ_two] <;> norm_num
    · intro Ω T S P p x1 x2 t norm hn hcov q hq
      have hg := C132_general (nd := 2) (left := 0) (right := 0) S P true true norm hn onePattern onePattern onePattern_responds (fun _ => p) x1 x2 t hcov q hq
        !![1 / 2312, 4 / 2312; 4 / 2312, 16 / 2312]
      rw [onePattern_H, hX] at hg
      constructor
      · rw [hg 0]; simp [Fin.sum_univ_two]; ring
      · rw [hg 1]; simp [Fin.sum_univ_two]; ring

end HeraPspec.Oqe
