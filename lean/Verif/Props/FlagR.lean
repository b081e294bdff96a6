import Verif.Model.FlagR
import Verif.Model.Average
import Verif.Props.Cov
import Verif.Props.Scalar
import Verif.Props.Flags

/-! C151: flagged samples have no influence. -/
namespace HeraPspec.FlagR
open Matrix HeraPspec.Oqe
noncomputable section

variable {nf left right nd nt : ℕ}

/-! ### Specification -/

/-- The two data sets differ only in flagged samples (weight zero). -/
def SameGood {ne : ℕ} (w : Matrix (Fin ne) (Fin nt) ℝ) (x x' : Matrix (Fin ne) (Fin nt) ℂ) : Prop := ∀ i t, w i t ≠ 0 → x i t = x' i t

/-- At time `t` the baseline is flagged in all channels. -/
def AllFlagged {ne : ℕ} (w : Matrix (Fin ne) (Fin nt) ℝ) (t : Fin nt) : Prop := ∀ i, w i t = 0

/-- The flags are separable, as `broadcast_dset_flags` leaves them: a flagged sample belongs to a channel flagged at all times or to a time flagged in all channels. -/
def Separable {ne : ℕ} (w : Matrix (Fin ne) (Fin nt) ℝ) : Prop := ∀ i t, w i t = 0 → (∀ t', w i t' = 0) ∨ AllFlagged w t

/-- A Moore-Penrose pseudo-inverse (what `np.linalg.pinv` returns). -/
structure IsPinv {n : ℕ} (A X : Matrix (Fin n) (Fin n) ℂ) : Prop where
  axa : A * X * A = A
  xax : X * A * X = X
  ax : (A * X)ᴴ = A * X
  xa : (X * A)ᴴ = X * A

/-- The pseudo-inverse used for 'dayenu' is one (of the lazy covariance with the flagged rows and columns removed). -/
def GoodWt {ne : ℕ} [NeZero nt] (w : Matrix (Fin ne) (Fin nt) ℝ) : Wt ne → Prop
  | .dayenu pinv D => IsPinv (sandwich (yDiag w) D) (pinv (sandwich (yDiag w) D))
  | _ => True

/-- The channel of a spectrum row in the average: its values, with the integration time of the two sides. -/
def rowCell (data : Fin nd → ℂ) (ints nsmp : ℝ) : Average.Cell ℂ where
  data := fun d => if h : d < nd then data ⟨d, h⟩ else 0
  wgts := fun _ => 0
  ints := ints
  nsmp := nsmp
  stat := fun _ _ => none
  cov := fun _ _ => 0
  win := fun _ _ => 0

/-! ### Proofs -/

theorem IsPinv.col_zero {n : ℕ} {A X : Matrix (Fin n) (Fin n) ℂ} (h : IsPinv A X) {j : Fin n} (hj : ∀ k, A j k = 0) (i : Fin n) : X i j = 0 := by
  have e : X = X * (Xᴴ * Aᴴ) := by
    conv_lhs => rw [← h.xax, Matrix.mul_assoc, ← h.ax, conjTranspose_mul]
  rw [e, ← Matrix.mul_assoc, Matrix.mul_apply]
  exact Finset.sum_eq_zero (fun k _ => by rw [conjTranspose_apply, hj k, star_zero, mul_zero])

theorem yDiag_zero {ne : ℕ} [NeZero nt] {w : Matrix (Fin ne) (Fin nt) ℝ} {i : Fin ne} (h : ∀ t, w i t = 0) : yDiag w i = 0 := by
  unfold yDiag
  apply le_antisymm
  · exact Finset.sup'_le _ _ (fun t _ => (h t).le)
  · rw [← h 0]; exact Finset.le_sup' (fun t => w i t) (Finset.mem_univ _)

/-- Columns of the inner matrix of flagged channels vanish. -/
theorem inner_col {ne : ℕ} [NeZero nt] {wt : Wt ne} {x : Matrix (Fin ne) (Fin nt) ℂ} {w : Matrix (Fin ne) (Fin nt) ℝ} (hwt : GoodWt w wt) {A : Matrix (Fin ne) (Fin ne) ℂ}
    (h : inner wt x w (yDiag w) = .ok A) {j : Fin ne} (hj : yDiag w j = 0) (i : Fin ne) : A i j = 0 := by
  have hs : ∀ B : Matrix (Fin ne) (Fin ne) ℂ, sandwich (yDiag w) B i j = 0 := by
    intro B; simp [sandwich, hj]
  cases wt with
  | identity => cases h; exact hs 1
  | iC inv =>
    unfold inner at h
    simp only at h
    split at h
    · cases h
    · cases h; exact hs _
  | dayenu pinv D =>
    cases h
    exact IsPinv.col_zero hwt (fun k => by simp [sandwich, hj]) i

theorem bind_ok {ε α β : Type} {e : Except ε α} {f : α → Except ε β} {b : β} (h : e.bind f = .ok b) : ∃ a, e = .ok a ∧ f a = .ok b := by
  cases e with
  | error e => cases h
  | ok a => exact ⟨a, rfl, h⟩

theorem tapered_col {symm : Bool} {tap : Fin nf → ℝ} {A : Matrix (Fin (nf + (left + right))) (Fin (nf + (left + right))) ℂ} {R : Matrix (Fin nf) (Fin (nf + (left + right))) ℂ}
    (h : tapered symm tap A = .ok R) {j : Fin (nf + (left + right))} (hj : ∀ i, A i j = 0) (i : Fin nf) : R i j = 0 := by
  unfold tapered at h
  split at h
  · split at h
    · cases h; simp [hj]
    · cases h
  · cases h; simp [hj]

theorem rMat_ok [NeZero nt] {symm : Bool} {tap : Fin nf → ℝ} {wt : Wt (nf + (left + right))} {x : Matrix (Fin (nf + (left + right))) (Fin nt) ℂ}
    {w : Matrix (Fin (nf + (left + right))) (Fin nt) ℝ} {R : Matrix (Fin nf) (Fin (nf + (left + right))) ℂ} (h : rMat symm tap wt x w = .ok R) :
    ∃ A, yOf w = .ok (yDiag w) ∧ inner wt x w (yDiag w) = .ok A ∧ tapered symm tap A = .ok R := by
  obtain ⟨y, h1, h'⟩ := bind_ok h
  obtain ⟨A, h2, h3⟩ := bind_ok h'
  have : y = yDiag w := by
    unfold yOf at h1
    split at h1
    · cases h1; rfl
    · cases h1
  subst this
  exact ⟨A, h1, h2, h3⟩

/-- Channels flagged at all times do not enter. -/
theorem rMat_col [NeZero nt] {symm : Bool} {tap : Fin nf → ℝ} {wt : Wt (nf + (left + right))} {x : Matrix (Fin (nf + (left + right))) (Fin nt) ℂ}
    {w : Matrix (Fin (nf + (left + right))) (Fin nt) ℝ} (hwt : GoodWt w wt) {R : Matrix (Fin nf) (Fin (nf + (left + right))) ℂ} (h : rMat symm tap wt x w = .ok R)
    {j : Fin (nf + (left + right))} (hj : ∀ t, w j t = 0) (i : Fin nf) : R i j = 0 := by
  obtain ⟨A, _, h2, h3⟩ := rMat_ok h
  exact tapered_col h3 (fun i => inner_col hwt h2 (yDiag_zero hj) i) i

theorem wx_eq {ne : ℕ} {w : Matrix (Fin ne) (Fin nt) ℝ} {x x' : Matrix (Fin ne) (Fin nt) ℂ} (h : SameGood w x x') (i : Fin ne) (t : Fin nt) : (w i t : ℂ) * x i t = (w i t : ℂ) * x' i t := by
  by_cases hw : w i t = 0
  · rw [hw]; simp
  · rw [h i t hw]

theorem cov_same {ne : ℕ} {w : Matrix (Fin ne) (Fin nt) ℝ} {x x' : Matrix (Fin ne) (Fin nt) ℂ} (h : SameGood w x x') : Cov.cov x w = Cov.cov x' w := by
  have e : Cov.covRaw x w x w false true = Cov.covRaw x' w x' w false true := by
    ext i j
    unfold Cov.covRaw Cov.wavg
    simp only [wx_eq h]
  unfold Cov.cov Cov.cov2
  rw [e]

/-- **C151** The empirical covariances of the data, of each data set and between two, with any conjugations, do not depend on flagged samples, whatever the pattern of flags. -/
theorem C151_covariances {ne : ℕ} (x1 x1' x2 x2' : Matrix (Fin ne) (Fin nt) ℂ) (w1 w2 : Matrix (Fin ne) (Fin nt) ℝ) (h1 : SameGood w1 x1 x1') (h2 : SameGood w2 x2 x2') :
    (∀ c1 c2, Cov.cov2 x1 w1 x2 w2 c1 c2 = Cov.cov2 x1' w1 x2' w2 c1 c2) ∧ Oqe.covEmp x1 x2 w1 w2 = Oqe.covEmp x1' x2' w1 w2 := by
  have key : ∀ {a a' b b' : Matrix (Fin ne) (Fin nt) ℂ} {v v' : Matrix (Fin ne) (Fin nt) ℝ}, SameGood v a a' → SameGood v' b b' → ∀ c1 c2,
      Cov.cov2 a v b v' c1 c2 = Cov.cov2 a' v b' v' c1 c2 := by
    intro a a' b b' v v' ha hb c1 c2
    have e : Cov.covRaw a v b v' c1 c2 = Cov.covRaw a' v b' v' c1 c2 := by
      ext i j
      unfold Cov.covRaw Cov.wavg
      simp only [wx_eq ha, wx_eq hb]
    unfold Cov.cov2
    rw [e]
  refine ⟨key h1 h2, ?_⟩
  unfold Oqe.covEmp
  rw [cov_same h1, cov_same h2, key h2 h1, key h2 h1]

/-- **C151** The weighting matrices do not depend on flagged samples. -/
theorem C151_weighting [NeZero nt] (symm : Bool) (tap : Fin nf → ℝ) (wt : Wt (nf + (left + right))) (x x' : Matrix (Fin (nf + (left + right))) (Fin nt) ℂ)
    (w : Matrix (Fin (nf + (left + right))) (Fin nt) ℝ) (h : SameGood w x x') : rMat symm tap wt x w = rMat symm tap wt x' w := by
  have : ∀ y, inner wt x w y = inner wt x' w y := by
    intro y
    cases wt with
    | identity => rfl
    | iC inv => unfold inner; simp only; rw [cov_same h]
    | dayenu pinv D => rfl
  unfold rMat
  simp only [this]

/-- The weighted data at a time that is not flagged entirely depend on unflagged samples only. -/
theorem rx_same [NeZero nt] {symm : Bool} {tap : Fin nf → ℝ} {wt : Wt (nf + (left + right))} {x x' : Matrix (Fin (nf + (left + right))) (Fin nt) ℂ}
    {w : Matrix (Fin (nf + (left + right))) (Fin nt) ℝ} (hwt : GoodWt w wt) {R : Matrix (Fin nf) (Fin (nf + (left + right))) ℂ} (hsep : Separable w) (h : SameGood w x x')
    (hR : rMat symm tap wt x w = .ok R) {t : Fin nt} (ht : ¬ AllFlagged w t) (i : Fin nf) : (R * x) i t = (R * x') i t := by
  rw [Matrix.mul_apply, Matrix.mul_apply]
  apply Finset.sum_congr rfl
  intro j _
  by_cases hw : w j t = 0
  · rcases hsep j t hw with h0 | h0
    · rw [rMat_col hwt hR h0, zero_mul, zero_mul]
    · exact absurd h0 ht
  · rw [h j t hw]

theorem sumRx_one {ne : ℕ} (R : Matrix (Fin nf) (Fin ne) ℂ) (x : Matrix (Fin ne) (Fin nt) ℂ) : sumRx [(R, x)] = R * x := by
  simp [sumRx]

/-- Bandpowers of a time depend only on the weighted data of that time. -/
theorem qHat_same {ne : ℕ} {allowFft : Bool} {norm : Norm nf} {R1 R2 : Matrix (Fin nf) (Fin ne) ℂ} {x1 x1' x2 x2' : Matrix (Fin ne) (Fin nt) ℂ} {q : Fin nd → Fin nt → ℂ}
    (h : qHat allowFft norm [(R1, x1)] [(R2, x2)] = .ok q) :
    ∃ q', qHat allowFft norm [(R1, x1')] [(R2, x2')] = .ok q' ∧ ∀ t, (∀ i, (R1 * x1) i t = (R1 * x1') i t) → (∀ i, (R2 * x2) i t = (R2 * x2') i t) → ∀ a, q a t = q' a t := by
  unfold qHat at h ⊢
  simp only [sumRx_one] at h ⊢
  split at h
  · cases h
  · rename_i c1
    rw [if_neg c1]
    split at h
    · rename_i c2
      rw [if_pos c2]
      cases h
      refine ⟨_, rfl, fun t h1 h2 a => ?_⟩
      simp only [h1, h2]
    · rename_i c2
      rw [if_neg c2]
      split at h
      · rename_i c3
        rw [dif_pos c3]
        cases h
        refine ⟨_, rfl, fun t h1 h2 a => ?_⟩
        simp only [h1, h2]
      · rename_i c3
        rw [dif_neg c3]
        cases h
        refine ⟨_, rfl, fun t h1 h2 a => ?_⟩
        simp only [h1, h2]

theorem spectra_same {o : PspecValue.Opts} {s : ℝ} {sa : Option (Fin nd → ℝ)} {M : Matrix (Fin nd) (Fin nd) ℂ} {q q' : Fin nd → Fin nt → ℂ} {t : Fin nt} (h : ∀ a, q a t = q' a t) (a : Fin nd) :
    PspecValue.spectra o s sa M (Matrix.of q) a t = PspecValue.spectra o s sa M (Matrix.of q') a t := by
  have hp : ∀ a, pHat M (Matrix.of q) a t = pHat M (Matrix.of q') a t := by
    intro a
    unfold pHat
    rw [Matrix.mul_apply, Matrix.mul_apply]
    exact Finset.sum_congr rfl (fun b _ => by rw [Matrix.of_apply, Matrix.of_apply, h b])
  unfold PspecValue.spectra
  cases o.beam <;> cases sa <;> simp [hp]

/-- **C151** The spectra `pspec` stores do not depend on flagged samples: with separable flags, two pairs of data sets that differ in flagged samples only give the same spectrum at
every time that is not flagged entirely in one of them, for all data weightings, tapers, extensions and normalisations. (The covariances of the
data, which enter the error bars and the mode 'V^-1/2', do not depend on flagged samples either: `C151_covariances`.) -/
theorem C151_spectra [NeZero nt] (o : PspecValue.Opts) (norm : Norm nf) (scal : String → ℝ) (p q : Int) (taper : Option (Fin nf → ℝ))
    (pinv : Matrix (Fin nd) (Fin nd) ℂ → Matrix (Fin nd) (Fin nd) ℂ) (eig : Option (Eig nd)) (E : Fin nd → Matrix (Fin (nf + (left + right))) (Fin (nf + (left + right))) ℂ)
    (kind : AnCov.Kind) (inp : ℕ → AnCov.Inp (Fin (nf + (left + right)))) (symm : Bool) (tap : Fin nf → ℝ) (wt1 wt2 : Wt (nf + (left + right)))
    (x1 x1' x2 x2' : Matrix (Fin (nf + (left + right))) (Fin nt) ℂ) (w1 w2 : Matrix (Fin (nf + (left + right))) (Fin nt) ℝ) (hw1 : GoodWt w1 wt1) (hw2 : GoodWt w2 wt2) (hs1 : Separable w1) (hs2 : Separable w2)
    (h1 : SameGood w1 x1 x1') (h2 : SameGood w2 x2 x2') (R1 R2 : Matrix (Fin nf) (Fin (nf + (left + right))) ℂ) (hR1 : rMat symm tap wt1 x1 w1 = .ok R1)
    (hR2 : rMat symm tap wt2 x2 w2 = .ok R2) (r : PspecValue.Row nd nt) (hr : PspecValue.blpair o norm scal p q taper pinv eig E kind inp R1 R2 x1 x2 = .ok r) :
    rMat symm tap wt1 x1' w1 = .ok R1 ∧ rMat symm tap wt2 x2' w2 = .ok R2 ∧
    ∃ r', PspecValue.blpair o norm scal p q taper pinv eig E kind inp R1 R2 x1' x2' = .ok r' ∧ r'.scalar = r.scalar ∧ r'.cov = r.cov ∧ r'.stats = r.stats ∧ r'.window = r.window ∧
      ∀ t, ¬ AllFlagged w1 t → ¬ AllFlagged w2 t → r'.data t = r.data t := by
  refine ⟨by rw [← C151_weighting symm tap wt1 x1 x1' w1 h1]; exact hR1, by rw [← C151_weighting symm tap wt2 x2 x2' w2 h2]; exact hR2, ?_⟩
  unfold PspecValue.blpair at hr ⊢
  obtain ⟨s, e1, hr⟩ := bind_ok hr
  obtain ⟨GH, e2, hr⟩ := bind_ok hr
  obtain ⟨qv, e3, hr⟩ := bind_ok hr
  obtain ⟨MW, e4, hr⟩ := bind_ok hr
  obtain ⟨sa, e5, hr⟩ := bind_ok hr
  obtain ⟨q', f3, f4⟩ := qHat_same (x1' := x1') (x2' := x2') e3
  cases hr
  simp only [e1, e2, f3, bind, Except.bind, e4, e5, pure, Except.pure]
  refine ⟨_, rfl, ?_⟩
  refine ⟨rfl, rfl, rfl, rfl, fun t ht1 ht2 => ?_⟩
  have key := f4 t (rx_same hw1 hs1 h1 hR1 ht1) (rx_same hw2 hs2 h2 hR2 ht2)
  funext a
  simp only
  split
  · exact (key a).symm
  · exact (spectra_same key a).symm

/-- A side whose channels are all flagged. -/
theorem integ_flagged (s : Scalar.Side) (h : ∀ x ∈ s.w, x = 0) : Scalar.integ s.tau s.n s.w = 0 := by
  have : (s.n.zipWith (fun a b => a * b) s.w).sum = 0 := by
    apply List.sum_eq_zero
    intro x hx
    obtain ⟨i, hi, rfl⟩ := List.mem_iff_getElem.1 hx
    rw [List.getElem_zipWith, h _ (List.getElem_mem _), mul_zero]
  unfold Scalar.integ Scalar.nsamp
  rw [this, zero_div, mul_zero]

/-- **C151** A time that is flagged entirely in one of the data sets has integration time zero. -/
theorem C151_flagged_times (s1 s2 : Scalar.Side) (h : (∀ x ∈ s1.w, x = 0) ∨ (∀ x ∈ s2.w, x = 0)) : Scalar.rowInteg s1 s2 = 0 := by
  unfold Scalar.rowInteg Scalar.combineInteg
  rw [if_neg]
  rintro ⟨h1, h2⟩
  rcases h with h | h
  · rw [integ_flagged s1 h] at h1; exact absurd h1 (lt_irrefl _)
  · rw [integ_flagged s2 h] at h2; exact absurd h2 (lt_irrefl _)

/-- **C151** Hence flagged samples have no influence on averages over time: if the spectra agree at all times that are not flagged entirely, the time averages made by
`average_spectra` with integration-time weights agree. -/
theorem C151_average (data data' : Fin nt → Fin nd → ℂ) (w1 w2 : Matrix (Fin nf) (Fin nt) ℝ) (tau1 tau2 nsmp : Fin nt → ℝ) (n1 n2 : Fin nt → List ℝ)
    (h : ∀ t, ¬ AllFlagged w1 t → ¬ AllFlagged w2 t → data' t = data t) :
    let cells := fun (D : Fin nt → Fin nd → ℂ) => (List.finRange nt).map (fun t => rowCell (D t)
      (Scalar.rowInteg ⟨tau1 t, n1 t, List.ofFn (fun i => w1 i t)⟩ ⟨tau2 t, n2 t, List.ofFn (fun i => w2 i t)⟩) (nsmp t))
    (Average.timeMean ((cells data').map (Average.prep none))).data = (Average.timeMean ((cells data).map (Average.prep none))).data := by
  intro cells
  funext d
  have hw : ∀ D : Fin nt → Fin nd → ℂ, (((cells D).map (Average.prep none)).map (fun a => a.w d)) = (((cells data).map (Average.prep none)).map (fun a => a.w d)) := by
    intro D
    simp only [cells, List.map_map]
    rfl
  have hd : (((cells data').map (Average.prep none)).map (fun a => a.w d • a.data d)) = (((cells data).map (Average.prep none)).map (fun a => a.w d • a.data d)) := by
    simp only [cells, List.map_map]
    apply List.map_congr_left
    intro t _
    simp only [Function.comp, Average.prep, Average.weight, rowCell]
    by_cases hf : AllFlagged w1 t ∨ AllFlagged w2 t
    · have : Scalar.rowInteg ⟨tau1 t, n1 t, List.ofFn (fun i => w1 i t)⟩ ⟨tau2 t, n2 t, List.ofFn (fun i => w2 i t)⟩ = 0 := by
        apply C151_flagged_times
        rcases hf with hf | hf
        · exact Or.inl (by intro x hx; obtain ⟨i, rfl⟩ := (List.mem_ofFn' _ _).1 hx; exact hf i)
        · exact Or.inr (by intro x hx; obtain ⟨i, rfl⟩ := (List.mem_ofFn' _ _).1 hx; exact hf i)
      rw [this]
      simp
    · rw [not_or] at hf
      rw [h t hf.1 hf.2]
  unfold Average.timeMean
  simp only
  rw [hw data', hd]

/-- The weights of one baseline: 0 where flagged, pspecdata.py L643. `rows` are the rows of the baseline, `lo` the first channel of the window. -/
def flagWeights {ne : ℕ} (F : Flags.Arr) (rows : Fin nt → ℕ) (lo p : ℕ) : Matrix (Fin ne) (Fin nt) ℝ := fun i t => if F (rows t) (lo + i) p then 0 else 1

/-- **C151** The flags after `broadcast_dset_flags` with disjoint windows are separable, so that the hypotheses above are met for every baseline, polarization and window. -/
theorem C151_broadcast (S : Flags.Shape) (thr : ℚ) (ws : List (ℕ × ℕ)) (hd : ws.Pairwise Flags.Disjoint') (F G : Flags.Arr) (h : Flags.broadcast S thr false ws F = some G)
    (lo ne : ℕ) (hw : (lo, lo + ne) ∈ ws) (hne : lo + ne ≤ S.nf) (p bl : ℕ) (hp : p < S.npol) (rows : Fin nt → ℕ) (hrows : ∀ t, S.base[rows t]? = some bl)
    (hall : ∀ r, S.base[r]? = some bl → ∃ t, rows t = r) : Separable (flagWeights (ne := ne) G rows lo p) := by
  intro i t hz
  have hG : G (rows t) (lo + i) p = true := by
    by_contra hc
    simp [flagWeights, hc] at hz
  have hr : rows t < S.base.length := (List.getElem?_eq_some_iff.1 (hrows t)).1
  have := (Flags.C58_separable S thr ws hd F G h (lo, lo + ne) hw (rows t) p (lo + i) hr hp (by omega) ⟨by simp, by simp⟩).1 hG
  rcases this with h1 | h1
  · refine Or.inl (fun t' => ?_)
    have := h1 (rows t') ⟨(List.getElem?_eq_some_iff.1 (hrows t')).1, by rw [hrows, hrows]⟩
    simp [flagWeights, this]
  · refine Or.inr (fun j => ?_)
    have := h1 (lo + j) (by omega) ⟨by simp, by simp⟩
    simp [flagWeights, this]

/-! ### Counterexamples and cases -/

/-- Multiplying every channel by a number. -/
def chanMat (y : Fin (nf + (0 + 0)) → ℝ) : Matrix (Fin nf) (Fin (nf + (0 + 0))) ℂ := fun i j => if i.1 = j.1 then (y j : ℂ) else 0

/-- Binary weights are accepted, and without a taper the identity weighting multiplies every channel with a good sample by one, the others by zero. -/
theorem rMat_identity [NeZero nt] (symm : Bool) (w : Matrix (Fin (nf + (0 + 0))) (Fin nt) ℝ) (x : Matrix (Fin (nf + (0 + 0))) (Fin nt) ℂ) (hw : ∀ i, yDiag w i = 0 ∨ yDiag w i = 1) :
    rMat (nf := nf) (left := 0) (right := 0) symm (fun _ => 1) .identity x w = .ok (chanMat (yDiag w)) := by
  unfold chanMat
  have hy : yOf w = .ok (yDiag w) := by
    unfold yOf
    rw [if_pos]
    intro i
    rcases hw i with h | h <;> rw [h] <;> norm_num
  have hs : ∀ i j : Fin (nf + (0 + 0)), sandwich (yDiag w) 1 i j = if i = j then (yDiag w j : ℂ) else 0 := by
    intro i j
    unfold sandwich
    rw [Matrix.of_apply, Matrix.one_apply]
    by_cases hij : i = j
    · subst hij
      rw [if_pos rfl, if_pos rfl]
      rcases hw i with h | h <;> rw [h] <;> simp
    · rw [if_neg hij, if_neg hij]; simp
  have hp : ∀ (i : Fin nf) (j : Fin (nf + (0 + 0))), sandwich (yDiag w) 1 (place 0 0 i) j = if i.1 = j.1 then (yDiag w j : ℂ) else 0 := by
    intro i j
    rw [hs]
    by_cases h : i.1 = j.1
    · rw [if_pos h, if_pos (Fin.ext (by simpa [place] using h))]
    · rw [if_neg h, if_neg (fun e => h (by rw [← e]; simp [place]))]
  unfold rMat
  rw [hy]
  show tapered symm (fun _ => 1) (sandwich (yDiag w) 1) = _
  unfold tapered
  cases symm with
  | true =>
    rw [if_pos rfl, dif_pos rfl]
    congr 1
    funext i j
    rw [hp]; simp
  | false =>
    rw [if_neg (by simp)]
    congr 1
    funext i j
    rw [hp]; simp

theorem yDiag_one {ne : ℕ} [NeZero nt] {w : Matrix (Fin ne) (Fin nt) ℝ} {i : Fin ne} (h1 : ∀ t, w i t ≤ 1) {t : Fin nt} (h : w i t = 1) : yDiag w i = 1 := by
  unfold yDiag
  apply le_antisymm
  · exact Finset.sup'_le _ _ (fun t _ => h1 t)
  · rw [← h]; exact Finset.le_sup' (fun t => w i t) (Finset.mem_univ _)

/-- One mode over all channels: the sum of the weighted data. -/
theorem qHat_zero_mode (R : Matrix (Fin 2) (Fin (2 + (0 + 0))) ℂ) (x : Matrix (Fin (2 + (0 + 0))) (Fin 2) ℂ) (norm : Norm 2) (he : norm.exact = false) :
    qHat (nd := 1) false norm [(R, x)] [(R, x)] = .ok (fun _ t => 1 / 2 * (star ((R * x) 0 t + (R * x) 1 t) * ((R * x) 0 t + (R * x) 1 t))) := by
  unfold qHat
  simp only [sumRx_one]
  rw [if_neg (by simp), if_neg (by simp [he]), dif_neg (by simp)]
  congr 1
  funext a t
  have hq : ∀ i j, qPlain 2 a i j = 1 := by
    intro i j
    have : a = 0 := Subsingleton.elim _ _
    subst this
    simp [qPlain, qMat, modeVec, startIdx]
  simp only [Fin.sum_univ_two, hq, star_add]
  ring

theorem unit_mul {w : Matrix (Fin (2 + (0 + 0))) (Fin 2) ℝ} (hy : ∀ i, yDiag w i = 1) (x : Matrix (Fin (2 + (0 + 0))) (Fin 2) ℂ) (t : Fin 2) :
    (chanMat (yDiag w) * x) 0 t = x 0 t ∧
    (chanMat (yDiag w) * x) 1 t = x 1 t := by
  constructor <;> rw [Matrix.mul_apply] <;> erw [Fin.sum_univ_two] <;> simp [chanMat, hy]

/-- The weights of the counterexample: one sample flagged in a channel and at a time that are otherwise good. -/
def leakW : Matrix (Fin (2 + (0 + 0))) (Fin 2) ℝ := fun i t => if i = 0 ∧ t = 1 then 0 else 1

/-- **C151** is false without separable flags: a flagged sample, in a channel and at a time that are otherwise good, enters the bandpower of that time with full weight (identity weighting, no taper). -/
theorem C151_counterexample_leak : ∃ (x x' : Matrix (Fin (2 + (0 + 0))) (Fin 2) ℂ) (R : Matrix (Fin 2) (Fin (2 + (0 + 0))) ℂ) (q q' : Fin 1 → Fin 2 → ℂ), SameGood leakW x x' ∧ ¬ AllFlagged leakW 1 ∧
    rMat (left := 0) (right := 0) true (fun _ => 1) .identity x leakW = .ok R ∧ rMat (left := 0) (right := 0) true (fun _ => 1) .identity x' leakW = .ok R ∧
    qHat false ⟨false, 1, 1⟩ [(R, x)] [(R, x)] = .ok q ∧ qHat false ⟨false, 1, 1⟩ [(R, x')] [(R, x')] = .ok q' ∧ q 0 1 = 1 / 2 ∧ q' 0 1 = 2 := by
  have hy : ∀ i, yDiag leakW i = 1 := fun i => yDiag_one (t := 0) (by intro t; unfold leakW; split <;> norm_num) (by simp [leakW])
  have hrm := fun x : Matrix (Fin (2 + (0 + 0))) (Fin 2) ℂ => rMat_identity (nf := 2) true leakW x (fun i => Or.inr (hy i))
  refine ⟨Matrix.of (fun i t => if i = 0 ∧ t = 1 then 0 else 1), Matrix.of (fun _ _ => 1), _, _, _, ?_, ?_, hrm _, hrm _, qHat_zero_mode _ _ _ rfl, qHat_zero_mode _ _ _ rfl, ?_, ?_⟩
  · intro i t h
    by_cases hc : i = 0 ∧ t = 1
    · simp [leakW, hc] at h
    · simp [hc]
  · intro h
    have := h 1
    simp [leakW] at this
  · rw [(unit_mul hy _ 1).1, (unit_mul hy _ 1).2]; simp
  · rw [(unit_mul hy _ 1).1, (unit_mul hy _ 1).2]; norm_num

/-- A time flagged in both channels. -/
def lateW : Matrix (Fin (2 + (0 + 0))) (Fin 2) ℝ := fun _ t => if t = 1 then 0 else 1

/-- **C151, finding** The spectrum stored for a time that is flagged entirely is computed from the flagged samples; only its integration time of zero (`C151_flagged_times`) tells. -/
theorem C151_finding_flagged_row : ∃ (x x' : Matrix (Fin (2 + (0 + 0))) (Fin 2) ℂ) (R : Matrix (Fin 2) (Fin (2 + (0 + 0))) ℂ) (q q' : Fin 1 → Fin 2 → ℂ), SameGood lateW x x' ∧ Separable lateW ∧
    rMat (left := 0) (right := 0) true (fun _ => 1) .identity x lateW = .ok R ∧
    qHat false ⟨false, 1, 1⟩ [(R, x)] [(R, x)] = .ok q ∧ qHat false ⟨false, 1, 1⟩ [(R, x')] [(R, x')] = .ok q' ∧ q 0 1 = 0 ∧ q' 0 1 = 2 := by
  have hy : ∀ i, yDiag lateW i = 1 := fun i => yDiag_one (t := 0) (by intro t; unfold lateW; split <;> norm_num) (by simp [lateW])
  have hrm := fun x : Matrix (Fin (2 + (0 + 0))) (Fin 2) ℂ => rMat_identity (nf := 2) true lateW x (fun i => Or.inr (hy i))
  refine ⟨Matrix.of (fun _ t => if t = 1 then 0 else 1), Matrix.of (fun _ _ => 1), _, _, _, ?_, ?_, hrm _, qHat_zero_mode _ _ _ rfl, qHat_zero_mode _ _ _ rfl, ?_, ?_⟩
  · intro i t h
    by_cases hc : t = 1
    · simp [lateW, hc] at h
    · simp [hc]
  · intro i t h
    by_cases hc : t = 1
    · exact Or.inr (fun j => by simp [lateW, hc])
    · simp [lateW, hc] at h
  · rw [(unit_mul hy _ 1).1, (unit_mul hy _ 1).2]; simp
  · rw [(unit_mul hy _ 1).1, (unit_mul hy _ 1).2]; norm_num

/-- A channel flagged at all times. -/
def chanW : Matrix (Fin (2 + (0 + 0))) (Fin 2) ℝ := fun i _ => if i = 0 then 0 else 1

theorem chanY (i : Fin (2 + (0 + 0))) : yDiag chanW i = if i = 0 then 0 else 1 := by
  by_cases hi : i = 0
  · rw [if_pos hi]; exact yDiag_zero (fun t => by simp [chanW, hi])
  · rw [if_neg hi]; exact yDiag_one (t := 0) (by intro t; unfold chanW; split <;> norm_num) (by simp [chanW, hi])

example : Separable chanW ∧ SameGood chanW (fun _ _ => 1) (fun i _ => if i = 0 then 5 else 1) ∧ ¬ AllFlagged chanW 0 ∧ GoodWt chanW (.dayenu id 1) ∧
    (∃ R, rMat (nf := 2) (left := 0) (right := 0) false (fun _ => 1) (.identity) (fun _ _ => 1) chanW = .ok R) ∧
    (∃ R, rMat (nf := 2) (left := 0) (right := 0) false (fun _ => 1) (.dayenu id 1) (fun _ _ => 1) chanW = .ok R) := by
  have hy : yOf chanW = .ok (yDiag chanW) := by
    unfold yOf
    rw [if_pos]
    intro i
    rw [chanY]
    by_cases hi : i = 0
    · left; rw [if_pos hi]; norm_num
    · right; rw [if_neg hi]; norm_num
  refine ⟨?_, ?_, ?_, ?_, ⟨_, rMat_identity false chanW _ (fun i => ?_)⟩, ?_⟩
  · intro i t h
    by_cases hi : i = 0
    · exact Or.inl (fun t' => by simp [chanW, hi])
    · simp [chanW, hi] at h
  · intro i t h
    by_cases hi : i = 0
    · simp [chanW, hi] at h
    · simp [hi]
  · intro h
    have := h 1
    simp [chanW] at this
  · have e : sandwich (yDiag chanW) 1 = Matrix.diagonal (fun i => ((yDiag chanW i : ℝ) : ℂ)) := by
      ext i j
      unfold sandwich
      rw [Matrix.of_apply, Matrix.one_apply, Matrix.diagonal_apply]
      by_cases hij : i = j
      · subst hij
        rw [if_pos rfl, if_pos rfl, chanY]
        split <;> simp
      · rw [if_neg hij, if_neg hij]; simp
    have hsq : ∀ i, ((yDiag chanW i : ℝ) : ℂ) * ((yDiag chanW i : ℝ) : ℂ) = ((yDiag chanW i : ℝ) : ℂ) := by
      intro i; rw [chanY]; split <;> simp
    have hstar : ∀ i, star ((yDiag chanW i : ℝ) : ℂ) = ((yDiag chanW i : ℝ) : ℂ) := fun i => Complex.conj_ofReal _
    show IsPinv (sandwich (yDiag chanW) 1) (sandwich (yDiag chanW) 1)
    rw [e]
    refine ⟨?_, ?_, ?_, ?_⟩ <;> simp [Matrix.diagonal_mul_diagonal, hsq, Matrix.diagonal_conjTranspose, Pi.star_def, hstar]
  · rw [chanY]; split
    · exact Or.inl rfl
    · exact Or.inr rfl
  · unfold rMat
    rw [hy]
    exact ⟨_, rfl⟩

end
end HeraPspec.FlagR
