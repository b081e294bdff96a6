import Verif.Model.Pstokes
import Mathlib.Tactic.FieldSimp
import Mathlib.Tactic.Ring
import Mathlib.Tactic.NormNum
import Mathlib.Tactic.Linarith
import Mathlib.Tactic.Positivity
import Mathlib.Tactic.LinearCombination

/-! C65: pseudo-Stokes visibilities. C66: flags and samples. C91: choosing the data sets. -/
namespace HeraPspec.Pstokes

/-! Specification: the textbook definition, with the factor 1/2 of the "avg" convention. -/

/-- `norm avg = 1/2`, `norm sum = 1`. -/
noncomputable def norm (c : Conv) : ℂ := if c = .avg then 1 / 2 else 1

/-- I = XX + YY, Q = XX − YY, U = XY + YX, V = −i XY + i YX, up to the convention's factor. -/
noncomputable def stokes (s : ℤ) (c : Conv) (x y : ℂ) : ℂ :=
  norm c * (if s = 1 then x + y else if s = 2 then x - y else if s = 3 then x + y else -Complex.I * x + Complex.I * y)

theorem combData_eq (w1 w2 : ℂ) (c : Conv) (x y : ℂ) : combData w1 w2 c x y = norm c * (w1 * x + w2 * y) := by
  unfold combData norm
  split <;> ring

/-- The first and second polarization of each parameter. -/
def firstPol (s : ℤ) : ℤ := if s = 1 ∨ s = 2 then -5 else -7
def secondPol (s : ℤ) : ℤ := if s = 1 ∨ s = 2 then -6 else -8

/-- C65. Combining the two polarizations of a parameter gives, sample by sample, the textbook combination; flags OR, and the result has
the arrays asked for. -/
theorem C65_definition (s : ℤ) (hs : s = 1 ∨ s = 2 ∨ s = 3 ∨ s = 4) (c : Conv) (hc : c ≠ .other) (x y : List ℂ) (h : x.length = y.length) :
    ∃ o, combineArrays (firstPol s) (secondPol s) s c (some (x, y)) none none = .ok o ∧ o.flags = none ∧ o.nsamp = none ∧
      ∃ d, o.data = some d ∧ d.length = x.length ∧ ∀ (i : ℕ) (a b : ℂ), x[i]? = some a → y[i]? = some b → d[i]? = some (stokes s c a b) := by
  have key : ∀ w1 w2, look ((polWeights s).getD []) (firstPol s) = some w1 → look ((polWeights s).getD []) (secondPol s) = some w2 →
      (polWeights s).isSome = true → (∀ a b, norm c * (w1 * a + w2 * b) = stokes s c a b) →
    ∃ o, combineArrays (firstPol s) (secondPol s) s c (some (x, y)) none none = .ok o ∧ o.flags = none ∧ o.nsamp = none ∧
      ∃ d, o.data = some d ∧ d.length = x.length ∧ ∀ (i : ℕ) (a b : ℂ), x[i]? = some a → y[i]? = some b → d[i]? = some (stokes s c a b) := by
    intro w1 w2 h1 h2 h3 h4
    obtain ⟨w, hw⟩ := Option.isSome_iff_exists.1 h3
    rw [hw] at h1 h2
    simp only [Option.getD_some] at h1 h2
    unfold combineArrays
    rw [hw]
    simp only [h1, h2, hc, if_false, sameLen, h]
    simp only [beq_self_eq_true, Bool.and_self, Bool.not_true, Bool.false_eq_true, if_false, Option.map_some, Option.map_none]
    refine ⟨_, rfl, rfl, rfl, _, rfl, by simp [h], ?_⟩
    intro i a b ha hb
    rw [List.getElem?_zipWith, ha, hb]
    simp only [Option.some.injEq]
    rw [combData_eq, h4]
  rcases hs with rfl | rfl | rfl | rfl
  · exact key 1 1 (by simp [polWeights, look, firstPol]) (by simp [polWeights, look, secondPol]) (by simp [polWeights])
      (by intro a b; simp [stokes])
  · exact key 1 (-1) (by simp [polWeights, look, firstPol]) (by simp [polWeights, look, secondPol]) (by simp [polWeights])
      (by intro a b; simp [stokes]; left; ring)
  · exact key 1 1 (by simp [polWeights, look, firstPol]) (by simp [polWeights, look, secondPol]) (by simp [polWeights])
      (by intro a b; simp [stokes])
  · exact key (-Complex.I) Complex.I (by simp [polWeights, look, firstPol]) (by simp [polWeights, look, secondPol]) (by simp [polWeights])
      (by intro a b; simp [stokes])

/-- C65. XX and YY are recovered from pI and pQ, and XY and YX from pU and pV, under both conventions. -/
theorem C65_invertible (c : Conv) (x y : ℂ) :
    x = (stokes 1 c x y + stokes 2 c x y) / (2 * norm c) ∧ y = (stokes 1 c x y - stokes 2 c x y) / (2 * norm c) ∧
    x = (stokes 3 c x y + Complex.I * stokes 4 c x y) / (2 * norm c) ∧ y = (stokes 3 c x y - Complex.I * stokes 4 c x y) / (2 * norm c) := by
  have hI : Complex.I * Complex.I = -1 := Complex.I_mul_I
  have hn : norm c ≠ 0 := by unfold norm; split <;> norm_num
  have h2 : (2 : ℂ) * norm c ≠ 0 := mul_ne_zero two_ne_zero hn
  have e3 : stokes 3 c x y = norm c * (x + y) := by simp [stokes]
  have e4 : stokes 4 c x y = norm c * (-Complex.I * x + Complex.I * y) := by simp [stokes]
  have e1 : stokes 1 c x y = norm c * (x + y) := by simp [stokes]
  have e2 : stokes 2 c x y = norm c * (x - y) := by simp [stokes]
  rw [e1, e2, e3, e4]
  refine ⟨?_, ?_, ?_, ?_⟩ <;> rw [eq_div_iff h2]
  · ring
  · ring
  · linear_combination (norm c * x - norm c * y) * hI
  · linear_combination (norm c * y - norm c * x) * hI

/-- C65. Hence two inputs with the same pseudo-Stokes visibilities are equal. -/
theorem C65_injective (c : Conv) (x y x' y' : ℂ) (s : ℤ) (hs : s = 1 ∨ s = 3) (h1 : stokes s c x y = stokes s c x' y')
    (h2 : stokes (s + 1) c x y = stokes (s + 1) c x' y') : x = x' ∧ y = y' := by
  have a := C65_invertible c x y
  have b := C65_invertible c x' y'
  rcases hs with rfl | rfl
  · rw [a.1, b.1, h1, show stokes 2 c x y = stokes 2 c x' y' from h2]
    refine ⟨rfl, ?_⟩
    conv_lhs => rw [a.2.1]
    conv_rhs => rw [b.2.1]
    rw [h1, show stokes 2 c x y = stokes 2 c x' y' from h2]
  · have h2' : stokes 4 c x y = stokes 4 c x' y' := h2
    constructor
    · conv_lhs => rw [a.2.2.1]
      conv_rhs => rw [b.2.2.1]
      rw [h1, h2']
    · conv_lhs => rw [a.2.2.2]
      conv_rhs => rw [b.2.2.2]
      rw [h1, h2']

theorem zipWith_comm' {α β : Type} (f g : α → α → β) (h : ∀ a b, f a b = g b a) (x y : List α) : x.zipWith f y = y.zipWith g x := by
  rw [List.zipWith_comm]
  congr 1
  funext a b
  exact h b a

theorem validN_comm (a b : ℝ) : validN a b = validN b a := by
  unfold validN
  simp only [and_comm]

theorem combN_comm (a b : ℝ) : combN a b = combN b a := by
  unfold combN
  rw [validN_comm, add_comm]

theorem orFlags_comm (f g : List Bool) : orFlags f g = orFlags g f :=
  zipWith_comm' _ _ (fun a b => Bool.or_comm a b) f g

theorem map_zip_swap {γ : Type} (f : List Bool) (a b : List ℝ) (F G : Bool × ℝ × ℝ → γ) (h : ∀ x u v, F (x, u, v) = G (x, v, u)) :
    (f.zip (a.zip b)).map F = (f.zip (b.zip a)).map G := by
  induction f generalizing a b with
  | nil => simp
  | cons x f ih =>
    cases a with
    | nil => cases b <;> simp
    | cons u a =>
      cases b with
      | nil => simp
      | cons v b => simp [ih a b, h]

theorem addInvalid_comm (f : List Bool) (a b : List ℝ) : addInvalid f a b = addInvalid f b a := by
  unfold addInvalid
  have e1 : (f.zip (a.zip b)).any (fun x => !x.1 && !validN x.2.1 x.2.2) = (f.zip (b.zip a)).any (fun x => !x.1 && !validN x.2.1 x.2.2) := by
    have := map_zip_swap f a b (fun x => !x.1 && !validN x.2.1 x.2.2) (fun x => !x.1 && !validN x.2.1 x.2.2)
      (fun x u v => by simp [validN_comm u v])
    have h2 := congrArg (fun l : List Bool => l.any id) this
    simpa [List.any_map] using h2
  rw [e1, map_zip_swap f a b _ (fun x => x.1 || !validN x.2.1 x.2.2) (fun x u v => by simp [validN_comm u v])]

/-- Exchange the two arrays of a pair. -/
def swap {α : Type} (p : Option (List α × List α)) : Option (List α × List α) := p.map Prod.swap

/-- C65, C66. The result does not depend on the order in which the two polarizations are given. -/
theorem C65_order (p q s : ℤ) (c : Conv) (data : Option (List ℂ × List ℂ)) (flags : Option (List Bool × List Bool))
    (ns : Option (List ℝ × List ℝ)) : combineArrays p q s c data flags ns = combineArrays q p s c (swap data) (swap flags) (swap ns) := by
  have hl : ∀ {α : Type} (x : Option (List α × List α)), sameLen (swap x) = sameLen x := by
    intro α x
    cases x with
    | none => rfl
    | some x => simp [swap, sameLen, Bool.beq_comm]
  have hf : combFlags (swap flags) (swap ns) = combFlags flags ns := by
    cases flags with
    | none => rfl
    | some f =>
      cases ns with
      | none => simp [swap, combFlags, orFlags_comm f.1 f.2]
      | some n => simp [swap, combFlags, orFlags_comm f.1 f.2, addInvalid_comm _ n.1 n.2]
  have hn : (swap ns).map (fun n => n.1.zipWith combN n.2) = ns.map (fun n => n.1.zipWith combN n.2) := by
    cases ns with
    | none => rfl
    | some n => simp only [swap, Option.map_some, Prod.fst_swap, Prod.snd_swap]; rw [zipWith_comm' _ _ combN_comm]
  unfold combineArrays
  cases polWeights s with
  | none => rfl
  | some w =>
    simp only
    cases h1 : look w p with
    | none => cases h2 : look w q <;> rfl
    | some w1 =>
      cases h2 : look w q with
      | none => rfl
      | some w2 =>
        simp only
        rw [hl, hl, hl, hf, hn]
        have hd : (swap data).map (fun d => d.1.zipWith (combData w2 w1 c) d.2) = data.map (fun d => d.1.zipWith (combData w1 w2 c) d.2) := by
          cases data with
          | none => rfl
          | some d =>
            simp only [swap, Option.map_some, Prod.fst_swap, Prod.snd_swap]
            rw [zipWith_comm' (combData w2 w1 c) (combData w1 w2 c) (fun a b => by rw [combData_eq, combData_eq]; ring)]
        rw [hd]

/-- C65 finding: nothing requires the two polarizations to differ, so "pI" can be formed from XX alone. -/
theorem C65_finding_same_pol (x : ℂ) : ∃ o, combineArrays (-5) (-5) 1 .avg (some ([x], [x])) none none = .ok o ∧ o.data = some [x] := by
  refine ⟨_, by simp [combineArrays, polWeights, look, sameLen]; rfl, ?_⟩
  simp [combData]
  ring

/-! C66 -/

/-- C66. With samples given, a sample of the result is flagged exactly when either input is flagged or has no samples. -/
theorem C66_flags (f g : List Bool) (a b : List ℝ) (n : ℕ) (hf : f.length = n) (hg : g.length = n) (ha : a.length = n) (hb : b.length = n)
    (p q s : ℤ) (c : Conv) (data : Option (List ℂ × List ℂ)) (o : Out)
    (h : combineArrays p q s c data (some (f, g)) (some (a, b)) = .ok o) : ∃ r, o.flags = some r ∧ r.length = n ∧
      ∀ (i : ℕ) (hi : i < n), r[i]? = some (decide (f[i] = true ∨ g[i] = true ∨ a[i] ≤ 0 ∨ b[i] ≤ 0)) := by
  have hfl : o.flags = some (addInvalid (orFlags f g) a b) := by
    unfold combineArrays at h
    split at h
    · cases h
    · split at h
      · split at h
        · cases h
        · split at h
          · cases h
          · cases h; rfl
      · cases h
  have hm : addInvalid (orFlags f g) a b = ((orFlags f g).zip (a.zip b)).map (fun x => x.1 || !validN x.2.1 x.2.2) := by
    unfold addInvalid
    split
    · rfl
    · rename_i hn
      rw [Bool.not_eq_true, List.any_eq_false] at hn
      apply List.ext_getElem
      · simp [orFlags, hf, hg, ha, hb]
      · intro i h1 h2
        have hi : i < n := by simpa [orFlags, hf, hg] using h1
        have hmem : (((orFlags f g)[i], a[i], b[i]) : Bool × ℝ × ℝ) ∈ (orFlags f g).zip (a.zip b) := by
          rw [List.mem_iff_getElem]
          exact ⟨i, by simp [orFlags, hf, hg, ha, hb, hi], by simp⟩
        have := hn _ hmem
        simp only [Bool.and_eq_true, Bool.not_eq_true', not_and, Bool.not_eq_false] at this
        simp only [List.getElem_map, List.getElem_zip]
        cases hq : (orFlags f g)[i] with
        | true => simp
        | false => simp [this hq]
  refine ⟨_, hfl, by rw [hm]; simp [orFlags, hf, hg, ha, hb], ?_⟩
  intro i hi
  rw [hm, List.getElem?_eq_getElem (by simp [orFlags, hf, hg, ha, hb, hi])]
  simp only [List.getElem_map, List.getElem_zip, orFlags, List.getElem_zipWith, Option.some.injEq]
  have : validN a[i] b[i] = decide (¬ (a[i] ≤ 0 ∨ b[i] ≤ 0)) := by
    unfold validN
    congr 1
    push Not
    rfl
  rw [this, Bool.eq_iff_iff]
  simp only [Bool.or_eq_true, Bool.not_eq_true', decide_eq_false_iff_not, decide_eq_true_eq, not_not]
  tauto

/-- C66. Without samples the flags are the OR of the two. -/
theorem C66_flags_only (f g : List Bool) (p q s : ℤ) (c : Conv) (data : Option (List ℂ × List ℂ)) (o : Out)
    (h : combineArrays p q s c data (some (f, g)) none = .ok o) : o.flags = some (f.zipWith (· || ·) g) := by
  unfold combineArrays at h
  split at h
  · cases h
  · split at h
    · split at h
      · cases h
      · split at h
        · cases h
        · cases h; rfl
    · cases h

/-- C66. The number of samples is 4/(1/n1 + 1/n2) where both are positive and zero elsewhere. -/
theorem C66_nsamples (flags : Option (List Bool × List Bool)) (a b : List ℝ) (p q s : ℤ) (c : Conv)
    (data : Option (List ℂ × List ℂ)) (o : Out) (h : combineArrays p q s c data flags (some (a, b)) = .ok o) : a.length = b.length ∧
    ∃ r, o.nsamp = some r ∧ r.length = a.length ∧ ∀ (i : ℕ) (x y : ℝ), a[i]? = some x → b[i]? = some y → ∃ z, r[i]? = some z ∧
      (0 < x → 0 < y → z = 4 / (1 / x + 1 / y)) ∧ (x ≤ 0 ∨ y ≤ 0 → z = 0) := by
  have hns : o.nsamp = some (a.zipWith combN b) ∧ a.length = b.length := by
    unfold combineArrays at h
    split at h
    · cases h
    · split at h
      · split at h
        · cases h
        · split at h
          · cases h
          · rename_i hl
            cases h
            refine ⟨rfl, ?_⟩
            simp only [Bool.not_eq_true, Bool.not_eq_false', Bool.and_eq_true] at hl
            simpa [sameLen] using hl.2
      · cases h
  refine ⟨hns.2, _, hns.1, by simp [hns.2], ?_⟩
  intro i x y hx hy
  refine ⟨combN x y, by rw [List.getElem?_zipWith, hx, hy], ?_, ?_⟩
  · intro h1 h2
    simp [combN, validN, h1, h2]
  · intro h1
    have : validN x y = false := by
      unfold validN
      simp only [decide_eq_false_iff_not, not_and, not_lt]
      intro hx0
      rcases h1 with h1 | h1
      · linarith
      · exact h1
    simp [combN, this]

/-- C66. The sample count keeps the noise right: with variance v/n per input sample, the average of two independent inputs has variance
v divided by the combined count. -/
theorem C66_variance (v x y : ℝ) (hx : 0 < x) (hy : 0 < y) : (1 / 2) ^ 2 * (v / x) + (1 / 2) ^ 2 * (v / y) = v / combN x y := by
  have : combN x y = 4 / (1 / x + 1 / y) := by simp [combN, validN, hx, hy]
  rw [this]
  field_simp
  ring

/-- C66. The combined count lies between twice the smaller input and four times it, and is at most twice the larger input. -/
theorem C66_bounds (x y : ℝ) (hx : 0 < x) (hy : 0 < y) : 2 * min x y ≤ combN x y ∧ combN x y < 4 * min x y ∧ combN x y ≤ 2 * max x y := by
  have e : combN x y = 4 * x * y / (x + y) := by
    have : combN x y = 4 / (1 / x + 1 / y) := by simp [combN, validN, hx, hy]
    rw [this]
    field_simp
    ring
  rw [e]
  refine ⟨?_, ?_, ?_⟩
  · rw [le_div_iff₀ (by positivity)]
    rcases le_total x y with h | h
    · rw [min_eq_left h]; nlinarith
    · rw [min_eq_right h]; nlinarith
  · rw [div_lt_iff₀ (by positivity)]
    rcases le_total x y with h | h
    · rw [min_eq_left h]; nlinarith
    · rw [min_eq_right h]; nlinarith
  · rw [div_le_iff₀ (by positivity)]
    rcases le_total x y with h | h
    · rw [max_eq_right h]; nlinarith
    · rw [max_eq_left h]; nlinarith

example : ∃ o, combineArrays (-6) (-5) 2 .sum (some ([1, 2], [5, 7])) (some ([true, false], [false, false])) (some ([1, 0], [1, 3])) = .ok o ∧
    o.data = some [4, 5] ∧ o.nsamp = some [2, 0] := by
  refine ⟨_, by simp [combineArrays, polWeights, look, sameLen]; rfl, ?_, ?_⟩
  · simp [combData]; norm_num
  · simp [combN, validN]; norm_num

/-! C91 -/

/-- The pseudo-Stokes parameters. -/
def IsStokes (s : ℤ) : Prop := s = 1 ∨ s = 2 ∨ s = 3 ∨ s = 4

theorem weights_pair (s : ℤ) (hs : IsStokes s) : ∃ w1 w2, polWeights s = some [(firstPol s, w1), (secondPol s, w2)] := by
  rcases hs with rfl | rfl | rfl | rfl
  · exact ⟨1, 1, by simp [polWeights, firstPol, secondPol]⟩
  · exact ⟨1, -1, by simp [polWeights, firstPol, secondPol]⟩
  · exact ⟨1, 1, by simp [polWeights, firstPol, secondPol]⟩
  · exact ⟨-Complex.I, Complex.I, by simp [polWeights, firstPol, secondPol]⟩

theorem weights_none (s : ℤ) (hs : ¬ IsStokes s) : polWeights s = none := by
  unfold IsStokes at hs
  simp only [not_or] at hs
  simp [polWeights, hs.1, hs.2.1, hs.2.2.1, hs.2.2.2]

/-- C91. Choosing the data sets succeeds exactly when both polarizations of the parameter are the first polarization of some data
set (and every data set has one). -/
theorem C91_filter_succeeds_iff (ds : List UVD) (s : ℤ) : (filterDsets ds s).isSome = true ↔
    IsStokes s ∧ (∀ d ∈ ds, d.pols ≠ []) ∧ (∃ d ∈ ds, d.pols.head? = some (firstPol s)) ∧ (∃ d ∈ ds, d.pols.head? = some (secondPol s)) := by
  by_cases hs : IsStokes s
  · obtain ⟨w1, w2, hw⟩ := weights_pair s hs
    unfold filterDsets
    rw [hw]
    simp only
    by_cases he : ds.any (fun d => d.pols.isEmpty) = true
    · rw [if_pos he]
      obtain ⟨d, hd, h0⟩ := List.any_eq_true.1 he
      simp only [Option.isSome_none, Bool.false_eq_true, false_iff, not_and]
      intro _ h1
      exact absurd (List.isEmpty_iff.1 h0) (h1 d hd)
    · rw [if_neg he]
      have he' : ∀ d ∈ ds, d.pols ≠ [] := by
        intro d hd h0
        exact he (List.any_eq_true.2 ⟨d, hd, by simp [h0]⟩)
      have key : ∀ p : ℤ, (ds.find? (fun d => d.pols.head? == some p)).isSome = true ↔ ∃ d ∈ ds, d.pols.head? = some p := by
        intro p
        rw [List.find?_isSome]
        simp
      rw [← key, ← key]
      simp only [hs, true_and]
      cases h1 : ds.find? (fun d => d.pols.head? == some (firstPol s)) with
      | none => simp
      | some d =>
        cases h2 : ds.find? (fun d => d.pols.head? == some (secondPol s)) with
        | none => simp
        | some e => simpa using he'
  · unfold filterDsets
    rw [weights_none s hs]
    simp [hs]

/-- C91. The chosen data sets come from the list and hold the required polarizations in the required order, so that
`construct_pstokes` finds what it needs. -/
theorem C91_filter_correct (ds : List UVD) (s : ℤ) (d e : UVD) (h : filterDsets ds s = some (d, e)) :
    d ∈ ds ∧ e ∈ ds ∧ d.pols.head? = some (firstPol s) ∧ e.pols.head? = some (secondPol s) := by
  by_cases hs : IsStokes s
  · obtain ⟨w1, w2, hw⟩ := weights_pair s hs
    unfold filterDsets at h
    rw [hw] at h
    simp only at h
    split at h
    · cases h
    · split at h
      · rename_i d' e' h1 h2
        cases h
        have p1 := List.find?_some h1
        have p2 := List.find?_some h2
        exact ⟨List.mem_of_find?_eq_some h1, List.mem_of_find?_eq_some h2, by simpa using p1, by simpa using p2⟩
      · cases h
  · unfold filterDsets at h
    rw [weights_none s hs] at h
    cases h

/-- Two data sets that `construct_pstokes` can combine. -/
structure Matching (d e : UVD) (s : ℤ) : Prop where
  freqs : d.freqs = e.freqs
  times : d.times = e.times
  bls : d.bls = e.bls
  conv : (d.conv = e.conv ∧ d.conv ≠ some .other) ∨ (d.conv = none ∧ e.conv = some .avg) ∨ (d.conv = some .avg ∧ e.conv = none)
  data : (d.data (firstPol s)).length = (e.data (secondPol s)).length
  flags : (d.flags (firstPol s)).length = (e.flags (secondPol s)).length
  nsamp : (d.nsamp (firstPol s)).length = (e.nsamp (secondPol s)).length

/-- C91. Constructing from two chosen data sets on the same grid succeeds and gives the textbook combination of the first data set's
first polarization and the second one's second polarization. -/
theorem C91_construct (ds : List UVD) (s : ℤ) (d e : UVD) (h : filterDsets ds s = some (d, e)) (hm : Matching d e s) :
    ∃ o l c, construct d e s = .ok o ∧ o.data = some l ∧ (c = .avg ∨ c = .sum) ∧ (∀ k, d.conv = some k → c = k) ∧
      ∀ (i : ℕ) (x y : ℂ), (d.data (firstPol s))[i]? = some x → (e.data (secondPol s))[i]? = some y → l[i]? = some (stokes s c x y) := by
  obtain ⟨-, -, h1, h2⟩ := C91_filter_correct ds s d e h
  have hs : IsStokes s := by
    by_contra hs
    unfold filterDsets at h
    rw [weights_none s hs] at h
    cases h
  obtain ⟨w1, w2, hw⟩ := weights_pair s hs
  have hp : firstPol s ∈ d.pols := List.mem_of_mem_head? h1
  have hq : secondPol s ∈ e.pols := List.mem_of_mem_head? h2
  have hc : convOf d = convOf e ∧ convOf d ≠ .other := by
    unfold convOf
    rcases hm.conv with ⟨h1, h2⟩ | ⟨h1, h2⟩ | ⟨h1, h2⟩
    · refine ⟨by rw [h1], ?_⟩
      cases hd : d.conv with
      | none => simp
      | some k => rw [hd] at h2; simpa using h2
    · simp [h1, h2]
    · simp [h1, h2]
  obtain ⟨o, ho, -, -, l, hl, -, hget⟩ := C65_definition s hs (convOf d) hc.2 (d.data (firstPol s)) (e.data (secondPol s)) hm.data
  have hcon : ∃ o', construct d e s = .ok o' ∧ o'.data = o.data := by
    unfold construct
    rw [if_neg (by simp [hm.freqs, hm.times, hm.bls]), hw]
    simp only
    rw [if_neg (by simp [hp, hq]), if_neg (by simp [hc.1])]
    unfold combineArrays at ho ⊢
    rw [hw] at ho ⊢
    simp only at ho ⊢
    split at ho
    · rename_i v1 v2 g1 g2
      simp only [g1, g2, hc.2, if_false] at ho ⊢
      simp only [sameLen, hm.data, hm.flags, hm.nsamp, beq_self_eq_true, Bool.and_self, Bool.not_true, Bool.false_eq_true, if_false] at ho ⊢
      cases ho
      exact ⟨_, rfl, rfl⟩
    · cases ho
  obtain ⟨o', h3, h4⟩ := hcon
  refine ⟨o', l, convOf d, h3, by rw [h4, hl], ?_, ?_, hget⟩
  · have := hc.2
    cases hcd : convOf d <;> simp_all
  · intro k hk
    simp [convOf, hk]

def demo (p : ℤ) : UVD := ⟨some .avg, [1], [1], [1], [p], fun _ => [2, 4], fun _ => [false, false], fun _ => [1, 1]⟩

example : ∃ d e, filterDsets [demo (-6), demo (-5)] 1 = some (d, e) ∧ Matching d e 1 := by
  refine ⟨demo (-5), demo (-6), by simp [filterDsets, polWeights, demo], ?_⟩
  constructor <;> simp [demo]

end HeraPspec.Pstokes
