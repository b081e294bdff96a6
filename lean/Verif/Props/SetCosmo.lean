import Verif.Model.SetCosmo
import Mathlib.Tactic.FieldSimp
import Mathlib.Tactic.NormNum

/-!
C97: `set_cosmology`.
-/
namespace HeraPspec.SetCosmo
open HeraPspec.ArgParse (Str)

variable {K C B X : Type} [Field K]

/-! ### Specification -/

/-- The power in window `s`, row `r`, delay `t`, polarization pair `j`. -/
def power (u : Obj K C B X) (s r t j : ℕ) : Option K := u.data[s]?.bind (fun a => a[r]?.bind (fun b => b[t]?.bind (fun c => c[j]?)))

/-- The scalar stored for window `s` and polarization pair `j`. -/
def scalarOf (u : Obj K C B X) (s j : ℕ) : Option K := u.scal[s]?.bind (fun a => a[j]?)

/-- The shapes of the arrays: a scalar for every window and polarization pair, and no data beyond them. -/
structure Shaped (u : Obj K C B X) : Prop where
  scal : ∀ s j, s < u.nspws → j < u.npols → ∃ x, scalarOf u s j = some x
  win : ∀ s r t j x, power u s r t j = some x → s < u.nspws ∧ j < u.npols

/-! ### Lemmas -/

theorem at2_eq {l : List (List K)} {s j : ℕ} {x : K} (h : l[s]?.bind (fun a => a[j]?) = some x) : at2 l s j = x := by
  unfold at2 List.getD
  cases h1 : l[s]? with
  | none => simp [h1] at h
  | some a => rw [h1] at h; simp at h; simp [h]

theorem step_power (sc : ℕ → ℕ → K) (u : Obj K C B X) (i : ℕ × ℕ) (s r t j : ℕ) :
    power (step sc u i) s r t j = if i = (s, j) then (power u s r t j).map (fun y => y * (sc s j / at2 u.scal s j)) else power u s r t j := by
  obtain ⟨s0, j0⟩ := i
  unfold power step mulCol
  simp only [List.getElem?_modify, Prod.mk.injEq]
  by_cases hs : s0 = s
  · subst hs
    cases u.data[s0]? with
    | none => simp
    | some a =>
      cases hr : a[r]? with
      | none => simp [hr]
      | some b =>
        cases ht : b[t]? with
        | none => simp [hr, ht]
        | some c =>
          by_cases hj : j0 = j
          · subst hj; simp [hr, ht]
          · simp [hr, ht, List.getElem?_modify, hj]
  · simp [hs]

theorem step_scalar (sc : ℕ → ℕ → K) (u : Obj K C B X) (i : ℕ × ℕ) (s j : ℕ) :
    scalarOf (step sc u i) s j = if i = (s, j) then (scalarOf u s j).map (fun _ => sc s j) else scalarOf u s j := by
  obtain ⟨s0, j0⟩ := i
  unfold scalarOf step
  simp only [List.getElem?_modify, Prod.mk.injEq]
  by_cases hs : s0 = s
  · subst hs
    cases u.scal[s0]? with
    | none => simp
    | some a =>
      simp only [true_and, Option.bind_some, if_true, Option.map_some, List.getElem?_set]
      by_cases hj : j0 = j
      · subst hj
        by_cases hl : j0 < a.length
        · simp [hl, List.getElem?_eq_getElem hl]
        · simp [hl, List.getElem?_eq_none (not_lt.1 hl)]
      · simp [hj]
  · simp [hs]

theorem fold_spec (sc : ℕ → ℕ → K) : ∀ (l : List (ℕ × ℕ)) (u : Obj K C B X), l.Nodup → ∀ s r t j,
    power (l.foldl (step sc) u) s r t j =
      (if (s, j) ∈ l then (power u s r t j).map (fun y => y * (sc s j / at2 u.scal s j)) else power u s r t j) ∧
    scalarOf (l.foldl (step sc) u) s j = (if (s, j) ∈ l then (scalarOf u s j).map (fun _ => sc s j) else scalarOf u s j) := by
  intro l
  induction l with
  | nil => intro u _ s r t j; simp
  | cons i l ih =>
    intro u hn s r t j
    obtain ⟨h1, h2⟩ := List.nodup_cons.1 hn
    obtain ⟨e1, e2⟩ := ih (step sc u i) h2 s r t j
    rw [List.foldl_cons, e1, e2, step_power, step_scalar]
    by_cases hi : i = (s, j)
    · subst hi
      rw [if_neg h1, if_neg h1]; simp
    · have hat : at2 (step sc u i).scal s j = at2 u.scal s j := by
        have := step_scalar sc u i s j
        rw [if_neg hi] at this
        unfold scalarOf at this
        cases hx : u.scal[s]?.bind (fun a => a[j]?) with
        | some x => rw [hx] at this; rw [at2_eq hx, at2_eq this]
        | none =>
          rw [hx] at this
          have z : ∀ l : List (List K), l[s]?.bind (fun a => a[j]?) = none → at2 l s j = 0 := by
            intro l hl
            unfold at2 List.getD
            cases h : l[s]? with
            | none => simp
            | some a => rw [h] at hl; simp at hl; simp [hl]
          rw [z _ hx, z _ this]
      rw [if_neg hi, if_neg hi, hat]
      have : (s, j) ∈ i :: l ↔ (s, j) ∈ l := by
        rw [List.mem_cons]; exact ⟨fun h => h.resolve_left (fun h => hi h.symm), Or.inr⟩
      simp only [this]
      exact ⟨trivial, trivial⟩

theorem pairs_nodup (n p : ℕ) : (pairs n p).Nodup := by
  unfold pairs
  rw [List.nodup_flatMap]
  constructor
  · intro s _
    exact List.Nodup.map (fun a b h => (Prod.mk.inj h).2) List.nodup_range
  · apply List.Pairwise.imp_of_mem _ (List.nodup_range (n := n))
    intro a b _ _ hab x h1 h2
    obtain ⟨_, _, e1⟩ := List.mem_map.1 h1
    obtain ⟨_, _, e2⟩ := List.mem_map.1 h2
    apply hab
    rw [← e2] at e1
    exact (Prod.mk.inj e1).1

theorem mem_pairs (n p s j : ℕ) : (s, j) ∈ pairs n p ↔ s < n ∧ j < p := by
  unfold pairs
  simp

theorem fold_other (sc : ℕ → ℕ → K) (l : List (ℕ × ℕ)) : ∀ u : Obj K C B X,
    (l.foldl (step sc) u).cosmo = u.cosmo ∧ (l.foldl (step sc) u).beam = u.beam ∧ (l.foldl (step sc) u).nspws = u.nspws ∧
    (l.foldl (step sc) u).npols = u.npols ∧ (l.foldl (step sc) u).units = u.units ∧ (l.foldl (step sc) u).rest = u.rest := by
  induction l with
  | nil => intro u; exact ⟨rfl, rfl, rfl, rfl, rfl, rfl⟩
  | cons i l ih => intro u; exact ih (step sc u i)

/-- The beam a call uses: the one passed, or else the one stored. -/
def usedBeam (u : Obj K C B X) (nb : Option B) : Option B := nb.orElse (fun _ => u.beam)

theorem set_eq_apply {compute : C → B → ℕ → ℕ → K} {u : Obj K C B X} {c : C} {b : B} {ow : Bool} {nb : Option B}
    (ho : u.cosmo = none ∨ ow = true) (hb : usedBeam u nb = some b) : setCosmology compute u c ow nb = apply compute u c b := by
  unfold setCosmology
  have : ¬ (u.cosmo.isSome ∧ ow = false) := by
    rcases ho with h | h <;> simp [h]
  rw [if_neg this]
  cases nb with
  | some b' => simp [usedBeam] at hb; simp [hb]
  | none => simp [usedBeam] at hb; simp [hb]

/-- **C97** When it proceeds, `set_cosmology` adopts the cosmology and the beam, replaces every scalar by the one of the new cosmology
and beam, and multiplies every power by new scalar / old scalar. -/
theorem C97_rescaled (compute : C → B → ℕ → ℕ → K) (u : Obj K C B X) (c : C) (b : B) (ow : Bool) (nb : Option B) (hu : Shaped u)
    (ho : u.cosmo = none ∨ ow = true) (hb : usedBeam u nb = some b) (s r t j : ℕ) :
    (setCosmology compute u c ow nb).cosmo = some c ∧ (setCosmology compute u c ow nb).beam = some b ∧
    (∀ x, scalarOf u s j = some x → s < u.nspws → j < u.npols →
      scalarOf (setCosmology compute u c ow nb) s j = some (compute c b s j) ∧
      power (setCosmology compute u c ow nb) s r t j = (power u s r t j).map (fun y => y * (compute c b s j / x))) := by
  rw [set_eq_apply ho hb]
  have hoth := fold_other (compute c b) (pairs u.nspws u.npols) ({ u with cosmo := some c, beam := some b } : Obj K C B X)
  refine ⟨hoth.1, hoth.2.1, ?_⟩
  intro x hx hs hj
  obtain ⟨e1, e2⟩ := fold_spec (compute c b) (pairs u.nspws u.npols) ({ u with cosmo := some c, beam := some b } : Obj K C B X)
    (pairs_nodup _ _) s r t j
  rw [if_pos ((mem_pairs _ _ _ _).2 ⟨hs, hj⟩)] at e1 e2
  constructor
  · show scalarOf (List.foldl _ _ _) s j = _
    rw [e2]
    show (scalarOf u s j).map _ = _
    rw [hx]; rfl
  · show power (List.foldl _ _ _) s r t j = _
    rw [e1]
    show (power u s r t j).map _ = _
    rw [show at2 ({ u with cosmo := some c, beam := some b } : Obj K C B X).scal s j = x from at2_eq hx]

/-- **C97** Power divided by scalar (the estimate before normalization) does not depend on the cosmology. -/
theorem C97_ratio_invariant (compute : C → B → ℕ → ℕ → K) (u : Obj K C B X) (c : C) (b : B) (ow : Bool) (nb : Option B) (hu : Shaped u)
    (ho : u.cosmo = none ∨ ow = true) (hb : usedBeam u nb = some b) (s r t j : ℕ) (x y : K) (hx : scalarOf u s j = some x)
    (hy : power u s r t j = some y) (hc : compute c b s j ≠ 0) :
    ∃ x' y', scalarOf (setCosmology compute u c ow nb) s j = some x' ∧ power (setCosmology compute u c ow nb) s r t j = some y' ∧
      y' / x' = y / x := by
  obtain ⟨hs, hj⟩ := hu.win s r t j y hy
  obtain ⟨-, -, h⟩ := C97_rescaled compute u c b ow nb hu ho hb s r t j
  obtain ⟨h1, h2⟩ := h x hx hs hj
  refine ⟨_, _, h1, by rw [h2, hy]; rfl, ?_⟩
  field_simp

theorem shaped_set (compute : C → B → ℕ → ℕ → K) (u : Obj K C B X) (c : C) (b : B) (ow : Bool) (nb : Option B) (hu : Shaped u)
    (ho : u.cosmo = none ∨ ow = true) (hb : usedBeam u nb = some b) :
    Shaped (setCosmology compute u c ow nb) ∧ (setCosmology compute u c ow nb).nspws = u.nspws ∧
      (setCosmology compute u c ow nb).npols = u.npols := by
  have hoth := fold_other (compute c b) (pairs u.nspws u.npols) ({ u with cosmo := some c, beam := some b } : Obj K C B X)
  have hn : (setCosmology compute u c ow nb).nspws = u.nspws := by rw [set_eq_apply ho hb]; exact hoth.2.2.1
  have hp : (setCosmology compute u c ow nb).npols = u.npols := by rw [set_eq_apply ho hb]; exact hoth.2.2.2.1
  refine ⟨⟨?_, ?_⟩, hn, hp⟩
  · intro s j hs hj
    rw [hn] at hs; rw [hp] at hj
    obtain ⟨x, hx⟩ := hu.scal s j hs hj
    exact ⟨_, ((C97_rescaled compute u c b ow nb hu ho hb s 0 0 j).2.2 x hx hs hj).1⟩
  · intro s r t j x hx
    rw [hn, hp]
    rw [set_eq_apply ho hb] at hx
    have e1 := (fold_spec (compute c b) (pairs u.nspws u.npols) ({ u with cosmo := some c, beam := some b } : Obj K C B X)
      (pairs_nodup _ _) s r t j).1
    change power (List.foldl _ _ _) s r t j = _ at hx
    rw [hx] at e1
    have hpw : ∃ y, power u s r t j = some y := by
      split at e1
      · have e1' : some x = (power u s r t j).map _ := e1
        obtain ⟨y, hy, _⟩ := Option.map_eq_some_iff.1 e1'.symm
        exact ⟨y, hy⟩
      · exact ⟨x, e1.symm⟩
    obtain ⟨y, hy⟩ := hpw
    exact hu.win s r t j y hy

/-- **C97** Two changes of cosmology leave the same powers and scalars as the last one alone. -/
theorem C97_last_wins (compute : C → B → ℕ → ℕ → K) (u : Obj K C B X) (c1 c2 : C) (b1 b2 : B) (nb1 nb2 : Option B) (hu : Shaped u)
    (h1 : usedBeam u nb1 = some b1) (h2 : usedBeam (setCosmology compute u c1 true nb1) nb2 = some b2) (h2' : usedBeam u nb2 = some b2)
    (hne : ∀ s j, compute c1 b1 s j ≠ 0) (s r t j : ℕ) (hs : s < u.nspws) (hj : j < u.npols) :
    power (setCosmology compute (setCosmology compute u c1 true nb1) c2 true nb2) s r t j = power (setCosmology compute u c2 true nb2) s r t j ∧
    scalarOf (setCosmology compute (setCosmology compute u c1 true nb1) c2 true nb2) s j =
      scalarOf (setCosmology compute u c2 true nb2) s j := by
  obtain ⟨hsh, hn, hp⟩ := shaped_set compute u c1 b1 true nb1 hu (Or.inr rfl) h1
  obtain ⟨x, hx⟩ := hu.scal s j hs hj
  obtain ⟨a1, a2⟩ := (C97_rescaled compute u c1 b1 true nb1 hu (Or.inr rfl) h1 s r t j).2.2 x hx hs hj
  obtain ⟨d1, d2⟩ := (C97_rescaled compute _ c2 b2 true nb2 hsh (Or.inr rfl) h2 s r t j).2.2 _ a1 (by rw [hn]; exact hs) (by rw [hp]; exact hj)
  obtain ⟨e1, e2⟩ := (C97_rescaled compute u c2 b2 true nb2 hu (Or.inr rfl) h2' s r t j).2.2 x hx hs hj
  refine ⟨?_, by rw [d1, e1]⟩
  rw [d2, e2, a2, Option.map_map]
  congr 1
  funext y
  simp only [Function.comp_apply]
  have := hne s j
  field_simp

/-- **C97** Returning to the original cosmology and beam restores the powers, if the stored scalars are those `compute_scalar` gives
for them. -/
theorem C97_invertible (compute : C → B → ℕ → ℕ → K) (u : Obj K C B X) (c0 c1 : C) (b0 b1 : B) (nb1 : Option B) (hu : Shaped u)
    (h1 : usedBeam u nb1 = some b1) (hb0 : u.beam = some b0)
    (hst : ∀ s j, s < u.nspws → j < u.npols → scalarOf u s j = some (compute c0 b0 s j))
    (hne : ∀ s j, compute c1 b1 s j ≠ 0) (hne0 : ∀ s j, compute c0 b0 s j ≠ 0) (s r t j : ℕ) (y : K) (hy : power u s r t j = some y) :
    power (setCosmology compute (setCosmology compute u c1 true nb1) c0 true (some b0)) s r t j = some y := by
  obtain ⟨hs, hj⟩ := hu.win s r t j y hy
  rw [(C97_last_wins compute u c1 c0 b1 b0 nb1 (some b0) hu h1 rfl rfl hne s r t j hs hj).1]
  rw [((C97_rescaled compute u c0 b0 true (some b0) hu (Or.inr rfl) rfl s r t j).2.2 _ (hst s j hs hj) hs hj).2, hy]
  simp [div_self (hne0 s j)]

/-- **C97** Nothing changes if a cosmology is set and overwriting was not requested, or if there is no beam. -/
theorem C97_no_op (compute : C → B → ℕ → ℕ → K) (u : Obj K C B X) (c : C) (ow : Bool) (nb : Option B)
    (h : (u.cosmo ≠ none ∧ ow = false) ∨ usedBeam u nb = none) : setCosmology compute u c ow nb = u := by
  unfold setCosmology
  rcases h with ⟨h1, h2⟩ | h
  · rw [if_pos ⟨Option.isSome_iff_ne_none.2 h1, h2⟩]
  · cases nb with
    | some b => simp [usedBeam] at h
    | none => simp [usedBeam] at h; simp [h]

/-- **C97** The units become `h^-3 Mpc^3` if they were not cosmological, and are kept otherwise. Missing: units and
error bars that match the powers, which is false (see the findings). -/
theorem C97_units_partial (compute : C → B → ℕ → ℕ → K) (u : Obj K C B X) (c : C) (b : B) (ow : Bool) (nb : Option B)
    (ho : u.cosmo = none ∨ ow = true) (hb : usedBeam u nb = some b) :
    (setCosmology compute u c ow nb).units = if containsSub "Mpc".toList u.units then u.units else "h^-3 Mpc^3".toList := by
  rw [set_eq_apply ho hb]
  have hoth := fold_other (compute c b) (pairs u.nspws u.npols) ({ u with cosmo := some c, beam := some b } : Obj K C B X)
  have : (apply compute u c b).units = fixUnits u.units := congrArg fixUnits hoth.2.2.2.2.1
  rw [this]
  rfl

/-- **C97** finding: statistics and covariances (`rest`) are not rescaled, so error bars no longer match the powers. -/
theorem C97_finding_stats_not_rescaled (compute : C → B → ℕ → ℕ → K) (u : Obj K C B X) (c : C) (ow : Bool) (nb : Option B) :
    (setCosmology compute u c ow nb).rest = u.rest := by
  unfold setCosmology
  have h : ∀ b, (apply compute u c b).rest = u.rest := fun b =>
    (fold_other (compute c b) (pairs u.nspws u.npols) ({ u with cosmo := some c, beam := some b } : Obj K C B X)).2.2.2.2.2
  split
  · rfl
  · cases nb with
    | some b => exact h b
    | none => cases u.beam with
      | none => rfl
      | some b => exact h b

/-- **C97** finding: units `Mpc^3` (estimated with `little_h=False`) are kept although the new scalar is in `h^-3 Mpc^3`. -/
theorem C97_finding_units_without_h (compute : C → B → ℕ → ℕ → K) (u : Obj K C B X) (c : C) (b : B) (nb : Option B)
    (hb : usedBeam u nb = some b) (hun : u.units = "Mpc^3".toList) : (setCosmology compute u c true nb).units = "Mpc^3".toList := by
  rw [C97_units_partial compute u c b true nb (Or.inr rfl) hb, hun]
  decide +kernel

/-- **C97** finding: for estimates with `norm='H^-1'` and a taper, the scalar stored by `pspec` is not the one `set_cosmology` computes
for the very same cosmology, so that setting the same cosmology changes the powers. -/
theorem C97_finding_hinv_taper {T : Type} (scalar : Bool → T → K) (noneTaper taper : T) (h : scalar true noneTaper ≠ scalar true taper) :
    pspecScalar scalar noneTaper taper true true ≠ cosmoScalar scalar taper ∧
    pspecScalar scalar noneTaper taper false true = cosmoScalar scalar taper := ⟨h, rfl⟩

/-! ### A concrete object -/

/-- One window, one row, one delay, two polarization pairs. -/
def exU : Obj ℚ ℕ ℕ ℕ where
  cosmo := some 0
  beam := some 0
  nspws := 1
  npols := 2
  data := [[[[6, 10]]]]
  scal := [[2, 5]]
  units := "h^-3 Mpc^3".toList
  rest := 0

theorem exU_shaped : Shaped exU := by
  constructor
  · intro s j hs hj
    have hs : s = 0 := by simp [exU] at hs; omega
    have hj : j = 0 ∨ j = 1 := by simp [exU] at hj; omega
    subst hs
    rcases hj with rfl | rfl
    · exact ⟨2, rfl⟩
    · exact ⟨5, rfl⟩
  · intro s r t j x h
    unfold power exU at h
    have hs : s = 0 := by
      rcases s with _ | s
      · rfl
      · simp at h
    subst hs
    have hr : r = 0 := by
      rcases r with _ | r
      · rfl
      · simp at h
    subst hr
    have ht : t = 0 := by
      rcases t with _ | t
      · rfl
      · simp at h
    subst ht
    simp only [List.getElem?_cons_zero, Option.bind_some] at h
    have := (List.getElem?_eq_some_iff.1 h).1
    simp [exU] at this ⊢
    omega

example : usedBeam exU none = some 0 ∧ exU.cosmo ≠ none ∧
    power (setCosmology (fun (c : ℕ) _ _ (j : ℕ) => (c : ℚ) + j + 1) exU 3 true none) 0 0 0 1 = some 10 := by
  refine ⟨rfl, by simp [exU], ?_⟩
  decide +kernel

end HeraPspec.SetCosmo
