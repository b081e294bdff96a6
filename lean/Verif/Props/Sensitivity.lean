import Verif.Model.Sensitivity
import Verif.Props.Scalar
import Verif.Props.Noise

/-!
C124: the sensitivity calculator (noise.py L93-269).
-/
namespace HeraPspec.Sensitivity
open HeraPspec.Scalar HeraPspec.Noise
variable {C P : Type}

/-! ### Specification -/

/-- The beam of an object has the cosmology of the object. -/
def Consistent (st : State C P) (s : ℕ) : Prop := ∀ b, (st.sens s).beam = some b → ∃ c, st.beamCosmo b = some c ∧ (st.sens s).cosmo = some c

/-- Calls that do not separate the two: a cosmology is only set on an object without a beam, a beam is not given to a second object. -/
def Safe (st : State C P) : Call C → Prop
  | .setCosmology s _ => (st.sens s).beam = none
  | .setBeam s b => ∀ t, t ≠ s → (st.sens t).beam ≠ some b
  | .calcScalar _ _ _ _ _ => True

/-- All calls of a history are safe where they are made. -/
def SafeRun (par : C → P) (env : ℕ → C → String → Bool → Env) : State C P → List (Call C) → Prop
  | _, [] => True
  | st, c :: cs => Safe st c ∧ SafeRun par env (step par env st c) cs

/-- The scalar `v` is the inverse of a mean over the band from `lo` to `hi`: it lies between any bounds of the quantity `X²Y / Ω'` there. -/
def InverseMean (e : Env) (lo hi v : ℝ) : Prop :=
  ∀ a b : ℝ, 0 < a → (∀ x, lo ≤ x → x ≤ hi → 0 < e.omega x ∧ a ≤ e.x2y x / e.omega x ∧ e.x2y x / e.omega x ≤ b) → a ≤ v ∧ v ≤ b

/-! ### Lemmas -/

theorem upd_same {α : Type} (f : ℕ → α) (i : ℕ) (a : α) : upd f i a i = a := if_pos rfl

theorem upd_other {α : Type} (f : ℕ → α) {i j : ℕ} (a : α) (h : j ≠ i) : upd f i a j = f j := if_neg h

theorem foldl_min_spec (l : List ℝ) : ∀ x, (l.foldl min x = x ∨ l.foldl min x ∈ l) ∧ l.foldl min x ≤ x ∧ ∀ y ∈ l, l.foldl min x ≤ y := by
  induction l with
  | nil => intro x; simp
  | cons a l ih =>
    intro x
    obtain ⟨i1, i2, i3⟩ := ih (min x a)
    rw [List.foldl_cons]
    refine ⟨?_, le_trans i2 (min_le_left _ _), ?_⟩
    · rcases i1 with h | h
      · rcases min_choice x a with h' | h'
        · exact Or.inl (h.trans h')
        · exact Or.inr (by rw [h, h']; exact List.mem_cons_self)
      · exact Or.inr (List.mem_cons_of_mem _ h)
    · intro y hy
      rcases List.mem_cons.1 hy with rfl | hy
      · exact le_trans i2 (min_le_right _ _)
      · exact i3 y hy

theorem foldl_max_spec (l : List ℝ) : ∀ x, (l.foldl max x = x ∨ l.foldl max x ∈ l) ∧ x ≤ l.foldl max x ∧ ∀ y ∈ l, y ≤ l.foldl max x := by
  induction l with
  | nil => intro x; simp
  | cons a l ih =>
    intro x
    obtain ⟨i1, i2, i3⟩ := ih (max x a)
    rw [List.foldl_cons]
    refine ⟨?_, le_trans (le_max_left _ _) i2, ?_⟩
    · rcases i1 with h | h
      · rcases max_choice x a with h' | h'
        · exact Or.inl (h.trans h')
        · exact Or.inr (by rw [h, h']; exact List.mem_cons_self)
      · exact Or.inr (List.mem_cons_of_mem _ h)
    · intro y hy
      rcases List.mem_cons.1 hy with rfl | hy
      · exact le_trans (le_max_right _ _) i2
      · exact i3 y hy

theorem minOf_spec {l : List ℝ} {m : ℝ} (h : minOf l = some m) : m ∈ l ∧ ∀ x ∈ l, m ≤ x := by
  cases l with
  | nil => cases h
  | cons x xs =>
    have h := Option.some.inj h
    obtain ⟨a, b, c⟩ := foldl_min_spec xs x
    rw [h] at a b c
    refine ⟨?_, ?_⟩
    · rcases a with a | a
      · rw [a]; exact List.mem_cons_self
      · exact List.mem_cons_of_mem _ a
    · intro y hy
      rcases List.mem_cons.1 hy with rfl | hy
      · exact b
      · exact c y hy

theorem maxOf_spec {l : List ℝ} {m : ℝ} (h : maxOf l = some m) : m ∈ l ∧ ∀ x ∈ l, x ≤ m := by
  cases l with
  | nil => cases h
  | cons x xs =>
    have h := Option.some.inj h
    obtain ⟨a, b, c⟩ := foldl_max_spec xs x
    rw [h] at a b c
    refine ⟨?_, ?_⟩
    · rcases a with a | a
      · rw [a]; exact List.mem_cons_self
      · exact List.mem_cons_of_mem _ a
    · intro y hy
      rcases List.mem_cons.1 hy with rfl | hy
      · exact b
      · exact c y hy

theorem noise_inverseMean (e : Env) (lo hi : ℝ) (h : lo < hi) (n steps : ℕ) (hs : 2 ≤ steps) (taper : String) :
    InverseMean e lo hi (beamScalar e lo hi n steps taper true false) := by
  intro a b ha hb
  have hm := linspace_mono lo hi h.le steps hs
  have hmem := linspace_mem lo hi h.le steps hs
  unfold beamScalar computeScalar
  simp only [Bool.false_eq_true, if_false]
  rw [bw_eq lo hi steps hs]
  have hbw : 0 < hi - lo := by linarith
  have hb0 : 0 < b := lt_of_lt_of_le ha (le_trans (hb lo le_rfl h.le).2.1 (hb lo le_rfl h.le).2.2)
  have pt : ∀ x, lo ≤ x → x ≤ hi → 1 / (hi - lo) * (1 / b) ≤ dB e taper true (linspaceOpen lo hi n) (hi - lo) x * e.omega x / e.x2y x ∧
      dB e taper true (linspaceOpen lo hi n) (hi - lo) x * e.omega x / e.x2y x ≤ 1 / (hi - lo) * (1 / a) := by
    intro x h1 h2
    obtain ⟨o, l, u⟩ := hb x h1 h2
    have hq : 0 < e.x2y x / e.omega x := lt_of_lt_of_le ha l
    have e1 : dB e taper true (linspaceOpen lo hi n) (hi - lo) x * e.omega x / e.x2y x = 1 / (hi - lo) * (1 / (e.x2y x / e.omega x)) := by
      unfold dB
      rw [if_pos rfl, one_div_div, mul_div_assoc]
    rw [e1]
    exact ⟨mul_le_mul_of_nonneg_left (one_div_le_one_div_of_le hq u) (by positivity),
      mul_le_mul_of_nonneg_left (one_div_le_one_div_of_le ha l) (by positivity)⟩
  have h1 := trapz_mono (fun _ => 1 / (hi - lo) * (1 / b)) _ _ hm (fun x hx => (pt x (hmem x hx).1 (hmem x hx).2).1)
  have h2 := trapz_mono _ (fun _ => 1 / (hi - lo) * (1 / a)) _ hm (fun x hx => (pt x (hmem x hx).1 (hmem x hx).2).2)
  rw [trapz_const_linspace _ _ _ _ hs] at h1 h2
  have e1 : 1 / (hi - lo) * (1 / b) * (hi - lo) = 1 / b := by field_simp
  have e2 : 1 / (hi - lo) * (1 / a) * (hi - lo) = 1 / a := by field_simp
  have e1' : (hi - lo) * (1 / (hi - lo) * (1 / b)) = 1 / b := by field_simp
  have e2' : (hi - lo) * (1 / (hi - lo) * (1 / a)) = 1 / a := by field_simp
  simp only [e1, e2, e1', e2'] at h1 h2
  have hpos : 0 < 1 / b := by positivity
  constructor
  · have := one_div_le_one_div_of_le (lt_of_lt_of_le hpos h1) h2
    simpa using this
  · have := one_div_le_one_div_of_le hpos h1
    simpa using this

/-! ### Theorems -/

/-- **C124**. Giving a beam to an object: afterwards both have the same cosmology, that of the object if it has one and else that of the beam; if neither has one the call is
refused and changes nothing. Other objects and beams, and what the object has otherwise, are unchanged. -/
theorem C124_set_beam (st : State C P) (s b : ℕ) :
    ((setBeam st s b).2 = .ok () ↔ (st.sens s).cosmo ≠ none ∨ st.beamCosmo b ≠ none) ∧
    ((setBeam st s b).2 ≠ .ok () → (setBeam st s b).1 = st) ∧
    ((setBeam st s b).2 = .ok () →
      (((setBeam st s b).1.sens s).cosmo = ((st.sens s).cosmo <|> st.beamCosmo b) ∧
        (setBeam st s b).1.beamCosmo b = ((st.sens s).cosmo <|> st.beamCosmo b) ∧ ((setBeam st s b).1.sens s).beam = some b ∧
        ((setBeam st s b).1.sens s).scalar = (st.sens s).scalar) ∧
      (∀ t, t ≠ s → (setBeam st s b).1.sens t = st.sens t) ∧ (∀ a, a ≠ b → (setBeam st s b).1.beamCosmo a = st.beamCosmo a)) := by
  unfold setBeam
  cases hb : st.beamCosmo b <;> cases hs : (st.sens s).cosmo
  · simp
  · refine ⟨by simp, by simp, fun _ => ⟨⟨?_, ?_, ?_, ?_⟩, fun t ht => upd_other _ _ ht, fun a ha => upd_other _ _ ha⟩⟩ <;> simp [upd_same, hs]
  · refine ⟨by simp, by simp, fun _ => ⟨⟨?_, ?_, ?_, ?_⟩, fun t ht => upd_other _ _ ht, fun a ha => rfl⟩⟩ <;> simp [upd_same, hb]
  · refine ⟨by simp, by simp, fun _ => ⟨⟨?_, ?_, ?_, ?_⟩, fun t ht => upd_other _ _ ht, fun a ha => upd_other _ _ ha⟩⟩ <;> simp [upd_same, hs]

theorem calcScalar_beam (env : ℕ → C → String → Bool → Env) (st : State C P) (s : ℕ) (freqs : List ℝ) (pol : String) (steps : ℕ) (h : Bool) :
    (calcScalar env st s freqs pol steps h).1.beamCosmo = st.beamCosmo ∧
    ∀ t, ((calcScalar env st s freqs pol steps h).1.sens t).beam = (st.sens t).beam ∧ ((calcScalar env st s freqs pol steps h).1.sens t).cosmo = (st.sens t).cosmo := by
  unfold calcScalar
  split
  · exact ⟨rfl, fun t => ⟨rfl, rfl⟩⟩
  · split
    · refine ⟨rfl, fun t => ?_⟩
      simp only [upd]
      split
      · rename_i h; subst h; exact ⟨rfl, rfl⟩
      · exact ⟨rfl, rfl⟩
    · exact ⟨rfl, fun t => ⟨rfl, rfl⟩⟩
    · exact ⟨rfl, fun t => ⟨rfl, rfl⟩⟩

theorem step_consistent (par : C → P) (env : ℕ → C → String → Bool → Env) (st : State C P) (c : Call C) (hst : ∀ s, Consistent st s) (hs : Safe st c) :
    ∀ s, Consistent (step par env st c) s := by
  intro t b hb
  cases c with
  | setCosmology s c =>
    unfold step setCosmology at hb ⊢
    simp only at hb ⊢
    by_cases h : t = s
    · subst h
      rw [upd_same] at hb
      simp only [Safe] at hs
      simp only [hs] at hb
      cases hb
    · rw [upd_other _ _ h] at hb ⊢
      exact hst t b hb
  | setBeam s a =>
    unfold step at hb ⊢
    simp only at hb ⊢
    obtain ⟨k1, k2, k3⟩ := C124_set_beam st s a
    by_cases hok : (setBeam st s a).2 = .ok ()
    · obtain ⟨⟨e1, e2, e3, -⟩, e4, e5⟩ := k3 hok
      by_cases h : t = s
      · subst h
        rw [e3] at hb
        have hb := Option.some.inj hb
        subst hb
        rw [e1, e2]
        have := k1.1 hok
        cases hc : (st.sens t).cosmo with
        | some c => exact ⟨c, rfl, rfl⟩
        | none =>
          rw [hc] at this
          cases hd : st.beamCosmo a with
          | some c => exact ⟨c, by simp, by simp⟩
          | none => rw [hd] at this; simp at this
      · rw [e4 t h] at hb ⊢
        have hne : b ≠ a := by rintro rfl; exact hs t h hb
        rw [e5 b hne]
        exact hst t b hb
    · rw [k2 hok] at hb ⊢
      exact hst t b hb
  | calcScalar s f pol n h =>
    unfold step at hb ⊢
    simp only at hb ⊢
    obtain ⟨k1, k2⟩ := calcScalar_beam env st s f pol n h
    rw [(k2 t).1] at hb
    rw [k1, (k2 t).2]
    exact hst t b hb

/-- **C124** (partial). In any history of calls in which cosmologies are set before beams and no beam is given to two objects, every object's beam has the object's cosmology.
Missing: a cosmology set after the beam (`C124_finding_cosmology_after_beam`), shared beams (`C124_finding_shared_beam`). -/
theorem C124_consistent_partial (par : C → P) (env : ℕ → C → String → Bool → Env) (bc : ℕ → Option C) (cs : List (Call C))
    (h : SafeRun par env ⟨fun _ => fresh, bc⟩ cs) : ∀ s, Consistent (run par env ⟨fun _ => fresh, bc⟩ cs) s := by
  have gen : ∀ (cs : List (Call C)) (st : State C P), (∀ s, Consistent st s) → SafeRun par env st cs → ∀ s, Consistent (run par env st cs) s := by
    intro cs
    induction cs with
    | nil => intro st hst _; exact hst
    | cons c cs ih =>
      intro st hst hsafe
      exact ih _ (step_consistent par env st c hst hsafe.1) hsafe.2
  exact gen cs _ (fun s b hb => by cases hb) h

/-- **C124** (partial). For a consistent object the scalar computed for a band is that of its own cosmology and its beam: an inverse mean over the band from the lowest to the
highest frequency; only this object's scalar changes. Without a beam or without frequencies the call is refused and changes nothing.
Missing: the band ends at the highest channel, not one channel width above it, see `C124_finding_band`. -/
theorem C124_calc_scalar_partial (env : ℕ → C → String → Bool → Env) (st : State C P) (s : ℕ) (hc : Consistent st s) (freqs : List ℝ) (pol : String) (steps : ℕ)
    (hs : 2 ≤ steps) (h : Bool) :
    (((st.sens s).beam = none ∨ freqs = []) → (calcScalar env st s freqs pol steps h).2 ≠ .ok () ∧ (calcScalar env st s freqs pol steps h).1 = st) ∧
    (∀ b c, (st.sens s).beam = some b → (st.sens s).cosmo = some c → freqs ≠ [] →
      ∃ v lo hi, (calcScalar env st s freqs pol steps h).2 = .ok () ∧ ((calcScalar env st s freqs pol steps h).1.sens s).scalar = some v ∧
        (∀ t, t ≠ s → (calcScalar env st s freqs pol steps h).1.sens t = st.sens t) ∧
        (lo ∈ freqs ∧ ∀ x ∈ freqs, lo ≤ x) ∧ (hi ∈ freqs ∧ ∀ x ∈ freqs, x ≤ hi) ∧ (lo < hi → InverseMean (env b c pol h) lo hi v)) := by
  constructor
  · rintro (hb | rfl)
    · unfold calcScalar; rw [hb]; simp
    · unfold calcScalar
      cases (st.sens s).beam <;> simp [minOf]
  · intro b c hb hcs hf
    obtain ⟨c', hc1, hc2⟩ := hc b hb
    rw [hcs] at hc2
    cases hc2
    cases hlo : minOf freqs with
    | none => cases freqs with
      | nil => exact absurd rfl hf
      | cons _ _ => cases hlo
    | some lo =>
      cases hhi : maxOf freqs with
      | none => cases freqs with
        | nil => exact absurd rfl hf
        | cons _ _ => cases hhi
      | some hi =>
        have hval : calcScalar env st s freqs pol steps h =
          ({ st with sens := upd st.sens s { st.sens s with scalar := some (beamScalar (env b c pol h) lo hi freqs.length steps "none" true false) } }, .ok ()) := by
          unfold calcScalar
          simp only [hb, hlo, hhi, hc1]
        rw [hval]
        refine ⟨beamScalar (env b c pol h) lo hi freqs.length steps "none" true false, lo, hi, rfl, by simp [upd_same], fun t ht => upd_other _ _ ht, minOf_spec hlo, maxOf_spec hhi, ?_⟩
        intro hlt
        exact noise_inverseMean _ lo hi hlt _ steps hs _

/-- **C124**. The noise power of an object is the radiometer equation with the scalar it holds; before a scalar has been computed the call is refused. -/
theorem C124_calc_P_N (st : State C P) (s : ℕ) (tsys tint ncoh : ℝ) (nincoh : Option ℝ) (form : Form) (k : Option ℝ) (comp : Comp) :
    calcPNof st s tsys tint ncoh nincoh form k comp =
      match (st.sens s).scalar with
      | none => .error .assertion
      | some v =>
        if form = .other ∨ comp = .other ∨ (form = .delSq ∧ k = none) then .error .assertion
        else .ok (radiometer v tsys tint ncoh (nincoh.getD 1) (decide (comp ≠ .abs)) (if form = .delSq then k else none)) := by
  unfold calcPNof
  cases hv : (st.sens s).scalar with
  | none => rfl
  | some v =>
    simp only
    rw [C70_value]
    by_cases hf : form = .other <;> simp [hf]

/-! ### Findings and non-vacuity -/

/-- A setting in which the cosmology is a number that multiplies the volume, beam 0 has none and beam 1 has cosmology 7. -/
noncomputable def env0 : ℕ → ℕ → String → Bool → Env := fun _ c _ _ => ⟨fun _ => c, fun _ => 1, fun _ _ => [], fun _ _ _ => 0⟩

/-- **C124, finding**. After a new cosmology is set on an object that has a beam, the object reports the new one, but its beam keeps the old one and the scalar is that of the old one. -/
theorem C124_finding_cosmology_after_beam :
    let st := run (P := ℕ) id env0 ⟨fun _ => fresh, fun _ => none⟩ [.setCosmology 0 1, .setBeam 0 0, .setCosmology 0 2]
    (st.sens 0).cosmo = some 2 ∧ st.beamCosmo 0 = some 1 ∧
      ((calcScalar env0 st 0 [1, 2] "xx" 2 true).1.sens 0).scalar = some (beamScalar (env0 0 1 "xx" true) 1 2 2 2 "none" true false) := by
  refine ⟨rfl, rfl, ?_⟩
  simp only [run, List.foldl, step, setCosmology, setBeam, upd_same, fresh, calcScalar, minOf, maxOf]
  norm_num

/-- **C124, finding**. Giving the beam of one object to an object with another cosmology changes the cosmology used by the first. -/
theorem C124_finding_shared_beam :
    let st := run (P := ℕ) id env0 ⟨fun _ => fresh, fun _ => none⟩ [.setCosmology 0 1, .setBeam 0 0, .setCosmology 1 2, .setBeam 1 0]
    (st.sens 0).cosmo = some 1 ∧ (st.sens 0).beam = some 0 ∧ st.beamCosmo 0 = some 2 := ⟨rfl, rfl, rfl⟩

/-- **C124, finding**. The scalar is not recomputed or discarded when the beam or the cosmology changes: the noise power is then that of the previous ones. -/
theorem C124_finding_stale_scalar (par : C → P) (env : ℕ → C → String → Bool → Env) (st : State C P) (s : ℕ) (c : C) (b : ℕ) :
    (((run par env st [.setCosmology s c, .setBeam s b]).sens s).scalar) = (st.sens s).scalar := by
  simp only [run, List.foldl, step]
  have h := C124_set_beam (setCosmology par st s c) s b
  by_cases hok : (setBeam (setCosmology par st s c) s b).2 = .ok ()
  · rw [(h.2.2 hok).1.2.2.2]
    simp [setCosmology, upd_same]
  · rw [h.2.1 hok]
    simp [setCosmology, upd_same]

/-- **C124, finding**. A beam given to an object without cosmology sets the object's cosmology but not `cosmo_params`. -/
theorem C124_finding_params : let st := run (P := ℕ) id env0 ⟨fun _ => fresh, fun _ => some 7⟩ [.setBeam 0 0]
    (st.sens 0).cosmo = some 7 ∧ (st.sens 0).params = none := ⟨rfl, rfl⟩

/-- **C124, finding**. For two channels at 1 and 2 (width 1: the band is from 1 to 3) and a beam that depends on frequency the scalar is the one for the band from 1 to 2, `2/3`; that of the
channels' band (as used for the power spectra themselves) is `1/2`. -/
theorem C124_finding_band :
    let e : Env := ⟨fun _ => 1, fun x => x, fun _ _ => [], fun _ _ _ => 0⟩
    beamScalar e 1 2 2 2 "none" true false = 2 / 3 ∧ beamScalar e 1 3 2 2 "none" true false = 1 / 2 ∧
    ∀ st : State ℕ ℕ, (st.sens 0).beam = some 0 → st.beamCosmo 0 = some 0 →
      ((calcScalar (fun _ _ _ _ => e) st 0 [1, 2] "xx" 2 true).1.sens 0).scalar = some (2 / 3) := by
  have h1 : beamScalar ⟨fun _ => 1, fun x => x, fun _ _ => [], fun _ _ _ => 0⟩ 1 2 2 2 "none" true false = 2 / 3 := by
    have hg : linspace 1 2 2 = [1, 2] := by simp [linspace, List.range, List.range.loop]; norm_num
    unfold beamScalar computeScalar
    simp only [hg, Bool.false_eq_true, if_false]
    simp [trapz, dB]
    norm_num
  refine ⟨h1, ?_, ?_⟩
  · unfold beamScalar computeScalar
    simp only [ce_grid, Bool.false_eq_true, if_false]
    simp [trapz, dB]
    norm_num
  · intro st hb hc
    have hm : minOf [1, 2] = some (1 : ℝ) := by simp [minOf]
    have hM : maxOf [1, 2] = some (2 : ℝ) := by simp [maxOf]
    unfold calcScalar
    simp only [hb, hm, hM, hc, upd_same, List.length_cons, List.length_nil]
    rw [h1]

/-- A safe history: cosmology, then beam, then a scalar. -/
example : SafeRun (P := ℕ) id env0 ⟨fun _ => fresh, fun _ => none⟩ [.setCosmology 0 3, .setBeam 0 0, .calcScalar 0 [1, 2] "xx" 2 true, .setCosmology 1 4, .setBeam 1 1] := by
  refine ⟨rfl, ?_, trivial, ?_, ?_, trivial⟩
  · intro t ht; simp [step, setCosmology, upd, ht, fresh]
  · change ((calcScalar env0 _ 0 [1, 2] "xx" 2 true).1.sens 1).beam = none
    rw [((calcScalar_beam env0 _ 0 [1, 2] "xx" 2 true).2 1).1]
    rfl
  · intro t ht
    change (Sens.beam (upd _ 1 _ t) : Option ℕ) ≠ some 1
    rw [upd_other _ _ ht]
    change ((calcScalar env0 _ 0 [1, 2] "xx" 2 true).1.sens t).beam ≠ some 1
    rw [((calcScalar_beam env0 _ 0 [1, 2] "xx" 2 true).2 t).1]
    by_cases h0 : t = 0
    · subst h0; simp [step, setBeam, setCosmology, upd, fresh]
    · simp [step, setBeam, setCosmology, upd, fresh, h0]

end HeraPspec.Sensitivity
