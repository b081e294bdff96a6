import Verif.Model.GaussBeam
import Mathlib.Analysis.SpecialFunctions.Gaussian.GaussianIntegral

/-!
C123: solid angles of beams and the Jy to mK factor.
-/
namespace HeraPspec.GaussBeam
open Real MeasureTheory

/-! ### Specification -/

/-- The response at the flat-sky position (x, y): one at the centre, one half at the radius `fwhm / 2`, Gaussian. -/
noncomputable def response (fwhm x y : ℝ) : ℝ := (1 / 2 : ℝ) ^ ((x ^ 2 + y ^ 2) / (fwhm / 2) ^ 2)

/-- The flux in Jy of a sky of brightness temperature `T` (K) over the solid angle `om` at frequency `f` (Rayleigh-Jeans, CGS values of the speed of light and of Boltzmann's
constant; 1 erg/s/cm²/Hz is 10^23 Jy). -/
noncomputable def fluxJy (T om f : ℝ) : ℝ := 10 ^ 23 * (2 * (1.38064852 / 10 ^ 16) * T * f ^ 2 / 29979245800 ^ 2) * om

/-! ### Lemmas -/

theorem response_eq (w x y : ℝ) : response w x y = rexp (-(4 * log 2 / w ^ 2) * x ^ 2) * rexp (-(4 * log 2 / w ^ 2) * y ^ 2) := by
  unfold response
  rw [rpow_def_of_pos (by norm_num), ← exp_add, one_div, log_inv]
  congr 1
  by_cases hw : w = 0
  · subst hw; simp
  · field_simp; ring

theorem integral_prod (b : ℝ) (hb : 0 ≤ b) : ∫ x : ℝ, ∫ y : ℝ, rexp (-b * x ^ 2) * rexp (-b * y ^ 2) = π / b := by
  simp_rw [integral_const_mul, integral_mul_const, integral_gaussian]
  rw [Real.mul_self_sqrt (div_nonneg pi_pos.le hb)]

/-! ### Gaussian beams -/

example : response 2 0 0 = 1 ∧ response 2 1 0 = 1 / 2 := by
  constructor <;> norm_num [response]

/-- **C123**. The solid angles of a Gaussian beam are, at each of its frequencies, the integral of its response and of the square of its response
over the (flat) sky. -/
theorem C123_gauss_solid_angles (b : Gauss) :
    powerBeamInt b = b.freqs.map (fun _ => ∫ x : ℝ, ∫ y : ℝ, response b.fwhm x y) ∧
    powerBeamSqInt b = b.freqs.map (fun _ => ∫ x : ℝ, ∫ y : ℝ, response b.fwhm x y ^ 2) := by
  have hl : 0 ≤ log 2 := (log_pos (by norm_num)).le
  have hl' : log 2 ≠ 0 := (log_pos (by norm_num)).ne'
  constructor
  · unfold powerBeamInt
    congr 1
    funext _
    simp_rw [response_eq]
    rw [integral_prod _ (by positivity)]
    by_cases hw : b.fwhm = 0
    · simp [hw]
    · field_simp; ring
  · unfold powerBeamSqInt
    congr 1
    funext _
    simp_rw [response_eq, mul_pow, ← exp_nat_mul]
    have : ∀ t : ℝ, ((2 : ℕ) : ℝ) * (-(4 * log 2 / b.fwhm ^ 2) * t ^ 2) = -(8 * log 2 / b.fwhm ^ 2) * t ^ 2 := by intro t; push_cast; ring
    simp_rw [this]
    rw [integral_prod _ (by positivity)]
    by_cases hw : b.fwhm = 0
    · simp [hw]
    · field_simp

/-- **C123**. The polarization and the frequency do not matter and the beam-squared solid angle is half the beam solid angle; both are positive for a beam of
non-zero width. -/
theorem C123_gauss_ratio (b : Gauss) :
    powerBeamSqInt b = (powerBeamInt b).map (fun x => x / 2) ∧ (b.fwhm ≠ 0 → ∀ x ∈ powerBeamInt b, 0 < x) := by
  constructor
  · unfold powerBeamInt powerBeamSqInt
    rw [List.map_map]
    congr 1
    funext _
    simp only [Function.comp]
    ring
  · intro hw x hx
    unfold powerBeamInt at hx
    rw [List.mem_map] at hx
    obtain ⟨_, _, rfl⟩ := hx
    have := log_pos (by norm_num : (1 : ℝ) < 2)
    have := pi_pos
    positivity

/-! ### Jy to mK -/

theorem factor_flux (T f om : ℝ) (hf : f ≠ 0) (ho : om ≠ 0) : factor f om * fluxJy T om f = 1000 * T := by
  unfold factor fluxJy kB cLight
  field_simp
  norm_num
  ring

/-- **C123**. With an interpolation that goes through its nodes, the factor at each requested frequency that is one of the beam's frequencies converts the flux of a sky of
temperature `T`, over the beam's solid angle at that frequency, to `T` in mK. One factor per requested frequency. -/
theorem C123_jy_to_mk (interp : List ℝ → List ℝ → ℝ → ℝ)
    (hint : ∀ xs ys : List ℝ, xs.Nodup → ∀ (k : ℕ) (x y : ℝ), xs[k]? = some x → ys[k]? = some y → interp xs ys x = y)
    (bf om : List ℝ) (hbf : bf.Nodup) (a : FreqArg) (r : List ℝ) (h : jyToMk interp bf om a = .ok r) :
    ∃ l : List ℝ, (a = .array l ∨ ∃ f, a = .scalar f ∧ l = [f]) ∧ r.length = l.length ∧
      ∀ (i : ℕ) (f v : ℝ), l[i]? = some f → r[i]? = some v → ∀ (k : ℕ) (o T : ℝ), bf[k]? = some f → om[k]? = some o → f ≠ 0 → o ≠ 0 →
        v * fluxJy T o f = 1000 * T := by
  have main : ∀ l : List ℝ, freqList a = .ok l → r.length = l.length ∧
      ∀ (i : ℕ) (f v : ℝ), l[i]? = some f → r[i]? = some v → ∀ (k : ℕ) (o T : ℝ), bf[k]? = some f → om[k]? = some o → f ≠ 0 → o ≠ 0 →
        v * fluxJy T o f = 1000 * T := by
    intro l hl
    unfold jyToMk at h
    rw [hl] at h
    simp only at h
    split at h
    · cases h
    · have h := Except.ok.inj h
      subst h
      refine ⟨by simp, ?_⟩
      intro i f v hf hv k o T hk ho hf0 ho0
      rw [List.getElem?_map, hf] at hv
      simp only [Option.map_some, Option.some.injEq] at hv
      rw [hint (bf.map (fun x => x / 1e6)) om (hbf.map (fun x y hxy => by
        simpa using (div_left_inj' (by norm_num : (1e6 : ℝ) ≠ 0)).1 hxy)) k (f / 1e6) o (by rw [List.getElem?_map, hk]; rfl) ho] at hv
      rw [← hv]
      exact factor_flux T f o hf0 ho0
  cases a with
  | scalar f => exact ⟨[f], Or.inr ⟨f, rfl, rfl⟩, main _ rfl⟩
  | array l => exact ⟨l, Or.inl rfl, main _ rfl⟩
  | other => unfold jyToMk freqList at h; cases h

/-- **C123**. For a Gaussian beam (three or more frequencies, an interpolation that reproduces constants) the factor at every frequency converts the flux over the beam's
solid angle to mK, also outside the beam's frequencies. -/
theorem C123_jy_to_mk_gauss (interp : List ℝ → List ℝ → ℝ → ℝ)
    (hint : ∀ (xs : List ℝ) (c x : ℝ), 3 ≤ xs.length → interp xs (xs.map (fun _ => c)) x = c)
    (b : Gauss) (hn : 3 ≤ b.freqs.length) (hw : b.fwhm ≠ 0) (l : List ℝ) (hl : l ≠ []) :
    ∃ r, jyToMk interp b.freqs (powerBeamInt b) (.array l) = .ok r ∧ r.length = l.length ∧
      ∀ (i : ℕ) (f v T : ℝ), l[i]? = some f → r[i]? = some v → f ≠ 0 →
        v * fluxJy T (∫ x : ℝ, ∫ y : ℝ, response b.fwhm x y) f = 1000 * T := by
  refine ⟨_, by unfold jyToMk freqList; simp only; rw [if_neg (by simpa using hl)], by simp, ?_⟩
  intro i f v T hf hv hf0
  rw [List.getElem?_map, hf] at hv
  simp only [Option.map_some, Option.some.injEq] at hv
  have hom : powerBeamInt b = (b.freqs.map (fun x => x / 1e6)).map (fun _ => ∫ x : ℝ, ∫ y : ℝ, response b.fwhm x y) := by
    rw [(C123_gauss_solid_angles b).1, List.map_map]; rfl
  rw [hom, hint _ _ _ (by simpa using hn)] at hv
  rw [← hv]
  apply factor_flux _ _ _ hf0
  have hmem : ∃ x, x ∈ b.freqs := by
    cases hb : b.freqs with
    | nil => rw [hb] at hn; simp at hn
    | cons x _ => exact ⟨x, List.mem_cons_self⟩
  obtain ⟨x, hx⟩ := hmem
  have := (C123_gauss_ratio b).2 hw
  rw [(C123_gauss_solid_angles b).1] at this
  exact (this _ (List.mem_map.2 ⟨x, hx, rfl⟩)).ne'

/-- **C123**. Frequencies that are not floats are refused, and so is an empty array. -/
theorem C123_jy_to_mk_refused (interp : List ℝ → List ℝ → ℝ → ℝ) (bf om : List ℝ) (a : FreqArg) :
    ((∃ r, jyToMk interp bf om a = .ok r) ↔ a ≠ .other ∧ a ≠ .array []) ∧ jyToMk interp bf om .other = .error .type := by
  refine ⟨?_, rfl⟩
  cases a with
  | scalar f => simp [jyToMk, freqList]
  | array l => cases l <;> simp [jyToMk, freqList]
  | other => simp [jyToMk, freqList]

/-! ### Healpix beams -/

theorem polIndex_some {p : ℤ} {l : List ℤ} {i : ℕ} : polIndex p l = some i ↔ l[i]? = some p ∧ ∀ j < i, l[j]? ≠ some p := by
  induction l generalizing i with
  | nil => simp [polIndex]
  | cons q qs ih =>
    unfold polIndex
    split
    · rename_i h
      subst h
      constructor
      · rintro h; cases h; simp
      · rintro ⟨h1, h2⟩
        cases i with
        | zero => rfl
        | succ i => exact absurd rfl (h2 0 (by omega))
    · rename_i h
      cases i with
      | zero => simp [h]
      | succ i =>
        rw [Option.map_eq_some_iff]
        constructor
        · rintro ⟨k, hk, e⟩
          have e : k = i := by omega
          subst e
          obtain ⟨a1, a2⟩ := ih.1 hk
          refine ⟨a1, ?_⟩
          intro j hj
          cases j with
          | zero => simpa using h
          | succ j => simpa using a2 j (by omega)
        · rintro ⟨h1, h2⟩
          exact ⟨i, ih.2 ⟨by simpa using h1, fun j hj => by simpa using h2 (j + 1) (by omega)⟩, rfl⟩

theorem polIndex_none {p : ℤ} {l : List ℤ} : polIndex p l = none ↔ p ∉ l := by
  induction l with
  | nil => simp [polIndex]
  | cons q qs ih =>
    unfold polIndex
    split
    · rename_i h; simp [h]
    · rename_i h
      rw [Option.map_eq_none_iff, ih]
      simp [Ne.symm h]

/-- **C123**. The response is given exactly for peak-normalised scalar power beams in healpix coordinates that contain the polarization. -/
theorem C123_response_accepted {F : Type} (b : UVB F) (p : ℤ) (freq : F) :
    (∃ r, normalizedResponse b p freq = .ok r) ↔
      b.beamType = "power" ∧ b.naxesVec ≤ 1 ∧ b.norm = "peak" ∧ b.coord = "healpix" ∧ p ∈ b.pols := by
  unfold normalizedResponse
  split
  · rename_i h; simp [h]
  · rename_i h1
    split
    · rename_i h; constructor
      · rintro ⟨_, h⟩; cases h
      · rintro ⟨_, h', _⟩; omega
    · rename_i h2
      split
      · rename_i h; simp [h]
      · rename_i h3
        split
        · rename_i h; simp [h]
        · rename_i h4
          rw [not_not] at h1 h3 h4
          cases hp : polIndex p b.pols with
          | none =>
            have := polIndex_none.1 hp
            simp [this]
          | some i =>
            have : p ∈ b.pols := by
              by_contra h
              rw [polIndex_none.2 h] at hp
              cases hp
            simp only [Except.ok.injEq, exists_eq', true_iff]
            exact ⟨h1, by omega, h3, h4, this⟩

/-- **C123**. The response returned is that of the requested polarization, and for a full-sky healpix map (12 nside² pixels) the solid angle at each frequency is the whole sphere
times the mean of the response; responses between 0 and 1 give a solid angle between 0 and 4π, and that of the squared response is not larger. -/
theorem C123_response {F : Type} (b : UVB F) (p : ℤ) (freq : F) (res : List (List ℝ)) (om : List ℝ) (ns : ℕ)
    (h : normalizedResponse b p freq = .ok (res, om, ns)) (hshape : (b.resp freq).length = b.pols.length) :
    ns = b.nside ∧ (∃ k : ℕ, b.pols[k]? = some p ∧ (b.resp freq)[k]? = some res) ∧ om.length = res.length ∧
    ∀ (f : ℕ) (r : List ℝ) (o : ℝ), res[f]? = some r → om[f]? = some o → 0 < ns → r.length = 12 * ns ^ 2 →
      o = 4 * π * (r.sum / r.length) ∧
      ((∀ x ∈ r, 0 ≤ x ∧ x ≤ 1) → 0 ≤ o ∧ o ≤ 4 * π ∧ 4 * π * ((r.map (fun x => x ^ 2)).sum / r.length) ≤ o) := by
  unfold normalizedResponse at h
  split at h
  · cases h
  · split at h
    · cases h
    · split at h
      · cases h
      · split at h
        · cases h
        · cases hp : polIndex p b.pols with
          | none => rw [hp] at h; cases h
          | some i =>
            rw [hp] at h
            have h := Except.ok.inj h
            simp only [Prod.mk.injEq] at h
            obtain ⟨hr, ho, hn⟩ := h
            have hk := (polIndex_some.1 hp).1
            have hi : i < (b.resp freq).length := by
              rw [hshape]
              exact (List.getElem?_eq_some_iff.1 hk).1
            refine ⟨hn.symm, ⟨i, hk, ?_⟩, ?_, ?_⟩
            · rw [← hr, List.getD_eq_getElem?_getD, List.getElem?_eq_getElem hi, Option.getD_some]
            · rw [← ho, ← hr, List.length_map]
            · intro f r o hf hof hpos hlen
              rw [← ho, hr, List.getElem?_map, hf] at hof
              simp only [Option.map_some, Option.some.injEq] at hof
              have hns : (0 : ℝ) < ns := by exact_mod_cast hpos
              have e : o = 4 * π * (r.sum / r.length) := by
                rw [← hof, hn, hlen]
                unfold omegaOf
                push_cast
                field_simp
                ring
              refine ⟨e, ?_⟩
              intro hx
              have hL : (0 : ℝ) < r.length := by rw [hlen]; push_cast; positivity
              have h0 : 0 ≤ r.sum := List.sum_nonneg (fun x hxr => (hx x hxr).1)
              have h1 : r.sum ≤ r.length := by
                have := List.sum_le_card_nsmul r 1 (fun x hxr => (hx x hxr).2)
                simpa using this
              have h2 : (r.map (fun x => x ^ 2)).sum ≤ r.sum := by
                have := List.sum_le_sum (f := fun x : ℝ => x ^ 2) (g := fun x => x) (l := r) (fun x hxr => by
                  have := hx x hxr
                  nlinarith)
                simpa using this
              have hpi := pi_pos
              rw [e]
              refine ⟨by positivity, ?_, ?_⟩
              · have : r.sum / r.length ≤ 1 := by rw [div_le_one hL]; exact h1
                nlinarith
              · have : (r.map (fun x => x ^ 2)).sum / r.length ≤ r.sum / r.length := div_le_div_of_nonneg_right h2 hL.le
                nlinarith

/-- **C123**. A beam object can be made from the same `UVBeam` several times: the conversion of an electric-field beam happens once and the second object has the same beam. -/
theorem C123_init_idempotent {F : Type} (toPower peak : UVB F → UVB F) (hp : ∀ b, (toPower b).beamType = "power")
    (hk : ∀ b, (peak b).beamType = b.beamType) (b : UVB F) :
    initUV toPower peak (initUV toPower peak b) = initUV toPower peak b := by
  unfold initUV
  by_cases h : b.beamType = "efield"
  · simp [h, hk, hp]
  · simp [h]

/-! ### The hypotheses can be met -/

/-- A uniform beam on the 12 pixels of nside 1, for two polarizations. -/
noncomputable def flat : UVB Unit := ⟨"power", 1, "peak", "healpix", 1, [-5, -6], fun _ => [[List.replicate 12 0], [List.replicate 12 1]]⟩

/-- The uniform response covers the whole sphere. -/
example : ∃ res, normalizedResponse flat (-6) () = .ok (res, [4 * π], 1) := by
  refine ⟨[List.replicate 12 1], ?_⟩
  have : polIndex (-6) flat.pols = some 1 := by decide +kernel
  unfold normalizedResponse
  rw [this]
  simp [flat, omegaOf]
  ring

/-- An interpolation that satisfies both hypotheses used above: exact at nodes, elsewhere the first value. -/
example : ∃ interp : List ℝ → List ℝ → ℝ → ℝ,
    (∀ xs ys : List ℝ, xs.Nodup → ∀ (k : ℕ) (x y : ℝ), xs[k]? = some x → ys[k]? = some y → interp xs ys x = y) ∧
    (∀ (xs : List ℝ) (c x : ℝ), 3 ≤ xs.length → interp xs (xs.map (fun _ => c)) x = c) := by
  classical
  refine ⟨fun xs ys x => if x ∈ xs then ys.getD (xs.idxOf x) 0 else ys.headD 0, ?_, ?_⟩
  · intro xs ys hxs k x y hx hy
    have hk := (List.getElem?_eq_some_iff.1 hx)
    obtain ⟨hk, e⟩ := hk
    have hm : x ∈ xs := e ▸ List.getElem_mem hk
    simp only [hm, if_true]
    have : xs.idxOf x = k := by rw [← e]; exact hxs.idxOf_getElem k hk
    rw [this, List.getD_eq_getElem?_getD, hy, Option.getD_some]
  · intro xs c x hl
    have hn : xs.map (fun _ => c) = List.replicate xs.length c := by simp
    simp only [hn]
    split
    · rename_i h
      have := List.idxOf_lt_length_iff.2 h
      simp [this]
    · cases xs with
      | nil => simp at hl
      | cons _ _ => simp [List.replicate_succ]

end HeraPspec.GaussBeam
