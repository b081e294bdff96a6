import Verif.Model.PlotUvd
import Mathlib.Tactic.Linarith
import Mathlib.Tactic.NormNum
import Mathlib.Tactic.FieldSimp
import Mathlib.Tactic.Positivity

/-!
C130: every baseline and polarization of a data object is drawn into a file of its own, named after them, with the extension of the format; ticks are correct to three
significant figures.
-/
namespace HeraPspec.PlotUvd

/-! ### Names -/

theorem toDigits_inj {a b : ℕ} (h : Nat.toDigits 10 a = Nat.toDigits 10 b) : a = b := by
  have h1 := @Nat.ofDigitChars_toDigits 10 a (by norm_num) (by norm_num)
  have h2 := @Nat.ofDigitChars_toDigits 10 b (by norm_num) (by norm_num)
  rw [h, h2] at h1
  exact h1.symm

theorem dot_notMem (n : ℕ) : '.' ∉ Nat.toDigits 10 n := by
  intro h
  have := Nat.isDigit_of_mem_toDigits (by norm_num) (by norm_num) h
  revert this; decide

theorem split_dot {α : Type} {x : α} : ∀ {a c b d : List α}, x ∉ a → x ∉ c → a ++ x :: b = c ++ x :: d → a = c ∧ b = d
  | [], [], _, _, _, _, h => by simpa using h
  | [], y :: c, _, _, _, hc, h => by
    simp only [List.nil_append, List.cons_append, List.cons.injEq] at h
    exact absurd (by simp [h.1]) hc
  | y :: a, [], _, _, ha, _, h => by
    simp only [List.nil_append, List.cons_append, List.cons.injEq] at h
    exact absurd (by simp [h.1]) ha
  | y :: a, z :: c, b, d, ha, hc, h => by
    simp only [List.cons_append, List.cons.injEq] at h
    have := split_dot (fun hx => ha (by simp [hx])) (fun hx => hc (by simp [hx])) h.2
    exact ⟨by rw [h.1, this.1], this.2⟩

theorem blName_inj {k l : Key} (h : blName k = blName l) : k.1 = l.1 ∧ k.2.1 = l.2.1 := by
  obtain ⟨h1, h2⟩ := split_dot (dot_notMem _) (dot_notMem _) h
  exact ⟨toDigits_inj h1, toDigits_inj h2⟩

theorem baseOf_length (t : List Piece) (k l : Key) (hp : k.2.2.length = l.2.2.length) (hb : (blName k).length < (blName l).length) :
    (baseOf t k).length ≤ (baseOf t l).length ∧ (.bl ∈ t → (baseOf t k).length < (baseOf t l).length) := by
  induction t with
  | nil => simp [baseOf]
  | cons p t ih =>
    unfold baseOf at ih ⊢
    simp only [List.flatMap_cons, List.length_append, List.mem_cons]
    cases p with
    | lit s =>
      refine ⟨by have := ih.1; simp only [piece]; omega, fun h => ?_⟩
      have := ih.2 (h.resolve_left (by simp))
      simp only [piece]; omega
    | bl => exact ⟨by have := ih.1; simp only [piece]; omega, fun _ => by have := ih.1; simp only [piece]; omega⟩
    | pol =>
      refine ⟨by have := ih.1; simp only [piece]; omega, fun h => ?_⟩
      have := ih.2 (h.resolve_left (by simp))
      simp only [piece]; omega

/-- The base names of two keys whose polarizations are written with equally many characters agree only if the keys do, if the template has both placeholders. -/
theorem baseOf_inj (t : List Piece) (hb : .bl ∈ t) (hpol : .pol ∈ t) (k l : Key) (hp : k.2.2.length = l.2.2.length) (h : baseOf t k = baseOf t l) : k = l := by
  have hlen : (blName k).length = (blName l).length := by
    rcases lt_trichotomy (blName k).length (blName l).length with hlt | he | hlt
    · have := (baseOf_length t k l hp hlt).2 hb; rw [h] at this; omega
    · exact he
    · have := (baseOf_length t l k hp.symm hlt).2 hb; rw [h] at this; omega
  have hall : ∀ t : List Piece, baseOf t k = baseOf t l → ∀ p ∈ t, piece k p = piece l p := by
    intro t
    induction t with
    | nil => simp
    | cons p t ih =>
      intro h q hq
      unfold baseOf at h
      simp only [List.flatMap_cons] at h
      have hpl : (piece k p).length = (piece l p).length := by
        cases p
        · rfl
        · exact hlen
        · exact hp
      obtain ⟨h1, h2⟩ := List.append_inj h hpl
      rcases List.mem_cons.1 hq with rfl | hq
      · exact h1
      · exact ih h2 q hq
  have h1 := blName_inj (hall t h _ hb)
  have h2 : k.2.2 = l.2.2 := hall t h _ hpol
  exact Prod.ext h1.1 (Prod.ext h1.2 h2)

/-! ### The extension -/

theorem charAt_short {f out : List Char} (h1 : 1 ≤ f.length) (h : out.length < f.length) : charAt out f = .error .index := by
  unfold charAt; rw [if_neg (by omega), if_pos h]

theorem charAt_ok {f out : List Char} (h1 : 1 ≤ f.length) (h : f.length ≤ out.length) : ∃ c, charAt out f = .ok c := by
  unfold charAt
  rw [if_neg (by omega), if_neg (by omega), List.getElem?_eq_getElem (show out.length - f.length < out.length by omega)]
  exact ⟨_, rfl⟩

/-- The name of the file of a base name: with the extension, if a format is given. -/
def Named (fmt : Option (List Char)) (base : List Char) : List Char := base ++ (fmt.map (fun f => '.' :: f)).getD []

/-- The array asked for. -/
def Asked {A : Type} (w : Which) (data flags nsamples : A) : A :=
  match w with
  | .data => data
  | .flags => flags
  | _ => nsamples

/-- With a format of two or more characters, not longer than the name, the extension is always appended. -/
theorem C130_extension (f out : List Char) (hf : 2 ≤ f.length) (hl : f.length ≤ out.length) : fileName (some f) out = .ok (out ++ '.' :: f) := by
  obtain ⟨c, hc⟩ := charAt_ok (f := f) (out := out) (by omega) hl
  unfold fileName
  simp only [hc]
  rw [if_pos]
  intro h
  have := congrArg List.length h
  simp at this
  omega

/-- Also if it is there already: a.png becomes a.png.png. -/
theorem C130_finding_double : fileName (some "png".toList) "a.png".toList = .ok "a.png.png".toList := by decide +kernel

/-- A name shorter than its format is refused. -/
theorem C130_finding_short : fileName (some "svgz".toList) "ab".toList = .error .index := by decide +kernel

theorem fileName_inj {fmt : Option (List Char)} {a b x : List Char} (hf : ∀ f, fmt = some f → 2 ≤ f.length) (ha : fileName fmt a = .ok x)
    (hb : fileName fmt b = .ok x) : a = b := by
  cases fmt with
  | none =>
    simp only [fileName, Except.ok.injEq] at ha hb
    rw [ha, hb]
  | some f =>
    have h2 := hf f rfl
    have key : ∀ c, fileName (some f) c = .ok x → x = c ++ '.' :: f := by
      intro c hc
      by_cases hl : f.length ≤ c.length
      · rw [C130_extension f c h2 hl] at hc; exact (Except.ok.inj hc).symm
      · unfold fileName at hc
        simp only [charAt_short (f := f) (out := c) (by omega) (by omega)] at hc
        cases hc
    exact List.append_cancel_right ((key a ha).symm.trans (key b hb))

/-! ### The files -/

theorem loop_ok {A : Type} {t : List Piece} {fmt : Option (List Char)} {arr : Key → A} : ∀ {keys : List Key} {ws : List (List Char × A)},
    loop t fmt arr keys = (ws, none) → List.Forall₂ (fun k w => fileName fmt (baseOf t k) = .ok w.1 ∧ w.2 = arr k) keys ws
  | [], ws, h => by simp only [loop, Prod.mk.injEq] at h; rw [← h.1]; exact .nil
  | k :: ks, ws, h => by
    unfold loop at h
    split at h
    · simp at h
    · rename_i f hf
      simp only [Prod.mk.injEq] at h
      rw [← h.1]
      exact .cons ⟨hf, rfl⟩ (loop_ok (Prod.ext rfl h.2))

theorem contents_of {A : Type} (ws : List (List Char × A)) (hnd : (ws.map (·.1)).Nodup) (w : List Char × A) (hw : w ∈ ws) : contents ws w.1 = some w.2 := by
  unfold contents
  cases hf : ws.reverse.find? (fun v => v.1 == w.1) with
  | none =>
    rw [List.find?_eq_none] at hf
    exact absurd (by simp) (hf w (by simp [hw]))
  | some v =>
    have h1 := List.find?_some hf
    have h2 := List.mem_of_find?_eq_some hf
    rw [List.mem_reverse] at h2
    have h1 : v.1 = w.1 := by simpa using h1
    have : v = w := List.inj_on_of_nodup_map hnd h2 hw h1
    rw [this]; rfl

/-- Without error there is one file per baseline and polarization of the object, with the array asked for of that baseline and polarization, none overwritten and nothing
else written, if the template has both placeholders, the names of the polarizations are equally long and a format has at least two characters. -/
theorem C130_files {A : Type} {w : Which} {vmin vmax : Bool} {t : List Piece} {fmt : Option (List Char)} {data flags nsamples : Key → A} {keys : List Key}
    {ws : List (List Char × A)} (h : waterfalls w vmin vmax t fmt data flags nsamples keys = (ws, none)) (hnd : keys.Nodup) (hb : .bl ∈ t) (hpol : .pol ∈ t) (n : ℕ)
    (hn : ∀ k ∈ keys, k.2.2.length = n) (hf : ∀ f, fmt = some f → 2 ≤ f.length) :
    ws.length = keys.length ∧ (ws.map (·.1)).Nodup ∧ ∀ k ∈ keys,
      contents ws (Named fmt (baseOf t k)) = some (Asked w (data k) (flags k) (nsamples k)) := by
  unfold waterfalls at h
  split at h
  · simp at h
  rename_i arr harr
  split at h
  · simp at h
  have hl := loop_ok h
  have hnames : (ws.map (·.1)).Nodup := by
    clear h
    induction hl with
    | nil => simp
    | @cons k v ks ws h1 h2 ih =>
      rw [List.nodup_cons] at hnd
      rw [List.map_cons, List.nodup_cons]
      refine ⟨?_, ih hnd.2 (fun k hk => hn k (by simp [hk]))⟩
      intro hm
      obtain ⟨u, hu, he⟩ := List.mem_map.1 hm
      obtain ⟨i, hi⟩ := List.mem_iff_getElem?.1 hu
      have : ∃ l ∈ ks, fileName fmt (baseOf t l) = .ok u.1 := by
        have hlen := h2.length_eq
        have hi' : i < ks.length := by
          rw [hlen]; exact (List.getElem?_eq_some_iff.1 hi).1
        refine ⟨ks[i], List.getElem_mem _, ?_⟩
        have := (List.forall₂_iff_get.1 h2).2 i hi' (by omega)
        simp only [List.get_eq_getElem] at this
        have hu' : ws[i] = u := (List.getElem?_eq_some_iff.1 hi).2
        rw [hu'] at this
        exact this.1
      obtain ⟨l, hlk, hlf⟩ := this
      rw [he] at hlf
      have := baseOf_inj t hb hpol k l (by rw [hn k (by simp), hn l (by simp [hlk])]) (fileName_inj hf h1.1 hlf)
      rw [this] at hnd
      exact hnd.1 hlk
  refine ⟨hl.length_eq.symm, hnames, fun k hk => ?_⟩
  obtain ⟨i, hi, rfl⟩ := List.mem_iff_getElem.1 hk
  have hi2 : i < ws.length := by rw [← hl.length_eq]; exact hi
  have hw := (List.forall₂_iff_get.1 hl).2 i hi hi2
  simp only [List.get_eq_getElem] at hw
  have hname : ws[i].1 = Named fmt (baseOf t keys[i]) := by
    cases fmt with
    | none => rw [← Except.ok.inj hw.1]; simp [Named]
    | some f =>
      have h2 := hf f rfl
      by_cases hlen : f.length ≤ (baseOf t keys[i]).length
      · have := hw.1
        rw [C130_extension f _ h2 hlen] at this; exact (Except.ok.inj this).symm
      · have := hw.1
        unfold fileName at this
        simp only [charAt_short (f := f) (out := baseOf t keys[i]) (by omega) (by omega)] at this
        cases this
  rw [← hname, contents_of ws hnames _ (List.getElem_mem _), hw.2]
  cases w <;> simp only [chosen, Option.some.injEq, reduceCtorEq] at harr <;> rw [harr] <;> rfl

/-- It succeeds if an array is named, `vmax` is given with `vmin`, and no name is shorter than a nonempty format. -/
theorem C130_accepts {A : Type} (w : Which) (vmin vmax : Bool) (t : List Piece) (fmt : Option (List Char)) (data flags nsamples : Key → A) (keys : List Key)
    (hw : w ≠ .other) (hv : vmin = true → vmax = true) (hl : ∀ k ∈ keys, ∀ f, fmt = some f → 1 ≤ f.length ∧ f.length ≤ (baseOf t k).length) :
    (waterfalls w vmin vmax t fmt data flags nsamples keys).2 = none := by
  have key : ∀ (arr : Key → A) (keys : List Key), (∀ k ∈ keys, ∀ f, fmt = some f → 1 ≤ f.length ∧ f.length ≤ (baseOf t k).length) →
      (loop t fmt arr keys).2 = none := by
    intro arr keys
    induction keys with
    | nil => intro _; rfl
    | cons k ks ih =>
      intro hl
      have : ∃ f, fileName fmt (baseOf t k) = .ok f := by
        cases fmt with
        | none => exact ⟨_, rfl⟩
        | some f =>
          obtain ⟨h1, h2⟩ := hl k (by simp) f rfl
          obtain ⟨c, hc⟩ := charAt_ok h1 h2
          unfold fileName
          simp only [hc]
          split <;> exact ⟨_, rfl⟩
      obtain ⟨f, hf⟩ := this
      unfold loop
      rw [hf]
      exact ih (fun k hk => hl k (by simp [hk]))
  unfold waterfalls
  cases w
  · simp only [chosen]
    rw [if_neg (by cases vmin <;> simp_all)]; exact key _ _ hl
  · simp only [chosen]
    rw [if_neg (by cases vmin <;> simp_all)]; exact key _ _ hl
  · simp only [chosen]
    rw [if_neg (by cases vmin <;> simp_all)]; exact key _ _ hl
  · exact absurd rfl hw

/-- Unknown arrays and a lower limit without upper limit are refused, and nothing is written. -/
theorem C130_refused {A : Type} (w : Which) (vmin vmax : Bool) (t : List Piece) (fmt : Option (List Char)) (data flags nsamples : Key → A) (keys : List Key)
    (h : w = .other ∨ (vmin = true ∧ vmax = false)) : waterfalls w vmin vmax t fmt data flags nsamples keys = ([], some .assertion) := by
  unfold waterfalls
  rcases h with rfl | ⟨rfl, rfl⟩
  · rfl
  · cases w <;> rfl

/-- Without the placeholder for the polarization, the files of all polarizations but the last are overwritten, without an error. -/
theorem C130_finding_placeholder : ∃ ws : List (List Char × ℕ), waterfalls .data false false [.lit "a".toList, .bl] (some "png".toList) (fun k => if k.2.2 = "xx".toList then 1 else 2)
    (fun _ => 0) (fun _ => 0) [(1, 2, "xx".toList), (1, 2, "yy".toList)] = (ws, none) ∧ ws.map (·.1) = ["a1.2.png".toList, "a1.2.png".toList] ∧
    contents ws "a1.2.png".toList = some 2 := ⟨_, rfl, by decide +kernel, by decide +kernel⟩

/-- Two baselines and two polarizations: hypotheses met. -/
example : ∃ ws : List (List Char × ℕ), waterfalls .flags true true [.lit "w_".toList, .bl, .lit "_".toList, .pol] (some "png".toList) (fun _ => 0) (fun k => k.1) (fun _ => 0)
    [(1, 2, "xx".toList), (1, 2, "yy".toList), (12, 3, "xx".toList)] = (ws, none) ∧ contents ws "w_12.3_xx.png".toList = some 12 := ⟨_, rfl, by decide +kernel⟩

/-! ### Significant figures -/

/-- The decade of a number: 10^e ≤ |x| < 10^(e+1). -/
def Decade (x : ℝ) (e : ℤ) : Prop := (10 : ℝ) ^ e ≤ |x| ∧ |x| < (10 : ℝ) ^ (e + 1)

theorem getSigfig_decade {x : ℝ} {s : ℤ} (h : getSigfig x = .ok s) : x ≠ 0 ∧ Decade x (-s) := by
  unfold getSigfig at h
  split at h
  · cases h
  rename_i hx
  have := Except.ok.inj h; subst this
  refine ⟨hx, ?_⟩
  have hp : 0 < |x| := abs_pos.2 hx
  have h1 := Int.floor_le (Real.logb 10 |x|)
  have h2 := Int.lt_floor_add_one (Real.logb 10 |x|)
  rw [neg_neg]
  constructor
  · rw [← Real.rpow_intCast]
    exact (Real.le_logb_iff_rpow_le (by norm_num) hp).1 h1
  · rw [← Real.rpow_intCast]
    refine (Real.logb_lt_iff_lt_rpow (by norm_num) hp).1 ?_
    push_cast; exact h2

theorem getSigfig_zero : getSigfig 0 = .error .overflow := by unfold getSigfig; simp

theorem getSigfig_ne {x : ℝ} (hx : x ≠ 0) : ∃ s, getSigfig x = .ok s := by unfold getSigfig; rw [if_neg hx]; exact ⟨_, rfl⟩

/-- A tick is a multiple of the second digit after the leading one and within half of it, hence within 0.5 percent of the axis value; a value of zero (an auto-correlation)
is refused. -/
theorem C130_ticks (x : ℝ) : (x = 0 → tick x = .error .overflow) ∧
    (x ≠ 0 → ∃ (e m : ℤ) (v : ℝ), tick x = .ok v ∧ Decade x e ∧ v = m * (10 : ℝ) ^ (e - 2) ∧ |v - x| ≤ (10 : ℝ) ^ (e - 2) / 2 ∧ |v - x| ≤ 0.005 * |x|) := by
  constructor
  · rintro rfl; unfold tick; rw [getSigfig_zero]
  · intro hx
    obtain ⟨s, hs⟩ := getSigfig_ne hx
    obtain ⟨_, hd⟩ := getSigfig_decade hs
    have hp : (0 : ℝ) < 10 ^ (s + 2) := by positivity
    have hinv : (10 : ℝ) ^ (-s - 2) = (10 ^ (s + 2))⁻¹ := by rw [← zpow_neg]; congr 1; ring
    have hr := abs_sub_round (x * 10 ^ (s + 2))
    have hb : |(round (x * 10 ^ (s + 2)) : ℝ) / 10 ^ (s + 2) - x| ≤ (10 : ℝ) ^ (-s - 2) / 2 := by
      have : (round (x * 10 ^ (s + 2)) : ℝ) / 10 ^ (s + 2) - x = -(x * 10 ^ (s + 2) - round (x * 10 ^ (s + 2))) / 10 ^ (s + 2) := by
        field_simp; ring
      rw [this, abs_div, abs_neg, abs_of_pos hp, hinv, div_eq_mul_inv]
      have := mul_le_mul_of_nonneg_right hr (inv_nonneg.2 hp.le)
      linarith
    refine ⟨-s, round (x * 10 ^ (s + 2)), _, by unfold tick; rw [hs]; rfl, hd, ?_, hb, hb.trans ?_⟩
    · show around x (s + 2) = _
      unfold around
      rw [hinv, div_eq_mul_inv]
    · have h1 : (10 : ℝ) ^ (-s - 2) = 10 ^ (-s) / 100 := by
        rw [zpow_sub₀ (by norm_num)]; norm_num
      rw [h1]
      have := hd.1
      have h2 : (0.005 : ℝ) = 1 / 200 := by norm_num
      rw [h2]
      linarith

/-- `_round_sigfig` gives the next multiple of the leading digit's unit at or above (below) the number; zero is refused. -/
theorem C130_round_sigfig (x : ℝ) (up : Bool) : (x = 0 → roundSigfig x up = .error .overflow) ∧
    (x ≠ 0 → ∃ (e m : ℤ) (v : ℝ), roundSigfig x up = .ok v ∧ Decade x e ∧ v = m * (10 : ℝ) ^ e ∧
      (up = true → x ≤ v ∧ v < x + (10 : ℝ) ^ e) ∧ (up = false → v ≤ x ∧ x < v + (10 : ℝ) ^ e)) := by
  constructor
  · rintro rfl; unfold roundSigfig; rw [getSigfig_zero]
  · intro hx
    obtain ⟨s, hs⟩ := getSigfig_ne hx
    obtain ⟨_, hd⟩ := getSigfig_decade hs
    have hp : (0 : ℝ) < 10 ^ s := by positivity
    have hinv : (10 : ℝ) ^ (-s) = (10 ^ s)⁻¹ := by rw [zpow_neg]
    unfold roundSigfig
    rw [hs]
    cases up
    · refine ⟨-s, ⌊(10 : ℝ) ^ s * x⌋, _, rfl, hd, ?_, by simp, fun _ => ?_⟩
      · rw [hinv]; simp [div_eq_mul_inv]
      · simp only [Bool.false_eq_true, if_false]
        have h1 := Int.floor_le ((10 : ℝ) ^ s * x)
        have h2 := Int.lt_floor_add_one ((10 : ℝ) ^ s * x)
        constructor
        · rw [div_le_iff₀ hp]; linarith
        · rw [hinv, ← one_div, ← add_div, lt_div_iff₀ hp]; linarith
    · refine ⟨-s, ⌈(10 : ℝ) ^ s * x⌉, _, rfl, hd, ?_, fun _ => ?_, by simp⟩
      · rw [hinv]; simp [div_eq_mul_inv]
      · simp only [if_true]
        have h1 := Int.le_ceil ((10 : ℝ) ^ s * x)
        have h2 := Int.ceil_lt_add_one ((10 : ℝ) ^ s * x)
        constructor
        · rw [le_div_iff₀ hp]; linarith
        · rw [hinv, ← one_div, div_lt_iff₀ hp, add_mul, one_div, inv_mul_cancel₀ hp.ne']; linarith

end HeraPspec.PlotUvd
