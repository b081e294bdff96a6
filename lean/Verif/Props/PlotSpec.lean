import Verif.Model.PlotSpec
import Verif.Lemmas.MapE
import Mathlib.Data.List.Dedup
import Mathlib.Data.List.GetD

/-!
C129: a delay spectrum plot draws every integration of every requested baseline-pair, at its own values, with a title and labels that tell them apart.
-/
namespace HeraPspec.PlotSpec
open HeraPspec.PlotFall (flagged)

/-! ### Specification -/

/-- What is asked for: all members of every group or, if averaged, the first member of every group. -/
def Asked (avg : Bool) (groups : List (List ℕ)) : List (List ℕ × ℕ) :=
  if avg then groups.filterMap (fun g => g.head?.map (fun b => (g, b))) else groups.flatMap (fun g => g.map (fun b => (g, b)))

/-- The integrations to be drawn, each with its group and baseline-pair. -/
def Wanted (avg : Bool) (groups : List (List ℕ)) (data : ℕ → Option (List Row)) : List ((List ℕ × ℕ) × Row) :=
  (Asked avg groups).flatMap (fun p => ((data p.2).getD []).map (fun r => (p, r)))

/-- The component by name. -/
def IsComp : Component → ℂ → ℝ → Prop
  | .real, z, v => v = z.re
  | .imag, z, v => v = z.im
  | .abs, z, v => 0 ≤ v ∧ v ^ 2 = z.re ^ 2 + z.im ^ 2
  | .other, _, _ => False

/-- The value drawn for a number: blank if flagged, else the component, without sign on a logarithmic scale. -/
def Val (a : Args) (r : Row) (z : ℂ) (o : Option ℝ) : Prop :=
  (|r.integ| ≤ 1e-8 → o = none) ∧ (1e-8 < |r.integ| → ∃ v, IsComp a.component z v ∧ o = some (if a.log then |v| else v))

/-- A curve draws an integration. -/
structure Draws (a : Args) (x : List ℝ) (r : Row) (c : Drawn) : Prop where
  line : a.lines = true → ∀ (d : ℕ) xd z, x[d]? = some xd → r.spec[d]? = some z → ∃ o, c.line[d]? = some (xd, o) ∧ Val a r z o
  noLine : a.lines = false → c.line = []
  bars : a.error = .found → ∀ (d : ℕ) xd z e, x[d]? = some xd → r.spec[d]? = some z → r.errs[d]? = some e →
    ∃ o w, c.bars[d]? = some (xd, o, w) ∧ Val a r z o ∧ IsComp a.component e w
  noBars : a.error = .no → c.bars = []
  noMarks : (a.markers = false ∨ |r.integ| ≤ 1e-8) → c.filled = [] ∧ c.empty = []
  filled : a.markers = true → 1e-8 < |r.integ| → ∀ q, q ∈ c.filled ↔ ∃ (d : ℕ) (z : ℂ) (v : ℝ), x[d]? = some q.1 ∧ r.spec[d]? = some z ∧ IsComp a.component z v ∧
    (a.log = true → 0 ≤ v) ∧ q.2 = v
  empty : a.markers = true → 1e-8 < |r.integ| → ∀ q, q ∈ c.empty ↔ a.log = true ∧ ∃ (d : ℕ) (z : ℂ) (v : ℝ), x[d]? = some q.1 ∧ r.spec[d]? = some z ∧ IsComp a.component z v ∧
    v < 0 ∧ q.2 = -v
  once : a.markers = true → 1e-8 < |r.integ| → c.filled.length + c.empty.length = min x.length r.spec.length

/-! ### Proofs -/

theorem members_asked (avg : Bool) (groups : List (List ℕ)) :
    groups.flatMap (fun g => (members avg g).map (fun b => (g, b))) = Asked avg groups := by
  unfold Asked members
  cases avg
  · rfl
  · simp only [if_true]
    induction groups with
    | nil => rfl
    | cons g l ih => cases g <;> simp [List.filterMap_cons] <;> simpa using ih

theorem isComp_iff {c : Component} {f : ℂ → ℝ} (h : cast c = some f) (z : ℂ) (v : ℝ) : IsComp c z v ↔ v = f z := by
  cases c <;> simp only [cast, Option.some.injEq, reduceCtorEq] at h <;> subst h
  · rfl
  · rfl
  · show 0 ≤ v ∧ v ^ 2 = z.re ^ 2 + z.im ^ 2 ↔ v = ‖z‖
    have hz : ‖z‖ ^ 2 = z.re ^ 2 + z.im ^ 2 := by rw [Complex.sq_norm, Complex.normSq_apply]; ring
    rw [← hz]
    constructor
    · rintro ⟨h0, h1⟩; exact (sq_eq_sq₀ h0 (norm_nonneg _)).1 h1
    · rintro rfl; exact ⟨norm_nonneg _, rfl⟩

theorem flagged_iff (r : Row) : flagged r.integ = true ↔ |r.integ| ≤ 1e-8 := by
  unfold flagged; rw [decide_eq_true_eq]; norm_num

/-- The series made from an integration. -/
noncomputable def mkSeries (f : ℂ → ℝ) (e : ErrArg) (p : (List ℕ × ℕ) × Row) : Series :=
  ⟨vals f p.2, p.2.time, p.2.lst, p.1.1, if e = .found then some (p.2.errs.map f) else none⟩

theorem collect_ok {avg : Bool} {c : Component} {e : ErrArg} {data : ℕ → Option (List Row)} {groups : List (List ℕ)} {l : List Series}
    (h : collect avg c e data groups = .ok l) :
    (∀ p ∈ Asked avg groups, data p.2 ≠ none ∧ e ≠ .missing ∧ c ≠ .other) ∧ ∀ f, cast c = some f → l = (Wanted avg groups data).map (mkSeries f e) := by
  unfold collect at h
  rw [members_asked] at h
  unfold Wanted
  split at h
  · cases h
  · rename_i r hr
    have := Except.ok.inj h; subst this
    rw [UVP.mapE_ok_iff] at hr
    generalize Asked avg groups = ps at hr
    clear h
    induction hr with
    | nil => simp
    | @cons p s ps r h1 h2 ih =>
      have hp : (data p.2 ≠ none ∧ e ≠ .missing ∧ c ≠ .other) ∧ ∀ f, cast c = some f → s = ((data p.2).getD []).map (fun r => mkSeries f e (p, r)) := by
        unfold seriesOf at h1
        split at h1
        · cases h1
        · rename_i f hf
          split at h1
          · cases h1
          · rename_i rows hd
            split at h1
            · cases h1
            · rename_i hm
              have := Except.ok.inj h1; subst this
              refine ⟨⟨by rw [hd]; simp, hm, ?_⟩, fun g hg => ?_⟩
              · rintro rfl; cases hf
              · rw [hf] at hg; have := Option.some.inj hg; subst this
                rw [hd]; rfl
      refine ⟨?_, fun f hf => ?_⟩
      · intro q hq
        rcases List.mem_cons.1 hq with rfl | hq
        · exact hp.1
        · exact ih.1 q hq
      · rw [List.flatten_cons, List.flatMap_cons, List.map_append, hp.2 f hf, ih.2 f hf, List.map_map]; rfl

theorem labels_length {tl : Bool} {t : LabelType} {avg : Bool} {spw : ℕ} {pol : ℕ × ℕ} {l : List Series} {ti : List Part} {ls : List Label} {b : Bool}
    (h : titleAndLabels tl t avg spw pol l = .ok (ti, ls, b)) : ls.length = l.length := by
  unfold titleAndLabels at h
  split at h
  · cases h; simp
  · split at h
    · split at h
      · cases h
      · rename_i r hr
        rw [UVP.mapE_ok_iff] at hr
        cases h
        exact hr.length_eq.symm
    · split at h <;> cases h <;> simp

theorem vals_get {f : ℂ → ℝ} {r : Row} {d : ℕ} {z : ℂ} (hz : r.spec[d]? = some z) : (vals f r)[d]? = some (if flagged r.integ then none else some (f z)) := by
  simp [vals, hz]

theorem val_shown {a : Args} {f : ℂ → ℝ} (hf : cast a.component = some f) (r : Row) (z : ℂ) :
    Val a r z (shown a.log (if flagged r.integ then none else some (f z))) := by
  constructor
  · intro h
    rw [if_pos ((flagged_iff r).2 h)]
    unfold shown; split <;> rfl
  · intro h
    rw [if_neg (fun hc => absurd ((flagged_iff r).1 hc) (not_le.2 h))]
    refine ⟨f z, (isComp_iff hf z _).2 rfl, ?_⟩
    unfold shown; split <;> rfl

theorem draw_draws (a : Args) (x : List ℝ) (f : ℂ → ℝ) (hf : cast a.component = some f) (he : a.error ≠ .missing) (p : List ℕ × ℕ) (r : Row) (lab : Label) :
    Draws a x r (draw a.lines a.markers a.log x (mkSeries f a.error (p, r)) lab) := by
  have hunfl : 1e-8 < |r.integ| → (vals f r) = r.spec.map (fun z => some (f z)) := by
    intro h
    have : ¬ flagged r.integ = true := fun hc => absurd ((flagged_iff r).1 hc) (not_le.2 h)
    unfold vals; simp [this]
  have hfl : |r.integ| ≤ 1e-8 → (vals f r) = r.spec.map (fun _ => none) := by
    intro h
    unfold vals; simp [(flagged_iff r).2 h]
  have hnone : ∀ (l : List ℂ) (g : ℝ × Option ℝ → Option (ℝ × ℝ)), (∀ q : ℝ × Option ℝ, q.2 = none → g q = none) →
      (x.zip (l.map (fun _ => (none : Option ℝ)))).filterMap g = [] := by
    intro l g hg
    rw [List.filterMap_eq_nil_iff]
    intro q hq
    apply hg
    have := (List.of_mem_zip hq).2
    obtain ⟨_, _, h⟩ := List.mem_map.1 this
    exact h.symm
  have hmem : ∀ (q : ℝ × Option ℝ), q ∈ x.zip (r.spec.map (fun z => some (f z))) ↔ ∃ (d : ℕ) (z : ℂ), x[d]? = some q.1 ∧ r.spec[d]? = some z ∧ q.2 = some (f z) := by
    intro q
    rw [List.mem_iff_getElem?]
    constructor
    · rintro ⟨d, hd⟩
      rw [List.getElem?_zip_eq_some] at hd
      obtain ⟨h1, h2⟩ := hd
      rw [List.getElem?_map] at h2
      obtain ⟨z, hz, h3⟩ := Option.map_eq_some_iff.1 h2
      exact ⟨d, z, h1, hz, h3.symm⟩
    · rintro ⟨d, z, h1, h2, h3⟩
      refine ⟨d, ?_⟩
      rw [List.getElem?_zip_eq_some]
      refine ⟨h1, ?_⟩
      rw [List.getElem?_map, h2, h3]; rfl
  constructor
  · intro hl d xd z hx hz
    refine ⟨_, ?_, val_shown hf r z⟩
    show (if a.lines then x.zip ((vals f r).map (shown a.log)) else [])[d]? = _
    rw [if_pos hl, List.getElem?_zip_eq_some]
    refine ⟨hx, ?_⟩
    rw [List.getElem?_map, vals_get hz]; rfl
  · intro hl
    show (if a.lines then x.zip ((vals f r).map (shown a.log)) else []) = []
    rw [hl]; rfl
  · intro he d xd z e hx hz hee
    refine ⟨_, f e, ?_, val_shown hf r z, (isComp_iff hf e _).2 rfl⟩
    simp only [draw, mkSeries, he, if_true]
    rw [List.getElem?_zip_eq_some]
    refine ⟨hx, ?_⟩
    rw [List.getElem?_zip_eq_some]
    refine ⟨?_, by simp [hee]⟩
    rw [List.getElem?_map, vals_get hz]; rfl
  · intro he
    simp [draw, mkSeries, he]
  · intro h
    rcases h with h | h
    · simp [draw, h]
    · simp only [draw, mkSeries, hfl h, posMarks, negMarks, allMarks]
      rw [hnone _ _ (by intro q hq; simp [hq]), hnone _ _ (by intro q hq; simp [hq]), hnone _ _ (by intro q hq; simp [hq])]
      simp
  · intro hm hu q
    simp only [draw, mkSeries, hm, if_true, hunfl hu]
    cases hlog : a.log
    · simp only [Bool.false_eq_true, if_false, allMarks, List.mem_filterMap]
      constructor
      · rintro ⟨p, hp, hq⟩
        obtain ⟨d, z, h1, h2, h3⟩ := (hmem p).1 hp
        rw [h3, Option.map_some] at hq
        have := Option.some.inj hq; subst this
        exact ⟨d, z, f z, h1, h2, (isComp_iff hf z _).2 rfl, by simp, rfl⟩
      · rintro ⟨d, z, v, h1, h2, h3, _, h5⟩
        rw [isComp_iff hf] at h3
        refine ⟨(q.1, some (f z)), (hmem _).2 ⟨d, z, h1, h2, rfl⟩, ?_⟩
        rw [Option.map_some, ← h3, ← h5]
    · simp only [if_true, posMarks, List.mem_filterMap]
      constructor
      · rintro ⟨p, hp, hq⟩
        obtain ⟨d, z, h1, h2, h3⟩ := (hmem p).1 hp
        rw [h3] at hq
        simp only at hq
        split at hq
        · rename_i h0
          have := Option.some.inj hq; subst this
          exact ⟨d, z, f z, h1, h2, (isComp_iff hf z _).2 rfl, fun _ => h0, abs_of_nonneg h0⟩
        · cases hq
      · rintro ⟨d, z, v, h1, h2, h3, h4, h5⟩
        rw [isComp_iff hf] at h3
        refine ⟨(q.1, some (f z)), (hmem _).2 ⟨d, z, h1, h2, rfl⟩, ?_⟩
        have h0 : 0 ≤ f z := by rw [← h3]; exact h4 trivial
        simp only [h0, if_true, abs_of_nonneg h0]
        rw [← h3, ← h5]
  · intro hm hu q
    simp only [draw, mkSeries, hm, Bool.true_and, hunfl hu]
    cases hlog : a.log
    · simp
    · simp only [if_true, negMarks, List.mem_filterMap, true_and]
      constructor
      · rintro ⟨p, hp, hq⟩
        obtain ⟨d, z, h1, h2, h3⟩ := (hmem p).1 hp
        rw [h3] at hq
        simp only at hq
        split at hq
        · rename_i h0
          have := Option.some.inj hq; subst this
          exact ⟨d, z, f z, h1, h2, (isComp_iff hf z _).2 rfl, h0, abs_of_neg h0⟩
        · cases hq
      · rintro ⟨d, z, v, h1, h2, h3, h4, h5⟩
        rw [isComp_iff hf] at h3
        refine ⟨(q.1, some (f z)), (hmem _).2 ⟨d, z, h1, h2, rfl⟩, ?_⟩
        have h0 : f z < 0 := by rw [← h3]; exact h4
        simp only [h0, if_true, abs_of_neg h0]
        rw [← h3, ← h5]
  · intro hm hu
    have hz : (x.zip (r.spec.map (fun z => some (f z)))).length = min x.length r.spec.length := by simp
    simp only [draw, mkSeries, hm, Bool.true_and, if_true, hunfl hu]
    have hsome : ∀ q ∈ x.zip (r.spec.map (fun z => some (f z))), ∃ v, q.2 = some v := by
      intro q hq
      obtain ⟨d, z, _, _, h3⟩ := (hmem q).1 hq
      exact ⟨_, h3⟩
    rw [← hz]
    generalize r.spec.map (fun z => some (f z)) = ys at hsome ⊢
    cases hlog : a.log
    · simp only [Bool.false_eq_true, if_false, List.length_nil, Nat.add_zero, allMarks]
      generalize x.zip ys = zs at hsome ⊢
      induction zs with
      | nil => rfl
      | cons q zs ih =>
        obtain ⟨v, hv⟩ := hsome q List.mem_cons_self
        rw [List.filterMap_cons, hv]
        simp only [Option.map_some, List.length_cons]
        rw [ih (fun q hq => hsome q (List.mem_cons_of_mem _ hq))]
    · simp only [if_true, posMarks, negMarks]
      generalize x.zip ys = zs at hsome ⊢
      induction zs with
      | nil => rfl
      | cons q zs ih =>
        obtain ⟨v, hv⟩ := hsome q List.mem_cons_self
        have ih := ih (fun q hq => hsome q (List.mem_cons_of_mem _ hq))
        rw [List.filterMap_cons, List.filterMap_cons, hv]
        by_cases h0 : 0 ≤ v
        · have h1 : ¬ v < 0 := not_lt.2 h0
          simp only [h0, h1, if_true, if_false, List.length_cons]
          omega
        · have h1 : v < 0 := not_le.1 h0
          simp only [h0, h1, if_true, if_false, List.length_cons]
          omega

/-- A successful call draws exactly one curve per integration of every requested baseline-pair (of the first of every group if averaged), in the order of the request;
each draws the integration's own values of the requested component at their own delays: blank if flagged, and with markers once each, filled if not negative
and empty if negative on a logarithmic scale, with its error bars if requested. -/
theorem C129_curves {a : Args} {ntimes : ℕ} {dlys kparas : List ℝ} {groups : List (List ℕ)} {data : ℕ → Option (List Row)} {fig : Figure}
    (h : spectrum a ntimes dlys kparas groups data = .ok fig) (hne : Asked a.avg groups ≠ []) :
    (∀ p ∈ Asked a.avg groups, data p.2 ≠ none) ∧
    List.Forall₂ (fun w c => Draws a (if a.delay then dlys.map (fun t => t * 1e9) else kparas) w.2 c) (Wanted a.avg groups data) fig.curves := by
  unfold spectrum at h
  split at h
  · cases h
  split at h
  · cases h
  split at h
  · cases h
  rename_i l hl
  split at h
  · cases h
  rename_i ti ls b hlab
  have := Except.ok.inj h; subst this
  obtain ⟨h1, h2⟩ := collect_ok hl
  refine ⟨fun p hp => (h1 p hp).1, ?_⟩
  obtain ⟨p0, hp0⟩ := List.exists_mem_of_ne_nil _ hne
  obtain ⟨f, hf⟩ : ∃ f, cast a.component = some f := by
    have := (h1 p0 hp0).2.2
    cases hc : a.component
    · exact ⟨_, rfl⟩
    · exact ⟨_, rfl⟩
    · exact ⟨_, rfl⟩
    · exact absurd hc this
  have he := (h1 p0 hp0).2.1
  have hlen := labels_length hlab
  have hx : xAxis a dlys kparas = (if a.delay then dlys.map (fun t => t * 1e9) else kparas) := by
    unfold xAxis; norm_num
  rw [← hx]
  have h2 := h2 f hf
  subst h2
  clear hlab hl h
  rw [List.length_map] at hlen
  show List.Forall₂ _ _ (List.map _ _)
  generalize Wanted a.avg groups data = W at hlen
  induction W generalizing ls with
  | nil => simp
  | cons w W ih =>
    cases ls with
    | nil => cases hlen
    | cons lab ls =>
      simp only [List.map_cons, List.zip_cons_cons]
      exact .cons (draw_draws a _ f hf he w.1 w.2 lab) (ih ls (by simpa using hlen))

/-! ### Title and labels -/

/-- A field takes more than one value over the plotted spectra. -/
def Varies (l : List Series) : Field → Prop
  | .spw => False
  | .blpair => ∃ s ∈ l, ∃ t ∈ l, s.grp ≠ t.grp
  | .pol => False
  | .lst => ∃ s ∈ l, ∃ t ∈ l, s.lst ≠ t.lst

/-- A printed field of a spectrum. LSTs are printed in hours, 0 to 24, to the nearest thousandth. -/
inductive Prints (spw : ℕ) (pol : ℕ × ℕ) (s : Series) : Field → Part → Prop
  | spw : Prints spw pol s .spw (.spw spw)
  | blpair : Prints spw pol s .blpair (.blpair s.grp)
  | pol : Prints spw pol s .pol (.pol pol)
  | lst (k : ℤ) (turns : ℤ) (h : ℝ) (h0 : 0 ≤ h) (h24 : h < 24) (e : s.lst * 12 / Real.pi = h + 24 * turns) (near : |h * 1000 - k| ≤ 1 / 2) :
      Prints spw pol s .lst (.lst k)

theorem dedup_one {α : Type*} [DecidableEq α] (l : List α) : 1 < l.dedup.length ↔ ∃ a ∈ l, ∃ b ∈ l, a ≠ b := by
  have hnd := List.nodup_dedup l
  have hm : ∀ a, a ∈ l.dedup ↔ a ∈ l := fun a => List.mem_dedup
  simp only [← hm]
  generalize l.dedup = d at hnd
  constructor
  · intro h
    match d, h with
    | a :: b :: d, _ =>
      refine ⟨a, by simp, b, by simp, ?_⟩
      rintro rfl
      simp at hnd
  · rintro ⟨a, ha, b, hb, hab⟩
    match d with
    | [] => cases ha
    | [c] => exact absurd ((List.mem_singleton.1 ha).trans (List.mem_singleton.1 hb).symm) hab
    | _ :: _ :: _ => simp

theorem varies_iff (l : List Series) (f : Field) : varies l f = true ↔ Varies l f := by
  cases f
  · simp [varies, Varies]
  · unfold varies Varies
    rw [decide_eq_true_eq, dedup_one]; simp
  · simp [varies, Varies]
  · unfold varies Varies
    rw [decide_eq_true_eq, dedup_one]; simp

theorem part_prints (spw : ℕ) (pol : ℕ × ℕ) (s : Series) (f : Field) : Prints spw pol s f (part spw pol s f) := by
  cases f
  · exact .spw
  · exact .blpair
  · exact .pol
  · have hpi := Real.pi_pos
    have h2 : 0 < 2 * Real.pi := by linarith
    have ha := Int.floor_le (s.lst / (2 * Real.pi))
    have hb := Int.lt_floor_add_one (s.lst / (2 * Real.pi))
    have ha' : ⌊s.lst / (2 * Real.pi)⌋ * (2 * Real.pi) ≤ s.lst := (le_div_iff₀ h2).1 ha
    have hb' : s.lst < (⌊s.lst / (2 * Real.pi)⌋ + 1) * (2 * Real.pi) := (div_lt_iff₀ h2).1 hb
    refine .lst _ ⌊s.lst / (2 * Real.pi)⌋ ((s.lst - ⌊s.lst / (2 * Real.pi)⌋ * (2 * Real.pi)) * 12 / Real.pi) ?_ ?_ ?_ ?_
    · apply div_nonneg _ hpi.le; linarith
    · rw [div_lt_iff₀ hpi]; linarith
    · field_simp; ring
    · exact abs_sub_round _

/-- The automatic title writes exactly the fields that all spectra share (not the baseline-pairs if averaged), with their common value; the label of each spectrum writes
exactly the fields that vary, with its own value; a legend is offered exactly if some field varies. -/
theorem C129_auto (avg : Bool) (spw : ℕ) (pol : ℕ × ℕ) (l : List Series) (hne : l ≠ []) :
    ∃ title labels, titleAndLabels true .auto avg spw pol l = .ok (title, labels, decide (∃ x ∈ labels, x ≠ Label.none)) ∧
      List.Forall₂ (fun f p => ∀ s ∈ l, Prints spw pol s f p)
        (open Classical in fields.filter (fun f => decide (¬ Varies l f ∧ ¬ (avg = true ∧ f = .blpair)))) title ∧
      List.Forall₂ (fun s lab => ((∃ f, Varies l f) → ∃ ps, lab = .auto ps ∧
          List.Forall₂ (Prints spw pol s) (open Classical in fields.filter (fun f => decide (Varies l f))) ps) ∧ ((¬ ∃ f, Varies l f) → lab = .none)) l labels := by
  classical
  cases l with
  | nil => exact absurd rfl hne
  | cons s0 l0 =>
    generalize hl : s0 :: l0 = l at *
    have hs0 : s0 ∈ l := by rw [← hl]; simp
    refine ⟨(titleFields avg l).map (part spw pol s0), l.map (autoLabel spw pol l), ?_, ?_, ?_⟩
    · unfold titleAndLabels
      simp only [Bool.true_eq_false, if_false, ne_eq, not_true_eq_false]
      subst hl
      simp only [Except.ok.injEq, Prod.mk.injEq, true_and]
      rw [Bool.eq_iff_iff, List.any_eq_true, decide_eq_true_eq]
      simp
    · have hfe : titleFields avg l = fields.filter (fun f => decide (¬ Varies l f ∧ ¬ (avg = true ∧ f = .blpair))) := by
        unfold titleFields
        apply List.filter_congr
        intro f _
        rw [Bool.eq_iff_iff, decide_eq_true_eq, Bool.and_eq_true, Bool.not_eq_true', Bool.not_eq_true', ← varies_iff]
        simp [Bool.and_eq_false_iff]
      rw [← hfe, List.forall₂_map_right_iff, List.forall₂_same]
      intro f hf s hs
      rw [hfe, List.mem_filter, decide_eq_true_eq] at hf
      have : part spw pol s0 f = part spw pol s f := by
        cases f
        · rfl
        · have : s0.grp = s.grp := by
            by_contra hc; exact hf.2.1 ⟨s0, hs0, s, hs, hc⟩
          simp [part, this]
        · rfl
        · have : s0.lst = s.lst := by
            by_contra hc; exact hf.2.1 ⟨s0, hs0, s, hs, hc⟩
          simp [part, this]
      rw [this]; exact part_prints _ _ _ _
    · rw [List.forall₂_map_right_iff, List.forall₂_same]
      intro s hs
      have hfe : fields.filter (varies l) = fields.filter (fun f => decide (Varies l f)) := by
        apply List.filter_congr
        intro f _
        rw [Bool.eq_iff_iff, decide_eq_true_eq, varies_iff]
      unfold autoLabel
      refine ⟨fun hv => ?_, fun hv => ?_⟩
      · obtain ⟨f, hf⟩ := hv
        have hmem : f ∈ fields.filter (varies l) := by
          rw [List.mem_filter, varies_iff]
          exact ⟨by cases f <;> simp [fields], hf⟩
        split
        · rename_i h0; rw [h0] at hmem; cases hmem
        · refine ⟨_, rfl, ?_⟩
          rw [← hfe, List.forall₂_map_right_iff, List.forall₂_same]
          intro f _
          exact part_prints _ _ _ _
      · split
        · rfl
        · rename_i h0
          exfalso
          cases hfs : fields.filter (varies l) with
          | nil => exact h0 hfs
          | cons f fs =>
            have : f ∈ fields.filter (varies l) := by rw [hfs]; simp
            rw [List.mem_filter, varies_iff] at this
            exact hv ⟨f, this.2⟩

theorem autoLabel_eq {spw : ℕ} {pol : ℕ × ℕ} {l : List Series} {s t : Series} (hs : s ∈ l) (ht : t ∈ l)
    (h : autoLabel spw pol l s = autoLabel spw pol l t) : s.grp = t.grp ∧ lstLabel s.lst = lstLabel t.lst := by
  have key : ∀ f, Varies l f → part spw pol s f = part spw pol t f := by
    intro f hf
    have hmem : f ∈ fields.filter (varies l) := by
      rw [List.mem_filter, varies_iff]
      exact ⟨by cases f <;> simp [fields], hf⟩
    unfold autoLabel at h
    split at h
    · rename_i h0; rw [h0] at hmem; cases hmem
    · simp only [Label.auto.injEq] at h
      exact List.map_inj_left.1 h f hmem
  constructor
  · by_contra hc
    have := key .blpair ⟨s, hs, t, ht, hc⟩
    simp only [part, Part.blpair.injEq] at this
    exact hc this
  · by_contra hc
    have hl : s.lst ≠ t.lst := fun hx => hc (by rw [hx])
    have := key .lst ⟨s, hs, t, ht, hl⟩
    simp only [part, Part.lst.injEq] at this
    exact hc this

/-- Automatic labels tell apart spectra of different groups, and spectra whose LSTs (in the same turn) differ by more than a thousandth of an hour. -/
theorem C129_labels_distinguish (avg : Bool) (spw : ℕ) (pol : ℕ × ℕ) (l : List Series) (title : List Part) (labels : List Label) (b : Bool)
    (h : titleAndLabels true .auto avg spw pol l = .ok (title, labels, b)) (i j : ℕ) (s t : Series) (x : Label) (hs : l[i]? = some s) (ht : l[j]? = some t)
    (hi : labels[i]? = some x) (hj : labels[j]? = some x) :
    s.grp = t.grp ∧ (0 ≤ s.lst → s.lst < 2 * Real.pi → 0 ≤ t.lst → t.lst < 2 * Real.pi → |s.lst - t.lst| * 12 / Real.pi ≤ 1 / 1000) := by
  have hpi := Real.pi_pos
  have hlab : labels = l.map (autoLabel spw pol l) := by
    unfold titleAndLabels at h
    simp only [Bool.true_eq_false, if_false, ne_eq, not_true_eq_false] at h
    cases l with
    | nil => simp at hs
    | cons a l => simp only [Except.ok.injEq, Prod.mk.injEq] at h; exact h.2.1.symm
  rw [hlab, List.getElem?_map, hs, Option.map_some] at hi
  rw [hlab, List.getElem?_map, ht, Option.map_some] at hj
  have hx := autoLabel_eq (List.mem_of_getElem? hs) (List.mem_of_getElem? ht) ((Option.some.inj hi).trans (Option.some.inj hj).symm)
  refine ⟨hx.1, fun h1 h2 h3 h4 => ?_⟩
  have fl : ∀ y : ℝ, 0 ≤ y → y < 2 * Real.pi → ⌊y / (2 * Real.pi)⌋ = 0 := by
    intro y h0 h1
    rw [Int.floor_eq_zero_iff]
    refine ⟨div_nonneg h0 (by linarith), ?_⟩
    rw [div_lt_one (by linarith)]; exact h1
  have e := hx.2
  unfold lstLabel at e
  rw [fl _ h1 h2, fl _ h3 h4] at e
  simp only [Int.cast_zero, zero_mul, sub_zero] at e
  have ha := abs_sub_round (s.lst * 12 / Real.pi * 1000)
  have hb := abs_sub_round (t.lst * 12 / Real.pi * 1000)
  rw [e] at ha
  have hd : |s.lst * 12 / Real.pi * 1000 - t.lst * 12 / Real.pi * 1000| ≤ 1 := by
    rw [abs_le] at ha hb ⊢
    constructor <;> linarith [ha.1, ha.2, hb.1, hb.2]
  have he : s.lst * 12 / Real.pi * 1000 - t.lst * 12 / Real.pi * 1000 = (s.lst - t.lst) * (12 / Real.pi * 1000) := by ring
  rw [he, abs_mul, abs_of_pos (show 0 < 12 / Real.pi * 1000 by positivity)] at hd
  have : |s.lst - t.lst| * 12 / Real.pi = |s.lst - t.lst| * (12 / Real.pi * 1000) / 1000 := by ring
  rw [this]
  linarith

/-- Manual labels: every spectrum is labelled by what was asked for; unknown types are refused. -/
theorem C129_manual (t : LabelType) (ht : t ≠ .auto) (avg : Bool) (spw : ℕ) (pol : ℕ × ℕ) (l : List Series) (title : List Part) (labels : List Label) (b : Bool)
    (h : titleAndLabels true t avg spw pol l = .ok (title, labels, b)) :
    title = [] ∧ List.Forall₂ (fun s x => match t with
      | .key => x = .key spw s.grp pol
      | .blpair => x = .blpair s.grp
      | .blpairt => ∃ k : ℤ, x = .blpairt s.grp k ∧ |s.t * 100000 - (k : ℝ)| ≤ (1 / 2 : ℝ)
      | _ => False) l labels := by
  unfold titleAndLabels at h
  rw [if_neg (by simp), if_pos ht] at h
  split at h
  · cases h
  · rename_i ls hls
    cases h
    refine ⟨rfl, ?_⟩
    rw [UVP.mapE_ok_iff] at hls
    refine hls.imp (fun s x hx => ?_)
    unfold manual at hx
    cases t <;> simp only [Except.ok.injEq, reduceCtorEq] at hx ⊢
    · exact hx.symm
    · exact hx.symm
    · exact ⟨_, hx.symm, abs_sub_round _⟩

/-- Without `title_legend` nothing is written. -/
theorem C129_no_title (t : LabelType) (avg : Bool) (spw : ℕ) (pol : ℕ × ℕ) (l : List Series) :
    titleAndLabels false t avg spw pol l = .ok ([], List.replicate l.length .none, false) := by
  unfold titleAndLabels
  rw [if_pos rfl]
  congr 2
  rw [List.map_const']

/-- The figure has the title of the spectra drawn and, if lines or markers are drawn, every curve its own label; a legend only if asked for and there is something to tell. -/
theorem C129_figure_labels {a : Args} {ntimes : ℕ} {dlys kparas : List ℝ} {groups : List (List ℕ)} {data : ℕ → Option (List Row)} {fig : Figure}
    (h : spectrum a ntimes dlys kparas groups data = .ok fig) (hc : a.component ≠ .other) :
    ∃ (l : List Series) (labels : List Label) (b : Bool),
      List.Forall₂ (fun w s => s.grp = w.1.1 ∧ s.lst = w.2.lst ∧ s.t = w.2.time) (Wanted a.avg groups data) l ∧
      titleAndLabels a.titleLegend a.labelType a.avg a.spw a.pol l = .ok (fig.title, labels, b) ∧
      ((a.lines || a.markers) = true → fig.curves.map (·.label) = labels) ∧ fig.hasLegend = (a.legend && b) := by
  unfold spectrum at h
  split at h
  · cases h
  split at h
  · cases h
  split at h
  · cases h
  rename_i l hl
  split at h
  · cases h
  rename_i ti ls b hlab
  have := Except.ok.inj h; subst this
  obtain ⟨f, hf⟩ : ∃ f, cast a.component = some f := by
    cases hx : a.component
    · exact ⟨_, rfl⟩
    · exact ⟨_, rfl⟩
    · exact ⟨_, rfl⟩
    · exact absurd hx hc
  refine ⟨l, ls, b, ?_, hlab, fun hd => ?_, rfl⟩
  · rw [(collect_ok hl).2 f hf, List.forall₂_map_right_iff, List.forall₂_same]
    exact fun w _ => ⟨rfl, rfl, rfl⟩
  · have hlen := labels_length hlab
    show ((l.zip ls).map _).map _ = ls
    rw [List.map_map]
    have : ((fun c : Drawn => c.label) ∘ fun p : Series × Label => draw a.lines a.markers a.log (xAxis a dlys kparas) p.1 p.2) = fun p => p.2 := by
      funext p
      show (if a.lines || a.markers then p.2 else Label.none) = p.2
      rw [if_pos hd]
    rw [this]
    exact List.map_snd_zip (by omega)

/-! ### Size, refusals and findings -/

theorem collect_exists {avg : Bool} {c : Component} {e : ErrArg} {data : ℕ → Option (List Row)} {groups : List (List ℕ)}
    (hc : c ≠ .other) (he : e ≠ .missing) (hd : ∀ p ∈ Asked avg groups, data p.2 ≠ none) : ∃ l, collect avg c e data groups = .ok l := by
  unfold collect
  rw [members_asked]
  obtain ⟨r, hr⟩ := UVP.mapE_exists (f := fun p : List ℕ × ℕ => seriesOf c e data p.1 p.2) (l := Asked avg groups) (by
    intro p hp
    obtain ⟨rows, hrows⟩ := Option.ne_none_iff_exists'.1 (hd p hp)
    unfold seriesOf
    simp only [hrows, if_neg he]
    cases c
    · exact ⟨_, rfl⟩
    · exact ⟨_, rfl⟩
    · exact ⟨_, rfl⟩
    · exact absurd rfl hc)
  rw [hr]; exact ⟨_, rfl⟩

/-- What is asked for is plotted: a call with a known component, existing statistics and baseline-pairs and a known label type succeeds if it is small or forced. -/
theorem C129_accepts (a : Args) (ntimes : ℕ) (dlys kparas : List ℝ) (groups : List (List ℕ)) (data : ℕ → Option (List Row))
    (hc : a.component ≠ .other) (he : a.error ≠ .missing) (hs : a.statsOk = true) (ht : a.titleLegend = false ∨ a.labelType ≠ .other)
    (hd : ∀ p ∈ Asked a.avg groups, data p.2 ≠ none) (hn : a.force = true ∨ ntimes * groups.length ≤ 100) :
    ∃ fig, spectrum a ntimes dlys kparas groups data = .ok fig := by
  obtain ⟨l, hl⟩ := collect_exists hc he hd
  obtain ⟨q, hq⟩ : ∃ q, titleAndLabels a.titleLegend a.labelType a.avg a.spw a.pol l = .ok q := by
    unfold titleAndLabels
    split
    · exact ⟨_, rfl⟩
    · rename_i h1
      split
      · rename_i h2
        obtain ⟨r, hr⟩ := UVP.mapE_exists (f := manual a.labelType a.spw a.pol) (l := l) (by
          intro s _
          have h3 := ht.resolve_left h1
          unfold manual
          cases hlt : a.labelType
          · exact absurd hlt h2
          · exact ⟨_, rfl⟩
          · exact ⟨_, rfl⟩
          · exact ⟨_, rfl⟩
          · exact absurd hlt h3)
        rw [hr]; exact ⟨_, rfl⟩
      · split <;> exact ⟨_, rfl⟩
  unfold spectrum
  rw [if_neg, if_neg (by simp [hs]), hl]
  · simp only [hq]
    exact ⟨_, rfl⟩
  · rintro ⟨h1, h2⟩
    rcases hn with h | h
    · rw [h] at h2; cases h2
    · omega

/-- Refused: unknown components, baseline-pairs without data, missing statistics. -/
theorem C129_refused (a : Args) (ntimes : ℕ) (dlys kparas : List ℝ) (groups : List (List ℕ)) (data : ℕ → Option (List Row))
    (h : a.statsOk = false ∨ ∃ p ∈ Asked a.avg groups, a.component = .other ∨ a.error = .missing ∨ data p.2 = none) :
    ∃ e, spectrum a ntimes dlys kparas groups data = .error e := by
  cases hsp : spectrum a ntimes dlys kparas groups data with
  | error e => exact ⟨e, rfl⟩
  | ok fig =>
    exfalso
    unfold spectrum at hsp
    split at hsp
    · cases hsp
    split at hsp
    · cases hsp
    rename_i hs
    split at hsp
    · cases hsp
    rename_i l hl
    rcases h with h | ⟨p, hp, h⟩
    · exact hs h
    · obtain ⟨h1, h2, h3⟩ := (collect_ok hl).1 p hp
      rcases h with h | h | h
      · exact h3 h
      · exact h2 h
      · exact h1 h

/-- At most 100 spectra are drawn unless forced, if the baseline-pairs are averaged or every group is a single one, and no baseline-pair has more times than the object.
Missing: larger groups drawn without averaging (`C129_counterexample_size`). -/
theorem C129_size_partial {a : Args} {ntimes : ℕ} {dlys kparas : List ℝ} {groups : List (List ℕ)} {data : ℕ → Option (List Row)} {fig : Figure}
    (h : spectrum a ntimes dlys kparas groups data = .ok fig) (hf : a.force = false) (hg : a.avg = true ∨ ∀ g ∈ groups, g.length ≤ 1)
    (hrows : ∀ b rows, data b = some rows → rows.length ≤ ntimes) : (Wanted a.avg groups data).length ≤ 100 := by
  have hlen : ntimes * groups.length ≤ 100 := by
    unfold spectrum at h
    split at h
    · cases h
    · rename_i hc
      by_contra hx
      exact hc ⟨by omega, hf⟩
  have hask : (Asked a.avg groups).length ≤ groups.length := by
    unfold Asked
    split
    · exact List.length_filterMap_le _ _
    · rename_i ha
      replace hg := hg.resolve_left ha
      clear hlen h
      induction groups with
      | nil => simp
      | cons g l ih =>
        have h1 := hg g (by simp)
        have h2 := ih (fun g hgm => hg g (by simp [hgm]))
        simp only [List.flatMap_cons, List.length_append, List.length_map, List.length_cons] at h2 ⊢
        omega
  have hw : (Wanted a.avg groups data).length ≤ (Asked a.avg groups).length * ntimes := by
    unfold Wanted
    generalize Asked a.avg groups = ps
    induction ps with
    | nil => simp
    | cons p ps ih =>
      simp only [List.flatMap_cons, List.length_append, List.length_map, List.length_cons]
      have : ((data p.2).getD []).length ≤ ntimes := by
        cases hd : data p.2 with
        | none => simp
        | some rows => exact hrows _ _ hd
      have := Nat.add_mul ps.length 1 ntimes
      omega
  calc _ ≤ _ := hw
    _ ≤ groups.length * ntimes := Nat.mul_le_mul_right _ hask
    _ = ntimes * groups.length := Nat.mul_comm _ _
    _ ≤ 100 := hlen

/-- Settings for the examples. -/
def exArgs : Args := ⟨false, false, .real, .no, true, true, .auto, true, true, false, true, true, false, 0, (5, 5)⟩

/-- The check of the size counts groups: 101 baseline-pairs in one group are drawn without complaint. -/
theorem C129_counterexample_size : ∃ (groups : List (List ℕ)) (data : ℕ → Option (List Row)) (fig : Figure), spectrum exArgs 1 [0] [0] groups data = .ok fig ∧
    101 ≤ fig.curves.length ∧ ∀ b rows, data b = some rows → rows.length ≤ 1 := by
  have hask : Asked exArgs.avg [List.range 101] = (List.range 101).map (fun b => (List.range 101, b)) := by
    unfold Asked exArgs; simp
  obtain ⟨fig, hfig⟩ := C129_accepts exArgs 1 [0] [0] [List.range 101] (fun _ => some [⟨[1], [], 1, 0, 0⟩]) (by simp [exArgs]) (by simp [exArgs]) rfl
    (by simp [exArgs]) (by simp) (by simp)
  refine ⟨_, _, fig, hfig, ?_, ?_⟩
  · have hne : Asked exArgs.avg [List.range 101] ≠ [] := by rw [hask]; simp
    have := (C129_curves hfig hne).2.length_eq
    rw [← this]
    unfold Wanted
    rw [hask]
    simp [Function.comp_def]
  · intro b rows h
    have := Option.some.inj h; subst this; simp

/-- Two baseline-pairs of one group, not averaged: their spectra have the same label. -/
theorem C129_counterexample_group_label : ∃ c d : Drawn, ∃ t, ∃ lg ds, spectrum { exArgs with labelType := .blpair } 1 [0] [0] [[1, 2]]
    (fun b => some [⟨[b], [], 1, 0, 0⟩]) = .ok ⟨[c, d], t, lg, ds⟩ ∧ c.label = d.label := ⟨_, _, _, _, _, rfl, rfl⟩

/-- In delay units Delta^2 is ignored, as documented, but the y axis says Delta^2. -/
theorem C129_finding_deltasq_label (process : Bool → ℕ × List ℝ × List ℝ × (ℕ → Option (List Row))) (a : Args) (hd : a.delay = true) (groups : List (List ℕ)) (fig : Figure)
    (h : delaySpectrum process { a with deltasq := true } groups = .ok fig) :
    fig.saysDeltaSq = true ∧ ∃ fig', delaySpectrum process { a with deltasq := false } groups = .ok fig' ∧ fig'.curves = fig.curves := by
  unfold delaySpectrum at h ⊢
  simp only [hd, Bool.not_true, Bool.and_false] at h ⊢
  unfold spectrum at h ⊢
  split at h
  · cases h
  rename_i h1
  split at h
  · cases h
  rename_i h2
  split at h
  · cases h
  rename_i l hl
  split at h
  · cases h
  rename_i ti ls b hlab
  have := Except.ok.inj h; subst this
  refine ⟨rfl, ?_⟩
  rw [if_neg h1, if_neg h2]
  simp only at hl hlab
  simp only [hl, hlab]
  exact ⟨_, rfl, rfl⟩

/-- With Delta^2 in cosmological units the object is converted and the axis says so; otherwise neither. -/
theorem C129_deltasq (process : Bool → ℕ × List ℝ × List ℝ × (ℕ → Option (List Row))) (a : Args) (hd : a.delay = false) (groups : List (List ℕ)) (fig : Figure)
    (h : delaySpectrum process a groups = .ok fig) : fig.saysDeltaSq = a.deltasq ∧
      spectrum a (process a.deltasq).1 (process a.deltasq).2.1 (process a.deltasq).2.2.1 groups (process a.deltasq).2.2.2 = .ok fig := by
  unfold delaySpectrum at h
  simp only [hd, Bool.not_false, Bool.and_true] at h
  refine ⟨?_, h⟩
  unfold spectrum at h
  split at h
  · cases h
  split at h
  · cases h
  split at h
  · cases h
  split at h
  · cases h
  have := Except.ok.inj h; subst this
  rfl

/-- Two groups at two times, real component, logarithmic, one integration flagged: the hypotheses of `C129_curves` are met. -/
example : ∃ fig, spectrum { exArgs with markers := true } 2 [0, 1] [0, 1] [[1], [2]]
    (fun b => if b = 1 then some [⟨[1, -1], [], 1, 0, 0⟩, ⟨[2, 3], [], 0, 1, 1⟩] else some [⟨[1, 5], [], 1, 0, 0⟩]) = .ok fig ∧ fig.curves.length = 3 ∧
    Asked exArgs.avg [[1], [2]] ≠ [] := ⟨_, rfl, rfl, by decide⟩

end HeraPspec.PlotSpec
