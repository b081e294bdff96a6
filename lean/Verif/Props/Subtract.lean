import Verif.Lemmas.Subtract
import Mathlib.Tactic.Ring
import Mathlib.Tactic.FieldSimp
import Mathlib.Tactic.NormNum
import Mathlib.Tactic.Positivity

/-! C75: `subtract_uvp`. -/
namespace HeraPspec.Subtract

variable {R : Type} [DecidableEq R]

/-! Specification. -/

/-- `c` is the quadrature sum of `a` and `b`. -/
def Quad (a b c : ℝ) : Prop := 0 ≤ c ∧ c ^ 2 = a ^ 2 + b ^ 2

/-- `c` is the inverse quadrature sum of `a` and `b` (zero if one of them is). -/
def InvQuad (a b c : ℝ) : Prop := 0 ≤ c ∧ (a ≠ 0 → b ≠ 0 → 1 / c ^ 2 = 1 / a ^ 2 + 1 / b ^ 2) ∧ (a = 0 ∨ b = 0 → c = 0)

/-- Row `r2` of the second object is the one matched with row `r` of the first: same baseline-pair, and the same position among
the rows of that pair unless the second object has just one. -/
def Matched (u1 u2 : Obj R) (r r2 : ℕ) : Prop :=
  ∃ x, u1.blp[r]? = some x ∧ u2.blp[r2]? = some x ∧ (u2.blp.count x = 1 ∨ (u2.blp.take r2).count x = (u1.blp.take r).count x)

theorem quad_spec (a b : ℝ) : Quad a b (quad a b) := by
  unfold Quad quad
  exact ⟨Real.sqrt_nonneg _, Real.sq_sqrt (by positivity)⟩

theorem invQuad_spec (a b : ℝ) : InvQuad a b (invQuad a b) := by
  unfold InvQuad invQuad
  refine ⟨?_, ?_, ?_⟩
  · split
    · exact le_refl _
    · exact Real.sqrt_nonneg _
  · intro ha hb
    rw [if_neg (by tauto), Real.sq_sqrt (by positivity), one_div_one_div]
  · intro h; rw [if_pos h]

/-- A quadrature sum is at least as large as either error. -/
theorem Quad.ge {a b c : ℝ} (h : Quad a b c) : |a| ≤ c ∧ |b| ≤ c := by
  obtain ⟨h0, h1⟩ := h
  exact ⟨abs_le_of_sq_le_sq (by nlinarith [sq_nonneg b]) h0, abs_le_of_sq_le_sq (by nlinarith [sq_nonneg a]) h0⟩

/-- An inverse quadrature sum is at most either number. -/
theorem InvQuad.le {a b c : ℝ} (h : InvQuad a b c) : c ≤ |a| ∧ c ≤ |b| := by
  obtain ⟨h0, h1, h2⟩ := h
  by_cases hz : a = 0 ∨ b = 0
  · rw [h2 hz]; exact ⟨abs_nonneg _, abs_nonneg _⟩
  · push Not at hz
    have e := h1 hz.1 hz.2
    have pa : 0 < a ^ 2 := by have := hz.1; positivity
    have pb : 0 < b ^ 2 := by have := hz.2; positivity
    have hc : 0 < c ^ 2 := by
      by_contra hc
      have : c ^ 2 = 0 := le_antisymm (not_lt.1 hc) (sq_nonneg c)
      rw [this] at e
      have : 0 < 1 / a ^ 2 + 1 / b ^ 2 := by positivity
      simp only [div_zero] at e
      linarith
    have la : c ^ 2 ≤ a ^ 2 := by
      rw [← one_div_le_one_div pa hc, e]
      have : 0 < 1 / b ^ 2 := by positivity
      linarith
    have lb : c ^ 2 ≤ b ^ 2 := by
      rw [← one_div_le_one_div pb hc, e]
      have : 0 < 1 / a ^ 2 := by positivity
      linarith
    exact ⟨le_of_sq_le_sq' la h0, le_of_sq_le_sq' lb h0⟩
where
  le_of_sq_le_sq' {a c : ℝ} (h : c ^ 2 ≤ a ^ 2) (h0 : 0 ≤ c) : c ≤ |a| := by
    rw [← sq_abs a] at h
    exact le_of_sq_le_sq h (abs_nonneg a)
  le_of_sq_le_sq {a c : ℝ} (h : c ^ 2 ≤ a ^ 2) (h0 : 0 ≤ a) : c ≤ a := by
    nlinarith [abs_nonneg a]

theorem get_mapsnd {α β : Type} (l : Dict String α) (g : α → β) (n : String) :
    Dict.get (l.map (fun x => (x.1, g x.2))) n = (Dict.get l n).map g := by
  induction l with
  | nil => rfl
  | cons e l ih =>
    simp only [List.map_cons, Dict.get_cons, ih]
    split <;> rfl

/-- Statistics of a cell after the pass that touches it. -/
private theorem stats_at {i j i2 j2 : ℕ} {r1 r2 : List ℕ} {d2 d1 d : Dict String (Arr ℂ)} (h : updStats i j i2 j2 r1 r2 d2 d1 = .ok d)
    {n : String} {a b : Arr ℂ} (ha : Dict.get d1 n = some a) (hb : Dict.get d2 n = some b) :
    Dict.get d n = some (upd quadC i j i2 j2 r1 r2 a b) := by
  have hf := updStats_ok h
  clear h
  induction hf with
  | nil => simp at ha
  | cons hx _ ih =>
    obtain ⟨h1, b', hb', h2⟩ := hx
    rw [Dict.get_cons] at ha ⊢
    rw [h1]
    split at ha
    · rename_i e
      rw [if_pos e, h2]
      rw [e, hb] at hb'
      rw [Option.some.inj ha, Option.some.inj hb']
    · rename_i e
      rw [if_neg e]
      exact ih ha

/-- What a successful subtraction stores for window `s`, row `r` and polarization-pair position `p`: the difference of the two
objects' data for the same window range, baseline-pair and polarization-pair; quadrature sums of every statistic, real and
imaginary part separately; inverse quadrature sums of sample counts and integration times.
Missing from C75: success whenever there is a common key (see `C75_finding_uncommon_polpair_raises`). -/
theorem C75_combines_partial {u1 u2 v : Obj R} (h : subtract u1 u2 = .ok v) {s p r : ℕ} (hs : s < u1.ranges.length) (hp : p < u1.pols.length)
    (hr : r < u1.blp.length) :
    ∃ s2 p2 r2, u2.ranges[s2]? = u1.ranges[s]? ∧ u2.pols[p2]? = u1.pols[p]? ∧ Matched u1 u2 r r2 ∧
      (∀ d, v.data s r d p = u1.data s r d p - u2.data s2 r2 d p2) ∧
      (∀ d, InvQuad (u1.nsample s r d p) (u2.nsample s2 r2 d p2) (v.nsample s r d p)) ∧
      (∀ d, InvQuad (u1.integ s r d p) (u2.integ s2 r2 d p2) (v.integ s r d p)) ∧
      (∀ d1 d2 n a b, u1.stats = some d1 → u2.stats = some d2 → Dict.get d1 n = some a → Dict.get d2 n = some b →
        ∃ dv c, v.stats = some dv ∧ Dict.get dv n = some c ∧
          ∀ d, Quad (a s r d p).re (b s2 r2 d p2).re (c s r d p).re ∧ Quad (a s r d p).im (b s2 r2 d p2).im (c s r d p).im) ∧
      (∀ d1 d2 m re1 im1 re2 im2, u1.stats = some d1 → u2.stats = some d2 → u1.cov = some (m, re1, im1) → u2.cov = some (m, re2, im2) →
        ∃ re im, v.cov = some (m, re, im) ∧
          ∀ d, Quad (re1 s r d p) (re2 s2 r2 d p2) (re s r d p) ∧ Quad (im1 s r d p) (im2 s2 r2 d p2) (im s r d p)) ∧
      (∀ w1 w2, u1.window = some w1 → u2.window = some w2 →
        ∃ w, v.window = some w ∧ ∀ d, Quad (w1 s r d p) (w2 s2 r2 d p2) (w s r d p)) := by
  have hx : u1.blp[r]? = some u1.blp[r] := List.getElem?_eq_getElem hr
  obtain ⟨a, b, ma, hstep, mv, hc⟩ := subtract_key h hs hp (List.getElem_mem hr)
  obtain ⟨ca, cv⟩ := hc r hx
  obtain ⟨rg, pp, e1, e2, e3, e4, e5, _, e7, hrel⟩ := stepKey_ok hstep
  rw [ma.1] at e1
  rw [ma.2.1] at e2
  rw [ma.2.2.1] at e7 hrel
  have hmem : r ∈ rowsOf u1.blp u1.blp[r] := mem_rowsOf.2 hx
  obtain ⟨q1, q2⟩ := partner_spec hx e7
  generalize hr2 : partner (rowsOf u1.blp u1.blp[r]) (rowsOf u2.blp u1.blp[r]) r = r2 at q1 q2
  have hd : ∀ d, v.data s r d p = b.data s r d p := fun d => congrFun (congrArg Cell.data cv) d
  have hn : ∀ d, v.nsample s r d p = b.nsample s r d p := fun d => congrFun (congrArg Cell.nsample cv) d
  have hi : ∀ d, v.integ s r d p = b.integ s r d p := fun d => congrFun (congrArg Cell.integ cv) d
  have hda : ∀ d, a.data s r d p = u1.data s r d p := fun d => congrFun (congrArg Cell.data ca) d
  have hna : ∀ d, a.nsample s r d p = u1.nsample s r d p := fun d => congrFun (congrArg Cell.nsample ca) d
  have hia : ∀ d, a.integ s r d p = u1.integ s r d p := fun d => congrFun (congrArg Cell.integ ca) d
  refine ⟨u2.ranges.idxOf rg, u2.pols.idxOf pp, r2, ?_, ?_, ⟨_, hx, q1, q2⟩, ?_, ?_, ?_, ?_, ?_, ?_⟩
  · rw [e1, List.getElem?_eq_getElem (List.idxOf_lt_length_of_mem e3)]; simp
  · have : pp ∈ u2.pols := List.count_pos_iff.1 (by omega)
    rw [e2, List.getElem?_eq_getElem (List.idxOf_lt_length_of_mem this)]; simp
  · intro d
    have := congrFun (upd_at (fun x y => x - y) a.data u2.data hmem (i := s) (j := p) (i2 := u2.ranges.idxOf rg) (j2 := u2.pols.idxOf pp)
      (r2 := rowsOf u2.blp u1.blp[r])) d
    rw [hd, hrel.data, this, hda, hr2]
  · intro d
    have := congrFun (upd_at invQuad a.nsample u2.nsample hmem (i := s) (j := p) (i2 := u2.ranges.idxOf rg) (j2 := u2.pols.idxOf pp)
      (r2 := rowsOf u2.blp u1.blp[r])) d
    rw [hn, hrel.nsample, this, hna, hr2]
    exact invQuad_spec _ _
  · intro d
    have := congrFun (upd_at invQuad a.integ u2.integ hmem (i := s) (j := p) (i2 := u2.ranges.idxOf rg) (j2 := u2.pols.idxOf pp)
      (r2 := rowsOf u2.blp u1.blp[r])) d
    rw [hi, hrel.integ, this, hia, hr2]
    exact invQuad_spec _ _
  · intro d1 d2 n f g h1 h2 hf hg
    have csa := congrArg Cell.stats ca
    have csv := congrArg Cell.stats cv
    simp only [cell] at csa csv
    rw [h1] at csa
    cases hsa : a.stats with
    | none => rw [hsa] at csa; simp at csa
    | some da =>
      rw [hsa] at csa
      simp only [Option.map_some, Option.some.injEq] at csa
      have hga := congrArg (fun l => Dict.get l n) csa
      simp only [get_mapsnd da (fun x d => x s r d p), get_mapsnd d1 (fun x d => x s r d p), hf, Option.map_some] at hga
      obtain ⟨fa, hfa, hfe⟩ := Option.map_eq_some_iff.1 hga
      rcases hrel.errors with ⟨d1', d2', db, x1, x2, x3, x4, _⟩ | ⟨x1, _⟩
      · rw [hsa] at x1
        rw [h2] at x2
        cases x1; cases x2
        have hgb := stats_at x4 hfa hg
        rw [x3] at csv
        cases hsv : v.stats with
        | none => rw [hsv] at csv; simp at csv
        | some dv =>
          rw [hsv] at csv
          simp only [Option.map_some, Option.some.injEq] at csv
          have hgv := congrArg (fun l => Dict.get l n) csv
          simp only [get_mapsnd dv (fun x d => x s r d p), get_mapsnd db (fun x d => x s r d p), hgb, Option.map_some] at hgv
          obtain ⟨c, hgc, hce⟩ := Option.map_eq_some_iff.1 hgv
          refine ⟨dv, c, rfl, hgc, fun d => ?_⟩
          have hval : c s r d p = quadC (f s r d p) (g (u2.ranges.idxOf rg) r2 d (u2.pols.idxOf pp)) := by
            rw [congrFun hce d]
            have := congrFun (upd_at quadC fa g hmem (i := s) (j := p) (i2 := u2.ranges.idxOf rg) (j2 := u2.pols.idxOf pp)
              (r2 := rowsOf u2.blp u1.blp[r])) d
            rw [this, hr2, congrFun hfe d]
          rw [hval]
          exact ⟨quad_spec _ _, quad_spec _ _⟩
      · exfalso
        rw [hsa, h2] at x1
        simp at x1
  · intro d1 d2 m re1 im1 re2 im2 h1 h2 hc1 hc2
    have csa := congrArg Cell.stats ca
    have cca := congrArg Cell.cov ca
    have ccv := congrArg Cell.cov cv
    simp only [cell] at csa cca ccv
    rw [h1] at csa
    rw [hc1] at cca
    have hsa : a.stats ≠ none := by intro e; rw [e] at csa; simp at csa
    have hca : ∃ rea ima, a.cov = some (m, rea, ima) ∧ (fun d => rea s r d p) = (fun d => re1 s r d p) ∧ (fun d => ima s r d p) = (fun d => im1 s r d p) := by
      cases hac : a.cov with
      | none => rw [hac] at cca; simp at cca
      | some x =>
        obtain ⟨m', rea, ima⟩ := x
        rw [hac] at cca
        simp only [Option.map_some, Option.some.injEq, Prod.mk.injEq] at cca
        obtain ⟨k1, k2, k3⟩ := cca
        exact ⟨rea, ima, by rw [k1], k2, k3⟩
    obtain ⟨rea, ima, k1, k2, k3⟩ := hca
    rcases hrel.errors with ⟨d1', d2', db, x1, x2, x3, x4, x5⟩ | ⟨x1, _⟩
    · rcases x5 with ⟨m', re', im', m2', re2', im2', y1, y2, y3⟩ | ⟨y1, _⟩
      · rw [k1] at y1
        rw [hc2] at y2
        cases y1; cases y2
        rw [if_pos rfl] at y3
        rw [y3] at ccv
        cases hvc : v.cov with
        | none => rw [hvc] at ccv; simp at ccv
        | some x =>
          obtain ⟨mv', rev, imv⟩ := x
          rw [hvc] at ccv
          simp only [Option.map_some, Option.some.injEq, Prod.mk.injEq] at ccv
          obtain ⟨z1, z2, z3⟩ := ccv
          refine ⟨rev, imv, by rw [z1], fun d => ?_⟩
          have t1 := congrFun (upd_at quad rea re2 hmem (i := s) (j := p) (i2 := u2.ranges.idxOf rg) (j2 := u2.pols.idxOf pp)
              (r2 := rowsOf u2.blp u1.blp[r])) d
          have t2 := congrFun (upd_at quad ima im2 hmem (i := s) (j := p) (i2 := u2.ranges.idxOf rg) (j2 := u2.pols.idxOf pp)
              (r2 := rowsOf u2.blp u1.blp[r])) d
          have w1 := congrFun z2 d
          have w2 := congrFun z3 d
          rw [w1, w2, t1, t2, hr2, congrFun k2 d, congrFun k3 d]
          exact ⟨quad_spec _ _, quad_spec _ _⟩
      · rw [k1, hc2] at y1; simp at y1
    · exfalso
      rcases x1 with x1 | x1
      · exact hsa x1
      · rw [h2] at x1; cases x1
  · intro w1 w2 h1 h2
    have cwa := congrArg Cell.window ca
    have cwv := congrArg Cell.window cv
    simp only [cell] at cwa cwv
    rw [h1] at cwa
    cases hwa : a.window with
    | none => rw [hwa] at cwa; simp at cwa
    | some wa =>
      rw [hwa] at cwa
      simp only [Option.map_some, Option.some.injEq] at cwa
      rcases hrel.window with ⟨f, g, x1, x2, x3⟩ | ⟨x1, _⟩
      · rw [hwa] at x1; rw [h2] at x2
        cases x1; cases x2
        rw [x3] at cwv
        cases hwv : v.window with
        | none => rw [hwv] at cwv; simp at cwv
        | some wv =>
          rw [hwv] at cwv
          simp only [Option.map_some, Option.some.injEq] at cwv
          refine ⟨wv, rfl, fun d => ?_⟩
          have t1 := congrFun (upd_at quad wa w2 hmem (i := s) (j := p) (i2 := u2.ranges.idxOf rg) (j2 := u2.pols.idxOf pp)
              (r2 := rowsOf u2.blp u1.blp[r])) d
          have := congrFun cwv d
          rw [this, t1, hr2]
          have := congrFun cwa d
          rw [this]
          exact quad_spec _ _
      · rw [hwa, h2] at x1; simp at x1

/-- Errors never shrink: each part of each statistic is at least as large as that of either object. -/
theorem C75_errors_grow {u1 u2 v : Obj R} (h : subtract u1 u2 = .ok v) {s p r : ℕ} (hs : s < u1.ranges.length) (hp : p < u1.pols.length)
    (hr : r < u1.blp.length) {d1 d2 : Dict String (Arr ℂ)} (h1 : u1.stats = some d1) (h2 : u2.stats = some d2) {n : String} {a b : Arr ℂ}
    (ha : Dict.get d1 n = some a) (hb : Dict.get d2 n = some b) :
    ∃ dv c s2 p2 r2, v.stats = some dv ∧ Dict.get dv n = some c ∧ u2.ranges[s2]? = u1.ranges[s]? ∧ u2.pols[p2]? = u1.pols[p]? ∧
      Matched u1 u2 r r2 ∧ ∀ d, |(a s r d p).re| ≤ (c s r d p).re ∧ |(b s2 r2 d p2).re| ≤ (c s r d p).re ∧
        |(a s r d p).im| ≤ (c s r d p).im ∧ |(b s2 r2 d p2).im| ≤ (c s r d p).im := by
  obtain ⟨s2, p2, r2, e1, e2, e3, _, _, _, hst, _, _⟩ := C75_combines_partial h hs hp hr
  obtain ⟨dv, c, f1, f2, f3⟩ := hst d1 d2 n a b h1 h2 ha hb
  refine ⟨dv, c, s2, p2, r2, f1, f2, e1, e2, e3, fun d => ?_⟩
  obtain ⟨g1, g2⟩ := f3 d
  exact ⟨g1.ge.1, g1.ge.2, g2.ge.1, g2.ge.2⟩

/-- Sample counts and integration times never exceed those of either object. -/
theorem C75_exposure_shrinks {u1 u2 v : Obj R} (h : subtract u1 u2 = .ok v) {s p r : ℕ} (hs : s < u1.ranges.length) (hp : p < u1.pols.length)
    (hr : r < u1.blp.length) (d : ℕ) : v.nsample s r d p ≤ |u1.nsample s r d p| ∧ v.integ s r d p ≤ |u1.integ s r d p| := by
  obtain ⟨s2, p2, r2, _, _, _, _, hn, hi, _, _, _⟩ := C75_combines_partial h hs hp hr
  exact ⟨(hn d).le.1, (hi d).le.1⟩

/-- The metadata of the result are those of the (selected) first object. -/
theorem C75_metadata {u1 u2 v : Obj R} (h : subtract u1 u2 = .ok v) :
    v.ranges = u1.ranges ∧ v.pols = u1.pols ∧ v.blp = u1.blp ∧ v.lst = u1.lst := by
  obtain ⟨a, b, c, d, _, _⟩ := (loop_frame h).1
  exact ⟨a, b, c, d⟩

/-- Weights: for one window, baseline-pair and polarization-pair every weight is the inverse quadrature sum divided by the
largest of them (which some weight of the key attains). -/
theorem C75_weights {u1 u2 v : Obj R} (h : subtract u1 u2 = .ok v) {s p : ℕ} {x : ℤ} (hs : s < u1.ranges.length) (hp : p < u1.pols.length)
    (hx : x ∈ u1.blp) (hn : 0 < u1.nWgt s) :
    ∃ (mx : ℝ) (c : ℕ → ℕ → ℝ) (s2 p2 : ℕ), u2.ranges[s2]? = u1.ranges[s]? ∧ u2.pols[p2]? = u1.pols[p]? ∧
      (∀ r, u1.blp[r]? = some x → ∀ k < u1.nWgt s, (∃ r2, Matched u1 u2 r r2 ∧ InvQuad (u1.wgt s r k p) (u2.wgt s2 r2 k p2) (c r k)) ∧
        c r k ≤ mx ∧ v.wgt s r k p = c r k / mx) ∧
      ∃ r k, u1.blp[r]? = some x ∧ k < u1.nWgt s ∧ c r k = mx := by
  obtain ⟨a, b, ma, hstep, mv, hc⟩ := subtract_key h hs hp hx
  obtain ⟨rg, pp, e1, e2, e3, e4, e5, _, e7, hrel⟩ := stepKey_ok hstep
  rw [ma.1] at e1
  rw [ma.2.1] at e2
  rw [ma.2.2.1] at e7 hrel
  have hw := hrel.wgt
  rw [ma.2.2.2.2.2] at hw
  have hlist : ∀ y, y ∈ wgtList (upd invQuad s p (u2.ranges.idxOf rg) (u2.pols.idxOf pp) (rowsOf u1.blp x) (rowsOf u2.blp x) a.wgt u2.wgt) s p
      (rowsOf u1.blp x) (u1.nWgt s) ↔ ∃ r k, u1.blp[r]? = some x ∧ k < u1.nWgt s ∧
        invQuad (u1.wgt s r k p) (u2.wgt (u2.ranges.idxOf rg) (partner (rowsOf u1.blp x) (rowsOf u2.blp x) r) k (u2.pols.idxOf pp)) = y := by
    intro y
    unfold wgtList
    simp only [List.mem_flatMap, List.mem_map, List.mem_range]
    constructor
    · rintro ⟨r, hr, k, hk, rfl⟩
      refine ⟨r, k, mem_rowsOf.1 hr, hk, ?_⟩
      have := congrFun (upd_at invQuad a.wgt u2.wgt hr (i := s) (j := p) (i2 := u2.ranges.idxOf rg) (j2 := u2.pols.idxOf pp)
        (r2 := rowsOf u2.blp x)) k
      have hca := congrFun (congrArg Cell.wgt (hc r (mem_rowsOf.1 hr)).1) k
      simp only [cell] at hca
      rw [this, hca]
    · rintro ⟨r, k, hr, hk, rfl⟩
      refine ⟨r, mem_rowsOf.2 hr, k, hk, ?_⟩
      have := congrFun (upd_at invQuad a.wgt u2.wgt (mem_rowsOf.2 hr) (i := s) (j := p) (i2 := u2.ranges.idxOf rg) (j2 := u2.pols.idxOf pp)
        (r2 := rowsOf u2.blp x)) k
      have hca := congrFun (congrArg Cell.wgt (hc r hr).1) k
      simp only [cell] at hca
      rw [this, hca]
  generalize hL : wgtList (upd invQuad s p (u2.ranges.idxOf rg) (u2.pols.idxOf pp) (rowsOf u1.blp x) (rowsOf u2.blp x) a.wgt u2.wgt) s p
      (rowsOf u1.blp x) (u1.nWgt s) = L at hlist
  obtain ⟨r0, hr0⟩ := List.getElem?_of_mem hx
  have hne : L ≠ [] := List.ne_nil_of_mem ((hlist _).2 ⟨r0, 0, hr0, hn, rfl⟩)
  obtain ⟨mx, hmx⟩ : ∃ mx, L.max? = some mx := Option.ne_none_iff_exists'.1 (fun e => hne (List.max?_eq_none_iff.1 e))
  have hmx' := List.max?_eq_some_iff.1 hmx
  refine ⟨mx, fun r k => invQuad (u1.wgt s r k p) (u2.wgt (u2.ranges.idxOf rg) (partner (rowsOf u1.blp x) (rowsOf u2.blp x) r) k (u2.pols.idxOf pp)),
    u2.ranges.idxOf rg, u2.pols.idxOf pp, ?_, ?_, ?_, ?_⟩
  · rw [e1, List.getElem?_eq_getElem (List.idxOf_lt_length_of_mem e3)]; simp
  · have : pp ∈ u2.pols := List.count_pos_iff.1 (by omega)
    rw [e2, List.getElem?_eq_getElem (List.idxOf_lt_length_of_mem this)]; simp
  · intro r hr k hk
    obtain ⟨q1, q2⟩ := partner_spec hr e7
    refine ⟨⟨_, ⟨x, hr, q1, q2⟩, invQuad_spec _ _⟩, hmx'.2 _ ((hlist _).2 ⟨r, k, hr, hk, rfl⟩), ?_⟩
    have hcv := congrFun (congrArg Cell.wgt (hc r hr).2) k
    simp only [cell] at hcv
    rw [hcv, hw]
    unfold divMax
    rw [if_pos ⟨rfl, rfl, mem_rowsOf.2 hr⟩, hL, hmx]
    have := congrFun (upd_at invQuad a.wgt u2.wgt (mem_rowsOf.2 hr) (i := s) (j := p) (i2 := u2.ranges.idxOf rg) (j2 := u2.pols.idxOf pp)
      (r2 := rowsOf u2.blp x)) k
    have hca := congrFun (congrArg Cell.wgt (hc r hr).1) k
    simp only [cell] at hca
    rw [this, hca]
    rfl
  · obtain ⟨r, k, h1, h2, h3⟩ := (hlist mx).1 hmx'.1
    exact ⟨r, k, h1, h2, h3⟩

/-- Conditions on a key under which its pass succeeds. -/
private theorem updStats_succeeds {i j i2 j2 : ℕ} {r1 r2 : List ℕ} {d2 d1 : Dict String (Arr ℂ)} (h : ∀ n ∈ Dict.keys d1, n ∈ Dict.keys d2) :
    ∃ d, updStats i j i2 j2 r1 r2 d2 d1 = .ok d := by
  induction d1 with
  | nil => exact ⟨[], rfl⟩
  | cons e d1 ih =>
    obtain ⟨n, a⟩ := e
    obtain ⟨d, hd⟩ := ih (fun n hn => h n (by simp only [Dict.keys, List.map_cons, List.mem_cons] at hn ⊢; exact Or.inr hn))
    have hn : Dict.get d2 n ≠ none := fun e => (Dict.get_eq_none_iff d2 n).1 e (h n (by simp [Dict.keys]))
    obtain ⟨b, hb⟩ := Option.ne_none_iff_exists'.1 hn
    unfold updStats
    rw [hb, hd]
    exact ⟨_, rfl⟩

/-- Statistic names of an object. -/
def statNames (u : Obj R) : Option (List String) := u.stats.map Dict.keys

private theorem StepRel.names {u2 v w : Obj R} {i j i2 j2 : ℕ} {r1 r2 : List ℕ} (h : StepRel u2 v w i j i2 j2 r1 r2) :
    statNames w = statNames v := by
  unfold statNames
  rcases h.errors with ⟨d1, d2, d, e1, _, e3, e4, _⟩ | ⟨_, e, _⟩
  · rw [e1, e3]
    simp only [Option.map_some, Option.some.injEq]
    exact map_eq_of_forall₂ ((updStats_ok e4).imp (fun _ _ h => h.1))
  · rw [e]

/-- What two objects must satisfy: the second has every window range, every polarization-pair (exactly once), every
baseline-pair with as many rows (or one), every statistic, and is not folded. -/
structure Compatible (u1 u2 : Obj R) : Prop where
  ranges : ∀ x ∈ u1.ranges, x ∈ u2.ranges
  pols : ∀ x ∈ u1.pols, u2.pols.count x = 1
  rows : ∀ x ∈ u1.blp, x ∈ u2.blp ∧ (u2.blp.count x = u1.blp.count x ∨ u2.blp.count x = 1)
  unfolded : u2.folded = false
  stats : ∀ l1 l2, statNames u1 = some l1 → statNames u2 = some l2 → ∀ n ∈ l1, n ∈ l2

private theorem stepKey_succeeds {u1 u2 v : Obj R} (hc : Compatible u1 u2) (hm : SameMeta v u1) (hst : statNames v = statNames u1) {i j : ℕ} {x : ℤ}
    (hi : i < u1.ranges.length) (hj : j < u1.pols.length) (hx : x ∈ u1.blp) : ∃ w, stepKey u2 v i j x = .ok w := by
  have e1 : v.ranges[i]? = some u1.ranges[i] := by rw [hm.1]; exact List.getElem?_eq_getElem hi
  have e2 : v.pols[j]? = some u1.pols[j] := by rw [hm.2.1]; exact List.getElem?_eq_getElem hj
  unfold stepKey
  rw [e1, e2]
  simp only
  rw [if_neg (by rw [not_not]; exact hc.ranges _ (List.getElem_mem hi)),
    if_neg (by push Not; exact ⟨(hc.rows x hx).1, hc.pols _ (List.getElem_mem hj)⟩),
    if_neg (by
      push Not
      refine ⟨by rw [hc.unfolded]; decide, ?_⟩
      rw [rowsOf_length, rowsOf_length, hm.2.2.1]
      have := (hc.rows x hx).2
      tauto)]
  generalize hv' : (⟨v.ranges, v.pols, v.blp, v.lst, v.folded, _, _, _, _, v.nWgt, v.stats, v.cov, v.window⟩ : Obj R) = v'
  have hs' : v'.stats = v.stats := by rw [← hv']
  suffices hsf : ∃ w, updErrors i j (u2.ranges.idxOf u1.ranges[i]) (u2.pols.idxOf u1.pols[j]) (rowsOf v.blp x) (rowsOf u2.blp x) v' u2 = .ok w by
    obtain ⟨w, hw⟩ := hsf
    rw [hw]
    exact ⟨_, rfl⟩
  unfold updErrors
  split
  · rename_i d1 d2 h1 h2
    obtain ⟨d, hd⟩ := updStats_succeeds (i := i) (j := j) (i2 := u2.ranges.idxOf u1.ranges[i]) (j2 := u2.pols.idxOf u1.pols[j])
      (r1 := rowsOf v.blp x) (r2 := rowsOf u2.blp x) (d1 := d1) (d2 := d2)
      (hc.stats _ _ (by rw [← hst]; unfold statNames; rw [← hs', h1]; rfl) (by unfold statNames; rw [h2]; rfl))
    rw [hd]
    simp only
    split
    · exact ⟨_, rfl⟩
    · exact ⟨_, rfl⟩
  · exact ⟨_, rfl⟩

/-- Compatible objects can be subtracted. -/
theorem C75_succeeds {u1 u2 : Obj R} (hc : Compatible u1 u2) : ∃ v, subtract u1 u2 = .ok v := by
  suffices hsf : ∀ ks v, (∀ k ∈ ks, k ∈ keysOf u1) → SameMeta v u1 → statNames v = statNames u1 → ∃ w, loop u2 ks v = .ok w from
    hsf (keysOf u1) u1 (fun _ h => h) ⟨rfl, rfl, rfl, rfl, rfl, rfl⟩ rfl
  intro ks
  induction ks with
  | nil => intro v _ _ _; exact ⟨v, rfl⟩
  | cons k ks ih =>
    obtain ⟨i, j, x⟩ := k
    intro v hk hm hst
    obtain ⟨hi, hj, hx⟩ := mem_keysOf.1 (hk (i, j, x) (by simp))
    obtain ⟨w, hw⟩ := stepKey_succeeds hc hm hst hi hj hx
    unfold loop
    rw [hw]
    obtain ⟨_, _, _, _, _, _, _, _, _, hrel⟩ := stepKey_ok hw
    exact ih w (fun k h => hk k (by simp [h])) (hrel.sameMeta.trans hm) (hrel.names.trans hst)

/-- And only if: a successful subtraction with at least one key had compatible windows, polarizations, rows and an unfolded
second object. -/
theorem C75_requires {u1 u2 v : Obj R} (h : subtract u1 u2 = .ok v) (h1 : u1.ranges ≠ []) (h2 : u1.pols ≠ []) (h3 : u1.blp ≠ []) :
    (∀ x ∈ u1.ranges, x ∈ u2.ranges) ∧ (∀ x ∈ u1.pols, u2.pols.count x = 1) ∧
    (∀ x ∈ u1.blp, x ∈ u2.blp ∧ (u2.blp.count x = u1.blp.count x ∨ u2.blp.count x = 1)) ∧ u2.folded = false := by
  have key : ∀ i j x, (hi : i < u1.ranges.length) → (hj : j < u1.pols.length) → x ∈ u1.blp →
      u1.ranges[i] ∈ u2.ranges ∧ u2.pols.count u1.pols[j] = 1 ∧ (x ∈ u2.blp ∧ (u2.blp.count x = u1.blp.count x ∨ u2.blp.count x = 1)) ∧ u2.folded = false := by
    intro i j x hi hj hx
    obtain ⟨a, b, ma, hstep, _, _⟩ := subtract_key h hi hj hx
    obtain ⟨r, p, e1, e2, e3, e4, e5, e6, e7, _⟩ := stepKey_ok hstep
    rw [ma.1, List.getElem?_eq_getElem hi] at e1
    rw [ma.2.1, List.getElem?_eq_getElem hj] at e2
    rw [ma.2.2.1, rowsOf_length, rowsOf_length] at e7
    cases e1; cases e2
    exact ⟨e3, e5, ⟨e4, e7⟩, e6⟩
  have l1 := List.length_pos_iff.2 h1
  have l2 := List.length_pos_iff.2 h2
  obtain ⟨x0, hx0⟩ := List.exists_mem_of_ne_nil _ h3
  refine ⟨fun x hx => ?_, fun x hx => ?_, fun x hx => (key 0 0 x l1 l2 hx).2.2.1, (key 0 0 x0 l1 l2 hx0).2.2.2⟩
  · obtain ⟨i, hi, rfl⟩ := List.getElem_of_mem hx
    exact (key i 0 x0 hi l2 hx0).1
  · obtain ⟨j, hj, rfl⟩ := List.getElem_of_mem hx
    exact (key 0 j x0 l1 hj hx0).2.1

/-- Finding: `select_common` does not drop uncommon polarization-pairs, so a pair missing from the second object makes the
subtraction fail although other keys are common. -/
theorem C75_finding_uncommon_polpair_raises {u1 u2 : Obj R} (h1 : u1.ranges ≠ []) (h3 : u1.blp ≠ []) {x : ℤ} (hx : x ∈ u1.pols)
    (hx2 : x ∉ u2.pols) : ∀ v, subtract u1 u2 ≠ .ok v := by
  intro v h
  have := (C75_requires h h1 (List.ne_nil_of_mem hx) h3).2.1 x hx
  rw [List.count_eq_zero_of_not_mem hx2] at this
  cases this

/-- Finding: a folded second object is always refused. -/
theorem C75_finding_folded_raises {u1 u2 : Obj R} (h1 : u1.ranges ≠ []) (h2 : u1.pols ≠ []) (h3 : u1.blp ≠ []) (hf : u2.folded = true) :
    ∀ v, subtract u1 u2 ≠ .ok v := by
  intro v h
  have := (C75_requires h h1 h2 h3).2.2.2
  rw [hf] at this
  cases this

/-- Subtracting an (unfolded) object with distinct windows and polarization-pairs from itself succeeds and gives zero data, and
errors larger by the square root of two. -/
theorem C75_self_zero (u : Obj R) (hr : u.ranges.Nodup) (hp : u.pols.Nodup) (hf : u.folded = false) :
    ∃ v, subtract u u = .ok v ∧ ∀ s r p, s < u.ranges.length → r < u.blp.length → p < u.pols.length →
      (∀ d, v.data s r d p = 0) ∧
      ∀ d1 n a, u.stats = some d1 → Dict.get d1 n = some a → ∃ dv c, v.stats = some dv ∧ Dict.get dv n = some c ∧
        ∀ d, (c s r d p).re = Real.sqrt 2 * |(a s r d p).re| ∧ (c s r d p).im = Real.sqrt 2 * |(a s r d p).im| := by
  obtain ⟨v, hv⟩ := C75_succeeds (u1 := u) (u2 := u)
    ⟨fun _ h => h, fun x hx => List.count_eq_one_of_mem hp hx, fun x hx => ⟨hx, Or.inl rfl⟩, hf, fun l1 l2 h1 h2 n hn => by
      rw [h1] at h2; cases h2; exact hn⟩
  refine ⟨v, hv, fun s r p hs hr' hp' => ?_⟩
  obtain ⟨s2, p2, r2, e1, e2, ⟨x, m1, m2, m3⟩, hd, _, _, hst, _, _⟩ := C75_combines_partial hv hs hp' hr'
  have hs2 : s2 = s := by
    rw [List.getElem?_eq_getElem hs] at e1
    obtain ⟨l, e⟩ := List.getElem?_eq_some_iff.1 e1
    exact (hr.getElem_inj_iff).1 e
  have hp2 : p2 = p := by
    rw [List.getElem?_eq_getElem hp'] at e2
    obtain ⟨l, e⟩ := List.getElem?_eq_some_iff.1 e2
    exact (hp.getElem_inj_iff).1 e
  have hr2 : r2 = r := by
    have g1 : (rowsOf u.blp x)[(u.blp.take r).count x]? = some r := (rowsOf_get _ _ _ _).2 ⟨m1, rfl⟩
    have g2 : (rowsOf u.blp x)[(u.blp.take r2).count x]? = some r2 := (rowsOf_get _ _ _ _).2 ⟨m2, rfl⟩
    rcases m3 with m3 | m3
    · have b1 := (List.getElem?_eq_some_iff.1 g1).1
      have b2 := (List.getElem?_eq_some_iff.1 g2).1
      rw [rowsOf_length, m3] at b1 b2
      have c1 : (u.blp.take r).count x = 0 := by omega
      have c2 : (u.blp.take r2).count x = 0 := by omega
      rw [c1] at g1; rw [c2, g1] at g2
      exact (Option.some.inj g2).symm
    · rw [m3, g1] at g2
      exact (Option.some.inj g2).symm
  subst hs2 hp2 hr2
  refine ⟨fun d => by rw [hd]; ring, fun d1 n a h1 ha => ?_⟩
  obtain ⟨dv, c, f1, f2, f3⟩ := hst d1 d1 n a a h1 h1 ha ha
  refine ⟨dv, c, f1, f2, fun d => ?_⟩
  have hq : ∀ {a c : ℝ}, Quad a a c → c = Real.sqrt 2 * |a| := by
    rintro a c ⟨h0, h1⟩
    rw [← Real.sqrt_sq h0, h1, ← two_mul, Real.sqrt_mul (by norm_num), Real.sqrt_sq_eq_abs]
  exact ⟨hq (f3 d).1, hq (f3 d).2⟩

/-- Rows are matched by position, not by time; if the rows of every baseline-pair have the same LSTs in the same order in both
objects, matched rows have the same LST. -/
theorem C75_matched_lst (u1 u2 : Obj R) (hl : ∀ x, (rowsOf u1.blp x).map (fun r => u1.lst[r]?) = (rowsOf u2.blp x).map (fun r => u2.lst[r]?))
    {r r2 : ℕ} (h : Matched u1 u2 r r2) : u1.lst[r]? = u2.lst[r2]? := by
  obtain ⟨x, m1, m2, m3⟩ := h
  have hlen : u1.blp.count x = u2.blp.count x := by
    have := congrArg List.length (hl x)
    simpa [rowsOf_length] using this
  have g1 : (rowsOf u1.blp x)[(u1.blp.take r).count x]? = some r := (rowsOf_get _ _ _ _).2 ⟨m1, rfl⟩
  have g2 : (rowsOf u2.blp x)[(u2.blp.take r2).count x]? = some r2 := (rowsOf_get _ _ _ _).2 ⟨m2, rfl⟩
  have hsame : (u2.blp.take r2).count x = (u1.blp.take r).count x := by
    rcases m3 with m3 | m3
    · have b1 := (List.getElem?_eq_some_iff.1 g1).1
      have b2 := (List.getElem?_eq_some_iff.1 g2).1
      rw [rowsOf_length] at b1 b2
      omega
    · exact m3
  have := congrArg (fun l => l[(u1.blp.take r).count x]?) (hl x)
  simp only [List.getElem?_map, g1] at this
  rw [hsame] at g2
  rw [g2] at this
  simpa using this

/-! Concrete objects. -/

/-- One window, one polarization-pair; `blp`, LSTs and data (one delay) as given, one statistic. -/
noncomputable def exObj (blp : List ℤ) (lst : List ℚ) (x : List ℂ) : Obj ℕ where
  ranges := [7]
  pols := [1515]
  blp := blp
  lst := lst
  folded := false
  data := fun _ r _ _ => x.getD r 0
  nsample := fun _ _ _ _ => 1
  integ := fun _ _ _ _ => 1
  wgt := fun _ _ _ _ => 1
  nWgt := fun _ => 2
  stats := some [("P_N", fun _ _ _ _ => 3)]
  cov := none
  window := none

/-- Non-vacuity: two different compatible objects, interleaved rows. -/
example : ∃ v, subtract (exObj [5, 9, 5] [1, 1, 2] [1, 2, 3]) (exObj [9, 5, 5] [1, 1, 2] [10, 20, 30]) = .ok v :=
  C75_succeeds ⟨by simp [exObj], by simp [exObj], by
    intro x hx
    simp only [exObj, List.mem_cons, List.not_mem_nil, or_false] at hx ⊢
    rcases hx with rfl | rfl | rfl <;> decide, rfl, by
    intro l1 l2 h1 h2 n hn
    simp only [statNames, exObj, Option.map_some, Option.some.injEq] at h1 h2
    subst h1 h2; exact hn⟩

example : (exObj [5, 9, 5] [1, 1, 2] [1, 2, 3]).ranges.Nodup ∧ (exObj [5, 9, 5] [1, 1, 2] [1, 2, 3]).pols.Nodup := by simp [exObj]

/-- Finding: the same baseline-pair at the same two LSTs, stored in opposite order: LST 1 of the first object is subtracted
from LST 2 of the second. -/
theorem C75_finding_rows_matched_by_position : ∃ v, subtract (exObj [5, 5] [1, 2] [1, 2]) (exObj [5, 5] [2, 1] [2, 1]) = .ok v ∧
    v.data 0 0 0 0 = 1 - 2 := by
  obtain ⟨v, hv⟩ : ∃ v, subtract (exObj [5, 5] [1, 2] [1, 2]) (exObj [5, 5] [2, 1] [2, 1]) = .ok v :=
    C75_succeeds ⟨by simp [exObj], by simp [exObj], by
      intro x hx
      simp only [exObj, List.mem_cons, List.not_mem_nil, or_false] at hx ⊢
      rcases hx with rfl | rfl <;> decide, rfl, by
      intro l1 l2 h1 h2 n hn
      simp only [statNames, exObj, Option.map_some, Option.some.injEq] at h1 h2
      subst h1 h2; exact hn⟩
  refine ⟨v, hv, ?_⟩
  obtain ⟨s2, p2, r2, _, _, ⟨x, m1, m2, m3⟩, hd, _⟩ := C75_combines_partial hv (s := 0) (p := 0) (r := 0) (by simp [exObj]) (by simp [exObj]) (by simp [exObj])
  have hx : x = 5 := by simpa [exObj] using m1.symm
  subst hx
  have hr2 : r2 = 0 := by
    have hlt := (List.getElem?_eq_some_iff.1 m2).1
    simp only [exObj, List.length_cons, List.length_nil] at hlt
    simp only [exObj] at m3
    rcases m3 with m3 | m3
    · exact absurd m3 (by decide)
    · match r2, hlt, m3 with
      | 0, _, _ => rfl
      | 1, _, m3 => exact absurd m3 (by decide)
  subst hr2
  rw [hd]
  simp [exObj]

/-- Finding: objects with covariances but no statistics keep the first object's covariance unchanged. -/
theorem C75_finding_cov_needs_stats {u1 u2 v : Obj R} (h : subtract u1 u2 = .ok v) (hno : u1.stats = none ∨ u2.stats = none) :
    v.cov = u1.cov := by
  suffices hsf : ∀ ks u w, loop u2 ks u = .ok w → (u.stats = none ∨ u2.stats = none) → w.cov = u.cov from hsf _ _ _ h hno
  intro ks
  induction ks with
  | nil => intro u w h _; simp only [loop, Except.ok.injEq] at h; rw [h]
  | cons k ks ih =>
    obtain ⟨i, j, x⟩ := k
    intro u w h hno
    unfold loop at h
    split at h
    · cases h
    rename_i u' hu'
    obtain ⟨_, _, _, _, _, _, _, _, _, hrel⟩ := stepKey_ok hu'
    rcases hrel.errors with ⟨d1, d2, d, e1, e2, _⟩ | ⟨_, e1, e2⟩
    · rw [e1, e2] at hno; simp at hno
    · rw [ih u' w h (by rw [e1]; exact hno), e2]

end HeraPspec.Subtract
