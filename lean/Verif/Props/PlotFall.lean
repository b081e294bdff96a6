import Verif.Model.PlotFall
import Verif.Lemmas.MapE
import Verif.Props.PlotWedge

/-!
C128: a waterfall plot has one panel per requested baseline-pair, showing the requested component of its own spectra, flagged integrations blank, against their LSTs.
-/
namespace HeraPspec.PlotFall
open HeraPspec.PlotWedge (Component)

/-! ### The `blpairs` argument -/

/-- The integers an item names. -/
inductive Names (toInt : (ℕ × ℕ) × (ℕ × ℕ) → ℕ) : Item → ℕ → Prop
  | int (n : ℕ) : Names toInt (.int n) n
  | blpair (b : (ℕ × ℕ) × (ℕ × ℕ)) : Names toInt (.blpair b) (toInt b)

/-- The items of an entry: a single item is a group of its own. -/
def items : Entry → List Item
  | .group l => l
  | .single i => [i]

theorem norm1_iff (toInt : (ℕ × ℕ) × (ℕ × ℕ) → ℕ) (i : Item) (n : ℕ) : norm1 toInt i = .ok n ↔ Names toInt i n := by
  cases i with
  | int k =>
    constructor
    · intro h; cases h; exact .int _
    · intro h; cases h; rfl
  | blpair b =>
    constructor
    · intro h; cases h; exact .blpair _
    · intro h; cases h; rfl
  | antpair b =>
    constructor
    · intro h; cases h
    · intro h; cases h
  | other =>
    constructor
    · intro h; cases h
    · intro h; cases h

/-- The `blpairs` argument of the plotting functions: accepted exactly if all items are integers or baseline-pair tuples; groups keep their members in order, and a
single item becomes a group of its own. -/
theorem C128_normalize (toInt : (ℕ × ℕ) × (ℕ × ℕ) → ℕ) (l : List Entry) (r : List (List ℕ)) :
    normalize toInt l = .ok r ↔ List.Forall₂ (fun e g => List.Forall₂ (Names toInt) (items e) g) l r := by
  unfold normalize
  rw [UVP.mapE_ok_iff]
  have : ∀ (e : Entry) (g : List ℕ), normEntry toInt e = .ok g ↔ List.Forall₂ (Names toInt) (items e) g := by
    intro e g
    have h : ∀ l : List Item, UVP.mapE (norm1 toInt) l = .ok g ↔ List.Forall₂ (Names toInt) l g := by
      intro l
      rw [UVP.mapE_ok_iff]
      constructor
      · intro h; exact h.imp (fun a b => (norm1_iff toInt a b).1)
      · intro h; exact h.imp (fun a b => (norm1_iff toInt a b).2)
    cases e with
    | group l => exact h l
    | single i => exact h [i]
  constructor
  · intro h; exact h.imp (fun a b => (this a b).1)
  · intro h; exact h.imp (fun a b => (this a b).2)

/-- An antenna-pair anywhere is refused. -/
theorem C128_antpair_refused (toInt : (ℕ × ℕ) × (ℕ × ℕ) → ℕ) (l : List Entry) (e : Entry) (he : e ∈ l) (b : ℕ × ℕ) (hb : .antpair b ∈ items e) :
    ∃ err, normalize toInt l = .error err := by
  cases h : normalize toInt l with
  | error err => exact ⟨err, rfl⟩
  | ok r =>
    exfalso
    rw [C128_normalize] at h
    obtain ⟨i, hi⟩ := List.mem_iff_getElem?.1 he
    obtain ⟨g, _, hg⟩ := UVP.forall₂_getElem_left h hi
    obtain ⟨j, hj⟩ := List.mem_iff_getElem?.1 hb
    obtain ⟨n, _, hn⟩ := UVP.forall₂_getElem_left hg hj
    cases hn

/-! ### Panels -/

theorem keys_spec (l : List ℕ) : (keys l).Nodup ∧ (∀ b, b ∈ keys l ↔ b ∈ l) ∧ (keys l).Sublist l := by
  have gen : ∀ (l acc : List ℕ), acc.Nodup → ∃ s : List ℕ, l.foldl (fun acc b => if b ∈ acc then acc else acc ++ [b]) acc = acc ++ s ∧
      (acc ++ s).Nodup ∧ (∀ b, b ∈ acc ++ s ↔ b ∈ acc ∨ b ∈ l) ∧ s.Sublist l := by
    intro l
    induction l with
    | nil => intro acc h; exact ⟨[], by simp, by simpa using h, by simp, .refl _⟩
    | cons a l ih =>
      intro acc h
      rw [List.foldl_cons]
      by_cases ha : a ∈ acc
      · obtain ⟨s, h1, h2, h3, h4⟩ := ih acc h
        rw [if_pos ha]
        refine ⟨s, h1, h2, fun b => ?_, h4.cons a⟩
        rw [h3]
        constructor
        · rintro (h | h)
          · exact Or.inl h
          · exact Or.inr (List.mem_cons_of_mem _ h)
        · rintro (h | h)
          · exact Or.inl h
          · rcases List.mem_cons.1 h with rfl | h
            · exact Or.inl ha
            · exact Or.inr h
      · rw [if_neg ha]
        obtain ⟨s, h1, h2, h3, h4⟩ := ih (acc ++ [a]) (by
          rw [List.nodup_append]
          refine ⟨h, by simp, ?_⟩
          intro x hx y hy e
          simp at hy
          subst hy; subst e; exact ha hx)
        refine ⟨a :: s, by rw [h1]; simp, by simpa using h2, fun b => ?_, h4.cons_cons a⟩
        have := h3 b
        simp only [List.append_assoc, List.cons_append, List.nil_append, List.mem_append, List.mem_cons, List.not_mem_nil, or_false] at this ⊢
        tauto
  obtain ⟨s, h1, h2, h3, h4⟩ := gen l [] List.nodup_nil
  have : keys l = s := by unfold keys; rw [h1]; simp
  rw [this]
  exact ⟨by simpa using h2, by simpa using h3, h4⟩

theorem read_keys {data : ℕ → Option (List Row)} {l : List ℕ} {r : List (ℕ × List Row)} (h : UVP.mapE (readKey data) l = .ok r) :
    r.map (·.1) = l ∧ ∀ p ∈ r, data p.1 = some p.2 := by
  rw [UVP.mapE_ok_iff] at h
  induction h with
  | nil => simp
  | @cons a b l r h1 h2 ih =>
    have hb : b.1 = a ∧ data a = some b.2 := by
      unfold readKey at h1
      split at h1
      · cases h1
      · rename_i rows hd; have := Except.ok.inj h1; subst this; exact ⟨rfl, hd⟩
    refine ⟨by simp [hb.1, ih.1], fun p hp => ?_⟩
    rcases List.mem_cons.1 hp with rfl | hp
    · rw [hb.1]; exact hb.2
    · exact ih.2 p hp

/-- A cell of a matrix. -/
def cell (m : List (List (Option ℝ))) (i d : ℕ) : Option (Option ℝ) := (m[i]?).bind (fun r => r[d]?)

theorem power_cell (c : Component) (rows : List Row) (i d : ℕ) (r : Row) (z : ℂ) (hr : rows[i]? = some r) (hz : r.spec[d]? = some z) :
    cell (power c rows) i d = some (if flagged r.integ then none else some (comp c z)) := by
  simp [cell, power, hr, hz]

theorem fixNeg_cell (m : List (List (Option ℝ))) (i d : ℕ) (x : Option ℝ) (h : cell m i d = some x) :
    cell (fixNeg m) i d = some (fixOne (floorVal m.flatten) x) := by
  unfold cell at h ⊢
  unfold fixNeg
  rw [List.getElem?_map]
  cases hm : m[i]? with
  | none => rw [hm] at h; cases h
  | some r =>
    rw [hm] at h
    simp only [Option.bind_some] at h
    simp only [Option.map_some, Option.bind_some, List.getElem?_map, h]

theorem comp_shows (c : Component) (hc : c ≠ .absImag) (z : ℂ) : PlotWedge.Shows c z (comp c z) := by
  cases c
  · rfl
  · exact ⟨abs_nonneg _, sq_abs _⟩
  · rfl
  · exact absurd rfl hc
  · refine ⟨norm_nonneg _, ?_⟩
    show ‖z‖ ^ 2 = _
    rw [Complex.sq_norm, Complex.normSq_apply]; ring

/-- What a successful call draws: distinct baseline-pairs in the order of the request, each with data in the object. -/
theorem waterfall_ok {c : Component} {log avg force : Bool} {naxes : Option ℕ} {groups : List (List ℕ)} {data : ℕ → Option (List Row)} {ps : List Panel}
    (h : waterfall c log avg force naxes groups data = .ok ps) :
    ∃ l : List (ℕ × List Row), l.map (·.1) = keys (drawn avg groups) ∧ (∀ p ∈ l, data p.1 = some p.2) ∧ l ≠ [] ∧ (force = false → l.length ≤ 20) ∧
      ps = (l.map (fun p => (⟨p.1, values c log p.2, firstLsts l⟩ : Panel))).take (naxes.getD l.length) := by
  unfold waterfall at h
  split at h
  · cases h
  split at h
  · cases h
  rename_i l hl
  split at h
  · cases h
  rename_i hn
  split at h
  · cases h
  rename_i hne
  obtain ⟨h1, h2⟩ := read_keys hl
  refine ⟨l, h1, h2, hne, fun hf => ?_, (Except.ok.inj h).symm⟩
  by_contra hc
  exact hn ⟨by omega, hf⟩

/-- The baseline-pairs asked for: the members of the groups in order or, if each group is averaged, the first of each. -/
def Requested (avg : Bool) (groups : List (List ℕ)) : List ℕ := if avg then groups.filterMap List.head? else groups.flatten

theorem drawn_requested (avg : Bool) (groups : List (List ℕ)) : drawn avg groups = Requested avg groups := by
  unfold drawn Requested
  split
  · induction groups with
    | nil => rfl
    | cons g l ih => cases g <;> simp [List.filterMap_cons] <;> simpa using ih
  · rfl

/-- Missing: 'abs-imag' (`C128_counterexample_abs_imag`), negative values on a logarithmic scale (`C128_negative_below`, `C128_counterexample_negative_flagged`),
the LSTs of panels other than the first (`C128_counterexample_lst`), and requests with more baseline-pairs than axes (`C128_counterexample_axes`).

With enough axes there is exactly one panel per requested baseline-pair (the first of each group when averaging), none twice, in the order of the request;
at most 20 unless forced. In each, the rows of flagged integrations are blank and every other cell shows the requested component of the baseline-pair's own
spectrum. -/
theorem C128_panels_partial {c : Component} {log avg force : Bool} {naxes : Option ℕ} {groups : List (List ℕ)} {data : ℕ → Option (List Row)} {ps : List Panel}
    (h : waterfall c log avg force naxes groups data = .ok ps) (hax : ∀ n, naxes = some n → (Requested avg groups).length ≤ n) (hc : c ≠ .absImag) :
    (ps.map (·.blp)).Nodup ∧ (ps.map (·.blp)).Sublist (Requested avg groups) ∧ (∀ b, b ∈ ps.map (·.blp) ↔ b ∈ Requested avg groups) ∧
      (force = false → ps.length ≤ 20) ∧
      ∀ p ∈ ps, ∃ rows, data p.blp = some rows ∧ ∀ (i d : ℕ) (r : Row) (z : ℂ), rows[i]? = some r → r.spec[d]? = some z →
        (|r.integ| ≤ 1e-8 → cell p.vals i d = some none) ∧
        (1e-8 < |r.integ| → (log = false ∨ 0 ≤ comp c z) → ∃ v, cell p.vals i d = some (some v) ∧ PlotWedge.Shows c z v) := by
  rw [← drawn_requested] at hax ⊢
  obtain ⟨l, hk, hd, hne, hlen, rfl⟩ := waterfall_ok h
  obtain ⟨hnd, hmem, hsub⟩ := keys_spec (drawn avg groups)
  have hll : l.length ≤ (drawn avg groups).length := by
    have := hsub.length_le; rw [← hk, List.length_map] at this; exact this
  have htake : (l.map (fun p => (⟨p.1, values c log p.2, firstLsts l⟩ : Panel))).take (naxes.getD l.length)
      = l.map (fun p => (⟨p.1, values c log p.2, firstLsts l⟩ : Panel)) := by
    apply List.take_of_length_le
    rw [List.length_map]
    cases naxes with
    | none => exact le_refl _
    | some n => exact hll.trans (hax n rfl)
  rw [htake]
  have hmap : (l.map (fun p => (⟨p.1, values c log p.2, firstLsts l⟩ : Panel))).map (·.blp) = keys (drawn avg groups) := by
    rw [List.map_map, ← hk]; rfl
  rw [hmap]
  refine ⟨hnd, hsub, hmem, fun hf => by rw [List.length_map]; exact hlen hf, ?_⟩
  intro p hp
  obtain ⟨q, hq, rfl⟩ := List.mem_map.1 hp
  refine ⟨q.2, hd q hq, fun i d r z hr hz => ?_⟩
  have hpc := power_cell c q.2 i d r z hr hz
  have hfl : flagged r.integ = true ↔ |r.integ| ≤ 1e-8 := by
    unfold flagged; rw [decide_eq_true_eq]; norm_num
  constructor
  · intro hflag
    rw [if_pos (hfl.2 hflag)] at hpc
    show cell (values c log q.2) i d = _
    unfold values
    split
    · rw [fixNeg_cell _ _ _ _ hpc]; rfl
    · exact hpc
  · intro hflag hpos
    have hf : ¬ flagged r.integ = true := by rw [hfl]; exact not_le.2 hflag
    rw [if_neg hf] at hpc
    refine ⟨comp c z, ?_, comp_shows c hc z⟩
    show cell (values c log q.2) i d = _
    unfold values
    split
    · rename_i hfix
      rw [fixNeg_cell _ _ _ _ hpc]
      have : ¬ comp c z < 0 := by
        rcases hpos with h | h
        · subst h; simp [needsFix] at hfix
        · exact not_lt.2 h
      simp only [fixOne, this, if_false]
    · exact hpc

/-! ### Negative values -/

theorem minAbs_some : ∀ (l : List ℝ) (x : ℝ), ∃ u, minAbs (some x :: l.map some) = some u ∧ u ∈ (x :: l).map (fun v => |v|) ∧ ∀ v ∈ x :: l, u ≤ |v| := by
  have gen : ∀ (l : List ℝ) (u : ℝ), ∃ w, (l.map some).foldl (fun a b => match a, b with | some u, some v => some (min u |v|) | _, _ => none) (some u) = some w ∧
      (w = u ∨ w ∈ l.map (fun v => |v|)) ∧ w ≤ u ∧ ∀ v ∈ l, w ≤ |v| := by
    intro l
    induction l with
    | nil => intro u; exact ⟨u, rfl, Or.inl rfl, le_refl _, by simp⟩
    | cons a l ih =>
      intro u
      obtain ⟨w, h1, h2, h3, h4⟩ := ih (min u |a|)
      refine ⟨w, h1, ?_, h3.trans (min_le_left _ _), fun v hv => ?_⟩
      · rcases h2 with h | h
        · rcases min_choice u |a| with hm | hm
          · left; rw [h, hm]
          · right; rw [h, hm]; simp
        · right; exact List.mem_cons_of_mem _ h
      · rcases List.mem_cons.1 hv with rfl | hv
        · exact h3.trans (min_le_right _ _)
        · exact h4 v hv
  intro l x
  obtain ⟨w, h1, h2, h3, h4⟩ := gen l |x|
  refine ⟨w, h1, ?_, fun v hv => ?_⟩
  · rcases h2 with h | h
    · rw [h]; simp
    · exact List.mem_cons_of_mem _ h
  · rcases List.mem_cons.1 hv with rfl | hv
    · exact h3
    · exact h4 v hv

/-- Without flagged integrations, and if all values are at least 1e-9 in size, a negative value on a logarithmic scale is drawn as a positive number below all
values that are not negative. -/
theorem C128_negative_below (c : Component) (hc : c = .real ∨ c = .imag) (rows : List Row) (hfl : ∀ r ∈ rows, 1e-8 < |r.integ|)
    (hbig : ∀ r ∈ rows, ∀ z ∈ r.spec, 1e-9 ≤ |comp c z|) (i d : ℕ) (r : Row) (z : ℂ) (hr : rows[i]? = some r) (hz : r.spec[d]? = some z) (hneg : comp c z < 0) :
    ∃ v, cell (values c true rows) i d = some (some v) ∧ 0 < v ∧ ∀ s ∈ rows, ∀ y ∈ s.spec, v < |comp c y| := by
  have hflag : ∀ s ∈ rows, ¬ flagged s.integ = true := by
    intro s hs
    unfold flagged; rw [decide_eq_true_eq]
    have := hfl s hs; norm_num at this ⊢; exact this
  have hpow : (power c rows).flatten = (rows.flatMap (fun s => s.spec.map (comp c))).map some := by
    unfold power
    have : ∀ l : List Row, (∀ s ∈ l, ¬ flagged s.integ = true) → (l.map (fun r => r.spec.map (fun z => if flagged r.integ then none else some (comp c z)))).flatten
        = (l.flatMap (fun s => s.spec.map (comp c))).map some := by
      intro l
      induction l with
      | nil => intro _; rfl
      | cons s l ih =>
        intro hl
        rw [List.map_cons, List.flatten_cons, List.flatMap_cons, List.map_append, ih (fun t ht => hl t (List.mem_cons_of_mem _ ht))]
        congr 1
        rw [List.map_map]
        refine List.map_congr_left (fun z _ => ?_)
        rw [if_neg (hl s List.mem_cons_self)]; rfl
    exact this rows hflag
  have hmemAll : ∀ s ∈ rows, ∀ y ∈ s.spec, comp c y ∈ rows.flatMap (fun s => s.spec.map (comp c)) := by
    intro s hs y hy
    exact List.mem_flatMap.2 ⟨s, hs, List.mem_map.2 ⟨y, hy, rfl⟩⟩
  have hrm := List.mem_of_getElem? hr
  have hzm := List.mem_of_getElem? hz
  cases hall : rows.flatMap (fun s => s.spec.map (comp c)) with
  | nil => have := hmemAll r hrm z hzm; rw [hall] at this; cases this
  | cons x l =>
    obtain ⟨u, hu, humem, hmin⟩ := minAbs_some l x
    rw [← List.map_cons, ← hall, ← hpow] at hu
    have hubig : (1e-9 : ℝ) ≤ u := by
      rw [← hall] at humem
      obtain ⟨w, hw, rfl⟩ := List.mem_map.1 humem
      obtain ⟨s, hs, hws⟩ := List.mem_flatMap.1 hw
      obtain ⟨y, hy, rfl⟩ := List.mem_map.1 hws
      exact hbig s hs y hy
    refine ⟨u * (1 / 10 ^ 6) + 1 / 10 ^ 10, ?_, by norm_num at hubig ⊢; linarith, fun s hs y hy => ?_⟩
    · have hfix : needsFix c true = true := by rcases hc with rfl | rfl <;> rfl
      unfold values
      rw [if_pos hfix]
      have hpc := power_cell c rows i d r z hr hz
      rw [if_neg (hflag r hrm)] at hpc
      rw [fixNeg_cell _ _ _ _ hpc]
      simp only [fixOne, hneg, if_true, floorVal, hu, Option.map_some]
    · have h1 : u ≤ |comp c y| := hmin _ (by rw [← hall]; exact hmemAll s hs y hy)
      norm_num at hubig ⊢
      linarith

/-- One flagged integration, and all negative values on a logarithmic scale are blank. -/
theorem C128_counterexample_negative_flagged : cell (values .real true [⟨[-5], 1, 0⟩, ⟨[3], 0, 0⟩]) 0 0 = some none := by
  have h1 : flagged 1 = false := by simp [flagged]; norm_num
  have h0 : flagged 0 = true := by simp [flagged]
  simp [cell, values, needsFix, fixNeg, fixOne, power, h1, h0, floorVal, minAbs, comp]

/-- 'abs-imag' shows the real part: the value i is drawn as 0. -/
theorem C128_counterexample_abs_imag : cell (values .absImag false [⟨[Complex.I], 1, 0⟩]) 0 0 = some (some 0) ∧ ¬ PlotWedge.Shows .absImag Complex.I 0 := by
  constructor
  · simp [cell, values, needsFix, power, flagged, comp]
    norm_num
  · rintro ⟨_, h⟩
    simp at h

/-- C128: what is refused, when every requested baseline-pair has data: an empty request, and more than twenty different baseline-pairs unless forced;
everything else is drawn. -/
theorem C128_refused {c : Component} {log avg force : Bool} {naxes : Option ℕ} {groups : List (List ℕ)} {data : ℕ → Option (List Row)}
    (hd : ∀ b ∈ Requested avg groups, (data b).isSome) :
    (waterfall c log avg force naxes groups data = .error .value ↔ 20 < (Requested avg groups).toFinset.card ∧ force = false) ∧
    (waterfall c log avg force naxes groups data = .error .index ↔ Requested avg groups = []) ∧
    ((∃ ps, waterfall c log avg force naxes groups data = .ok ps) ↔ Requested avg groups ≠ [] ∧ ((Requested avg groups).toFinset.card ≤ 20 ∨ force = true)) := by
  rw [← drawn_requested] at hd ⊢
  obtain ⟨hnd, hmem, hsub⟩ := keys_spec (drawn avg groups)
  have hread : ∀ l : List ℕ, (∀ b ∈ l, (data b).isSome) → ∃ r, UVP.mapE (readKey data) l = .ok r := by
    intro l hl
    refine ⟨l.map (fun b => (b, (data b).getD [])), ?_⟩
    rw [UVP.mapE_ok_iff]
    induction l with
    | nil => exact .nil
    | cons a l ih =>
      refine .cons ?_ (ih (fun b hb => hl b (List.mem_cons_of_mem _ hb)))
      have := hl a List.mem_cons_self
      unfold readKey
      cases h : data a with
      | none => rw [h] at this; cases this
      | some r => simp [h]
  obtain ⟨r1, h1⟩ := hread _ hd
  obtain ⟨r2, h2⟩ := hread (keys (drawn avg groups)) (fun b hb => hd b ((hmem b).1 hb))
  have hlen : r2.length = (drawn avg groups).toFinset.card := by
    have := congrArg List.length (read_keys h2).1
    rw [List.length_map] at this
    rw [this, ← List.toFinset_card_of_nodup hnd]
    congr 1
    ext b
    simp [hmem b]
  have hnil : r2 = [] ↔ drawn avg groups = [] := by
    rw [← List.length_eq_zero_iff, hlen, Finset.card_eq_zero, List.toFinset_eq_empty_iff]
  have hcard0 : drawn avg groups = [] → (drawn avg groups).toFinset.card = 0 := by intro h; rw [h]; rfl
  unfold waterfall
  rw [h1, h2]
  simp only [hlen, hnil]
  by_cases ha : 20 < (drawn avg groups).toFinset.card ∧ force = false
  · have hne : drawn avg groups ≠ [] := fun h => by rw [hcard0 h] at ha; omega
    rw [if_pos ha]
    refine ⟨⟨fun _ => ha, fun _ => rfl⟩, ⟨fun h => (by cases h), fun h => absurd h hne⟩, ⟨fun ⟨_, h⟩ => (by cases h), fun ⟨_, h⟩ => ?_⟩⟩
    rcases h with h | h
    · omega
    · rw [ha.2] at h; cases h
  · rw [if_neg ha]
    have hb : (drawn avg groups).toFinset.card ≤ 20 ∨ force = true := by
      by_contra hc
      push Not at hc
      exact ha ⟨hc.1, by simpa using hc.2⟩
    by_cases hn : drawn avg groups = []
    · rw [if_pos hn]
      exact ⟨⟨fun h => (by cases h), fun h => absurd h ha⟩, ⟨fun _ => hn, fun _ => rfl⟩, ⟨fun ⟨_, h⟩ => (by cases h), fun h => absurd hn h.1⟩⟩
    · rw [if_neg hn]
      exact ⟨⟨fun h => (by cases h), fun h => absurd h ha⟩, ⟨fun h => (by cases h), fun h => absurd h hn⟩, ⟨fun _ => ⟨hn, hb⟩, fun _ => ⟨_, rfl⟩⟩⟩

example : ∀ b ∈ Requested false [[1], [2, 1]], ((fun _ => some [] : ℕ → Option (List Row)) b).isSome := by simp

/-- With fewer axes than baseline-pairs the last ones are silently not drawn. -/
theorem C128_counterexample_axes : ∃ p : Panel, waterfall .abs true false false (some 1) [[1], [2]]
      (fun b => if b = 1 then some [⟨[1], 1, 0⟩] else if b = 2 then some [⟨[1], 1, 1⟩] else none) = .ok [p] ∧ p.blp = 1 := ⟨_, rfl, rfl⟩

/-! ### LSTs -/

theorem unwrapStep_spec (a b : ℝ) : |unwrapStep a b| ≤ Real.pi ∧ ∃ k : ℤ, unwrapStep a b = b - a + k * (2 * Real.pi) := by
  have hpi := Real.pi_pos
  unfold unwrapStep
  simp only
  split
  · rename_i h
    refine ⟨by rw [abs_of_pos hpi], ?_⟩
    refine ⟨1 - ⌊(b - a + Real.pi) / (2 * Real.pi)⌋, ?_⟩
    push_cast
    linarith [h.1]
  · split
    · rename_i h
      exact ⟨h.le, 0, by simp⟩
    · refine ⟨?_, -⌊(b - a + Real.pi) / (2 * Real.pi)⌋, by push_cast; ring⟩
      have h1 := Int.floor_le ((b - a + Real.pi) / (2 * Real.pi))
      have h2 := Int.lt_floor_add_one ((b - a + Real.pi) / (2 * Real.pi))
      rw [le_div_iff₀ (by linarith)] at h1
      rw [div_lt_iff₀ (by linarith)] at h2
      rw [abs_le]
      constructor <;> linarith

theorem unwrapFrom_spec : ∀ (l : List ℝ) (cur prev : ℝ) (k : ℤ), cur = prev + k * (2 * Real.pi) →
    (unwrapFrom cur prev l).length = l.length ∧
    (∀ (i : ℕ) x y, l[i]? = some x → (unwrapFrom cur prev l)[i]? = some y → ∃ k : ℤ, y = x + k * (2 * Real.pi)) ∧
    (∀ (i : ℕ) x y, (cur :: unwrapFrom cur prev l)[i]? = some x → (cur :: unwrapFrom cur prev l)[i + 1]? = some y → |y - x| ≤ Real.pi) := by
  intro l
  induction l with
  | nil => intro cur prev k _; simp [unwrapFrom]
  | cons b l ih =>
    intro cur prev k hk
    obtain ⟨hs1, j, hs2⟩ := unwrapStep_spec prev b
    have hcur : cur + unwrapStep prev b = b + ((k + j : ℤ) : ℝ) * (2 * Real.pi) := by rw [hs2, hk]; push_cast; ring
    obtain ⟨h1, h2, h3⟩ := ih (cur + unwrapStep prev b) b (k + j) hcur
    unfold unwrapFrom
    refine ⟨by simp [h1], ?_, ?_⟩
    · intro i x y hx hy
      cases i with
      | zero =>
        simp only [List.getElem?_cons_zero, Option.some.injEq] at hx hy
        subst hx; subst hy
        exact ⟨k + j, hcur⟩
      | succ i =>
        simp only [List.getElem?_cons_succ] at hx hy
        exact h2 i x y hx hy
    · intro i x y hx hy
      cases i with
      | zero =>
        simp only [List.getElem?_cons_zero, List.getElem?_cons_succ, Option.some.injEq] at hx hy
        subst hx; subst hy
        simpa using hs1
      | succ i =>
        simp only [List.getElem?_cons_succ] at hx
        rw [List.getElem?_cons_succ] at hy
        exact h3 i x y hx hy

/-- The LST axis: one entry per integration, each the integration's LST up to a multiple of 2 pi, neighbours at most pi apart, starting in (-pi, pi] if the LSTs are
in [0, 2 pi). -/
theorem C128_lst_axis (y : List ℝ) : (lstAxis y).length = y.length ∧
    (∀ (i : ℕ) a b, y[i]? = some a → (lstAxis y)[i]? = some b → ∃ k : ℤ, b = a + k * (2 * Real.pi)) ∧
    (∀ (i : ℕ) a b, (lstAxis y)[i]? = some a → (lstAxis y)[i + 1]? = some b → |b - a| ≤ Real.pi) ∧
    (∀ a, y[0]? = some a → 0 ≤ a → a < 2 * Real.pi → ∃ b, (lstAxis y)[0]? = some b ∧ -Real.pi < b ∧ b ≤ Real.pi) := by
  have hpi := Real.pi_pos
  have hu : (unwrap y).length = y.length ∧
      (∀ (i : ℕ) a b, y[i]? = some a → (unwrap y)[i]? = some b → ∃ k : ℤ, b = a + k * (2 * Real.pi)) ∧
      (∀ (i : ℕ) a b, (unwrap y)[i]? = some a → (unwrap y)[i + 1]? = some b → |b - a| ≤ Real.pi) ∧ (unwrap y)[0]? = y[0]? := by
    cases y with
    | nil => simp [unwrap]
    | cons a l =>
      obtain ⟨h1, h2, h3⟩ := unwrapFrom_spec l a a 0 (by simp)
      refine ⟨by simp [unwrap, h1], ?_, h3, by simp [unwrap]⟩
      intro i x z hx hz
      cases i with
      | zero =>
        simp [unwrap] at hx hz
        subst hx; subst hz; exact ⟨0, by simp⟩
      | succ i => exact h2 i x z (by simpa using hx) (by simpa [unwrap] using hz)
  obtain ⟨h1, h2, h3, h4⟩ := hu
  have hhead : ∀ a, y[0]? = some a → (unwrap y).headD 0 = a := by
    intro a ha
    rw [List.headD_eq_head?_getD, List.head?_eq_getElem?, h4, ha]; rfl
  unfold lstAxis
  split
  · rename_i hgt
    refine ⟨by simp [h1], ?_, ?_, ?_⟩
    · intro i a b ha hb
      rw [List.getElem?_map] at hb
      obtain ⟨c, hc, rfl⟩ := Option.map_eq_some_iff.1 hb
      obtain ⟨k, hk⟩ := h2 i a c ha hc
      exact ⟨k - 1, by rw [hk]; push_cast; ring⟩
    · intro i a b ha hb
      rw [List.getElem?_map] at ha hb
      obtain ⟨c, hc, rfl⟩ := Option.map_eq_some_iff.1 ha
      obtain ⟨c', hc', rfl⟩ := Option.map_eq_some_iff.1 hb
      have := h3 i c c' hc hc'
      rwa [show c' - 2 * Real.pi - (c - 2 * Real.pi) = c' - c by ring]
    · intro a ha h0 h2p
      rw [hhead a ha] at hgt
      exact ⟨a - 2 * Real.pi, by rw [List.getElem?_map, h4, ha]; rfl, by linarith, by linarith⟩
  · rename_i hgt
    refine ⟨h1, h2, h3, ?_⟩
    intro a ha h0 h2p
    rw [hhead a ha] at hgt
    exact ⟨a, by rw [h4, ha], by linarith, not_lt.1 hgt⟩

/-- All panels are drawn against the LSTs of the first one: a second baseline-pair observed at LST 1 is drawn at LST 0. -/
theorem C128_counterexample_lst : ∃ p q : Panel, waterfall .abs true false false none [[1], [2]]
      (fun b => if b = 1 then some [⟨[1], 1, 0⟩] else if b = 2 then some [⟨[1], 1, 1⟩] else none) = .ok [p, q] ∧ q.blp = 2 ∧ q.lsts = [0] := by
  refine ⟨_, _, rfl, rfl, ?_⟩
  simp [firstLsts, lstAxis, unwrap, unwrapFrom]
  linarith [Real.pi_pos]

/-- The hypotheses of the main theorem are met. -/
example : ∃ ps, waterfall .abs true false false none [[1], [2, 1]]
    (fun b => if b = 1 then some [⟨[1], 1, 0⟩] else if b = 2 then some [⟨[1], 1, 1⟩] else none) = .ok ps ∧ ps.map (·.blp) = [1, 2] := ⟨_, rfl, rfl⟩

/-- A single entry, a group, and a refused antenna-pair. -/
example : normalize (fun b => b.1.1) [.single (.int 5), .group [.blpair ((7, 8), (7, 8)), .int 1]] = .ok [[5], [7, 1]] := rfl

end HeraPspec.PlotFall
