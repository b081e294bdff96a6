import Verif.Model.Validate
import Mathlib.Tactic.Linarith
import Mathlib.Tactic.NormNum
import Mathlib.Analysis.Normed.Group.Real

/-! C109: the checks of `PSpecData.pspec` on its baseline-pairs and polarizations. -/
namespace HeraPspec.Validate
variable {V : Type} [NormedAddCommGroup V]

/-! Specification. -/

/-- The position of antenna `a`: that of the second object if it has the antenna, otherwise that of the first. -/
def PosOf (ap1 ap2 : Dict ℤ V) (a : ℤ) (x : V) : Prop := Dict.get ap2 a = some x ∨ (Dict.get ap2 a = none ∧ Dict.get ap1 a = some x)

/-- The pair `p` is among those asked for, alone or in a group. -/
def Asked (l : List Item) (p : Bl × Bl) : Prop := Item.pair p ∈ l ∨ ∃ g, Item.group g ∈ l ∧ p ∈ g

/-- The four antennas of the pair have positions, and the baseline vectors differ by `tol` or more. -/
def Apart (ap1 ap2 : Dict ℤ V) (tol : ℝ) (p : Bl × Bl) : Prop :=
  ∃ x1 x2 y1 y2, PosOf ap1 ap2 p.1.1 x1 ∧ PosOf ap1 ap2 p.1.2 x2 ∧ PosOf ap1 ap2 p.2.1 y1 ∧ PosOf ap1 ap2 p.2.2 y2 ∧ tol ≤ ‖(x1 - x2) - (y1 - y2)‖

/-- The two objects place every antenna they share within `tol`. -/
def Agree (ap1 ap2 : Dict ℤ V) (tol : ℝ) : Prop := ∀ a x y, Dict.get ap1 a = some x → Dict.get ap2 a = some y → ‖x - y‖ ≤ tol

/-! Lemmas. -/

theorem agree_iff (ap1 ap2 : Dict ℤ V) (tol : ℝ) : agree ap1 ap2 tol = true ↔ Agree ap1 ap2 tol := by
  unfold agree Agree
  rw [List.all_eq_true]
  constructor
  · intro h a x y hx hy
    have := h (a, x) (Dict.mem_of_get hx)
    simp only [hx, hy, decide_eq_true_eq] at this
    exact this
  · intro h e he
    split
    · rename_i x y hx hy
      exact decide_eq_true (h _ _ _ hx hy)
    · rfl

theorem get_update (ap1 ap2 : Dict ℤ V) (hn : ap2.keys.Nodup) (a : ℤ) (x : V) : Dict.get (update ap1 ap2) a = some x ↔ PosOf ap1 ap2 a x := by
  unfold update PosOf
  induction ap2 generalizing ap1 with
  | nil => simp
  | cons e l ih =>
    simp only [Dict.keys, List.map_cons, List.nodup_cons] at hn
    rw [List.foldl_cons, ih _ hn.2, Dict.get_set, Dict.get_cons]
    by_cases h : e.1 = a
    · have hl : Dict.get l a = none := by rw [Dict.get_eq_none_iff, ← h]; exact hn.1
      simp [h, hl]
    · simp only [h, if_false]

theorem checkPair_ok (ap : Dict ℤ V) (tol : ℝ) (p : Bl × Bl) (w : List (Bl × Bl)) (h : checkPair ap tol p = .ok w) :
    ∃ x1 x2 y1 y2, Dict.get ap p.1.1 = some x1 ∧ Dict.get ap p.1.2 = some x2 ∧ Dict.get ap p.2.1 = some y1 ∧ Dict.get ap p.2.2 = some y2 ∧
      ((w = [p] ∧ tol ≤ ‖(x1 - x2) - (y1 - y2)‖) ∨ (w = [] ∧ ‖(x1 - x2) - (y1 - y2)‖ < tol)) := by
  unfold checkPair blVec at h
  cases h1 : Dict.get ap p.1.1 <;> cases h2 : Dict.get ap p.1.2 <;> cases h3 : Dict.get ap p.2.1 <;> cases h4 : Dict.get ap p.2.2 <;>
    simp only [h1, h2, h3, h4, reduceCtorEq, Except.ok.injEq] at h
  rename_i x1 x2 y1 y2
  refine ⟨x1, x2, y1, y2, rfl, rfl, rfl, rfl, ?_⟩
  split_ifs at h with hc
  · exact .inl ⟨h.symm, hc⟩
  · exact .inr ⟨h.symm, not_le.1 hc⟩

theorem checkPair_err (ap : Dict ℤ V) (tol : ℝ) (p : Bl × Bl) (e : Err) (h : checkPair ap tol p = .error e) :
    e = .key ∧ ∃ a ∈ [p.1.1, p.1.2, p.2.1, p.2.2], Dict.get ap a = none := by
  unfold checkPair blVec at h
  cases h1 : Dict.get ap p.1.1 <;> cases h2 : Dict.get ap p.1.2 <;> cases h3 : Dict.get ap p.2.1 <;> cases h4 : Dict.get ap p.2.2 <;>
    simp only [h1, h2, h3, h4, reduceCtorEq, Except.error.injEq] at h <;>
    simp [h1, h2, h3, h4, ← h]

theorem checkAll_ok (ap : Dict ℤ V) (tol : ℝ) (l w : List (Bl × Bl)) (h : checkAll ap tol l = .ok w) :
    w.Sublist l ∧ (∀ p ∈ l, ∀ a ∈ [p.1.1, p.1.2, p.2.1, p.2.2], (Dict.get ap a).isSome) ∧
    ∀ p, p ∈ w ↔ p ∈ l ∧ ∃ x1 x2 y1 y2, Dict.get ap p.1.1 = some x1 ∧ Dict.get ap p.1.2 = some x2 ∧ Dict.get ap p.2.1 = some y1 ∧
      Dict.get ap p.2.2 = some y2 ∧ tol ≤ ‖(x1 - x2) - (y1 - y2)‖ := by
  induction l generalizing w with
  | nil => simp only [checkAll, Except.ok.injEq] at h; subst h; simp
  | cons q l ih =>
    unfold checkAll at h
    cases h1 : checkPair ap tol q with
    | error e => rw [h1] at h; cases h
    | ok w1 =>
      cases h2 : checkAll ap tol l with
      | error e => rw [h1, h2] at h; cases h
      | ok w2 =>
        rw [h1, h2] at h
        simp only [Except.ok.injEq] at h
        subst h
        obtain ⟨s, hs, hm⟩ := ih w2 h2
        obtain ⟨x1, x2, y1, y2, g1, g2, g3, g4, hw⟩ := checkPair_ok _ _ _ _ h1
        refine ⟨?_, ?_, ?_⟩
        · rcases hw with ⟨rfl, _⟩ | ⟨rfl, _⟩
          · exact s.cons_cons q
          · exact s.cons q
        · intro p hp a ha
          rcases List.mem_cons.1 hp with rfl | hp
          · simp only [List.mem_cons, List.not_mem_nil, or_false] at ha
            rcases ha with rfl | rfl | rfl | rfl <;> simp [g1, g2, g3, g4]
          · exact hs p hp a ha
        · intro p
          rw [List.mem_append, hm]
          constructor
          · rintro (hp | ⟨hp, hx⟩)
            · rcases hw with ⟨rfl, hd⟩ | ⟨rfl, _⟩
              · simp only [List.mem_cons, List.not_mem_nil, or_false] at hp
                subst hp
                exact ⟨by simp, x1, x2, y1, y2, g1, g2, g3, g4, hd⟩
              · simp at hp
            · exact ⟨List.mem_cons_of_mem _ hp, hx⟩
          · rintro ⟨hp, z1, z2, z3, z4, k1, k2, k3, k4, hd⟩
            rcases List.mem_cons.1 hp with rfl | hp
            · rcases hw with ⟨rfl, _⟩ | ⟨rfl, hd'⟩
              · exact .inl (by simp)
              · rw [g1] at k1; rw [g2] at k2; rw [g3] at k3; rw [g4] at k4
                cases k1; cases k2; cases k3; cases k4
                exact absurd hd (not_le.2 hd')
            · exact .inr ⟨hp, z1, z2, z3, z4, k1, k2, k3, k4, hd⟩

theorem checkAll_err (ap : Dict ℤ V) (tol : ℝ) (l : List (Bl × Bl)) (e : Err) (h : checkAll ap tol l = .error e) :
    e = .key ∧ ∃ p ∈ l, ∃ a ∈ [p.1.1, p.1.2, p.2.1, p.2.2], Dict.get ap a = none := by
  induction l with
  | nil => cases h
  | cons q l ih =>
    unfold checkAll at h
    cases h1 : checkPair ap tol q with
    | error e' =>
      rw [h1] at h
      cases h
      obtain ⟨he, a, ha, hg⟩ := checkPair_err _ _ _ _ h1
      exact ⟨he, q, by simp, a, ha, hg⟩
    | ok w1 =>
      cases h2 : checkAll ap tol l with
      | error e' =>
        rw [h1, h2] at h
        cases h
        obtain ⟨he, p, hp, x⟩ := ih h2
        exact ⟨he, p, List.mem_cons_of_mem _ hp, x⟩
      | ok w2 => rw [h1, h2] at h; cases h

theorem mem_asked (l : List Item) (p : Bl × Bl) : p ∈ l.flatMap Item.pairs ↔ Asked l p := by
  unfold Asked
  rw [List.mem_flatMap]
  constructor
  · rintro ⟨i, hi, hp⟩
    cases i with
    | pair q => simp only [Item.pairs, List.mem_cons, List.not_mem_nil, or_false] at hp; subst hp; exact .inl hi
    | group g => exact .inr ⟨g, hi, hp⟩
  · rintro (h | ⟨g, h, hp⟩)
    · exact ⟨_, h, by simp [Item.pairs]⟩
    · exact ⟨_, h, hp⟩

/-! Theorems. -/

/-- **C109** (partial). Baseline-pairs are refused exactly when the two objects place a shared antenna more than the tolerance apart; otherwise, if
every antenna has a position, the pairs reported are exactly those asked for, alone or in groups, whose baseline vectors differ by the tolerance or more.

Missing: the vector of the first baseline is taken from the positions of the second object, so that pairs up to three tolerances apart go unreported
(`C109_distance`, `C109_counterexample_unreported`). -/
theorem C109_reported_partial (l : List Item) (ap1 ap2 : Dict ℤ V) (tol : ℝ) (hn : ap2.keys.Nodup) :
    (validateBlpairs l ap1 ap2 tol = .error .assertion ↔ ¬ Agree ap1 ap2 tol) ∧
    (validateBlpairs l ap1 ap2 tol = .error .key ↔ Agree ap1 ap2 tol ∧
      ∃ p, Asked l p ∧ ∃ a ∈ [p.1.1, p.1.2, p.2.1, p.2.2], ∀ x, ¬ PosOf ap1 ap2 a x) ∧
    ∀ ws, validateBlpairs l ap1 ap2 tol = .ok ws → ∀ p, p ∈ ws ↔ Asked l p ∧ Apart ap1 ap2 tol p := by
  have hnone : ∀ a, Dict.get (update ap1 ap2) a = none ↔ ∀ x, ¬ PosOf ap1 ap2 a x := by
    intro a
    rw [Option.eq_none_iff_forall_ne_some]
    exact forall_congr' fun x => not_congr (get_update ap1 ap2 hn a x)
  unfold validateBlpairs
  by_cases hA : agree ap1 ap2 tol = true
  · rw [if_pos hA]
    have hA' := (agree_iff _ _ _).1 hA
    refine ⟨⟨fun h => ?_, fun h => absurd hA' h⟩, ⟨fun h => ?_, ?_⟩, ?_⟩
    · obtain ⟨he, _⟩ := checkAll_err _ _ _ _ h; cases he
    · obtain ⟨_, p, hp, a, ha, hg⟩ := checkAll_err _ _ _ _ h
      exact ⟨hA', p, (mem_asked _ _).1 hp, a, ha, (hnone a).1 hg⟩
    · rintro ⟨_, p, hp, a, ha, hg⟩
      cases hc : checkAll (update ap1 ap2) tol (l.flatMap Item.pairs) with
      | error e => obtain ⟨rfl, _⟩ := checkAll_err _ _ _ _ hc; rfl
      | ok w =>
        have := (checkAll_ok _ _ _ _ hc).2.1 p ((mem_asked _ _).2 hp) a ha
        rw [(hnone a).2 hg] at this
        cases this
    · intro ws h p
      rw [(checkAll_ok _ _ _ _ h).2.2 p, mem_asked]
      unfold Apart
      simp only [get_update ap1 ap2 hn]
  · rw [if_neg hA]
    have hA' : ¬ Agree ap1 ap2 tol := fun h => hA ((agree_iff _ _ _).2 h)
    refine ⟨⟨fun _ => hA', fun _ => rfl⟩, ⟨fun h => ?_, fun h => absurd h.1 hA'⟩, fun ws h => ?_⟩ <;> cases h

/-- What no report means: a pair that is not reported, of a baseline of the first object and a baseline of the second object, differs by less than three
times the tolerance. -/
theorem C109_distance (l : List Item) (ap1 ap2 : Dict ℤ V) (tol : ℝ) (hn : ap2.keys.Nodup) (ws : List (Bl × Bl))
    (h : validateBlpairs l ap1 ap2 tol = .ok ws) (p : Bl × Bl) (hp : Asked l p) (hw : p ∉ ws) (x1 x2 y1 y2 : V)
    (h1 : Dict.get ap1 p.1.1 = some x1) (h2 : Dict.get ap1 p.1.2 = some x2) (h3 : Dict.get ap2 p.2.1 = some y1) (h4 : Dict.get ap2 p.2.2 = some y2) :
    ‖(x1 - x2) - (y1 - y2)‖ < 3 * tol := by
  obtain ⟨ha, _, hr⟩ := C109_reported_partial l ap1 ap2 tol hn
  have hA : Agree ap1 ap2 tol := by
    by_contra hc
    rw [ha.2 hc] at h; cases h
  have htol : ∀ a x, Dict.get ap1 a = some x → ∃ u, PosOf ap1 ap2 a u ∧ (‖x - u‖ ≤ tol ∨ x = u) := by
    intro a x hx
    cases hg : Dict.get ap2 a with
    | none => exact ⟨x, .inr ⟨hg, hx⟩, .inr rfl⟩
    | some y => exact ⟨y, .inl hg, .inl (hA a x y hx hg)⟩
  obtain ⟨u1, hu1, d1⟩ := htol _ _ h1
  obtain ⟨u2, hu2, d2⟩ := htol _ _ h2
  have hd : ‖(u1 - u2) - (y1 - y2)‖ < tol := by
    by_contra hc
    exact hw ((hr ws h p).2 ⟨hp, u1, u2, y1, y2, hu1, hu2, .inl h3, .inl h4, not_lt.1 hc⟩)
  have hpos : 0 < tol := lt_of_le_of_lt (norm_nonneg _) hd
  have e1 : ‖x1 - u1‖ ≤ tol := by
    rcases d1 with d | rfl
    · exact d
    · simpa using hpos.le
  have e2 : ‖x2 - u2‖ ≤ tol := by
    rcases d2 with d | rfl
    · exact d
    · simpa using hpos.le
  have heq : (x1 - x2) - (y1 - y2) = ((x1 - u1) - (x2 - u2)) + ((u1 - u2) - (y1 - y2)) := by abel
  rw [heq]
  calc _ ≤ ‖(x1 - u1) - (x2 - u2)‖ + ‖(u1 - u2) - (y1 - y2)‖ := norm_add_le _ _
    _ ≤ ‖x1 - u1‖ + ‖x2 - u2‖ + ‖(u1 - u2) - (y1 - y2)‖ := by linarith [norm_sub_le (x1 - u1) (x2 - u2)]
    _ < 3 * tol := by linarith

/-- When the objects agree on their antennas exactly, a pair asked for is reported exactly when its baselines differ by the tolerance or more. -/
theorem C109_same_antennas (l : List Item) (ap : Dict ℤ V) (tol : ℝ) (hn : ap.keys.Nodup) (ws : List (Bl × Bl))
    (h : validateBlpairs l ap ap tol = .ok ws) (p : Bl × Bl) (hp : Asked l p) (x1 x2 y1 y2 : V)
    (h1 : Dict.get ap p.1.1 = some x1) (h2 : Dict.get ap p.1.2 = some x2) (h3 : Dict.get ap p.2.1 = some y1) (h4 : Dict.get ap p.2.2 = some y2) :
    p ∈ ws ↔ tol ≤ ‖(x1 - x2) - (y1 - y2)‖ := by
  rw [(C109_reported_partial l ap ap tol hn).2.2 ws h p]
  constructor
  · rintro ⟨_, z1, z2, z3, z4, k1, k2, k3, k4, hd⟩
    have hu : ∀ a x z, Dict.get ap a = some x → PosOf ap ap a z → x = z := by
      rintro a x z hx (hz | ⟨hz, _⟩)
      · rw [hx] at hz; exact Option.some.inj hz
      · rw [hx] at hz; cases hz
    rw [hu _ _ _ h1 k1, hu _ _ _ h2 k2, hu _ _ _ h3 k3, hu _ _ _ h4 k4]
    exact hd
  · intro hd
    exact ⟨hp, x1, x2, y1, y2, .inl h1, .inl h2, .inl h3, .inl h4, hd⟩

/-- Both files, on a line: they agree on antennas 1 and 2 to the tolerance of 1. -/
noncomputable def exAp1 : Dict ℤ ℝ := [(1, 1), (2, -1)]
/-- The second file. -/
noncomputable def exAp2 : Dict ℤ ℝ := [(1, 0), (2, 0), (3, 0), (4, 9 / 10)]

/-- A baseline of the first file of length 2 is paired with a baseline of the second file of length -9/10 without report. -/
theorem C109_counterexample_unreported :
    validateBlpairs [.pair ((1, 2), (3, 4))] exAp1 exAp2 1 = .ok [] ∧ (1 : ℝ) < ‖((1 : ℝ) - (-1)) - (0 - 9 / 10)‖ := by
  constructor
  · have hA : agree exAp1 exAp2 1 = true := by
      simp [agree, exAp1, exAp2, Dict.get_cons]
    have hu : update exAp1 exAp2 = [(1, 0), (2, 0), (3, 0), (4, 9 / 10)] := by
      simp [update, exAp1, exAp2, Dict.set]
    unfold validateBlpairs
    rw [if_pos hA, hu]
    simp [checkAll, checkPair, blVec, Dict.get_cons, Item.pairs]
    rw [abs_of_pos (by norm_num)]; norm_num
  · rw [Real.norm_eq_abs]; norm_num [abs_of_pos]

/-- Non-vacuity: with exact agreement, a pair 2 apart is reported and a redundant pair in a group is not. -/
example : validateBlpairs [.pair ((1, 2), (2, 1)), .group [((1, 2), (1, 2))]] exAp1 exAp1 1 = .ok [((1, 2), (2, 1))] := by
  have hA : agree exAp1 exAp1 1 = true := by simp [agree, exAp1, Dict.get_cons]
  have hu : update exAp1 exAp1 = exAp1 := by simp [update, exAp1, Dict.set]
  unfold validateBlpairs
  rw [if_pos hA, hu]
  simp [checkAll, checkPair, blVec, Dict.get_cons, Item.pairs, exAp1]
  rw [if_pos (by rw [le_abs]; norm_num), if_neg (by norm_num)]; rfl

/-- **C109**, polarizations. The polarization pair is valid exactly when the first polarization is in the first dataset and the second in the second,
strings being converted with the orientation of the very first dataset of the object. -/
theorem C109_pol (conv : String → Option String → Option ℤ) (dsets : List Dset) (d1 d2 : ℕ) (pp : Pol × Pol) (v : Bool)
    (h : validatePol conv dsets d1 d2 pp = some v) :
    ∃ d0 e1 e2 p1 p2, dsets[0]? = some d0 ∧ dsets[d1]? = some e1 ∧ dsets[d2]? = some e2 ∧
      (pp.1 = .int p1 ∨ ∃ s, pp.1 = .str s ∧ conv s d0.xOrient = some p1) ∧ (pp.2 = .int p2 ∨ ∃ s, pp.2 = .str s ∧ conv s d0.xOrient = some p2) ∧
      (v = true ↔ p1 ∈ e1.pols ∧ p2 ∈ e2.pols) := by
  unfold validatePol at h
  cases h0 : dsets[0]? with
  | none => rw [h0] at h; cases h
  | some d0 =>
    rw [h0] at h
    simp only at h
    cases ha : toInt conv d0.xOrient pp.1 <;> cases hb : toInt conv d0.xOrient pp.2 <;> cases hc : dsets[d1]? <;> cases hd : dsets[d2]? <;>
      simp only [ha, hb, hc, hd, reduceCtorEq, Option.some.injEq] at h
    rename_i p1 p2 e1 e2
    have key : ∀ (q : Pol) (n : ℤ), toInt conv d0.xOrient q = some n → (q = .int n ∨ ∃ s, q = .str s ∧ conv s d0.xOrient = some n) := by
      intro q n hq
      cases q with
      | int m => simp only [toInt, Option.some.injEq] at hq; subst hq; exact .inl rfl
      | str s => exact .inr ⟨s, rfl, hq⟩
    refine ⟨d0, e1, e2, p1, p2, rfl, rfl, rfl, key _ _ ha, key _ _ hb, ?_⟩
    rw [← h]
    simp

/-- Finding: the orientation is not that of the datasets used: with `x` pointing north in the first dataset of the object and east in the two used, the
string "ee" is looked up as if it were "yy" (-6), and data that are there are not found. -/
theorem C109_counterexample_orientation :
    let conv : String → Option String → Option ℤ := fun s x => if s = "ee" then (if x = some "east" then some (-5) else some (-6)) else none
    validatePol conv [⟨[-5, -6], some "north"⟩, ⟨[-5], some "east"⟩, ⟨[-5], some "east"⟩] 1 2 (.str "ee", .str "ee") = some false ∧
      conv "ee" (some "east") = some (-5) := by
  decide +kernel

example : validatePol (fun _ _ => some (-5)) [⟨[-5], none⟩, ⟨[-6], none⟩] 0 1 (.str "xx", .int (-6)) = some true := by decide +kernel

end HeraPspec.Validate
