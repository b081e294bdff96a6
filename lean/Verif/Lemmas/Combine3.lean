import Verif.Lemmas.Combine2

namespace HeraPspec.Combine
open HeraPspec.UVP (mapE Err mapE_ok_iff mapE_exists forall₂_getElem_left forall₂_getElem_right)
variable {α β : Type} {R M T Z S X C K V : Type}
variable [LinearOrder R] [LinearOrder T] [DecidableEq C] [DecidableEq K] [DecidableEq V]
variable {rangeOf : M → R} {rnd : T → T} {close : S → S → Bool}

theorem mergeDict_spec {acc d : Dict K V} (hd : d.keys.Nodup) (ha : acc.keys.Nodup) :
    (∀ r, mergeDict acc d = .ok r → r.keys.Nodup ∧ ∀ k, Dict.get r k = (Dict.get acc k).or (Dict.get d k)) ∧
    ((∃ r, mergeDict acc d = .ok r) ↔ ∀ k v w, Dict.get acc k = some v → Dict.get d k = some w → v = w) := by
  induction d generalizing acc with
  | nil => simp [mergeDict, ha]
  | cons e d ih =>
    obtain ⟨k0, v0⟩ := e
    simp only [Dict.keys, List.map_cons, List.nodup_cons] at hd
    have hnone : Dict.get d k0 = none := (Dict.get_eq_none_iff d k0).2 hd.1
    unfold mergeDict
    cases hg : Dict.get acc k0 with
    | none =>
      simp only []
      obtain ⟨h1, h2⟩ := ih (acc := Dict.set acc k0 v0) hd.2 (Dict.keys_set_nodup _ _ _ ha)
      constructor
      · intro r hr
        refine ⟨(h1 r hr).1, fun k => ?_⟩
        rw [(h1 r hr).2, Dict.get_set, Dict.get_cons]
        by_cases hk : k0 = k
        · subst hk; simp [hg]
        · simp [hk]
      · rw [h2]
        constructor
        · intro h k v w hv hw
          rw [Dict.get_cons] at hw
          by_cases hk : k0 = k
          · subst hk; rw [hg] at hv; cases hv
          · simp only [hk, if_false] at hw
            exact h k v w (by rw [Dict.get_set]; simp [hk, hv]) hw
        · intro h k v w hv hw
          rw [Dict.get_set] at hv
          by_cases hk : k0 = k
          · subst hk; rw [hnone] at hw; cases hw
          · simp only [hk, if_false] at hv
            exact h k v w hv (by rw [Dict.get_cons]; simp [hk, hw])
    | some w0 =>
      simp only []
      obtain ⟨h1, h2⟩ := ih (acc := acc) hd.2 ha
      by_cases he : w0 = v0
      · subst he
        simp only [if_true]
        constructor
        · intro r hr
          refine ⟨(h1 r hr).1, fun k => ?_⟩
          rw [(h1 r hr).2, Dict.get_cons]
          by_cases hk : k0 = k
          · subst hk; simp [hg]
          · simp [hk]
        · rw [h2]
          constructor
          · intro h k v w hv hw
            rw [Dict.get_cons] at hw
            by_cases hk : k0 = k
            · subst hk; rw [hg] at hv; cases hv; simpa using hw
            · simp only [hk, if_false] at hw
              exact h k v w hv hw
          · intro h k v w hv hw
            have hk : k0 ≠ k := by rintro rfl; rw [hnone] at hw; cases hw
            exact h k v w hv (by rw [Dict.get_cons]; simp [hk, hw])
      · simp only [he, if_false, reduceCtorEq, false_imp_iff, implies_true, exists_false, false_iff, true_and]
        intro h
        exact he (h k0 w0 v0 hg (by rw [Dict.get_cons]; simp))

theorem foldl_error (ds : List (Dict K V)) (e : Err) :
    ds.foldl (fun acc d => match acc with | .ok a => mergeDict a d | .error e => .error e) (Except.error e) = .error e := by
  induction ds with
  | nil => rfl
  | cons d ds ih => exact ih

theorem mergeFold_spec {ds : List (Dict K V)} (hd : ∀ d ∈ ds, d.keys.Nodup) {acc : Dict K V} (ha : acc.keys.Nodup) :
    (∀ r, ds.foldl (fun acc d => match acc with | .ok a => mergeDict a d | .error e => .error e) (Except.ok acc) = .ok r →
      r.keys.Nodup ∧ (∀ k v, Dict.get r k = some v ↔ ∃ d ∈ acc :: ds, Dict.get d k = some v)) ∧
    ((∃ r, ds.foldl (fun acc d => match acc with | .ok a => mergeDict a d | .error e => .error e) (Except.ok acc) = .ok r) ↔
      ∀ d ∈ acc :: ds, ∀ e ∈ acc :: ds, ∀ k v w, Dict.get d k = some v → Dict.get e k = some w → v = w) := by
  induction ds generalizing acc with
  | nil =>
    simp only [List.foldl_nil, Except.ok.injEq, List.mem_singleton, forall_eq, exists_eq_left]
    refine ⟨?_, ?_⟩
    · rintro r rfl; exact ⟨ha, fun k v => Iff.rfl⟩
    · simp only [exists_eq', true_iff]
      intro k v w h1 h2; rw [h1] at h2; cases h2; rfl
  | cons d ds ih =>
    simp only [List.foldl_cons]
    obtain ⟨g1, g2⟩ := mergeDict_spec (hd d List.mem_cons_self) ha
    cases hm : mergeDict acc d with
    | error e =>
      rw [foldl_error]
      simp only [reduceCtorEq, false_imp_iff, implies_true, exists_false, false_iff, true_and]
      intro h
      have : ∃ r, mergeDict acc d = .ok r :=
        g2.2 (fun k v w hv hw => h acc (by simp) d (by simp) k v w hv hw)
      rw [hm] at this; obtain ⟨r, hr⟩ := this; cases hr
    | ok a =>
      obtain ⟨an, ag⟩ := g1 a hm
      obtain ⟨h1, h2⟩ := ih (fun x hx => hd x (List.mem_cons_of_mem _ hx)) an
      have hag := g2.1 ⟨a, hm⟩
      have agv : ∀ k v, Dict.get a k = some v ↔ Dict.get acc k = some v ∨ Dict.get d k = some v := by
        intro k v
        rw [ag, Option.or_eq_some_iff]
        constructor
        · rintro (h | ⟨_, h⟩) <;> simp [h]
        · rintro (h | h)
          · exact .inl h
          · cases hc : Dict.get acc k with
            | none => exact .inr ⟨rfl, h⟩
            | some w => exact .inl (by rw [hag k w v hc h])
      have hmem : ∀ k v, (∃ x ∈ a :: ds, Dict.get x k = some v) ↔ ∃ x ∈ acc :: d :: ds, Dict.get x k = some v := by
        intro k v
        simp only [List.exists_mem_cons_iff, agv, or_assoc]
      constructor
      · intro r hr
        exact ⟨(h1 r hr).1, fun k v => by rw [(h1 r hr).2, hmem]⟩
      · rw [h2]
        constructor
        · intro h x hx y hy k v w hv hw
          obtain ⟨x', hx', e1⟩ := (hmem k v).2 ⟨x, hx, hv⟩
          obtain ⟨y', hy', e2⟩ := (hmem k w).2 ⟨y, hy, hw⟩
          exact h x' hx' y' hy' k v w e1 e2
        · intro h x hx y hy k v w hv hw
          obtain ⟨x', hx', e1⟩ := (hmem k v).1 ⟨x, hx, hv⟩
          obtain ⟨y', hy', e2⟩ := (hmem k w).1 ⟨y, hy, hw⟩
          exact h x' hx' y' hy' k v w e1 e2

theorem mergeR_spec {ds : List (Dict K V)} (hd : ∀ d ∈ ds, d.keys.Nodup) :
    (∀ r, mergeR ds = .ok r → r.keys.Nodup ∧ ∀ k v, Dict.get r k = some v ↔ ∃ d ∈ ds, Dict.get d k = some v) ∧
    ((∃ r, mergeR ds = .ok r) ↔ Compatible ds) := by
  obtain ⟨h1, h2⟩ := mergeFold_spec hd (acc := []) (by simp [Dict.keys])
  unfold mergeR
  have hemp : (ds.any (·.isEmpty) && !ds.all (·.isEmpty)) = true ↔ ¬ ((∀ d ∈ ds, d = []) ∨ (∀ d ∈ ds, d ≠ [])) := by
    simp only [Bool.and_eq_true, List.any_eq_true, List.isEmpty_iff, Bool.not_eq_true', List.all_eq_false, not_or]
    push Not
    constructor
    · rintro ⟨⟨a, b, c⟩, d, e, f⟩; exact ⟨⟨d, e, f⟩, a, b, c⟩
    · rintro ⟨⟨a, b, c⟩, d, e, f⟩; exact ⟨⟨d, e, f⟩, a, b, c⟩
  by_cases hb : (ds.any (·.isEmpty) && !ds.all (·.isEmpty)) = true
  · rw [if_pos hb]
    refine ⟨by simp, ?_⟩
    simp only [reduceCtorEq, exists_false, false_iff]
    intro h; exact hemp.1 hb h.empty
  · rw [if_neg hb]
    constructor
    · intro r hr
      refine ⟨(h1 r hr).1, fun k v => ?_⟩
      rw [(h1 r hr).2]; simp
    · refine Iff.trans h2 ?_
      constructor
      · intro h
        exact ⟨fun d hd e he => h d (List.mem_cons_of_mem _ hd) e (List.mem_cons_of_mem _ he),
          by by_contra hh; exact hb (hemp.2 hh)⟩
      · intro h d hd e he k v w hv hw
        rcases List.mem_cons.1 hd with rfl | hd
        · simp at hv
        rcases List.mem_cons.1 he with rfl | he
        · simp at hw
        exact h.agree d hd e he k v w hv hw

theorem ne_nil_axes {us : List (Obj M T Z S X C K V)} {ax : Axis} (hc : Combinable rangeOf close ax us)
    (hwf : ∀ v ∈ us, WF rangeOf v) : newSpws rangeOf us ≠ [] ∧ newPols us ≠ [] := by
  have hne : us ≠ [] := by rintro rfl; have := hc.two; simp at this
  obtain ⟨u0, l, rfl⟩ := List.exists_cons_of_ne_nil hne
  have h := hwf u0 List.mem_cons_self
  obtain ⟨m, _, hm⟩ := List.exists_cons_of_ne_nil h.someSpw
  obtain ⟨p, _, hp⟩ := List.exists_cons_of_ne_nil h.somePol
  constructor
  · apply List.ne_nil_of_mem (a := rangeOf m)
    exact mem_newSpws.2 ⟨u0, by simp, by simp [Obj.spws, hm]⟩
  · apply List.ne_nil_of_mem (a := p)
    exact mem_newPols.2 ⟨u0, by simp, by simp [hp]⟩

/-- Everything known about a successful combination. -/
theorem combine_spec {us : List (Obj M T Z S X C K V)} {ax : Axis} (hc : Combinable rangeOf close ax us)
    (hwf : ∀ v ∈ us, WF rangeOf v) (hal : Aligned rangeOf rnd ax us) {u : Obj M T Z S X C K V}
    (h : combine rangeOf rnd close us = .ok u) :
    (∀ r b p x n1 n2, Has rangeOf u r b p x n1 n2 ↔ ∃ v ∈ us, Has rangeOf v r b p x n1 n2) ∧
    (∀ b z, HasRow u b z → ∃ v ∈ us, HasRow v b z) ∧
    u.spwMeta.map rangeOf = newSpws rangeOf us ∧ u.blpts = newBlpts us ∧ u.pols = newPols us ∧
    u.labels = newLabels us ∧ (∀ k v, Dict.get u.rparams k = some v ↔ ∃ w ∈ us, Dict.get w.rparams k = some v) ∧
    (∀ v ∈ us, u.static = v.static) ∧ WF rangeOf u := by
  obtain ⟨ax', u0, rows, hc', h0, hrp, hmeta, hsc, hdt, hrw, e1, e2, e3, e4, e5, e6, e7⟩ := (combine_iff hc.two).1 h
  obtain rfl : ax' = ax := by
    have a1 := overlap_ok.2 ⟨hc, rfl, rfl, rfl⟩
    have a2 := overlap_ok.2 ⟨hc', rfl, rfl, rfl⟩
    rw [a1] at a2; cases a2; rfl
  obtain ⟨hs, hp⟩ := ne_nil_axes hc hwf
  have hspw := metaOf_spws hc hwf hal h0 hmeta
  obtain ⟨hrows, hrowz⟩ := rowsOf_spec hc hal hs hp hrw
  have hbl : u.blpts = newBlpts us := by
    rw [← hrows, Obj.blpts, e1, e2, e3]
    rw [List.zip_map', List.zip_map']
  have hrk : ∀ d ∈ us.map (·.rparams), d.keys.Nodup := by
    intro d hd; obtain ⟨v, hv, rfl⟩ := List.mem_map.1 hd; exact (hwf v hv).rkeys
  obtain ⟨rk, rg⟩ := (mergeR_spec hrk).1 _ hrp
  have hLs : ∀ v ∈ us, ∀ s ∈ v.labels, s ∈ newLabels us := fun v hv s hs => mem_newLabels.2 ⟨v, hv, hs⟩
  have hcell : ∀ (i j k : Nat) r b p, (newSpws rangeOf us)[i]? = some r → (newBlpts us)[j]? = some b →
      (newPols us)[k]? = some p → ∃ a a' c v n1 n2, u.data[i]? = some a ∧ a[j]? = some a' ∧ a'[k]? = some c ∧ v ∈ us ∧
        onAxis rangeOf ax' v r b p ∧ u.labels[c.lab1]? = some n1 ∧ u.labels[c.lab2]? = some n2 ∧
        Has rangeOf v r b p c.val n1 n2 := by
    intro i j k r b p hi hj hk
    obtain ⟨a, a', c, v, n, g1, g2, g3, g4, g5⟩ := dataOf_get hdt hi hj hk
    obtain ⟨v', n', k1, k2, k3, k4, _⟩ :=
      source_spec (rnd := rnd) hc hal.keyed (List.mem_of_getElem? hi) (List.mem_of_getElem? hk) hj
    rw [g4] at k1; cases k1
    obtain ⟨n1, n2, l1, l2, hh⟩ := copyCell_has k3 g5
    exact ⟨a, a', c, v, n1, n2, g1, g2, g3, k2, k4, by rw [e6]; exact l1, by rw [e6]; exact l2, hh⟩
  refine ⟨?_, ?_, hspw, hbl, e5, e6, ?_, ?_, ?_⟩
  · intro r b p x n1 n2
    constructor
    · rintro ⟨i, j, k, a, a', c, h1, h2, h3, h4, h5, h6, h7, h8, rfl, h9, h10⟩
      have hi : (newSpws rangeOf us)[i]? = some r := by rw [← hspw, List.getElem?_map]; exact h1
      have hj : (newBlpts us)[j]? = some b := by rw [← hbl]; exact blpts_get.2 ⟨h2, h3, h4⟩
      have hk : (newPols us)[k]? = some p := by rw [← e5]; exact h5
      obtain ⟨d, d', c', v, m1, m2, g1, g2, g3, hv, _, g4, g5, g6⟩ := hcell i j k r b p hi hj hk
      rw [h6] at g1; cases g1; rw [h7] at g2; cases g2; rw [h8] at g3; cases g3
      rw [h9] at g4; cases g4; rw [h10] at g5; cases g5
      exact ⟨v, hv, g6⟩
    · rintro ⟨v, hv, hh⟩
      have hh0 := hh
      obtain ⟨i, j, k, a, a', c, h1, h2, h3, h4, h5, _⟩ := hh0
      have hr : r ∈ v.spws rangeOf := by
        apply List.mem_of_getElem? (i := i); rw [Obj.spws, List.getElem?_map]; exact h1
      have hb : b ∈ v.blpts := List.mem_of_getElem? (blpts_get.2 ⟨h2, h3, h4⟩)
      have hpv : p ∈ v.pols := List.mem_of_getElem? h5
      obtain ⟨i', hi'⟩ := List.mem_iff_getElem?.1 (mem_newSpws.2 ⟨v, hv, hr⟩)
      obtain ⟨j', hj'⟩ := List.mem_iff_getElem?.1 (mem_newBlpts.2 ⟨v, hv, hb⟩)
      obtain ⟨k', hk'⟩ := List.mem_iff_getElem?.1 (mem_newPols.2 ⟨v, hv, hpv⟩)
      obtain ⟨d, d', c', w, m1, m2, g1, g2, g3, hw, ho, g4, g5, g6⟩ := hcell i' j' k' r b p hi' hj' hk'
      have : w = v := hc.owner_unique hw hv ho (by cases ax' <;> simp only [onAxis] <;> assumption)
      subst this
      obtain ⟨rfl, rfl, rfl⟩ := Has.unique (hwf w hw) hh g6
      obtain ⟨b1, b2, b3⟩ := blpts_get.1 (by rw [hbl]; exact hj')
      exact ⟨i', j', k', d, d', c', by rw [← List.getElem?_map, hspw]; exact hi', b1, b2, b3, by rw [e5]; exact hk',
        g1, g2, g3, rfl, g4, g5⟩
  · rintro b z ⟨j, h1, h2, h3, h4⟩
    rw [e1, List.getElem?_map] at h1; rw [e2, List.getElem?_map] at h2; rw [e3, List.getElem?_map] at h3
    rw [e4, List.getElem?_map] at h4
    cases hj : rows[j]? with
    | none => rw [hj] at h1; cases h1
    | some y =>
      rw [hj] at h1 h2 h3 h4
      obtain ⟨⟨y1, y2, y3⟩, y4⟩ := y
      simp only [Option.map_some, Option.some.injEq] at h1 h2 h3 h4
      obtain ⟨b1, b2, b3⟩ := b
      simp only [] at h1 h2 h3
      subst h1 h2 h3 h4
      exact hrowz j _ _ hj
  · intro k v; rw [rg]; simp
  · intro v hv
    rw [e7]
    exact (hc.static u0 (by rw [List.head?_eq_getElem?, h0]; simp) v hv).symm
  · have hF := mapE_ok_iff.1 hdt
    have hSF := mapE_ok_iff.1 hsc
    have hl1 : u.spwMeta.length = (newSpws rangeOf us).length := by rw [← hspw]; simp
    have hlr : rows.length = (newBlpts us).length := by rw [← hrows]; simp
    have hd2 : ∀ a ∈ u.data, a.length = (newBlpts us).length ∧ ∀ b ∈ a, b.length = (newPols us).length := by
      intro a ha
      obtain ⟨i, hi⟩ := List.mem_iff_getElem?.1 ha
      obtain ⟨r, _, h1⟩ := forall₂_getElem_right hF hi
      have h1 := mapE_ok_iff.1 h1
      refine ⟨by rw [← h1.length_eq]; simp, fun b hb => ?_⟩
      obtain ⟨j, hj⟩ := List.mem_iff_getElem?.1 hb
      obtain ⟨r', _, h2⟩ := forall₂_getElem_right h1 hj
      exact (mapE_ok_iff.1 h2).length_eq.symm
    constructor
    · rw [e2, e1]; simp
    · rw [e3, e1]; simp
    · rw [e4, e1]; simp
    · rw [hl1, ← hSF.length_eq]
    · intro a ha
      obtain ⟨i, hi⟩ := List.mem_iff_getElem?.1 ha
      obtain ⟨r, _, h1⟩ := forall₂_getElem_right hSF hi
      rw [e5, (mapE_ok_iff.1 h1).length_eq]
    · rw [hl1, ← hF.length_eq]
    · intro a ha; rw [(hd2 a ha).1, e1]; simp [hlr]
    · intro a ha b hb; rw [(hd2 a ha).2 b hb, e5]
    · intro a ha b hb c hc'
      obtain ⟨i, hi⟩ := List.mem_iff_getElem?.1 ha
      obtain ⟨j, hj⟩ := List.mem_iff_getElem?.1 hb
      obtain ⟨k, hk⟩ := List.mem_iff_getElem?.1 hc'
      obtain ⟨r, bb, p, q1, q2, q3⟩ := dataOf_get' hdt hi hj hk
      obtain ⟨d, d', c', w, m1, m2, g1, g2, g3, hw, ho, g4, g5, g6⟩ := hcell i j k r bb p q1 q2 q3
      rw [hi] at g1; cases g1; rw [hj] at g2; cases g2; rw [hk] at g3; cases g3
      exact ⟨(List.getElem?_eq_some_iff.1 g4).1, (List.getElem?_eq_some_iff.1 g5).1⟩
    · rw [hspw]; exact nodup_newSpws
    · rw [hbl]; exact nodup_newBlpts
    · rw [e5]; exact nodup_newPols
    · intro hh; rw [hh] at hspw; exact hs (by simpa using hspw.symm)
    · rw [e5]; exact hp
    · exact rk

/-- Combination succeeds on combinable, well-formed, aligned inputs with compatible `r_params`. -/
theorem combine_exists {us : List (Obj M T Z S X C K V)} {ax : Axis} (hc : Combinable rangeOf close ax us)
    (hwf : ∀ v ∈ us, WF rangeOf v) (hal : Aligned rangeOf rnd ax us) (hr : Compatible (us.map (·.rparams))) :
    ∃ u, combine rangeOf rnd close us = .ok u := by
  have hne : us ≠ [] := by rintro rfl; have := hc.two; simp at this
  obtain ⟨u0, l, hul⟩ := List.exists_cons_of_ne_nil hne
  have h0 : us[0]? = some u0 := by rw [hul]; rfl
  obtain ⟨hs, hp⟩ := ne_nil_axes hc hwf
  have hrk : ∀ d ∈ us.map (·.rparams), d.keys.Nodup := by
    intro d hd; obtain ⟨v, hv, rfl⟩ := List.mem_map.1 hd; exact (hwf v hv).rkeys
  obtain ⟨rp, hrp⟩ := (mergeR_spec hrk).2.2 hr
  have hLs : ∀ v ∈ us, ∀ s ∈ v.labels, s ∈ newLabels us := fun v hv s hs => mem_newLabels.2 ⟨v, hv, hs⟩
  obtain ⟨sm, hsm⟩ : ∃ m, metaOf rangeOf ax us u0 = .ok m := by
    unfold metaOf
    split
    · apply mapE_exists
      intro r hrm
      obtain ⟨w, hw, hwr⟩ := mem_newSpws.1 hrm
      obtain ⟨v, hv⟩ := owner_exists (p := fun v : Obj M T Z S X C K V => decide (r ∈ v.spws rangeOf)) ⟨w, hw, by simpa using hwr⟩
      have hvr := (owner_ok hv).2
      simp only [decide_eq_true_eq] at hvr
      obtain ⟨m, hm⟩ := indexOf_exists hvr
      have hml : m < v.spwMeta.length := by
        have := (List.getElem?_eq_some_iff.1 (indexOf_ok hm)).1; simpa [Obj.spws] using this
      refine ⟨v.spwMeta[m], ?_⟩
      rw [bind_ok]; refine ⟨v, hv, ?_⟩
      rw [bind_ok]; exact ⟨m, hm, at?_ok.2 (List.getElem?_eq_getElem hml)⟩
    · exact ⟨_, rfl⟩
  have hcs : ∀ v ∈ us, ∀ r p, r ∈ v.spws rangeOf → p ∈ v.pols → ∃ s, copyScalar rangeOf v r p = .ok s := by
    intro v hv r p hvr hvp
    obtain ⟨m, hm⟩ := indexOf_exists hvr
    obtain ⟨q, hq⟩ := indexOf_exists hvp
    have hml : m < v.scalar.length := by
      rw [(hwf v hv).scalar]
      have := (List.getElem?_eq_some_iff.1 (indexOf_ok hm)).1; simpa [Obj.spws] using this
    have hql : q < v.scalar[m].length := by
      rw [(hwf v hv).scalar2 _ (List.getElem_mem hml)]
      exact (List.getElem?_eq_some_iff.1 (indexOf_ok hq)).1
    refine ⟨v.scalar[m][q], ?_⟩
    unfold copyScalar
    rw [bind_ok]; refine ⟨m, hm, ?_⟩
    rw [bind_ok]; refine ⟨q, hq, ?_⟩
    rw [bind_ok]; exact ⟨_, at?_ok.2 (List.getElem?_eq_getElem hml), at?_ok.2 (List.getElem?_eq_getElem hql)⟩
  have hbne : ax = .blpairts → newBlpts us ≠ [] := by
    rintro rfl hnil
    have : ∀ v ∈ us, v.blpts = [] := by
      intro v hv
      by_contra hcon
      obtain ⟨b, _, hb⟩ := List.exists_cons_of_ne_nil hcon
      have : b ∈ newBlpts us := mem_newBlpts.2 ⟨v, hv, by rw [hb]; simp⟩
      rw [hnil] at this; simp at this
    have h2 := hc.two
    rw [hul] at h2
    obtain ⟨v, l', rfl⟩ : ∃ v l', l = v :: l' := by cases l with
      | nil => simp at h2
      | cons v l' => exact ⟨v, l', rfl⟩
    have hpr := hc.pair
    rw [hul, List.pairwise_cons] at hpr
    have := (hpr.1 v (by simp)).2.1
    simp only [if_true] at this
    apply this.2
    rw [‹∀ v ∈ us, v.blpts = []› u0 (by rw [hul]; simp), ‹∀ v ∈ us, v.blpts = []› v (by rw [hul]; simp)]
    intro x; exact Iff.rfl
  obtain ⟨sc, hsc⟩ : ∃ s, scalarOf rangeOf ax us = .ok s := by
    apply mapE_exists
    intro r hrm
    apply mapE_exists
    intro p hpm
    have fin : ∀ v, v ∈ us → scalarSource rangeOf ax us (newBlpts us) r p = .ok v → r ∈ v.spws rangeOf → p ∈ v.pols →
        ∃ b, (do let v ← scalarSource rangeOf ax us (newBlpts us) r p; copyScalar rangeOf v r p) = Except.ok b := by
      intro v hv hsv h1 h2
      obtain ⟨x, hx⟩ := hcs v hv r p h1 h2
      exact ⟨x, bind_ok.2 ⟨v, hsv, hx⟩⟩
    cases ax with
    | blpairts =>
      obtain ⟨b, bl, hb⟩ := List.exists_cons_of_ne_nil (hbne rfl)
      obtain ⟨w, hw, hwb⟩ := mem_newBlpts.1 (show b ∈ newBlpts us by rw [hb]; simp)
      obtain ⟨v, hv⟩ := owner_exists (p := fun v : Obj M T Z S X C K V => decide (b ∈ v.blpts)) ⟨w, hw, by simpa using hwb⟩
      have hvm := (owner_ok hv).1
      exact fin v hvm (bind_ok.2 ⟨b, at?_ok.2 (by rw [hb]; rfl), hv⟩) ((hc.mem_spws (by simp) hvm).1 hrm)
        ((hc.mem_pols (by simp) hvm).1 hpm)
    | polpairs =>
      obtain ⟨w, hw, hwb⟩ := mem_newPols.1 hpm
      obtain ⟨v, hv⟩ := owner_exists (p := fun v : Obj M T Z S X C K V => decide (p ∈ v.pols)) ⟨w, hw, by simpa using hwb⟩
      obtain ⟨hvm, hvp⟩ := owner_ok hv
      exact fin v hvm hv ((hc.mem_spws (by simp) hvm).1 hrm) (by simpa using hvp)
    | spw =>
      obtain ⟨w, hw, hwb⟩ := mem_newSpws.1 hrm
      obtain ⟨v, hv⟩ := owner_exists (p := fun v : Obj M T Z S X C K V => decide (r ∈ v.spws rangeOf)) ⟨w, hw, by simpa using hwb⟩
      obtain ⟨hvm, hvp⟩ := owner_ok hv
      exact fin v hvm hv (by simpa using hvp) ((hc.mem_pols (by simp) hvm).1 hpm)
  have hz : ∀ jb : (Int × T × T) × Nat, jb ∈ (newBlpts us).zipIdx → (newBlpts us)[jb.2]? = some jb.1 := by
    intro jb hjb
    exact List.mem_zipIdx_iff_getElem?.1 hjb
  obtain ⟨dt, hdt⟩ : ∃ d, dataOf rangeOf rnd ax us = .ok d := by
    apply mapE_exists
    intro r hrm
    apply mapE_exists
    intro jb hjb
    apply mapE_exists
    intro p hpm
    obtain ⟨v, n, k1, k2, k3, _, k5, k6⟩ := source_spec (rnd := rnd) hc hal.keyed hrm hpm (hz jb hjb)
    obtain ⟨c, hcc⟩ := copyCell_exists (hwf v k2) (hLs v k2) k5 k3 k6
    exact ⟨c, bind_ok.2 ⟨(v, n), k1, hcc⟩⟩
  obtain ⟨rw_, hrw⟩ : ∃ d, rowsOf rangeOf rnd ax us = .ok d := by
    apply mapE_exists
    intro jb hjb
    obtain ⟨v, n, k1, k2, k3⟩ := rowSource_spec hc hal hs hp (hz jb hjb)
    obtain ⟨b1, b2, b3⟩ := blpts_get.1 k3
    have hnl : n < v.rowMeta.length := by
      rw [(hwf v k2).rowMeta]; exact (List.getElem?_eq_some_iff.1 b1).1
    refine ⟨_, bind_ok.2 ⟨(v, n), k1, bind_ok.2 ⟨_, at?_ok.2 b1, bind_ok.2 ⟨_, at?_ok.2 b2, bind_ok.2 ⟨_, at?_ok.2 b3,
      bind_ok.2 ⟨_, at?_ok.2 (List.getElem?_eq_getElem hnl), rfl⟩⟩⟩⟩⟩⟩
  exact ⟨{ spwMeta := sm, blpair := rw_.map (·.1.1), time1 := rw_.map (·.1.2.1), time2 := rw_.map (·.1.2.2),
           rowMeta := rw_.map (·.2), pols := newPols us, scalar := sc, data := dt, labels := newLabels us,
           rparams := rp, static := u0.static },
    (combine_iff hc.two).2 ⟨ax, u0, rw_, hc, h0, hrp, hsm, hsc, hdt, hrw, rfl, rfl, rfl, rfl, rfl, rfl, rfl⟩⟩

end HeraPspec.Combine
