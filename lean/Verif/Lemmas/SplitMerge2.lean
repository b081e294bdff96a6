import Verif.Lemmas.SplitMerge
import Verif.Props.Combine

namespace HeraPspec.Combine
open HeraPspec.UVP (mapE Err mapE_ok_iff mapE_exists forall₂_getElem_left forall₂_getElem_right)
variable {α β : Type} {R M T Z S X C K V : Type}
variable [LinearOrder R] [LinearOrder T] [DecidableEq C] [DecidableEq K] [DecidableEq V]
variable {rangeOf : M → R} {rnd : T → T} {close : S → S → Bool} {keysOf : Int → Int → List K}

theorem ext_get {l l' : List α} (hl : l.length = l'.length) (h : ∀ (i : Nat) a a', l[i]? = some a → l'[i]? = some a' → a = a') : l = l' := by
  apply List.ext_getElem hl
  intro i h1 h2
  exact h i _ _ (List.getElem?_eq_getElem h1) (List.getElem?_eq_getElem h2)

theorem axis_of_blpts {w : Obj M T Z S X C K V} (hw : WF rangeOf w) : w.blpair = w.blpts.map (·.1) ∧ w.time1 = w.blpts.map (·.2.1) ∧
    w.time2 = w.blpts.map (·.2.2) := by
  have e1 := hw.time1; have e2 := hw.time2
  refine ⟨?_, ?_, ?_⟩
  · rw [Obj.blpts, ← List.unzip_fst]; rw [List.unzip_zip_left]; simp; omega
  · have : w.blpts.map (·.2.1) = (w.blpts.map (·.2)).map (·.1) := by simp
    rw [this, Obj.blpts, List.map_snd_zip (by simp; omega), List.map_fst_zip (by omega)]
  · have : w.blpts.map (·.2.2) = (w.blpts.map (·.2)).map (·.2) := by simp
    rw [this, Obj.blpts, List.map_snd_zip (by simp; omega), List.map_snd_zip (by omega)]

theorem get_filter (d : Dict K V) (f : K → Bool) (k : K) :
    Dict.get (d.filter (fun e => f e.1)) k = if f k then Dict.get d k else none := by
  induction d with
  | nil => simp
  | cons e d ih =>
    obtain ⟨k0, v0⟩ := e
    rw [Dict.get_cons]
    by_cases h0 : f k0
    · rw [List.filter_cons_of_pos (by exact h0), Dict.get_cons, ih]
      by_cases hk : k0 = k
      · subst hk; simp [h0]
      · simp [hk]
    · rw [List.filter_cons_of_neg (by exact h0), ih]
      by_cases hk : k0 = k
      · subst hk; simp [h0]
      · simp [hk]

theorem get_keepR {d : Dict K V} {bl pl : List Int} {k : K} {v : V} :
    Dict.get (keepR keysOf d bl pl) k = some v ↔ Dict.get d k = some v ∧ ∃ b ∈ bl, ∃ p ∈ pl, k ∈ keysOf b p := by
  unfold keepR
  rw [get_filter d (fun k => bl.any (fun b => pl.any (fun p => decide (k ∈ keysOf b p)))) k]
  by_cases h : (bl.any (fun b => pl.any (fun p => decide (k ∈ keysOf b p)))) = true
  · rw [if_pos h]
    simp only [List.any_eq_true, decide_eq_true_eq] at h
    simp [h]
  · rw [if_neg h]
    simp only [List.any_eq_true, decide_eq_true_eq] at h
    simp [h]

/-- The positions kept along each axis. -/
def axW (ax : Axis) (u : Obj M T Z S X C K V) (is : List Nat) : List Nat := if ax = .spw then is else List.range u.spwMeta.length
def axB (ax : Axis) (u : Obj M T Z S X C K V) (is : List Nat) : List Nat := if ax = .blpairts then is else List.range u.blpair.length
def axP (ax : Axis) (u : Obj M T Z S X C K V) (is : List Nat) : List Nat := if ax = .polpairs then is else List.range u.pols.length

theorem selectAx_eq (ax : Axis) (u : Obj M T Z S X C K V) (is : List Nat) :
    selectAx keysOf ax u is = select keysOf u (axW ax u is) (axB ax u is) (axP ax u is) := by
  cases ax <;> rfl

variable {u : Obj M T Z S X C K V} {ax : Axis} {is : List Nat}

theorem axW_pos (h : Positions (u.axisLen ax) is) : Positions u.spwMeta.length (axW ax u is) := by
  unfold axW; split
  · rename_i e; subst e; exact h
  · exact .range _
theorem axB_pos (h : Positions (u.axisLen ax) is) : Positions u.blpair.length (axB ax u is) := by
  unfold axB; split
  · rename_i e; subst e; exact h
  · exact .range _
theorem axP_pos (h : Positions (u.axisLen ax) is) : Positions u.pols.length (axP ax u is) := by
  unfold axP; split
  · rename_i e; subst e; exact h
  · exact .range _

theorem WF.blpts_length (h : WF rangeOf u) : u.blpts.length = u.blpair.length := by
  have := h.time1; have := h.time2; simp [Obj.blpts]; omega

theorem selectAx_spws : (selectAx keysOf ax u is).spwMeta.map rangeOf = if ax = .spw then pick is (u.spwMeta.map rangeOf) else u.spwMeta.map rangeOf := by
  rw [selectAx_eq, select_spws]; unfold axW; split
  · rfl
  · have := pick_range (u.spwMeta.map rangeOf); rwa [List.length_map] at this
theorem selectAx_blpts (hw : WF rangeOf u) (h : Positions (u.axisLen ax) is) :
    (selectAx keysOf ax u is).blpts = if ax = .blpairts then pick is u.blpts else u.blpts := by
  rw [selectAx_eq, select_blpts hw (axB_pos h)]; unfold axB; split
  · rfl
  · rw [← hw.blpts_length]; exact pick_range _
theorem selectAx_pols : (selectAx keysOf ax u is).pols = if ax = .polpairs then pick is u.pols else u.pols := by
  rw [selectAx_eq]; show pick (axP ax u is) u.pols = _; unfold axP; split
  · rfl
  · exact pick_range _

theorem selectAx_wf (hw : WF rangeOf u) (h : Positions (u.axisLen ax) is) (h0 : is ≠ []) : WF rangeOf (selectAx keysOf ax u is) := by
  rw [selectAx_eq]
  refine select_wf hw (axW_pos h) (axB_pos h) (axP_pos h) ?_ ?_
  · unfold axW; split
    · exact h0
    · intro e; apply hw.someSpw; apply List.length_eq_zero_iff.1; simpa using congrArg List.length e
  · unfold axP; split
    · exact h0
    · intro e; apply hw.somePol; apply List.length_eq_zero_iff.1; simpa using congrArg List.length e

theorem apart_pick {l : List α} (hn : l.Nodup) {a b : List Nat} (ha : Positions l.length a) (h0 : a ≠ []) (hd : ∀ i ∈ a, i ∉ b) :
    Apart (pick a l) (pick b l) := by
  have key : ∀ x ∈ pick a l, x ∉ pick b l := by
    intro x hx hx'
    obtain ⟨i, hi, e1⟩ := mem_pick.1 hx
    obtain ⟨j, hj, e2⟩ := mem_pick.1 hx'
    exact hd i hi (by rw [nodup_idx hn e1 e2]; exact hj)
  refine ⟨key, fun hs => ?_⟩
  obtain ⟨i, t, rfl⟩ := List.exists_cons_of_ne_nil h0
  have hi := ha.2 i (by simp)
  have hx : l[i] ∈ pick (i :: t) l := mem_pick.2 ⟨i, by simp, List.getElem?_eq_getElem hi⟩
  exact key _ hx ((hs _).1 hx)

theorem selectAx_scalar (hw : WF rangeOf u) (hax : ax = .blpairts) : (selectAx keysOf ax u is).scalar = u.scalar := by
  subst hax
  show (pick (List.range u.spwMeta.length) u.scalar).map (pick (List.range u.pols.length)) = u.scalar
  rw [← hw.scalar, pick_range]
  conv_rhs => rw [← List.map_id u.scalar]
  apply List.map_congr_left
  intro a ha
  rw [← hw.scalar2 a ha, pick_range]; rfl

theorem parts_combinable (hw : WF rangeOf u) {iss : List (List Nat)} (hp : Partition (u.axisLen ax) iss)
    (hcl : ax = .blpairts → ∀ row ∈ u.scalar, ∀ s ∈ row, close s s = true) :
    Combinable rangeOf close ax (iss.map (selectAx keysOf ax u)) where
  two := by rw [List.length_map]; exact hp.two
  static := by
    intro u0 h0 v hv
    obtain ⟨a, _, rfl⟩ := List.mem_map.1 hv
    obtain ⟨b, _, rfl⟩ := List.mem_map.1 (List.mem_of_mem_head? h0)
    rw [selectAx_eq, selectAx_eq]; rfl
  pair := by
    rw [List.pairwise_map]
    refine hp.disjoint.imp_of_mem ?_
    intro a b ha hb hd
    refine ⟨?_, ?_, ?_⟩
    · rw [selectAx_spws, selectAx_spws]
      split
      · rename_i e
        subst e
        exact apart_pick hw.spws (by rw [List.length_map]; exact hp.positions a ha) (hp.nonempty a ha) hd
      · exact fun x => Iff.rfl
    · rw [selectAx_blpts hw (hp.positions a ha), selectAx_blpts hw (hp.positions b hb)]
      split
      · rename_i e
        subst e
        exact apart_pick hw.rows (by rw [hw.blpts_length]; exact hp.positions a ha) (hp.nonempty a ha) hd
      · exact fun x => Iff.rfl
    · rw [selectAx_pols, selectAx_pols]
      split
      · rename_i e
        subst e
        exact apart_pick hw.pols (hp.positions a ha) (hp.nonempty a ha) hd
      · exact fun x => Iff.rfl
  scalar := by
    intro hax u0 h0 v hv
    obtain ⟨a, _, rfl⟩ := List.mem_map.1 (List.mem_of_mem_tail hv)
    obtain ⟨b, _, rfl⟩ := List.mem_map.1 (List.mem_of_mem_head? h0)
    rw [selectAx_scalar hw hax, selectAx_scalar hw hax]
    intro i j r q x y h1 h2 h3 h4
    rw [h1] at h2; cases h2
    rw [h3] at h4; cases h4
    exact hcl hax r (List.mem_of_getElem? h1) x (List.mem_of_getElem? h3)

theorem parts_aligned (hw : WF rangeOf u) (ho : Ordered rangeOf u) {iss : List (List Nat)} (hp : Partition (u.axisLen ax) iss)
    (hk : ax ≠ .blpairts → Keyed rnd u) : Aligned rangeOf rnd ax (iss.map (selectAx keysOf ax u)) where
  keyed := by
    intro hax v hv
    obtain ⟨a, ha, rfl⟩ := List.mem_map.1 hv
    unfold Keyed
    rw [selectAx_blpts hw (hp.positions a ha), if_neg hax]
    exact hk hax
  order := by
    intro hax u0 h0 v hv
    obtain ⟨a, ha, rfl⟩ := List.mem_map.1 hv
    obtain ⟨b, hb, rfl⟩ := List.mem_map.1 (List.mem_of_mem_head? h0)
    rw [selectAx_blpts hw (hp.positions a ha), if_neg hax, selectAx_blpts hw (hp.positions b hb), if_neg hax]
  windows := by
    intro hax u0 h0
    obtain ⟨b, hb, rfl⟩ := List.mem_map.1 (List.mem_of_mem_head? h0)
    rw [selectAx_spws, if_neg hax]
    exact ho.spws.imp le_of_lt

theorem selectAx_rparams : (selectAx keysOf ax u is).rparams = keepR keysOf u.rparams (selectAx keysOf ax u is).blpair (selectAx keysOf ax u is).pols := by
  rw [selectAx_eq]; rfl

theorem selectAx_blpair (hw : WF rangeOf u) : (selectAx keysOf ax u is).blpair = if ax = .blpairts then pick is u.blpair else u.blpair := by
  rw [selectAx_eq]; show pick (axB ax u is) u.blpair = _; unfold axB; split
  · rfl
  · exact pick_range _

theorem pick_ne_nil {l : List α} {is : List Nat} (h : Positions l.length is) (h0 : is ≠ []) : pick is l ≠ [] := by
  intro e
  have := pick_length h.2
  rw [e] at this
  exact h0 (List.length_eq_zero_iff.1 this.symm)

theorem parts_compatible (hw : WF rangeOf u) (hr : RParamsFit keysOf u) {iss : List (List Nat)} (hp : Partition (u.axisLen ax) iss) :
    Compatible ((iss.map (selectAx keysOf ax u)).map (·.rparams)) where
  agree := by
    intro d hd e he k v w h1 h2
    rw [List.map_map] at hd
    obtain ⟨a, _, rfl⟩ := List.mem_map.1 hd
    rw [List.map_map] at he
    obtain ⟨b, _, rfl⟩ := List.mem_map.1 he
    simp only [Function.comp_apply] at h1 h2
    rw [selectAx_rparams, get_keepR] at h1 h2
    have := h1.1.symm.trans h2.1
    exact Option.some.inj this
  empty := by
    by_cases h : u.rparams = []
    · left
      intro d hd
      rw [List.map_map] at hd
      obtain ⟨a, _, rfl⟩ := List.mem_map.1 hd
      simp only [Function.comp_apply]; rw [selectAx_rparams, h]; rfl
    · right
      intro d hd
      rw [List.map_map] at hd
      obtain ⟨a, ha, rfl⟩ := List.mem_map.1 hd
      obtain ⟨⟨k0, v0⟩, t, ht⟩ := List.exists_cons_of_ne_nil h
      obtain ⟨b0, hb0, _⟩ := hr.used k0 v0 (by rw [ht, Dict.get_cons]; simp)
      have hbne : (selectAx keysOf ax u a).blpair ≠ [] := by
        rw [selectAx_blpair hw]
        split
        · rename_i e
          subst e
          exact pick_ne_nil (hp.positions a ha) (hp.nonempty a ha)
        · exact List.ne_nil_of_mem hb0
      have hpne := (selectAx_wf (keysOf := keysOf) hw (hp.positions a ha) (hp.nonempty a ha)).somePol
      obtain ⟨b, bt, hb⟩ := List.exists_cons_of_ne_nil hbne
      obtain ⟨p, pt, hpp⟩ := List.exists_cons_of_ne_nil hpne
      have hbu : b ∈ u.blpair := by
        have : b ∈ (selectAx keysOf ax u a).blpair := by rw [hb]; simp
        rw [selectAx_blpair hw] at this
        split at this
        · obtain ⟨i, _, hi⟩ := mem_pick.1 this; exact List.mem_of_getElem? hi
        · exact this
      have hpu : p ∈ u.pols := by
        have : p ∈ (selectAx keysOf ax u a).pols := by rw [hpp]; simp
        rw [selectAx_pols] at this
        split at this
        · obtain ⟨i, _, hi⟩ := mem_pick.1 this; exact List.mem_of_getElem? hi
        · exact this
      obtain ⟨hk0, hk⟩ := hr.all h b hbu p hpu
      obtain ⟨k, kt, hkk⟩ := List.exists_cons_of_ne_nil hk0
      obtain ⟨v, hv⟩ := hk k (by rw [hkk]; simp)
      simp only [Function.comp_apply]
      intro e
      have : Dict.get (selectAx keysOf ax u a).rparams k = some v := by
        rw [selectAx_rparams, get_keepR]
        exact ⟨hv, b, by rw [hb]; simp, p, by rw [hpp]; simp, by rw [hkk]; simp⟩
      rw [e] at this; simp at this

/-- Members of the axes of the parts. -/
theorem parts_mem {l : List α} {n : Nat} {iss : List (List Nat)} (hp : Partition n iss) (hn : l.length = n) (x : α) :
    (∃ a ∈ iss, x ∈ pick a l) ↔ x ∈ l := by
  constructor
  · rintro ⟨a, _, h⟩
    obtain ⟨i, _, hi⟩ := mem_pick.1 h
    exact List.mem_of_getElem? hi
  · intro h
    obtain ⟨i, hi⟩ := List.mem_iff_getElem?.1 h
    have hl := (List.getElem?_eq_some_iff.1 hi).1
    obtain ⟨a, ha, hia⟩ := hp.cover i (by omega)
    exact ⟨a, ha, mem_pick.2 ⟨i, hia, hi⟩⟩

theorem Partition.ex {n : Nat} {iss : List (List Nat)} (hp : Partition n iss) : ∃ a, a ∈ iss := by
  obtain ⟨a, t, h⟩ := List.exists_cons_of_ne_nil (l := iss) (by rintro rfl; have := hp.two; simp at this)
  exact ⟨a, by rw [h]; simp⟩

end HeraPspec.Combine
