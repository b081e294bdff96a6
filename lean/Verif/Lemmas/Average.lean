import Verif.Spec.Average
import Verif.Lemmas.MapE
import Verif.Lemmas.Combine

/-! Lemmas for `average_spectra`. -/
namespace HeraPspec.Average
open HeraPspec.UVP (Err mapE mapE_ok_iff)
variable {E : Type} [AddCommGroup E] [Module ℝ E]

theorem tiny_pos : 0 < tiny := by unfold tiny; positivity

theorem clipTiny_eq {x : ℝ} (h : tiny ≤ x) : clipTiny x = x := max_eq_left h

theorem clipTiny_pos (x : ℝ) : 0 < clipTiny x := lt_of_lt_of_le tiny_pos (le_max_right _ _)

theorem weight_eq (errw : Option String) (c : Cell E) (h : RegularCell errw c) (d : Nat) :
    weight errw c d = specWeight errw c d := by
  unfold weight specWeight
  cases errw with
  | none => simp only []; rw [mul_pow, Real.sq_sqrt h.1]
  | some s =>
    simp only []
    cases hx : c.stat s d with
    | none => rfl
    | some x =>
      simp only []
      rw [clipTiny_eq]
      have := h.2 s rfl d x hx
      have h2 : (1 / 10 ^ 20 : ℝ) ^ 2 ≤ x ^ 2 := by gcongr
      refine le_trans (le_of_eq ?_) h2
      unfold tiny; norm_num

/-- Sums over a flatMap. -/
theorem sum_flatMap {α β M : Type} [AddCommMonoid M] (l : List α) (f : α → List β) (q : β → M) :
    ((l.flatMap f).map q).sum = (l.map (fun a => ((f a).map q).sum)).sum := by
  induction l with
  | nil => simp
  | cons a l ih => simp [List.flatMap_cons, ih]

theorem sum_replicate_flatten {β M : Type} [AddCommMonoid M] (m : Nat) (x : List β) (q : β → M) :
    (((List.replicate m x).flatten).map q).sum = m • (x.map q).sum := by
  induction m with
  | zero => simp
  | succ n ih => simp [List.replicate_succ, ih, succ_nsmul']

theorem filterMap_flatMap_replicate {α β γ : Type} (l : List (α × Nat)) (F : α → β) (f : β → Option γ) :
    (l.flatMap (fun bm => List.replicate bm.2 (F bm.1))).filterMap f =
      l.flatMap (fun bm => (List.replicate bm.2 (f (F bm.1)).toList).flatten) := by
  induction l with
  | nil => simp
  | cons a l ih =>
    rw [List.flatMap_cons, List.filterMap_append, ih, List.flatMap_cons]
    congr 1
    obtain ⟨b, m⟩ := a
    simp only []
    induction m with
    | zero => simp
    | succ n ih2 =>
      rw [List.replicate_succ, List.filterMap_cons, List.replicate_succ, List.flatten_cons]
      cases h : f (F b) with
      | none => simp [h] at ih2 ⊢
      | some c => simp [h] at ih2 ⊢

theorem indices_ok {u : Obj E} {b : Nat} {is : List Nat} (h : indices u b = .ok is) :
    is = (List.range u.rows.length).filter (fun i => (u.rows[i]?.map (·.blp)) = some b) ∧ is ≠ [] := by
  unfold indices at h
  simp only [] at h
  split at h
  · cases h
  · rename_i hne
    cases h; exact ⟨rfl, fun he => hne (by rw [he]; rfl)⟩

/-- Reading positions of a list selected by a predicate on another. -/
theorem mapE_indices {α β : Type} (rows : List α) (cs : List β) (P : α → Bool) (r : List β)
    (h : mapE (fun i => cs[i]?.elim (Except.error Err.index) Except.ok)
      ((List.range rows.length).filter (fun i => (rows[i]?.map P).getD false)) = .ok r) :
    r = ((rows.zip cs).filter (fun x => P x.1)).map (·.2) := by
  induction rows generalizing cs r with
  | nil => simp [mapE] at h; simp [h]
  | cons m rows ih =>
    rw [List.length_cons, List.range_succ_eq_map, List.filter_cons, List.filter_map] at h
    rw [mapE_ok_iff] at h
    cases cs with
    | nil =>
      simp only [List.zip_nil_right, List.filter_nil, List.map_nil]
      cases r with
      | nil => rfl
      | cons c r =>
        exfalso
        obtain ⟨a, _, ha⟩ := HeraPspec.UVP.forall₂_getElem_right h (i := 0) rfl
        simp at ha
    | cons c cs =>
      have key : ∀ r', List.Forall₂ (fun a b => (c :: cs)[a]?.elim (Except.error Err.index) Except.ok = Except.ok b)
          (List.map Nat.succ (List.filter ((fun i => ((m :: rows)[i]?.map P).getD false) ∘ Nat.succ)
          (List.range rows.length))) r' → r' = ((rows.zip cs).filter (fun x => P x.1)).map (·.2) := by
        intro r' hr
        apply ih cs r'
        rw [mapE_ok_iff]
        rw [List.forall₂_map_left_iff] at hr
        simpa [Function.comp_def] using hr
      rw [List.zip_cons_cons, List.filter_cons]
      simp only [List.getElem?_cons_zero, Option.map_some, Option.getD_some] at h
      by_cases hP : P m
      · simp only [hP, if_true] at h ⊢
        cases h with
        | cons h1 h2 =>
          simp at h1; subst h1
          rw [List.map_cons, key _ h2]
      · simp only [hP, Bool.false_eq_true, if_false] at h ⊢
        exact key _ h

theorem cellsOf_ok {u : Obj E} {s p b : Nat} {cs : List (Cell E)} (h : cellsOf u s p b = .ok cs) :
    cs = integrations u s p b := by
  unfold cellsOf at h
  cases hi : indices u b with
  | error e => rw [hi] at h; cases h
  | ok is =>
    rw [hi] at h
    simp only [] at h
    obtain ⟨rfl, _⟩ := indices_ok hi
    unfold integrations
    apply mapE_indices u.rows _ (fun m => decide (m.blp = b)) cs
    rw [← h]
    congr 1
    · funext i
      cases u.cells[s]? with
      | none => simp
      | some a =>
        cases h2 : a[p]? with
        | none => simp [h2]
        | some b => simp only [Option.bind_some, h2, Option.getD_some]; cases b[i]? <;> rfl
    · congr 1
      funext i; cases u.rows[i]? <;> simp

/-- The integrations of one pair as prepared by the inner loop. -/
noncomputable def accs (errw : Option String) (timeAvg : Bool) (u : Obj E) (s p b : Nat) : List (Acc E) :=
  if timeAvg then [timeMean ((integrations u s p b).map (prep errw))] else (integrations u s p b).map (prep errw)

theorem accsOf_ok {errw : Option String} {ta : Bool} {u : Obj E} {s p b : Nat} {l : List (Acc E)}
    (h : accsOf errw ta u s p b = .ok l) : l = accs errw ta u s p b := by
  unfold accsOf at h
  cases hc : cellsOf u s p b with
  | error e => rw [hc] at h; cases h
  | ok cs => rw [hc] at h; cases h; rw [cellsOf_ok hc]; rfl

theorem forall₂_map {α β : Type} {f : α → β} {l : List α} {r : List β} (h : List.Forall₂ (fun a b => b = f a) l r) :
    r = l.map f := by
  induction h with
  | nil => rfl
  | cons h1 _ ih => rw [List.map_cons, h1, ih]

theorem copies_eq {α : Type} (ws : List ℝ) (l : List Nat) (F : Nat → α) :
    copies ws (l.map F) = (l.zip (ws.map (⌊·⌋₊))).flatMap (fun bm => List.replicate bm.2 (F bm.1)) := by
  unfold copies
  induction l generalizing ws with
  | nil => cases ws <;> simp
  | cons b l ih =>
    cases ws with
    | nil => simp
    | cons w ws => simp [ih]

/-- The copies entering integration `t`. -/
noncomputable def accMembers (errw : Option String) (ta normalize : Bool) (u : Obj E) (s p : Nat) (g : List Nat × List ℝ)
    (t : Nat) : List (Acc E) :=
  (g.1.zip (mult normalize g.2)).flatMap (fun bm =>
    (List.replicate bm.2 ((accs errw ta u s p bm.1)[t]?).toList).flatten)

theorem groupRows_ok {errw : Option String} {ta nz : Bool} {u : Obj E} {s p : Nat} {g : List Nat × List ℝ}
    {r : List (Cell E)} (h : groupRows errw ta nz u s p g = .ok r) :
    (0 < (if nz then g.2.sum else 1)) ∧
    (∀ b ∈ g.1, accsOf errw ta u s p b = .ok (accs errw ta u s p b)) ∧
    ∃ n, (∃ bm ∈ g.1.zip (mult nz g.2), 0 < bm.2) ∧
      (∀ bm ∈ g.1.zip (mult nz g.2), 0 < bm.2 → (accs errw ta u s p bm.1).length = n) ∧
      r = (List.range n).map (fun t => groupMean u.exact (accMembers errw ta nz u s p g t)) := by
  unfold groupRows at h
  cases hw : blpgWgts nz g.2 with
  | error e => rw [hw] at h; cases h
  | ok ws =>
    rw [hw] at h
    simp only [] at h
    cases ha : mapE (accsOf errw ta u s p) g.1 with
    | error e => rw [ha] at h; cases h
    | ok as =>
      rw [ha] at h
      simp only [] at h
      unfold blpgWgts at hw
      simp only [] at hw
      have hnorm : 0 < (if nz then g.2.sum else 1) := by
        by_contra hn
        rw [if_pos (not_lt.1 hn)] at hw; cases hw
      rw [if_neg (not_le.2 hnorm)] at hw
      rw [mapE_ok_iff] at ha
      have has : as = g.1.map (accs errw ta u s p) := by
        apply forall₂_map
        exact ha.imp (fun _ _ h => accsOf_ok h)
      have hws : ws.map (⌊·⌋₊) = mult nz g.2 := by
        cases hw; simp [mult]
      refine ⟨hnorm, ?_, ?_⟩
      · intro b hb
        obtain ⟨i, hi⟩ := List.getElem?_of_mem hb
        obtain ⟨l, _, hl⟩ := HeraPspec.UVP.forall₂_getElem_left ha hi
        rw [hl, accsOf_ok hl]
      · rw [has, copies_eq, hws] at h
        generalize hcs : (g.1.zip (mult nz g.2)).flatMap (fun bm => List.replicate bm.2 (accs errw ta u s p bm.1)) = cs at h
        unfold sumCopies at h
        cases cs with
        | nil => cases h
        | cons c cs =>
          simp only [] at h
          split at h
          · rename_i hall
            cases h
            refine ⟨c.length, ?_, ?_, ?_⟩
            · have : c ∈ (g.1.zip (mult nz g.2)).flatMap (fun bm => List.replicate bm.2 (accs errw ta u s p bm.1)) := by
                rw [hcs]; exact List.mem_cons_self
              rw [List.mem_flatMap] at this
              obtain ⟨bm, hbm, hm⟩ := this
              rw [List.mem_replicate] at hm
              exact ⟨bm, hbm, Nat.pos_of_ne_zero hm.1⟩
            · intro bm hbm hpos
              have : accs errw ta u s p bm.1 ∈ c :: cs := by
                rw [← hcs, List.mem_flatMap]
                exact ⟨bm, hbm, List.mem_replicate.2 ⟨by omega, rfl⟩⟩
              simpa using List.all_eq_true.1 hall _ this
            · apply List.map_congr_left
              intro t _
              rw [← hcs, filterMap_flatMap_replicate]
              rfl
          · cases h

theorem groupRows_of {errw : Option String} {ta nz : Bool} {u : Obj E} {s p : Nat} {g : List Nat × List ℝ}
    (hnorm : 0 < (if nz then g.2.sum else 1))
    (hb : ∀ b ∈ g.1, accsOf errw ta u s p b = .ok (accs errw ta u s p b)) {n : Nat}
    (hex : ∃ bm ∈ g.1.zip (mult nz g.2), 0 < bm.2)
    (hn : ∀ bm ∈ g.1.zip (mult nz g.2), 0 < bm.2 → (accs errw ta u s p bm.1).length = n) :
    groupRows errw ta nz u s p g = .ok ((List.range n).map (fun t => groupMean u.exact (accMembers errw ta nz u s p g t))) := by
  unfold groupRows blpgWgts
  simp only []
  rw [if_neg (not_le.2 hnorm)]
  simp only []
  have ha : mapE (accsOf errw ta u s p) g.1 = .ok (g.1.map (accs errw ta u s p)) := by
    rw [mapE_ok_iff, List.forall₂_map_right_iff, List.forall₂_same]
    exact hb
  rw [ha]
  simp only []
  rw [copies_eq]
  have hws : (List.map (fun w => w * ↑g.2.length / if nz = true then g.2.sum else 1) g.2).map (⌊·⌋₊) = mult nz g.2 := by
    simp [mult]
  rw [hws]
  generalize hcs : (g.1.zip (mult nz g.2)).flatMap (fun bm => List.replicate bm.2 (accs errw ta u s p bm.1)) = cs
  have hmem : ∀ c ∈ cs, c.length = n := by
    intro c hc
    rw [← hcs, List.mem_flatMap] at hc
    obtain ⟨bm, hbm, hm⟩ := hc
    rw [List.mem_replicate] at hm
    rw [hm.2]; exact hn bm hbm (Nat.pos_of_ne_zero hm.1)
  cases cs with
  | nil =>
    exfalso
    obtain ⟨bm, hbm, hpos⟩ := hex
    have : accs errw ta u s p bm.1 ∈ (g.1.zip (mult nz g.2)).flatMap (fun bm => List.replicate bm.2 (accs errw ta u s p bm.1)) := by
      rw [List.mem_flatMap]
      exact ⟨bm, hbm, List.mem_replicate.2 ⟨by omega, rfl⟩⟩
    rw [hcs] at this; cases this
  | cons c cs =>
    unfold sumCopies
    simp only []
    rw [if_pos]
    · congr 1
      rw [hmem c List.mem_cons_self]
      apply List.map_congr_left
      intro t _
      rw [← hcs, filterMap_flatMap_replicate]
      rfl
    · rw [List.all_eq_true]
      intro c' hc'
      simp [hmem c' hc', hmem c List.mem_cons_self]

end HeraPspec.Average
