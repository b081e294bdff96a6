import Verif.Lemmas.Average

/-! Sums over the members of a group, and the structure of the result. -/
namespace HeraPspec.Average
open HeraPspec.UVP (Err mapE mapE_ok_iff)
variable {E : Type} [AddCommGroup E] [Module ℝ E]

theorem sum_members {M : Type} [AddCommMonoid M] (errw : Option String) (ta nz : Bool) (u : Obj E) (s p : Nat)
    (g : List Nat × List ℝ) (t : Nat) (ht : ta = true → t = 0) (q : Acc E → M) (q' : Cell E → M)
    (h1 : ta = false → ∀ b ∈ g.1, ∀ c ∈ integrations u s p b, q (prep errw c) = q' c)
    (h2 : ta = true → ∀ b ∈ g.1, q (timeMean ((integrations u s p b).map (prep errw))) =
      ((integrations u s p b).map q').sum) :
    ((accMembers errw ta nz u s p g t).map q).sum = ((members ta nz u s p g t).map q').sum := by
  unfold accMembers members
  rw [sum_flatMap, sum_flatMap]
  congr 1
  apply List.map_congr_left
  intro bm hbm
  have hb : bm.1 ∈ g.1 := (List.of_mem_zip hbm).1
  rw [sum_replicate_flatten, sum_replicate_flatten]
  congr 1
  unfold accs
  cases ta with
  | true =>
    have := ht rfl
    subst this
    simp [h2 rfl bm.1 hb]
  | false =>
    simp only [Bool.false_eq_true, if_false, List.getElem?_map]
    cases hc : (integrations u s p bm.1)[t]? with
    | none => simp
    | some c => simp [h1 rfl bm.1 hb c (List.mem_of_getElem? hc)]

theorem forall₂_range {α β : Type} {f : Nat → Except Err β} {l : List α} {r : List β}
    (h : List.Forall₂ (fun a b => f a = .ok b) (List.range l.length) r) (i : Nat) (x : α) (hi : l[i]? = some x) :
    ∃ b, r[i]? = some b ∧ f i = .ok b := by
  have hlt : i < l.length := by
    by_contra hn
    rw [List.getElem?_eq_none (by omega)] at hi; cases hi
  obtain ⟨b, hb, hf⟩ := HeraPspec.UVP.forall₂_getElem_left h (i := i) (a := i) (by simp [hlt])
  exact ⟨b, hb, hf⟩

/-- Structure of a successful average. -/
theorem averageSpectra_ok {circ : List ℝ → ℝ} {so : List Nat → List Nat} {a : Args} {u v : Obj E}
    (h : averageSpectra circ so a u = .ok v) : ∃ gs, groupsOf so a u = .ok gs ∧
      (∃ ms, v.rows = ms.flatten ∧ List.Forall₂ (fun g m => groupMeta circ a.timeAvg u g = .ok m) gs ms) ∧
      v.cells.length = u.cells.length ∧ v.exact = u.exact ∧ v.statNames = statNames a ∧
      (∀ (s : Nat) (ps : List (List (Cell E))), u.cells[s]? = some ps → ∃ qs : List (List (Cell E)), v.cells[s]? = some qs ∧ qs.length = ps.length) ∧
      ∀ s p cs, (u.cells[s]?.bind (·[p]?)) = some cs → ∃ blocks, (v.cells[s]?.bind (·[p]?)) = some blocks.flatten ∧
        List.Forall₂ (fun g b => groupRows a.errorWeights a.timeAvg a.normalize u s p g = .ok b) gs blocks := by
  unfold averageSpectra at h
  cases hg : groupsOf so a u with
  | error e => rw [hg] at h; cases h
  | ok gs =>
    rw [hg] at h
    simp only [] at h
    split at h
    · cases h
    · split at h
      · cases h
      · rename_i blocks hb
        split at h
        · cases h
        · rename_i ms hm
          cases h
          rw [mapE_ok_iff] at hb hm
          refine ⟨gs, rfl, ⟨ms, rfl, hm⟩, ?_, rfl, rfl, ?_, ?_⟩
          · simpa using hb.length_eq.symm
          · intro s ps hs
            obtain ⟨bs, hbs, hf⟩ := forall₂_range hb s ps hs
            rw [mapE_ok_iff, hs] at hf
            exact ⟨bs.map (fun bs => bs.flatten), by simp [hbs], by simpa using hf.length_eq.symm⟩
          · intro s p cs hc
            cases hs : u.cells[s]? with
            | none => rw [hs] at hc; cases hc
            | some ps =>
              rw [hs] at hc
              simp only [Option.bind_some] at hc
              obtain ⟨bs, hbs, hf⟩ := forall₂_range hb s ps hs
              rw [mapE_ok_iff, hs] at hf
              simp only [Option.map_some, Option.getD_some] at hf
              obtain ⟨b, hb1, hb2⟩ := forall₂_range hf p cs hc
              rw [mapE_ok_iff] at hb2
              exact ⟨b, by simp [hbs, hb1], hb2⟩

/-- A cell of a block is a group mean. -/
theorem block_cell {errw : Option String} {ta nz : Bool} {u : Obj E} {s p : Nat} {g : List Nat × List ℝ}
    {r : List (Cell E)} (h : groupRows errw ta nz u s p g = .ok r) {t : Nat} {c : Cell E} (ht : r[t]? = some c) :
    (ta = true → t = 0) ∧ c = groupMean u.exact (accMembers errw ta nz u s p g t) := by
  obtain ⟨_, _, n, ⟨bm, hbm, hpos⟩, hn, rfl⟩ := groupRows_ok h
  rw [List.getElem?_map] at ht
  cases hr : (List.range n)[t]? with
  | none => rw [hr] at ht; cases ht
  | some t' =>
    rw [hr] at ht
    simp only [Option.map_some, Option.some.injEq] at ht
    obtain ⟨hlt, rfl⟩ := List.getElem?_eq_some_iff.1 hr
    simp at hlt
    rw [List.getElem_range] at ht
    refine ⟨?_, ht.symm⟩
    intro hta
    have := hn bm hbm hpos
    unfold accs at this
    rw [if_pos hta] at this
    simp at this; omega

/-! Time averages. -/

theorem sum_map_prep {M : Type} [AddCommMonoid M] (errw : Option String) (l : List (Cell E)) (q : Acc E → M) (q' : Cell E → M)
    (h : ∀ c ∈ l, q (prep errw c) = q' c) : ((l.map (prep errw)).map q).sum = (l.map q').sum := by
  rw [List.map_map]
  congr 1
  apply List.map_congr_left
  intro c hc
  exact h c hc

theorem sum_zero_of {α M : Type} [AddCommMonoid M] {l : List α} {f : α → M} (h : ∀ a ∈ l, f a = 0) : (l.map f).sum = 0 := by
  induction l with
  | nil => rfl
  | cons a l ih =>
    rw [List.map_cons, List.sum_cons, h a List.mem_cons_self, ih (fun b hb => h b (List.mem_cons_of_mem _ hb)), add_zero]

theorem timeMean_w (errw : Option String) (l : List (Cell E)) (h : ∀ c ∈ l, RegularCell errw c) (d : Nat) :
    (timeMean (l.map (prep errw))).w d = (l.map (fun c => specWeight errw c d)).sum := by
  unfold timeMean
  exact sum_map_prep errw l _ _ (fun c hc => weight_eq errw c (h c hc) d)

theorem timeMean_ws (errw : Option String) (l : List (Cell E)) (h : ∀ c ∈ l, RegularCell errw c) (d : Nat) :
    ((l.map (prep errw)).map (fun a => a.w d)).sum = (l.map (fun c => specWeight errw c d)).sum :=
  sum_map_prep errw l _ _ (fun c hc => weight_eq errw c (h c hc) d)

/-- Multiplying a time mean by its weight gives back the weighted sum. -/
theorem timeMean_data (errw : Option String) (l : List (Cell E)) (h : ∀ c ∈ l, RegularCell errw c) (d : Nat)
    (hs : RegularSum errw l d) : (timeMean (l.map (prep errw))).w d • (timeMean (l.map (prep errw))).data d =
      (l.map (fun c => specWeight errw c d • c.data d)).sum := by
  rw [timeMean_w errw l h d]
  have e : (timeMean (l.map (prep errw))).data d = (clipTiny (l.map (fun c => specWeight errw c d)).sum)⁻¹ •
      (l.map (fun c => specWeight errw c d • c.data d)).sum := by
    unfold timeMean
    simp only []
    rw [timeMean_ws errw l h d, sum_map_prep errw l (fun a => a.w d • a.data d) (fun c => specWeight errw c d • c.data d)]
    intro c hc
    show weight errw c d • c.data d = _
    rw [weight_eq errw c (h c hc)]
  rw [e]
  cases hs with
  | inl h0 =>
    rw [sum_zero_of h0, sum_zero_of (f := fun c => specWeight errw c d • c.data d) (fun c hc => by rw [h0 c hc, zero_smul]),
      zero_smul]
  | inr ht =>
    rw [clipTiny_eq ht, smul_smul, mul_inv_cancel₀ (ne_of_gt (lt_of_lt_of_le tiny_pos ht)), one_smul]

/-- Scalar version, for the quantities averaged with the weight of delay `d`. -/
theorem timeMean_scalar (errw : Option String) (l : List (Cell E)) (h : ∀ c ∈ l, RegularCell errw c) (d : Nat)
    (hs : RegularSum errw l d) (q : Acc E → ℝ) (q' : Cell E → ℝ) (hq : ∀ c ∈ l, q (prep errw c) = q' c) :
    ((l.map (prep errw)).map (fun a => q a * a.w d)).sum / clipTiny ((l.map (prep errw)).map (fun a => a.w d)).sum *
      (timeMean (l.map (prep errw))).w d = (l.map (fun c => specWeight errw c d * q' c)).sum := by
  rw [timeMean_w errw l h d, timeMean_ws errw l h d]
  rw [sum_map_prep errw l (fun a => q a * a.w d) (fun c => specWeight errw c d * q' c)
    (by intro c hc; show q (prep errw c) * weight errw c d = _; rw [weight_eq errw c (h c hc), hq c hc, mul_comm])]
  cases hs with
  | inl h0 =>
    rw [sum_zero_of h0, sum_zero_of (f := fun c => specWeight errw c d * q' c) (fun c hc => by rw [h0 c hc, zero_mul]),
      mul_zero]
  | inr ht =>
    rw [clipTiny_eq ht, div_mul_cancel₀ _ (ne_of_gt (lt_of_lt_of_le tiny_pos ht))]

end HeraPspec.Average
