import Verif.Model.AvgScale
import Verif.Props.FoldAvg
import Verif.Props.Stages

/-!
Property C169: averaging commutes with multiplying the spectra by factors (Delta^2, bias correction).
-/
namespace HeraPspec.AvgScale
open HeraPspec.UVP (Err mapE mapE_ok_iff forall₂_getElem_left)
open HeraPspec.Average
open HeraPspec.FoldAvg (RelE mapE_rel Respects forall₂_map₂ sumCopies_rel copies_rel)
variable {E : Type} [AddCommGroup E] [Module ℝ E]

/-! ### Specification -/

/-- `x'` is the spectrum `x` multiplied by the factors `f` of its delays: the data once, the covariance with the factors of both delays, everything else as it was (error bars are
treated separately). -/
structure Scaled (f : Nat → ℝ) (x' x : Cell E) : Prop where
  data : ∀ d, x'.data d = f d • x.data d
  cov : ∀ d e, x'.cov d e = f d * x.cov d e * f e
  wgts : x'.wgts = x.wgts
  ints : x'.ints = x.ints
  nsmp : x'.nsmp = x.nsmp
  win : x'.win = x.win

/-! ### Proofs -/

/-- The same for weighted integrations. -/
structure ScaledA (f : Nat → ℝ) (x' x : Acc E) : Prop where
  w : x'.w = x.w
  data : ∀ d, x'.data d = f d • x.data d
  cov : ∀ d e, x'.cov d e = f d * x.cov d e * f e
  wgts : x'.wgts = x.wgts
  ints : x'.ints = x.ints
  nsmp : x'.nsmp = x.nsmp
  win : x'.win = x.win

theorem sum_rel {α β M : Type} [AddCommMonoid M] {R : α → β → Prop} {p : α → M} {q : β → M} (h : ∀ a b, R a b → p a = q b) {l : List α} {r : List β}
    (hl : List.Forall₂ R l r) : (l.map p).sum = (r.map q).sum := by
  induction hl with
  | nil => rfl
  | cons h1 _ ih => simp only [List.map_cons, List.sum_cons, h _ _ h1, ih]

theorem sum_smul' {α : Type} (k : ℝ) (g : α → E) (l : List α) : (l.map (fun a => k • g a)).sum = k • (l.map g).sum := by
  induction l with
  | nil => simp
  | cons a l ih => simp only [List.map_cons, List.sum_cons, ih, smul_add]

section
variable {f : Nat → ℝ} {l l' : List (Acc E)}

theorem sum_w (h : List.Forall₂ (ScaledA f) l' l) (d : Nat) : (l'.map (·.w d)).sum = (l.map (·.w d)).sum := sum_rel (fun a b h => by rw [h.w]) h

theorem sum_data (h : List.Forall₂ (ScaledA f) l' l) (d : Nat) : (l'.map (fun a => a.w d • a.data d)).sum = f d • (l.map (fun a => a.w d • a.data d)).sum := by
  rw [← sum_smul']
  exact sum_rel (fun a b h => by rw [h.w, h.data, smul_comm]) h

theorem sum_cov (h : List.Forall₂ (ScaledA f) l' l) (d e : Nat) :
    (l'.map (fun a => a.cov d e * a.w d * a.w e)).sum = f d * (l.map (fun a => a.cov d e * a.w d * a.w e)).sum * f e := by
  have : f d * (l.map (fun a => a.cov d e * a.w d * a.w e)).sum * f e = (l.map (fun a => (f d * f e) • (a.cov d e * a.w d * a.w e))).sum := by
    rw [sum_smul', smul_eq_mul]; ring
  rw [this]
  exact sum_rel (fun a b h => by rw [h.w, h.cov, smul_eq_mul]; ring) h

theorem respects_scale (exact : Bool) (f : Nat → ℝ) : Respects (E := E) exact (Scaled f) (ScaledA f) := by
  refine ⟨?_, ?_, ?_⟩
  · intro c c' h
    refine ⟨?_, h.data, h.cov, h.wgts, ?_, h.nsmp, h.win⟩
    · funext d
      simp only [prep, weight, h.ints, h.nsmp]
    · simp only [prep, h.ints]
  · intro l' l h
    refine ⟨?_, ?_, ?_, ?_, ?_, ?_, ?_⟩
    · funext d; exact sum_w h d
    · intro d
      simp only [timeMean]
      rw [sum_w h, sum_data h, smul_comm]
    · intro d e
      simp only [timeMean]
      rw [sum_w h, sum_w h, sum_cov h]
      ring
    · funext k
      simp only [timeMean]
      rw [sum_w h, sum_rel (q := fun a => a.wgts k * a.w 0) (fun a b h => by rw [h.wgts, h.w]) h]
    · funext k
      simp only [timeMean]
      rw [sum_w h, sum_rel (q := fun a => a.ints k * a.w k) (fun a b h => by rw [h.ints, h.w]) h]
    · simp only [timeMean]
      exact sum_rel (fun a b h => h.nsmp) h
    · funext d e
      simp only [timeMean]
      rw [sum_w h, sum_rel (q := fun a => a.win d e * a.w d) (fun a b h => by rw [h.win, h.w]) h]
  · intro l' l h
    refine ⟨?_, ?_, ?_, ?_, ?_, ?_⟩
    · intro d
      simp only [groupMean]
      rw [sum_w h, sum_data h, smul_comm]
    · intro d e
      simp only [groupMean]
      rw [sum_w h, sum_w h, sum_cov h]
      ring
    · funext k
      simp only [groupMean]
      rw [sum_w h, sum_rel (q := fun a => a.wgts k * a.w 0) (fun a b h => by rw [h.wgts, h.w]) h]
    · simp only [groupMean]
      rw [sum_w h, sum_rel (q := fun a => a.ints 0 * a.w 0) (fun a b h => by rw [h.ints, h.w]) h]
    · simp only [groupMean]
      exact sum_rel (fun a b h => h.nsmp) h
    · funext d e
      simp only [groupMean]
      rw [sum_w h, sum_rel (q := fun a => a.win d e * a.w d) (fun a b h => by rw [h.win, h.w]) h]

end

theorem cell_rescale (c : Nat → Nat → Nat → ℝ) (u : Obj E) (s p i : Nat) :
    (((rescale c u).cells[s]?.bind (·[p]?)).bind (·[i]?)) = (((u.cells[s]?.bind (·[p]?)).bind (·[i]?))).map (scaleRow c u.rows s i) := by
  simp only [rescale, List.getElem?_mapIdx]
  cases u.cells[s]? with
  | none => rfl
  | some ps =>
    simp only [Option.map_some, Option.bind_some, List.getElem?_map]
    cases ps[p]? with
    | none => rfl
    | some cs => simp only [Option.map_some, Option.bind_some, List.getElem?_mapIdx]

theorem cells_rescale (c : Nat → Nat → Nat → ℝ) (u : Obj E) (s p : Nat) :
    ((rescale c u).cells[s]?.bind (·[p]?)) = ((u.cells[s]?.bind (·[p]?))).map (fun cs => cs.mapIdx (scaleRow c u.rows s)) := by
  simp only [rescale, List.getElem?_mapIdx]
  cases u.cells[s]? with
  | none => rfl
  | some ps => simp only [Option.map_some, Option.bind_some, List.getElem?_map]

theorem scaled_scaleCell (f : Nat → ℝ) (x : Cell E) : Scaled f (scaleCell f x) x := ⟨fun _ => rfl, fun _ _ => rfl, rfl, rfl, rfl, rfl⟩

theorem cellsOf_scaled (c : Nat → Nat → Nat → ℝ) (u : Obj E) (s p b : Nat) :
    RelE (List.Forall₂ (fun x' x => x' = scaleCell (c s b) x)) (cellsOf (rescale c u) s p b) (cellsOf u s p b) := by
  unfold cellsOf
  have hi : indices (rescale c u) b = indices u b := rfl
  rw [hi]
  cases h : indices u b with
  | error e => rfl
  | ok is =>
    simp only []
    refine mapE_rel is (fun i hm => ?_)
    rw [cell_rescale]
    rw [(indices_ok h).1, List.mem_filter] at hm
    have := hm.2
    simp only [decide_eq_true_eq, Option.map_eq_some_iff] at this
    obtain ⟨m, hm1, hm2⟩ := this
    cases ((u.cells[s]?.bind (·[p]?)).bind (·[i]?)) with
    | none => rfl
    | some x =>
      simp only [Option.map_some, scaleRow, hm1, hm2]
      rfl

theorem groupRows_scaled (c : Nat → Nat → Nat → ℝ) (u : Obj E) (ta nz : Bool) (s p : Nat) (g : List Nat × List ℝ) (f : Nat → ℝ) (hf : ∀ b ∈ g.1, c s b = f) :
    RelE (List.Forall₂ (Scaled f)) (groupRows none ta nz (rescale c u) s p g) (groupRows none ta nz u s p g) := by
  have H := respects_scale (E := E) u.exact f
  unfold groupRows
  cases blpgWgts nz g.2 with
  | error e => rfl
  | ok ws =>
    simp only []
    have h1 : RelE (List.Forall₂ (List.Forall₂ (ScaledA f))) (mapE (accsOf none ta (rescale c u) s p) g.1) (mapE (accsOf none ta u s p) g.1) := by
      refine mapE_rel g.1 (fun b hb => ?_)
      unfold accsOf
      have h := cellsOf_scaled c u s p b
      cases h1 : cellsOf (rescale c u) s p b <;> cases h2 : cellsOf u s p b <;> rw [h1, h2] at h <;> simp only [RelE] at h
      · exact h
      · simp only [RelE]
        have h3 := forall₂_map₂ (fun x' x (hx : x' = scaleCell (c s b) x) => H.prep x' x (by rw [hx, hf b hb]; exact scaled_scaleCell f x)) h
        split
        · exact .cons (H.time _ _ h3) .nil
        · exact h3
    cases h2 : mapE (accsOf none ta (rescale c u) s p) g.1 <;> cases h3 : mapE (accsOf none ta u s p) g.1 <;> rw [h2, h3] at h1 <;>
      simp only [RelE] at h1
    · exact h1
    · exact sumCopies_rel H (copies_rel ws h1)

/-- A group has factors of its own: all its baseline-pairs the same. -/
def Uniform (c : Nat → Nat → Nat → ℝ) (g : List Nat × List ℝ) : Prop := ∀ b ∈ g.1, ∀ b' ∈ g.1, ∀ s, c s b = c s b'

/-- **C169** Averaging commutes with multiplying the spectra by factors of window, baseline-pair and delay that are the same for all baseline-pairs of a group, with the default
weights: the average of the multiplied object succeeds exactly if the average of the object does, has the same rows, and every averaged spectrum, covariance, weight, integration time,
number of samples and window function is that of the average multiplied by the factors of its group. -/
theorem C169_rescaled_average {circ : List ℝ → ℝ} {so : List Nat → List Nat} {a : Args} {u v : Obj E} (ha : a.errorWeights = none) (c : Nat → Nat → Nat → ℝ)
    (hc : ∀ gs, groupsOf so a u = .ok gs → ∀ g ∈ gs, Uniform c g) (h : averageSpectra circ so a u = .ok v) :
    ∃ v' gs, averageSpectra circ so a (rescale c u) = .ok v' ∧ groupsOf so a u = .ok gs ∧ v'.rows = v.rows ∧ v'.statNames = v.statNames ∧ v'.exact = v.exact ∧
      ∀ s p cs, (u.cells[s]?.bind (·[p]?)) = some cs → ∃ blocks' blocks : List (List (Cell E)),
        (v'.cells[s]?.bind (·[p]?)) = some blocks'.flatten ∧ (v.cells[s]?.bind (·[p]?)) = some blocks.flatten ∧
        List.Forall₂ (fun g b => groupRows none a.timeAvg a.normalize u s p g = .ok b) gs blocks ∧
        List.Forall₂ (fun (gb : (List Nat × List ℝ) × List (Cell E)) b' => ∀ b ∈ gb.1.1, List.Forall₂ (Scaled (c s b)) b' gb.2) (gs.zip blocks) blocks' := by
  obtain ⟨gs, hgs, ⟨ms, hms, hmeta⟩, _, hex, hst, hl, hcells⟩ := averageSpectra_ok h
  rw [ha] at hcells
  have hgs' : groupsOf so a (rescale c u) = .ok gs := hgs
  have hu := hc gs hgs
  have hrow : ∀ g ∈ gs, ∀ s p r, groupRows none a.timeAvg a.normalize u s p g = .ok r →
      ∃ r', groupRows none a.timeAvg a.normalize (rescale c u) s p g = .ok r' ∧ ∀ b ∈ g.1, List.Forall₂ (Scaled (c s b)) r' r := by
    intro g hg s p r hr
    obtain ⟨bm, hbm, _⟩ := (groupRows_ok hr).2.2.choose_spec.1
    have hb0 := (List.of_mem_zip hbm).1
    have := groupRows_scaled c u a.timeAvg a.normalize s p g (c s bm.1) (fun b hb => hu g hg b hb bm.1 hb0 s)
    rw [hr] at this
    cases hr' : groupRows none a.timeAvg a.normalize (rescale c u) s p g with
    | error e => rw [hr'] at this; exact absurd this (by simp [RelE])
    | ok r' =>
      rw [hr'] at this
      exact ⟨r', rfl, fun b hb => by rw [hu g hg b hb bm.1 hb0 s]; exact this⟩
  obtain ⟨v', h'⟩ : ∃ v', averageSpectra circ so a (rescale c u) = .ok v' := by
    refine averageSpectra_of hgs' ?_ ?_ ?_
    · intro x hx
      rw [← hst] at hx
      exact (C79_statistics_kept h x).2 hx
    · intro s p cs' hc' g hg
      rw [cells_rescale, Option.map_eq_some_iff] at hc'
      obtain ⟨cs, hcs, _⟩ := hc'
      obtain ⟨bl, _, hbl⟩ := hcells s p cs hcs
      obtain ⟨i, hi⟩ := List.mem_iff_getElem?.1 hg
      obtain ⟨r, _, hr⟩ := forall₂_getElem_left hbl hi
      obtain ⟨r', hr', _⟩ := hrow g hg s p r hr
      exact ⟨r', by rw [ha]; exact hr'⟩
    · intro g hg
      obtain ⟨i, hi⟩ := List.mem_iff_getElem?.1 hg
      obtain ⟨m, _, hm⟩ := forall₂_getElem_left hmeta hi
      exact ⟨m, hm⟩
  obtain ⟨gs2, hgs2, ⟨ms', hms', hmeta'⟩, _, hex', hst', _, hcells'⟩ := averageSpectra_ok h'
  rw [hgs'] at hgs2
  cases hgs2
  rw [ha] at hcells'
  have hmm : ms' = ms := by
    have hmeta' : List.Forall₂ (fun g m => groupMeta circ a.timeAvg u g = .ok m) gs ms' := hmeta'
    clear * - hmeta hmeta'
    induction hmeta generalizing ms' with
    | nil => cases hmeta'; rfl
    | cons h1 _ ih =>
      cases hmeta' with
      | cons h2 h3 =>
        rw [h1] at h2
        cases h2
        rw [ih _ h3]
  refine ⟨v', gs, h', hgs, by rw [hms', hms, hmm], by rw [hst', hst], by rw [hex', hex]; rfl, ?_⟩
  intro s p cs hcs
  obtain ⟨bl, hb, hbl⟩ := hcells s p cs hcs
  obtain ⟨bl', hb', hbl'⟩ := hcells' s p _ (by rw [cells_rescale, hcs]; rfl)
  refine ⟨bl', bl, hb', hb, hbl, ?_⟩
  clear * - hbl hbl' hrow
  induction hbl generalizing bl' with
  | nil => cases hbl'; exact .nil
  | @cons g b gs bl h1 _ ih =>
    cases hbl' with
    | cons h2 h3 =>
      refine .cons ?_ (ih (fun g hg => hrow g (List.mem_cons_of_mem _ hg)) _ h3)
      obtain ⟨r', e1, e2⟩ := hrow g List.mem_cons_self s p b h1
      rw [h2] at e1
      cases e1
      exact e2


theorem align {K : Nat → Nat → ℝ} {gs : List (List Nat × List ℝ)} {ms : List (List Meta)} {bl bl' : List (List (Cell E))}
    (h1 : List.Forall₂ (fun (g : List Nat × List ℝ) (m : List Meta) => ∃ b0 ∈ g.1, ∀ r ∈ m, r.blp = b0) gs ms)
    (h2 : List.Forall₂ (fun (m : List Meta) (b : List (Cell E)) => m.length = b.length) ms bl)
    (h3 : List.Forall₂ (fun (gb : (List Nat × List ℝ) × List (Cell E)) b' => ∀ b ∈ gb.1.1, List.Forall₂ (Scaled (K b)) b' gb.2) (gs.zip bl) bl')
    {j : Nat} {x' x : Cell E} {m : Meta} (e1 : bl'.flatten[j]? = some x') (e2 : bl.flatten[j]? = some x) (e3 : ms.flatten[j]? = some m) : Scaled (K m.blp) x' x := by
  induction h1 generalizing bl bl' j with
  | nil => cases h2; simp at e2
  | @cons g m1 gs ms a1 _ ih =>
    cases h2 with
    | @cons _ b1 _ bl a2 h2 =>
      cases h3 with
      | @cons _ b1' _ bl' a3 h3 =>
        rw [List.flatten_cons] at e1 e2 e3
        obtain ⟨b0, hb0, hr⟩ := a1
        have a3 := a3 b0 hb0
        have hl : b1'.length = b1.length := a3.length_eq
        by_cases hj : j < m1.length
        · rw [List.getElem?_append_left (by omega)] at e1 e2 e3
          rw [hr m (List.mem_of_getElem? e3)]
          obtain ⟨y, hy, hs⟩ := forall₂_getElem_left a3 e1
          rw [e2] at hy
          cases hy
          exact hs
        · rw [List.getElem?_append_right (by omega)] at e1 e2 e3
          rw [hl, ← a2] at e1
          rw [← a2] at e2
          exact ih h2 h3 e1 e2 e3

/-- **C169** Row by row: the averaged spectrum of the multiplied object at window `s`, polarization pair `p` and row `j` is that of the average multiplied by the factors of the
baseline-pair the row is labelled with: averaging and multiplying commute. The object has one entry per row (`Shaped`), and all baseline-pairs of a group the same number of
integrations, or one averages in time. -/
theorem C169_rows {circ : List ℝ → ℝ} {so : List Nat → List Nat} {a : Args} {u v : Obj E} (ha : a.errorWeights = none) (c : Nat → Nat → Nat → ℝ)
    (hc : ∀ gs, groupsOf so a u = .ok gs → ∀ g ∈ gs, Uniform c g) (hu : Shaped u)
    (heq : a.timeAvg = true ∨ ∀ gs, groupsOf so a u = .ok gs → ∀ g ∈ gs, ∀ b ∈ g.1, ∀ b' ∈ g.1, (metaOf u b).length = (metaOf u b').length)
    (h : averageSpectra circ so a u = .ok v) :
    ∃ v', averageSpectra circ so a (rescale c u) = .ok v' ∧ v'.rows = v.rows ∧ v'.statNames = v.statNames ∧ v'.exact = v.exact ∧
      ∀ (s p j : Nat) cs, (u.cells[s]?.bind (·[p]?)) = some cs → ∀ m, v.rows[j]? = some m →
        ∃ x' x, ((v'.cells[s]?.bind (·[p]?)).bind (·[j]?)) = some x' ∧ ((v.cells[s]?.bind (·[p]?)).bind (·[j]?)) = some x ∧ Scaled (c s m.blp) x' x := by
  obtain ⟨v', gs, h', hgs, r1, r2, r3, hcells⟩ := C169_rescaled_average ha c hc h
  refine ⟨v', h', r1, r2, r3, ?_⟩
  intro s p j cs hcs m hm
  obtain ⟨bl', bl, e1, e2, hbl, hsc⟩ := hcells s p cs hcs
  obtain ⟨gs2, ms, hgs2, hms, hM, _⟩ := C79_rows_match_metadata hu h
  rw [hgs] at hgs2
  cases hgs2
  have hlen : List.Forall₂ (fun (m : List Meta) (b : List (Cell E)) => m.length = b.length) ms bl := by
    have key : ∀ g ∈ gs, ∀ m b, (∃ b0, g.1.head? = some b0 ∧ (∀ r ∈ m, r.blp = b0) ∧
        (if a.timeAvg then ∃ r, m = [r] ∧ MeanTimes circ (metaOf u b0) r
         else m = metaOf u b0)) → groupRows none a.timeAvg a.normalize u s p g = .ok b → m.length = b.length := by
      intro g hg m b hm hb
      obtain ⟨b0, hb0, _, hm⟩ := hm
      obtain ⟨_, _, n, ⟨bm, hbm, hpos⟩, hn, rfl⟩ := groupRows_ok hb
      rw [List.length_map, List.length_range, ← hn bm hbm hpos]
      unfold accs
      cases hta : a.timeAvg with
      | true =>
        rw [hta] at hm
        simp only [if_true] at hm ⊢
        obtain ⟨r, rfl, _⟩ := hm
        rfl
      | false =>
        rw [hta] at hm heq
        simp only [Bool.false_eq_true, if_false] at hm ⊢
        rw [hm, List.length_map, length_integrations hu hcs]
        exact (heq.resolve_left (by simp)) gs hgs g hg b0 (List.mem_of_mem_head? (by rw [hb0]; rfl)) bm.1 (List.of_mem_zip hbm).1
    clear * - key hM hbl
    induction hM generalizing bl with
    | nil => cases hbl; exact .nil
    | cons h1 _ ih =>
      cases hbl with
      | cons h3 h4 => exact .cons (key _ List.mem_cons_self _ _ h1 h3) (ih _ h4 (fun g hg => key g (List.mem_cons_of_mem _ hg)))
  have hM' : List.Forall₂ (fun (g : List Nat × List ℝ) (m : List Meta) => ∃ b0 ∈ g.1, ∀ r ∈ m, r.blp = b0) gs ms :=
    hM.imp (fun g m ⟨b0, e1, e2, _⟩ => ⟨b0, List.mem_of_mem_head? (by rw [e1]; rfl), e2⟩)
  have hl2 : ms.flatten.length = bl.flatten.length := by
    clear * - hlen
    induction hlen with
    | nil => rfl
    | cons h1 _ ih => simp only [List.flatten_cons, List.length_append, h1, ih]
  have hl3 : bl'.flatten.length = bl.flatten.length := by
    have hz : (gs.zip bl).map (·.2) = bl := by
      apply List.map_snd_zip
      rw [hbl.length_eq]
    have hne : ∀ gb ∈ gs.zip bl, ∃ b, b ∈ gb.1.1 := by
      intro gb hgb
      have := (List.of_mem_zip hgb).1
      obtain ⟨i, hi⟩ := List.mem_iff_getElem?.1 this
      obtain ⟨_, _, b0, h0, _⟩ := forall₂_getElem_left hM' hi
      exact ⟨b0, h0⟩
    have : ∀ (z : List ((List Nat × List ℝ) × List (Cell E))) bl', (∀ gb ∈ z, ∃ b, b ∈ gb.1.1) →
        List.Forall₂ (fun (gb : (List Nat × List ℝ) × List (Cell E)) b' => ∀ b ∈ gb.1.1, List.Forall₂ (Scaled (c s b)) b' gb.2) z bl' →
        bl'.flatten.length = (z.map (·.2)).flatten.length := by
      intro z bl' hn hf
      induction hf with
      | nil => rfl
      | cons h1 _ ih =>
        obtain ⟨b, hb⟩ := hn _ List.mem_cons_self
        simp only [List.flatten_cons, List.map_cons, List.length_append, (h1 b hb).length_eq, ih (fun g hg => hn g (List.mem_cons_of_mem _ hg))]
    rw [this _ _ hne hsc, hz]
  rw [hms] at hm
  have hj : j < ms.flatten.length := (List.getElem?_eq_some_iff.1 hm).1
  have g1 : bl'.flatten[j]? = some _ := List.getElem?_eq_getElem (by omega)
  have g2 : bl.flatten[j]? = some _ := List.getElem?_eq_getElem (by omega)
  exact ⟨_, _, by rw [e1]; exact g1, by rw [e2]; exact g2, align (K := fun b => c s b) hM' hlen hsc g1 g2 hm⟩

/-- **C169** Converting to Delta^2 commutes with averaging when the baseline-pairs of a group have the same transverse wavenumber: the converted average is the average of the
converted object. -/
theorem C169_deltasq {circ : List ℝ → ℝ} {so : List Nat → List Nat} {a : Args} {u v : Obj E} (ha : a.errorWeights = none) (kperp kpara : Nat → Nat → ℝ)
    (hk : ∀ gs, groupsOf so a u = .ok gs → ∀ g ∈ gs, ∀ b ∈ g.1, ∀ b' ∈ g.1, ∀ s, kperp s b = kperp s b') (hu : Shaped u)
    (heq : a.timeAvg = true ∨ ∀ gs, groupsOf so a u = .ok gs → ∀ g ∈ gs, ∀ b ∈ g.1, ∀ b' ∈ g.1, (metaOf u b).length = (metaOf u b').length)
    (h : averageSpectra circ so a u = .ok v) :
    ∃ v', averageSpectra circ so a (toDeltaSq kperp kpara u) = .ok v' ∧ v'.rows = v.rows ∧
      ∀ (s p j : Nat) cs, (u.cells[s]?.bind (·[p]?)) = some cs → ∀ m, v.rows[j]? = some m →
        ∃ x' x, ((v'.cells[s]?.bind (·[p]?)).bind (·[j]?)) = some x' ∧ ((v.cells[s]?.bind (·[p]?)).bind (·[j]?)) = some x ∧
          Scaled (fun d => Real.sqrt (kperp s m.blp ^ 2 + kpara s d ^ 2) ^ 3 / (2 * Real.pi ^ 2)) x' x := by
  obtain ⟨v', h', r1, _, _, r4⟩ := C169_rows ha (deltaFactor kperp kpara) (fun gs hgs g hg b hb b' hb' s => by
    funext d; simp only [deltaFactor, hk gs hgs g hg b hb b' hb' s]) hu heq h
  exact ⟨v', h', r1, r4⟩

/-- **C169** Correcting a bias of every window commutes with averaging, for all groups. -/
theorem C169_bias {circ : List ℝ → ℝ} {so : List Nat → List Nat} {a : Args} {u v : Obj E} (ha : a.errorWeights = none) (bias : Nat → ℝ) (hu : Shaped u)
    (heq : a.timeAvg = true ∨ ∀ gs, groupsOf so a u = .ok gs → ∀ g ∈ gs, ∀ b ∈ g.1, ∀ b' ∈ g.1, (metaOf u b).length = (metaOf u b').length)
    (h : averageSpectra circ so a u = .ok v) :
    ∃ v', averageSpectra circ so a (totalBias bias u) = .ok v' ∧ v'.rows = v.rows ∧
      ∀ (s p j : Nat) cs, (u.cells[s]?.bind (·[p]?)) = some cs → ∀ m, v.rows[j]? = some m →
        ∃ x' x, ((v'.cells[s]?.bind (·[p]?)).bind (·[j]?)) = some x' ∧ ((v.cells[s]?.bind (·[p]?)).bind (·[j]?)) = some x ∧ Scaled (fun _ => bias s) x' x := by
  obtain ⟨v', h', r1, _, _, r4⟩ := C169_rows ha (fun s _ _ => bias s) (fun _ _ _ _ _ _ _ _ _ => rfl) hu heq h
  exact ⟨v', h', r1, r4⟩

/-! ### Error bars -/

/-- The error `st` of spectrum `x` at delay `d` is a number that neither before nor after multiplication by `k` is cut at `1e20`. -/
def FineError (st : String) (d : Nat) (k : ℝ) (x : Cell E) : Prop := ∃ σ, x.stat st d = some σ ∧ σ ^ 2 ≤ 10 ^ 40 ∧ (k * σ) ^ 2 ≤ 10 ^ 40

/-- One weighted integration and its multiple, with errors. -/
structure ErrA (f : Nat → ℝ) (st : String) (d : Nat) (x' x : Acc E) : Prop where
  sc : ScaledA f x' x
  var : ∃ v, 0 ≤ v ∧ v ≤ 10 ^ 40 ∧ f d ^ 2 * v ≤ 10 ^ 40 ∧ x.var st d = some v ∧ x'.var st d = some (f d ^ 2 * v)

theorem errA_prep {f : Nat → ℝ} {st : String} {d : Nat} {x : Cell E} (h : FineError st d (f d) x) : ErrA f st d (prep none (scaleCell f x)) (prep none x) := by
  obtain ⟨σ, h1, h2, h3⟩ := h
  refine ⟨(respects_scale true f).prep _ _ (scaled_scaleCell f x), σ ^ 2, sq_nonneg _, h2, by rw [← mul_pow]; exact h3, ?_, ?_⟩
  · simp only [prep, h1, Option.map_some]
  · simp only [prep, scaleCell, h1, Option.map_some, mul_pow]

theorem group_err {f : Nat → ℝ} {st : String} {d : Nat} {exact : Bool} (hf : 0 ≤ f d) {l' l : List (Acc E)} (h : List.Forall₂ (ErrA f st d) l' l) {e e' : ℝ}
    (he : (groupMean exact l).stat st d = some e) (he' : (groupMean exact l').stat st d = some e') : e' = f d * e := by
  have hs : List.Forall₂ (ScaledA f) l' l := h.imp (fun _ _ h => h.sc)
  have hv : (l'.map (fun a => clipVar (a.var st d) * a.w d ^ 2)).sum = f d ^ 2 * (l.map (fun a => clipVar (a.var st d) * a.w d ^ 2)).sum := by
    rw [← smul_eq_mul, ← sum_smul']
    refine sum_rel (fun a b hab => ?_) h
    obtain ⟨v, v0, v1, v2, e1, e2⟩ := hab.var
    rw [e1, e2, clipVar_of v0 v1, clipVar_of (mul_nonneg (sq_nonneg _) v0) v2, hab.sc.w, smul_eq_mul, mul_assoc]
  have hn : ∀ v, nearZeroInf v = none ∨ nearZeroInf v = some v := by
    intro v; unfold nearZeroInf; split <;> simp
  simp only [groupMean] at he he'
  rw [sum_w hs, hv, mul_div_assoc] at he'
  generalize (l.map (fun a => clipVar (a.var st d) * a.w d ^ 2)).sum / clipTiny (l.map (·.w d)).sum ^ 2 = V at he he'
  rcases hn V with h1 | h1 <;> rw [h1] at he
  · cases he
  · rcases hn (f d ^ 2 * V) with h2 | h2 <;> rw [h2] at he'
    · cases he'
    · simp only [Option.map_some, Option.some.injEq] at he he'
      rw [← he, ← he', Real.sqrt_mul (sq_nonneg _), Real.sqrt_sq hf]

/-- The variance of the time average of spectra `l` at delay `d`: squared errors weighted by squares of `t_int^2 * nsample`. -/
noncomputable def timeVar (st : String) (d : Nat) (l : List (Cell E)) : ℝ :=
  (l.map (fun x => (x.stat st d).getD 0 ^ 2 * ((x.ints * Real.sqrt x.nsmp) ^ 2) ^ 2)).sum / max (l.map (fun x => (x.ints * Real.sqrt x.nsmp) ^ 2)).sum (1 / 10 ^ 40) ^ 2

/-- That variance is, before and after multiplying the spectra by `k`, above `1e-8` and not cut at `1e40`. -/
def FineMean (st : String) (d : Nat) (k : ℝ) (l : List (Cell E)) : Prop :=
  1 / 10 ^ 8 < timeVar st d l ∧ timeVar st d l ≤ 10 ^ 40 ∧ 1 / 10 ^ 8 < k ^ 2 * timeVar st d l ∧ k ^ 2 * timeVar st d l ≤ 10 ^ 40

theorem time_err {f : Nat → ℝ} {st : String} {d : Nat} {l : List (Cell E)} (hl : ∀ x ∈ l, FineError st d (f d) x) (h : FineMean st d (f d) l) :
    ErrA f st d (timeMean ((l.map (scaleCell f)).map (prep none))) (timeMean (l.map (prep none))) := by
  have hA : List.Forall₂ (ErrA f st d) ((l.map (scaleCell f)).map (prep none)) (l.map (prep none)) := by
    rw [List.map_map, List.forall₂_map_left_iff, List.forall₂_map_right_iff, List.forall₂_same]
    exact fun x hx => errA_prep (hl x hx)
  have hs : List.Forall₂ (ScaledA f) ((l.map (scaleCell f)).map (prep none)) (l.map (prep none)) := hA.imp (fun _ _ h => h.sc)
  have hv : (((l.map (scaleCell f)).map (prep none)).map (fun a => clipVar (a.var st d) * a.w d ^ 2)).sum =
      f d ^ 2 * ((l.map (prep none)).map (fun a => clipVar (a.var st d) * a.w d ^ 2)).sum := by
    rw [← smul_eq_mul, ← sum_smul']
    refine sum_rel (fun a b hab => ?_) hA
    obtain ⟨v, v0, v1, v2, e1, e2⟩ := hab.var
    rw [e1, e2, clipVar_of v0 v1, clipVar_of (mul_nonneg (sq_nonneg _) v0) v2, hab.sc.w, smul_eq_mul, mul_assoc]
  have hV : ((l.map (prep none)).map (fun a => clipVar (a.var st d) * a.w d ^ 2)).sum / clipTiny ((l.map (prep none)).map (·.w d)).sum ^ 2 = timeVar st d l := by
    unfold timeVar
    congr 1
    · rw [List.map_map]
      congr 1
      refine List.map_congr_left (fun x hx => ?_)
      obtain ⟨σ, h1, h2, _⟩ := hl x hx
      simp only [Function.comp_apply, prep, h1, Option.map_some, clipVar_of (sq_nonneg _) h2, weight, Option.getD_some]
    · rw [List.map_map]; rfl
  refine ⟨(respects_scale true f).time _ _ hs, timeVar st d l, le_trans (by positivity) h.1.le, h.2.1, h.2.2.2, ?_, ?_⟩
  · simp only [timeMean]
    rw [hV, nearZeroInf_of h.1]
  · simp only [timeMean]
    rw [sum_w hs, hv, mul_div_assoc, hV, nearZeroInf_of h.2.2.1]

/-- **C169** The error bars as well: at a delay with a non-negative factor, if the errors of all integrations of the group are numbers that are not cut at `1e20`, if (when averaging
in time) the time average of every baseline-pair has a variance between `1e-8` and `1e40` before and after multiplication, and if neither averaged error falls below `1e-4`, the error
of the average of the multiplied object is that of the average multiplied by the factor.
Missing: error bars beyond these bounds, for which the statement is false (`C169_counterexample_units`), and averages weighted by error bars. -/
theorem C169_errors_partial {circ : List ℝ → ℝ} {so : List Nat → List Nat} {a : Args} {u v v' : Obj E} (ha : a.errorWeights = none)
    (c : Nat → Nat → Nat → ℝ) (hc : ∀ gs, groupsOf so a u = .ok gs → ∀ g ∈ gs, Uniform c g) (h : averageSpectra circ so a u = .ok v)
    (h' : averageSpectra circ so a (rescale c u) = .ok v') {gs : List (List Nat × List ℝ)} (hgs : groupsOf so a u = .ok gs) :
    ∀ s p cs, (u.cells[s]?.bind (·[p]?)) = some cs → ∃ blocks' blocks : List (List (Cell E)),
      (v'.cells[s]?.bind (·[p]?)) = some blocks'.flatten ∧ (v.cells[s]?.bind (·[p]?)) = some blocks.flatten ∧
      ∀ (i : Nat) g bl' bl, gs[i]? = some g → blocks'[i]? = some bl' → blocks[i]? = some bl → bl'.length = bl.length ∧
        ∀ st d b, b ∈ g.1 → 0 ≤ c s b d → (∀ b' ∈ g.1, ∀ x ∈ integrations u s p b', FineError st d (c s b d) x) →
          (a.timeAvg = true → ∀ b' ∈ g.1, FineMean st d (c s b d) (integrations u s p b')) →
          ∀ (t : Nat) x' x e' e, bl'[t]? = some x' → bl[t]? = some x → x'.stat st d = some e' → x.stat st d = some e → e' = c s b d * e := by
  obtain ⟨gs1, hgs1, _, _, hex, _, _, hcells⟩ := averageSpectra_ok h
  obtain ⟨gs2, hgs2, _, _, _, _, _, hcells'⟩ := averageSpectra_ok h'
  have hgs2 : groupsOf so a u = .ok gs2 := hgs2
  rw [hgs] at hgs1 hgs2
  cases hgs1; cases hgs2
  intro s p cs hcs
  obtain ⟨bl, hb, hbl⟩ := hcells s p cs hcs
  obtain ⟨bl', hb', hbl'⟩ := hcells' s p _ (by rw [cells_rescale, hcs]; rfl)
  refine ⟨bl', bl, hb', hb, ?_⟩
  intro i g B' B hg hB' hB
  rw [ha] at hbl hbl'
  obtain ⟨_, q1, r1⟩ := forall₂_getElem_left hbl hg
  rw [hB] at q1; cases q1
  obtain ⟨_, q2, r2⟩ := forall₂_getElem_left hbl' hg
  rw [hB'] at q2; cases q2
  have hgm : g ∈ gs := List.mem_of_getElem? hg
  have hlen : B'.length = B.length := by
    obtain ⟨bm, hbm, _⟩ := (groupRows_ok r1).2.2.choose_spec.1
    have := groupRows_scaled c u a.timeAvg a.normalize s p g (c s bm.1) (fun b hb => hc gs hgs g hgm b hb bm.1 (List.of_mem_zip hbm).1 s)
    rw [r1, r2] at this
    exact List.Forall₂.length_eq this
  refine ⟨hlen, ?_⟩
  intro st d b hb hpos hfine hmean t x' x e' e hx' hx he' he
  have hacc : ∀ b' ∈ g.1, List.Forall₂ (ErrA (c s b) st d) (accs none a.timeAvg (rescale c u) s p b') (accs none a.timeAvg u s p b') := by
    intro b' hb'
    have h1 := (groupRows_ok r1).2.1 b' hb'
    have h2 := (groupRows_ok r2).2.1 b' hb'
    have key := cellsOf_scaled c u s p b'
    unfold accsOf at h1 h2
    cases k1 : cellsOf u s p b' with
    | error e => rw [k1] at h1; cases h1
    | ok y =>
      cases k2 : cellsOf (rescale c u) s p b' with
      | error e => rw [k2] at h2; cases h2
      | ok y' =>
        rw [k1, k2] at key
        simp only [RelE] at key
        rw [k1] at h1; rw [k2] at h2
        simp only [Except.ok.injEq] at h1 h2
        rw [← h1, ← h2]
        have hy : ∀ z ∈ y, FineError st d (c s b d) z := by
          rw [cellsOf_ok k1]; exact hfine b' hb'
        have hcb : c s b' = c s b := hc gs hgs g hgm b' hb' b hb s
        rw [hcb] at key
        have hmap : y' = y.map (scaleCell (c s b)) := by
          clear * - key
          induction key with
          | nil => rfl
          | cons h1 _ ih => rw [List.map_cons, ← ih, h1]
        rw [hmap]
        by_cases hta : a.timeAvg = true
        · simp only [hta, if_true]
          refine .cons (time_err hy ?_) .nil
          rw [cellsOf_ok k1]; exact hmean hta b' hb'
        · rw [Bool.not_eq_true] at hta
          simp only [hta, Bool.false_eq_true, if_false]
          rw [List.map_map, List.forall₂_map_left_iff, List.forall₂_map_right_iff, List.forall₂_same]
          exact fun x hx => errA_prep (hy x hx)
  have hmem : List.Forall₂ (ErrA (c s b) st d) (accMembers none a.timeAvg a.normalize (rescale c u) s p g t) (accMembers none a.timeAvg a.normalize u s p g t) := by
    unfold accMembers
    have : ∀ z : List (Nat × Nat), (∀ bm ∈ z, bm.1 ∈ g.1) →
        List.Forall₂ (ErrA (c s b) st d) (z.flatMap (fun bm => (List.replicate bm.2 ((accs none a.timeAvg (rescale c u) s p bm.1)[t]?).toList).flatten))
          (z.flatMap (fun bm => (List.replicate bm.2 ((accs none a.timeAvg u s p bm.1)[t]?).toList).flatten)) := by
      intro z hz
      induction z with
      | nil => exact .nil
      | cons bm z ih =>
        rw [List.flatMap_cons, List.flatMap_cons]
        refine List.rel_append ?_ (ih (fun q hq => hz q (List.mem_cons_of_mem _ hq)))
        apply FoldAvg.forall₂_flatten
        have one : List.Forall₂ (ErrA (c s b) st d) ((accs none a.timeAvg (rescale c u) s p bm.1)[t]?).toList ((accs none a.timeAvg u s p bm.1)[t]?).toList := by
          rcases FoldAvg.forall₂_getElem? (hacc bm.1 (hz bm List.mem_cons_self)) t with ⟨n1, n2⟩ | ⟨y', y, n1, n2, n3⟩
          · rw [n1, n2]; exact .nil
          · rw [n1, n2]; exact .cons n3 .nil
        generalize bm.2 = n
        induction n with
        | zero => exact .nil
        | succ n ih2 => exact .cons one ih2
    exact this _ (fun bm hbm => (List.of_mem_zip hbm).1)
  obtain ⟨_, _, n1, _, _, o1⟩ := groupRows_ok r1
  obtain ⟨_, _, n2, _, _, o2⟩ := groupRows_ok r2
  rw [o1, List.getElem?_map, Option.map_eq_some_iff] at hx
  rw [o2, List.getElem?_map, Option.map_eq_some_iff] at hx'
  obtain ⟨t1, ht1, rfl⟩ := hx
  obtain ⟨t2, ht2, rfl⟩ := hx'
  have e1 : t1 = t := by
    have := (List.getElem?_eq_some_iff.1 ht1).2; rw [List.getElem_range] at this; exact this.symm
  have e2 : t2 = t := by
    have := (List.getElem?_eq_some_iff.1 ht2).2; rw [List.getElem_range] at this; exact this.symm
  subst e1
  rw [e2] at he'
  exact group_err hpos hmem he he'

/-! ### A concrete run, and what goes wrong -/

/-- One spectrum of baseline-pair 1. -/
def exS (x : Cell ℝ) : Obj ℝ := { rows := [exMeta 1], cells := [[[x]]], statNames := ["P_N"], exact := false }

theorem exS_shaped (x : Cell ℝ) : Shaped (exS x) := by
  intro s p cs h
  match s, p with
  | 0, 0 => injection h with h; subst h; rfl
  | 0, p + 1 => simp [exS] at h
  | s + 1, p => simp [exS] at h

theorem exS_run (x : Cell ℝ) : ∃ v, averageSpectra (fun _ => 0) id (timeOnly ["P_N"] none true) (exS x) = .ok v := by
  refine averageSpectra_of (gs := [([1], [1])]) rfl (by simp [statNames, timeOnly, exS]) ?_ ?_
  · intro s p cs hc g hg
    rw [List.mem_singleton] at hg
    subst hg
    refine ⟨_, groupRows_of (n := 1) (by simp [timeOnly]) ?_ ⟨(1, 1), by simp [timeOnly, mult_single], Nat.one_pos⟩ ?_⟩
    · intro b hb
      obtain ⟨l, hl⟩ := accsOf_of (exS_shaped x) hc (b := b) (by simpa [exS, exMeta] using hb) none true
      have := accsOf_ok hl
      show accsOf none true (exS x) s p b = .ok (accs none true (exS x) s p b)
      rw [← this]
      exact hl
    · intro bm _ _
      simp [accs, timeOnly]
  · intro g hg
    rw [List.mem_singleton] at hg
    subst hg
    exact groupMeta_of _ _ rfl (by simp [exS, exMeta])

/-- The hypotheses of `C169_deltasq` are met. -/
example (x : Cell ℝ) (kperp kpara : Nat → Nat → ℝ) : ∃ v, averageSpectra (fun _ => 0) id (timeOnly ["P_N"] none true) (exS x) = .ok v ∧ Shaped (exS x) ∧
    ∀ gs, groupsOf id (timeOnly ["P_N"] none true) (exS x) = .ok gs → ∀ g ∈ gs, ∀ b ∈ g.1, ∀ b' ∈ g.1, ∀ s, kperp s b = kperp s b' := by
  obtain ⟨v, hv⟩ := exS_run x
  refine ⟨v, hv, exS_shaped x, ?_⟩
  intro gs hgs g hg b hb b' hb' s
  rw [groups_single] at hgs
  cases hgs
  obtain ⟨q, _, rfl⟩ := List.mem_map.1 hg
  rw [List.mem_singleton] at hb hb'
  rw [hb, hb']

/-- The errors of the example for `C169_errors_partial`. -/
example : FineError "P_N" 0 (1 / 100) (stCell 1 1 (1 / 10)) ∧ FineMean "P_N" 0 (1 / 100) [stCell 1 1 (1 / 10), stCell 1 1 (1 / 10)] := by
  refine ⟨⟨1 / 10, rfl, by norm_num, by norm_num⟩, ?_⟩
  have : timeVar "P_N" 0 [stCell 1 1 (1 / 10), stCell 1 1 (1 / 10)] = 1 / 200 := by
    simp [timeVar, stCell]; rw [max_eq_left (by norm_num)]; norm_num
  unfold FineMean
  rw [this]
  norm_num

/-- **C169** counterexample: error bars depend on the units. A spectrum with error `1e-3`, averaged in time (one integration), keeps its error; after multiplying by `1/100` its error
should be `1e-5`, but `np.isclose` takes the square of that for zero, so that it is stored as `1e20`. -/
theorem C169_counterexample_units : ∃ (u v v' : Obj ℝ) (x x' : Cell ℝ), averageSpectra (fun _ => 0) id (timeOnly ["P_N"] none true) u = .ok v ∧
    averageSpectra (fun _ => 0) id (timeOnly ["P_N"] none true) (totalBias (fun _ => 1 / 100) u) = .ok v' ∧
    (v.cells[0]?.bind (·[0]?)) = some [x] ∧ (v'.cells[0]?.bind (·[0]?)) = some [x'] ∧ x.stat "P_N" 0 = some (1 / 10 ^ 3) ∧ x'.stat "P_N" 0 = some (10 ^ 20) ∧
    x.data 0 = 1 ∧ x'.data 0 = 1 / 100 := by
  have val : ∀ (y : Cell ℝ) (σ : ℝ), y.ints = 1 → y.nsmp = 1 → y.stat "P_N" 0 = some σ → ∀ v, averageSpectra (fun _ => 0) id (timeOnly ["P_N"] none true) (exS y) = .ok v →
      ∃ x : Cell ℝ, (v.cells[0]?.bind (·[0]?)) = some [x] ∧ x.stat "P_N" 0 = some (Real.sqrt (clipVar (nearZeroInf (clipVar (some (σ ^ 2)))))) ∧ x.data 0 = y.data 0 := by
    intro y σ hi hn hs v hv
    obtain ⟨_, _, _, _, _, h6, _⟩ := first_step hv
    have hw : (prep none y).w 0 = 1 := by simp [prep, weight, hi, hn]
    have ht : (timeMean [prep none y]).w 0 = 1 := by simp [timeMean, hw]
    have hc1 : clipTiny (1 : ℝ) = 1 := clipTiny_one (le_refl _)
    refine ⟨one none (exS y) 0 0 1, h6 0 0 [y] rfl, ?_, ?_⟩
    · show (groupMean false [timeMean [prep none y]]).stat "P_N" 0 = _
      rw [stat_single false _ "P_N" 0 (by rw [ht]; unfold tiny; norm_num)]
      have : (prep none y).var "P_N" 0 = some (σ ^ 2) := by simp [prep, hs]
      simp only [timeMean, List.map_cons, List.map_nil, List.sum_cons, List.sum_nil, add_zero, hw, hc1, this]
      norm_num
    · show (groupMean false [timeMean [prep none y]]).data 0 = _
      simp only [groupMean, List.map_cons, List.map_nil, List.sum_cons, List.sum_nil, add_zero, ht, hc1]
      simp only [timeMean, List.map_cons, List.map_nil, List.sum_cons, List.sum_nil, add_zero, hw, hc1]
      simp [prep]
  obtain ⟨v, hv⟩ := exS_run (stCell 1 1 (1 / 10 ^ 3))
  obtain ⟨v', hv'⟩ := exS_run (scaleCell (fun _ => 1 / 100) (stCell 1 1 (1 / 10 ^ 3)))
  obtain ⟨x, a1, a2, a3⟩ := val _ (1 / 10 ^ 3) rfl rfl rfl v hv
  obtain ⟨x', b1, b2, b3⟩ := val _ (1 / 100 * (1 / 10 ^ 3)) rfl rfl rfl v' hv'
  refine ⟨exS (stCell 1 1 (1 / 10 ^ 3)), v, v', x, x', hv, hv', a1, b1, ?_, ?_, a3, ?_⟩
  · rw [a2, clipVar_of (by positivity) (by norm_num), nearZeroInf_of (by norm_num), clipVar_of (by positivity) (by norm_num), Real.sqrt_sq (by positivity)]
  · rw [b2, clipVar_of (by positivity) (by norm_num)]
    have : nearZeroInf ((1 / 100 * (1 / 10 ^ 3 : ℝ)) ^ 2) = none := by
      unfold nearZeroInf
      rw [if_pos]
      rw [abs_of_nonneg (by positivity)]
      norm_num
    rw [this]
    show some (Real.sqrt (10 ^ 40)) = _
    rw [show (10 : ℝ) ^ 40 = (10 ^ 20) ^ 2 by norm_num, Real.sqrt_sq (by positivity)]
  · rw [b3]
    simp [scaleCell, stCell]

end HeraPspec.AvgScale
