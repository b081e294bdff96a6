import Verif.Model.FoldBoot
import Verif.Props.FoldAvgScale

/-!
Property C172: bootstrap resampling commutes with folding.
-/
namespace HeraPspec.FoldBoot
open HeraPspec.UVP (Err mapE)
open HeraPspec.Average
open HeraPspec.Bootstrap
open HeraPspec.FoldAvg
open HeraPspec.Combine (uniq)
variable {E : Type} [AddCommGroup E] [Module ℝ E]

/-- Two resamplings both give objects that read the same, or raise the same exception. -/
def SameResample (e e' : Except BErr (DObj E)) : Prop :=
  (∃ x y, e = .ok x ∧ e' = .ok y ∧ SameReads x y) ∨ ∃ k, e = .error k ∧ e' = .error k

/-- Folding a resampled object. -/
noncomputable def thenFold (nan : E) (e : Except BErr (DObj E)) : Except BErr (DObj E) :=
  match e with
  | .error k => .error k
  | .ok x => match foldSpectra nan x with
    | .error k => .error (.other k)
    | .ok y => .ok y

theorem bootstrap_eq (circ : List ℝ → ℝ) (so : List Nat → List Nat) (groups : List (List Nat)) (ta : Bool) (draws : List (List Nat)) : ∃ (ok : List Meta → Bool) (args : List Meta → Args),
    (∀ r, (args r).errorWeights = none) ∧ ∀ x : DObj E, bootstrap circ so groups ta draws x = if ok x.u.rows then
      (match average circ so (args x.u.rows) x with | .error e => .error (.other e) | .ok y => .ok y) else .error (.other .key) := by
  refine ⟨fun r => (uniq groups.flatten).all (fun b => b ∈ [uniq (r.map (·.blp))].flatten),
    fun r => bootArgs ta ((List.zipWith (sampleGroup [uniq (r.map (·.blp))]) groups draws).filterMap (fun smp => (smp[0]?).map (·.1)))
      ((List.zipWith (sampleGroup [uniq (r.map (·.blp))]) groups draws).filterMap (fun smp => (smp[0]?).map (fun x => x.2.map (fun k : Nat => (k : ℝ))))), fun r => rfl, ?_⟩
  intro x
  have hr : (readObj x).rows = x.u.rows := rfl
  unfold bootstrap bootstrapAverage average
  rw [if_neg (by simp)]
  simp only [List.map_cons, List.map_nil, hr]
  by_cases h : (uniq groups.flatten).all (fun b => b ∈ [uniq (x.u.rows.map (·.blp))].flatten) = true
  · rw [if_neg (by rw [h]; simp), if_pos h]
    simp only [List.length_singleton, List.range_one, List.zip_cons_cons, List.zip_nil_left, mapE]
    cases averageSpectra circ so _ (readObj x) with
    | error e => rfl
    | ok v => rfl
  · rw [if_pos (by simp only [Bool.not_eq_true] at h; rw [h]; rfl), if_neg h]

/-- **C172** With the same draws, resampling the folded object and folding the resampled object give objects that read the same (data, covariances, window functions, integration
times, samples, rows), or raise the same exception. -/
theorem C172_bootstrap_fold (nan : E) (circ : List ℝ → ℝ) (so : List Nat → List Nat) (groups : List (List Nat)) (ta : Bool) (draws : List (List Nat)) {x y : DObj E}
    (hu : Unfolded x) (hs : Sane x) (hy : foldSpectra nan x = .ok y) :
    SameResample (bootstrap circ so groups ta draws y) (thenFold nan (bootstrap circ so groups ta draws x)) := by
  obtain ⟨ok, args, ha, hb⟩ := bootstrap_eq (E := E) circ so groups ta draws
  rw [hb x, hb y]
  obtain ⟨y', hy', hr, _⟩ := FoldScale.fold_ok nan hu.flag
  rw [hy] at hy'; cases hy'
  rw [hr]
  by_cases h : ok x.u.rows = true
  · simp only [h, if_true]
    have H := C143_fold_anywhere nan circ so [] [args x.u.rows] (by simpa using ha _) hu hs
    simp only [averages, List.nil_append, Except.bind, hy] at H
    cases h1 : average circ so (args x.u.rows) y with
    | error e =>
      rw [h1] at H
      cases h2 : average circ so (args x.u.rows) x with
      | error e' =>
        rw [h2] at H
        rcases H with ⟨_, _, e1, _⟩ | ⟨k, e1, e2⟩
        · cases e1
        · cases e1; cases e2; exact .inr ⟨_, rfl, rfl⟩
      | ok w =>
        rw [h2] at H
        simp only [thenFold] at H ⊢
        rcases H with ⟨_, _, e1, _⟩ | ⟨k, e1, e2⟩
        · cases e1
        · cases e1; rw [e2]; exact .inr ⟨_, rfl, rfl⟩
    | ok w' =>
      rw [h1] at H
      cases h2 : average circ so (args x.u.rows) x with
      | error e' =>
        rw [h2] at H
        rcases H with ⟨_, _, _, e2, _⟩ | ⟨k, e1, _⟩
        · cases e2
        · cases e1
      | ok w =>
        rw [h2] at H
        simp only [thenFold] at H ⊢
        rcases H with ⟨a, b, e1, e2, e3⟩ | ⟨k, e1, _⟩
        · cases e1; rw [e2]; exact .inl ⟨_, _, rfl, rfl, e3⟩
        · cases e1
  · simp only [h]
    exact .inr ⟨_, rfl, rfl⟩

/-- A concrete case: one group with one baseline-pair of two integrations and three delays; the object meets the hypotheses (see `C143_fold_anywhere`) and the resampling succeeds. -/
example : Unfolded FoldAvg.exObj ∧ (∃ y, foldSpectra 0 FoldAvg.exObj = .ok y) ∧
    ∃ w, bootstrap (fun _ => 0) id [[5]] true [[0]] FoldAvg.exObj = .ok w := by
  refine ⟨⟨rfl, rfl, rfl, by simp [FoldAvg.exObj], rfl⟩, ⟨_, rfl⟩, ?_⟩
  have h1 : ∀ (m m' : Meta) (c c' : Cell ℝ), m.blp = 5 → m'.blp = 5 → ∃ r d ws, bootstrapAverage (fun _ => 0) id [⟨[m, m'], [[[c, c']]], [], false⟩] [[5]] true [[0]] =
      .ok [((⟨[r], [[[d]]], [], false⟩ : Obj ℝ), ws)] := by
    intro m m' c c' hm hm'
    simp [bootstrapAverage, bootArgs, sampleGroup, avail, drawCounts, cut, averageSpectra, groupsOf, weightsOf, (by decide : uniq [5, 5] = [5]), (by decide : uniq [5] = [5]), hm, hm', UVP.mapE, groupRows, blpgWgts, accsOf, cellsOf, indices, List.range_succ, statNames,
      sumCopies, copies, groupMeta, (by norm_num : ¬ ((1 : ℝ) ≤ 0))]
  obtain ⟨r, d, ws, e⟩ := h1 ⟨5, 0, 0, 0, 0, 0, 0⟩ ⟨5, 1, 1, 1, 1, 1, 1⟩ FoldAvg.exCell FoldAvg.exCell rfl rfl
  unfold bootstrap
  rw [readObj_unfolded rfl]
  unfold FoldAvg.exObj
  simp only
  rw [e]
  exact ⟨_, rfl⟩

end HeraPspec.FoldBoot
