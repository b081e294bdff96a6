import Verif.Props.Settings

/-!
C89: which kind of taper `pspec` uses in each window.
-/
namespace HeraPspec.Settings
variable {κ T P M V : Type} [DecidableEq κ] [DecidableEq T] (K : Kern κ T P M V)

/-- One window of a `pspec` call: range, number of delays, extension, and the matrix queries made for it. -/
structure Win (κ : Type) where
  lo : ℤ
  hi : ℤ
  nd : Option ℤ
  a : ℕ
  b : ℕ
  keys : List κ

/-- The calls `pspec` makes for one window up to its first query, pspecdata.py L3699-3703. -/
def winStart (w : Win κ) : List (Op κ T P V) := [.setSpw w.lo w.hi w.nd, .setExt w.a w.b, .clearCache]

/-- All the calls of one window (L3699-4108): the queries, and the reset of the extension at the end (L4107). -/
def winOps (w : Win κ) : List (Op κ T P V) := winStart w ++ w.keys.map .getR ++ [.setExt 0 0]

theorem run_getR_g (ks : List κ) : ∀ s : PS κ T P M V, (run K s (ks.map .getR)).g = s.g := by
  induction ks with
  | nil => intro s; rfl
  | cons k ks ih => intro s; exact (ih _).trans (qR_g K s k)

theorem run_app (s : PS κ T P M V) (a b : List (Op κ T P V)) : run K s (a ++ b) = run K (run K s a) b := by
  simp [run, List.foldl_append]

theorem winStart_symm (s : PS κ T P M V) (w : Win κ) :
    (run K s (winStart w)).g.symm = (s.g.symm && !(decide (w.a ≠ 0) && decide (w.b ≠ 0))) := by
  show (setExt (setSpw s w.lo w.hi w.nd).1 w.a w.b).1.g.symm = _
  have hg : (setSpw s w.lo w.hi w.nd).1.g.symm = s.g.symm := by
    have : (setSpw s w.lo w.hi w.nd).1.g = { s.g with spw := (w.lo, w.hi), spwN := w.hi - w.lo } := setNdlys_g _ _
    rw [this]
  unfold setExt
  have hf : flipSymm s.g.symm (w.a : ℤ) (w.b : ℤ) = (s.g.symm && !(decide (w.a ≠ 0) && decide (w.b ≠ 0))) := by
    unfold flipSymm
    cases s.g.symm <;> by_cases h1 : w.a = 0 <;> by_cases h2 : w.b = 0 <;> simp [h1, h2]
  split <;> (dsimp only; rw [hg, hf])

theorem winOps_symm (s : PS κ T P M V) (w : Win κ) :
    (run K s (winOps w)).g.symm = (s.g.symm && !(decide (w.a ≠ 0) && decide (w.b ≠ 0))) := by
  unfold winOps
  rw [run_app, run_app, ← winStart_symm K s w]
  have hg := run_getR_g K w.keys (run K s (winStart w))
  generalize run K (run K s (winStart w)) (w.keys.map .getR) = s1 at hg
  show (setExt s1 0 0).1.g.symm = _
  rw [← hg]
  simp [setExt, flipSymm]

/-- C89. After `set_symmetric_taper(b)`, the taper `pspec` uses in a window is symmetric exactly if `b` and neither that window nor
any window before it was extended on both sides: an extension on both sides switches the symmetric taper off for that window and
for all later ones. -/
theorem C89_taper_used (s : PS κ T P M V) (b : Bool) (hs : (setSymm s b).2 = none) (before : List (Win κ)) (w : Win κ) :
    (run K s ([.setSymm b] ++ before.flatMap winOps ++ winStart w)).g.symm =
      (b && (before ++ [w]).all (fun w => !(decide (w.a ≠ 0) && decide (w.b ≠ 0)))) := by
  rw [run_app, run_app, winStart_symm]
  have h0 : (run K s [.setSymm b]).g.symm = b := by
    show (setSymm s b).1.g.symm = b
    unfold setSymm at hs ⊢
    split
    · rename_i h; rw [if_pos h] at hs; cases hs
    · rfl
  generalize run K s [.setSymm b] = s0 at h0
  have h1 : ∀ (ws : List (Win κ)) (s0 : PS κ T P M V), (run K s0 (ws.flatMap winOps)).g.symm =
      (s0.g.symm && ws.all (fun w => !(decide (w.a ≠ 0) && decide (w.b ≠ 0)))) := by
    intro ws
    induction ws with
    | nil => intro s0; simp [run]
    | cons x ws ih =>
      intro s0
      rw [List.flatMap_cons, run_app, ih, winOps_symm, List.all_cons, Bool.and_assoc]
  rw [h1, h0, List.all_append, Bool.and_assoc]
  simp

/-- C89 (partial). The value recorded in the output (`uvp.symmetric_taper`, the argument of `pspec`, L4113) is the one used in
every window, if no window is extended on both sides. Missing: with such a window the record is wrong (see the counterexample). -/
theorem C89_recorded_partial (s : PS κ T P M V) (b : Bool) (hs : (setSymm s b).2 = none) (before : List (Win κ)) (w : Win κ)
    (h : ∀ x ∈ before ++ [w], x.a = 0 ∨ x.b = 0) :
    (run K s ([.setSymm b] ++ before.flatMap winOps ++ winStart w)).g.symm = b := by
  rw [C89_taper_used K s b hs before w]
  have : (before ++ [w]).all (fun w => !(decide (w.a ≠ 0) && decide (w.b ≠ 0))) = true := by
    rw [List.all_eq_true]
    intro x hx
    rcases h x hx with h | h <;> simp [h]
  rw [this, Bool.and_true]

/-- C89. After the call no filter extension is left behind, if the last window lies in the band. -/
theorem C89_extension_reset (s : PS κ T P M V) (w : Win κ) (h1 : 0 ≤ w.lo) (h2 : w.hi ≤ s.g.nfreqs) :
    (run K s (winOps w)).g.fext = (0, 0) := by
  unfold winOps
  rw [run_app, run_app]
  have hg := run_getR_g K w.keys (run K s (winStart w))
  generalize run K (run K s (winStart w)) (w.keys.map .getR) = s1 at hg
  have hs : (setSpw s w.lo w.hi w.nd).1.g = { s.g with spw := (w.lo, w.hi), spwN := w.hi - w.lo } := setNdlys_g _ _
  have hsp : s1.g.spw = (w.lo, w.hi) ∧ s1.g.nfreqs = s.g.nfreqs := by
    rw [hg]
    show (setExt (setSpw s w.lo w.hi w.nd).1 w.a w.b).1.g.spw = _ ∧ (setExt (setSpw s w.lo w.hi w.nd).1 w.a w.b).1.g.nfreqs = _
    unfold setExt
    split <;> (dsimp only; rw [hs]; exact ⟨rfl, rfl⟩)
  show (setExt s1 0 0).1.g.fext = (0, 0)
  unfold setExt
  rw [if_pos ⟨le_refl _, le_refl _⟩, hsp.1, hsp.2]
  refine Prod.ext ?_ ?_ <;> dsimp only <;> omega

/-- C89 (counterexample). Two windows, the first extended on both sides: the second, which is not extended, is tapered
asymmetrically although the output records a symmetric taper. -/
theorem C89_counterexample_recorded :
    (run unitKern (init () 100 0) ([.setSymm true] ++ [(⟨20, 40, none, 3, 3, [1]⟩ : Win ℕ)].flatMap winOps ++
      winStart (⟨50, 60, none, 0, 0, [1]⟩ : Win ℕ))).g.symm = false := by decide +kernel

/-- C89 is not vacuous. -/
example : (run unitKern (init () 100 0) ([.setSymm true] ++ [(⟨20, 40, none, 3, 0, [1]⟩ : Win ℕ)].flatMap winOps ++
      winStart (⟨50, 60, none, 0, 2, [1]⟩ : Win ℕ))).g.symm = true := by decide +kernel

end HeraPspec.Settings
