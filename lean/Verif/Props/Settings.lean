import Verif.Model.Settings
import Mathlib.Tactic.Linarith

/-!
C54: spectral window, filter extension and symmetric taper of `PSpecData`, over all histories of calls.
-/
namespace HeraPspec.Settings
variable {κ T P M V : Type} [DecidableEq κ] [DecidableEq T] (K : Kern κ T P M V)

/-- The channels used for the current settings lie within the band, and contain the spectral window. -/
def InBand (g : Geom V) : Prop :=
  0 ≤ (getSpw g).1 ∧ (getSpw g).1 ≤ g.spw.1 ∧ g.spw.1 ≤ g.spw.2 ∧ g.spw.2 ≤ (getSpw g).2 ∧ (getSpw g).2 ≤ g.nfreqs

/-- The extension is non-negative and fits beside the window. -/
def Fits (g : Geom V) : Prop :=
  0 ≤ g.fext.1 ∧ g.fext.1 ≤ g.spw.1 ∧ g.spw.1 ≤ g.spw.2 ∧ 0 ≤ g.fext.2 ∧ g.spw.2 + g.fext.2 ≤ g.nfreqs

theorem inBand_of_fits {g : Geom V} (h : Fits g) : InBand g := by
  obtain ⟨h1, h2, h3, h4, h5⟩ := h
  unfold InBand getSpw
  split
  · dsimp only; omega
  · omega

theorem setNdlys_g (s : PS κ T P M V) (nd : Option ℤ) : (setNdlys s nd).1.g = s.g := by
  unfold setNdlys
  split
  · rfl
  · split <;> rfl

/-- C54. Right after a valid `set_spw` and any accepted `set_filter_extension` — the order in which `pspec` calls them — the
channels used lie within the band and contain the window, whatever the settings were before and even if `set_spw` raised because
of its number of delays; the extension on each side is the requested one clipped to the available channels. -/
theorem C54_window_after_set (s : PS κ T P M V) (lo hi : ℤ) (nd : Option ℤ) (a b : ℤ) (h1 : 0 ≤ lo) (h2 : lo ≤ hi)
    (h3 : hi ≤ s.g.nfreqs) (ha : 0 ≤ a) (hb : 0 ≤ b) :
    (setExt (setSpw s lo hi nd).1 a b).2 = none ∧ InBand (setExt (setSpw s lo hi nd).1 a b).1.g ∧
    (setExt (setSpw s lo hi nd).1 a b).1.g.spw = (lo, hi) ∧
    (setExt (setSpw s lo hi nd).1 a b).1.g.fext = (min lo a, min (s.g.nfreqs - hi) b) := by
  have hg : (setSpw s lo hi nd).1.g = { s.g with spw := (lo, hi), spwN := hi - lo } := setNdlys_g _ _
  unfold setExt
  rw [if_pos ⟨ha, hb⟩, hg]
  refine ⟨rfl, ?_, rfl, rfl⟩
  apply inBand_of_fits
  refine ⟨?_, ?_, ?_, ?_, ?_⟩ <;> dsimp only <;> omega

/-- The calls that `pspec` and its documentation rely on: `set_spw` with channels of the band, and neither `set_spw` nor `add`
while a filter extension is set. -/
def Disciplined : PS κ T P M V → List (Op κ T P V) → Prop
  | _, [] => True
  | s, op :: ops => Allowed s op ∧ Disciplined (step K s op) ops
where
  /-- What is asked of one call. -/
  Allowed (s : PS κ T P M V) : Op κ T P V → Prop
    | .setSpw lo hi _ => 0 ≤ lo ∧ lo ≤ hi ∧ hi ≤ s.g.nfreqs ∧ s.g.fext = (0, 0)
    | .addData _ n => 0 ≤ n ∧ s.g.fext = (0, 0)
    | _ => True

theorem qI_g (s : PS κ T P M V) (k : κ) : (qI K s k).1.g = s.g := by unfold qI; split <;> rfl
theorem qY_g (s : PS κ T P M V) (k : κ) : (qY K s k).1.g = s.g := by unfold qY; split <;> rfl
theorem qC_g (s : PS κ T P M V) (k : κ) : (qC K s k).1.g = s.g := by unfold qC; split <;> rfl
theorem qiC_g (s : PS κ T P M V) (k : κ) : (qiC K s k).1.g = s.g := by
  unfold qiC; split
  · rfl
  · exact qC_g K s k
theorem buildR_g (s : PS κ T P M V) (k : κ) (y : M) : (buildR K s k y).1.g = s.g := by
  unfold buildR
  split
  · exact qI_g K s k
  · exact qiC_g K s k
  · split
    · rfl
    · split <;> rfl
  · rfl
theorem qR_g (s : PS κ T P M V) (k : κ) : (qR K s k).1.g = s.g := by
  unfold qR
  split
  · rfl
  · dsimp only
    split
    · exact qY_g K s k
    · rw [buildR_g]; exact qY_g K s k

theorem step_fits (s : PS κ T P M V) (op : Op κ T P V) (h : Fits s.g) (ha : Disciplined.Allowed s op) : Fits (step K s op).g := by
  obtain ⟨h1, h2, h3, h4, h5⟩ := h
  cases op with
  | setSpw lo hi nd =>
    have hg : (setSpw s lo hi nd).1.g = { s.g with spw := (lo, hi), spwN := hi - lo } := setNdlys_g _ _
    obtain ⟨a1, a2, a3, a4⟩ := ha
    show Fits (setSpw s lo hi nd).1.g
    rw [hg]
    have e1 : s.g.fext.1 = 0 := by rw [a4]
    have e2 : s.g.fext.2 = 0 := by rw [a4]
    refine ⟨?_, ?_, ?_, ?_, ?_⟩ <;> dsimp only <;> omega
  | setExt a b =>
    show Fits (setExt s a b).1.g
    unfold setExt
    split
    · refine ⟨?_, ?_, ?_, ?_, ?_⟩ <;> dsimp only <;> omega
    · exact ⟨h1, h2, h3, h4, h5⟩
  | setSymm b =>
    show Fits (setSymm s b).1.g
    unfold setSymm
    split <;> exact ⟨h1, h2, h3, h4, h5⟩
  | addData v n =>
    obtain ⟨a1, a2⟩ := ha
    show Fits (addData s v n).g
    have e1 : s.g.fext.1 = 0 := by rw [a2]
    have e2 : s.g.fext.2 = 0 := by rw [a2]
    refine ⟨?_, ?_, ?_, ?_, ?_⟩ <;> dsimp only [addData] <;> omega
  | getI k => show Fits (qI K s k).1.g; rw [qI_g]; exact ⟨h1, h2, h3, h4, h5⟩
  | getY k => show Fits (qY K s k).1.g; rw [qY_g]; exact ⟨h1, h2, h3, h4, h5⟩
  | getIC k => show Fits (qiC K s k).1.g; rw [qiC_g]; exact ⟨h1, h2, h3, h4, h5⟩
  | getR k => show Fits (qR K s k).1.g; rw [qR_g]; exact ⟨h1, h2, h3, h4, h5⟩
  | _ => exact ⟨h1, h2, h3, h4, h5⟩

/-- C54 (partial). After any history of calls in which `set_spw` stays inside the band and neither `set_spw` nor `add` is called
while a filter extension is set, the channels used lie within the band. Missing: `set_spw` and `add` do not clip an extension that
is already set, nor does `set_spw` check its range, and then the channels can leave the band (see the counterexamples). -/
theorem C54_window_in_band_partial (v : V) (n : ℤ) (t : T) (hn : 0 ≤ n) (ops : List (Op κ T P V))
    (h : Disciplined K (init v n t) ops) : InBand (run K (init v n t) ops).g := by
  apply inBand_of_fits
  have hi : Fits (init (κ := κ) (P := P) (M := M) v n t).g := by
    refine ⟨?_, ?_, ?_, ?_, ?_⟩ <;> simp [init] <;> omega
  generalize init (κ := κ) (P := P) (M := M) v n t = s at h hi
  induction ops generalizing s with
  | nil => exact hi
  | cons op ops ih => exact ih _ h.2 (step_fits K s op hi h.1)

/-- Not both sides of the extension are positive while the taper is symmetric. -/
def TaperOk (g : Geom V) : Prop := g.symm = true → ¬ (g.fext.1 > 0 ∧ g.fext.2 > 0)

theorem step_taperOk (s : PS κ T P M V) (op : Op κ T P V) (h : TaperOk s.g) : TaperOk (step K s op).g := by
  cases op with
  | setSpw lo hi nd =>
    have hg : (setSpw s lo hi nd).1.g = { s.g with spw := (lo, hi), spwN := hi - lo } := setNdlys_g _ _
    show TaperOk (setSpw s lo hi nd).1.g
    rw [hg]; exact h
  | setExt a b =>
    show TaperOk (setExt s a b).1.g
    unfold setExt
    split
    · rename_i hab
      intro hs
      dsimp only [flipSymm] at hs ⊢
      split at hs
      · cases hs
      · rename_i hf
        intro hpos
        apply hf
        simp only [hs, Bool.true_and, Bool.and_eq_true, decide_eq_true_eq]
        omega
    · intro hs
      dsimp only [flipSymm] at hs ⊢
      split at hs
      · cases hs
      · exact h hs
  | setSymm b =>
    show TaperOk (setSymm s b).1.g
    unfold setSymm
    split
    · exact h
    · rename_i hb
      intro hs
      dsimp only at hs ⊢
      intro hpos
      exact hb ⟨hs, Or.inl hpos.1⟩
  | getI k => show TaperOk (qI K s k).1.g; rw [qI_g]; exact h
  | getY k => show TaperOk (qY K s k).1.g; rw [qY_g]; exact h
  | getIC k => show TaperOk (qiC K s k).1.g; rw [qiC_g]; exact h
  | getR k => show TaperOk (qR K s k).1.g; rw [qR_g]; exact h
  | _ => exact h

/-- C54 (partial). After any history of calls a symmetric taper is never combined with an extension on both sides. Missing: an
extension on one side only can be combined with it (see the counterexample). -/
theorem C54_symmetric_taper_partial (v : V) (n : ℤ) (t : T) (ops : List (Op κ T P V)) :
    (run K (init v n t) ops).g.symm = true →
      ¬ ((run K (init v n t) ops).g.fext.1 > 0 ∧ (run K (init v n t) ops).g.fext.2 > 0) := by
  have hi : TaperOk (init (κ := κ) (P := P) (M := M) v n t).g := by intro _; simp [init]
  show TaperOk (run K (init v n t) ops).g
  generalize init (κ := κ) (P := P) (M := M) v n t = s at hi
  induction ops generalizing s with
  | nil => exact hi
  | cons op ops ih => exact ih _ (step_taperOk K s op hi)

/-- C54. `set_symmetric_taper(True)` succeeds exactly when no side is extended, and a rejected call changes nothing. -/
theorem C54_set_symmetric_taper (s : PS κ T P M V) (h1 : 0 ≤ s.g.fext.1) (h2 : 0 ≤ s.g.fext.2) :
    ((setSymm s true).2 = none ↔ s.g.fext = (0, 0)) ∧
    ((setSymm s true).2 ≠ none → (setSymm s true).1 = s) ∧
    ((setSymm s true).2 = none → (setSymm s true).1.g.symm = true) ∧
    (setSymm s false).2 = none ∧ (setSymm s false).1.g.symm = false := by
  refine ⟨?_, ?_, ?_, ?_, ?_⟩
  · unfold setSymm
    split
    · rename_i h
      constructor
      · intro hc; cases hc
      · intro hc; rw [hc] at h; simp at h
    · rename_i h
      constructor
      · intro _
        have : ¬ (s.g.fext.1 > 0 ∨ s.g.fext.2 > 0) := fun hc => h ⟨rfl, hc⟩
        refine Prod.ext ?_ ?_
        · show s.g.fext.1 = 0; omega
        · show s.g.fext.2 = 0; omega
      · intro _; rfl
  · unfold setSymm
    split
    · intro _; rfl
    · intro h; exact absurd rfl h
  · unfold setSymm
    split
    · intro h; cases h
    · intro _; rfl
  · simp [setSymm]
  · simp [setSymm]

/-- Trivial kernels, for the examples. -/
def unitKern : Kern ℕ ℕ ℕ (ℤ × ℤ) Unit where
  ident n := (n, n)
  yOf _ _ w := w
  binary _ := true
  covOf _ _ w := w
  inv m := m
  form _ _ _ _ y k := (y.1 + k.1, y.2 + k.2)
  formDayenu _ _ _ _ _ _ y p := some (y.1 + p, y.2)

/-- C54 (counterexample). An extension on one side leaves the symmetric taper on. -/
theorem C54_counterexample_one_sided :
    (run unitKern (init () 100 0) [.setSpw 20 40 none, .setExt 3 0]).g.symm = true ∧
    (run unitKern (init () 100 0) [.setSpw 20 40 none, .setExt 3 0]).g.fext = (3, 0) := by decide +kernel

/-- C54 (counterexample). `set_spw` keeps the extension chosen for another window: the channels used start at -8. -/
theorem C54_counterexample_set_spw :
    getSpw (run unitKern (init () 100 0) [.setSpw 20 40 none, .setExt 10 10, .setSpw 2 40 none]).g = (-8, 50) := by decide +kernel

/-- C54 (counterexample). `add` resets the window to the whole band but keeps the extension. -/
theorem C54_counterexample_add :
    getSpw (run unitKern (init () 100 0) [.setSpw 20 40 none, .setExt 10 10, .addData () 100]).g = (-10, 110) := by decide +kernel

/-- C54 (counterexample). `set_spw` accepts a window outside the band. -/
theorem C54_counterexample_range :
    (setSpw (init (κ := ℕ) (T := ℕ) (P := ℕ) (M := ℕ) () 100 0) 90 120 none).2 = none ∧
    getSpw (setSpw (init (κ := ℕ) (T := ℕ) (P := ℕ) (M := ℕ) () 100 0) 90 120 none).1.g = (90, 120) := by decide +kernel

/-- C54 (finding). A rejected number of delays leaves the new window in place with the old number of delays, which exceeds the
number of channels. -/
theorem C54_finding_ndlys :
    (setSpw (init (κ := ℕ) (T := ℕ) (P := ℕ) (M := ℕ) () 100 0) 10 20 (some 30)).2 = some .value ∧
    (setSpw (init (κ := ℕ) (T := ℕ) (P := ℕ) (M := ℕ) () 100 0) 10 20 (some 30)).1.g.spwN = 10 ∧
    (setSpw (init (κ := ℕ) (T := ℕ) (P := ℕ) (M := ℕ) () 100 0) 10 20 (some 30)).1.ndlys = 100 := by decide +kernel

/-- C54. A number of delays is accepted exactly if it is not more than the number of channels of the window, and is then the one used; by default it is that
number. -/
theorem C54_ndlys (s : PS κ T P M V) (lo hi n : ℤ) :
    ((setSpw s lo hi (some n)).2 = none ↔ n ≤ hi - lo) ∧ (n ≤ hi - lo → (setSpw s lo hi (some n)).1.ndlys = n) ∧
    (hi - lo < n → (setSpw s lo hi (some n)).2 = some .value) ∧
    (setSpw s lo hi none).2 = none ∧ (setSpw s lo hi none).1.ndlys = hi - lo := by
  unfold setSpw setNdlys
  by_cases h : hi - lo < n
  · simp [h, show ¬ n ≤ hi - lo by omega]
  · simp [h, show n ≤ hi - lo by omega]

/-- C54. The identity matrix computed for the current settings has as many rows as there are channels in use: those of `get_spw`. -/
theorem C54_identity_size (s : PS κ T P M V) (k : κ) (hc : s.cI.get k = none) (hw : s.g.spwN = s.g.spw.2 - s.g.spw.1) (h1 : 0 ≤ s.g.fext.1) (h2 : 0 ≤ s.g.fext.2) :
    (qI K s k).2 = K.ident ((getSpw s.g).2 - (getSpw s.g).1) := by
  unfold qI
  rw [hc]
  simp only [newI]
  congr 1
  rw [hw]
  unfold getSpw
  split
  · dsimp only; omega
  · omega

example : (qI unitKern (run unitKern (init () 100 0) [.setSpw 5 95 none, .setExt 10 3]) 3).2 =
    unitKern.ident ((getSpw (run unitKern (init () 100 0) [.setSpw 5 95 none, .setExt 10 3]).g).2 -
      (getSpw (run unitKern (init () 100 0) [.setSpw 5 95 none, .setExt 10 3]).g).1) :=
  C54_identity_size unitKern _ 3 (by decide +kernel) (by decide +kernel) (by decide +kernel) (by decide +kernel)

/-- C54 is not vacuous: a disciplined history with clipping. -/
example :
    Disciplined unitKern (init () 100 0) [.setSpw 5 95 none, .setExt 10 10, .getR 3, .setExt 0 0, .setSpw 20 40 (some 7), .setExt 4 5] ∧
    getSpw (run unitKern (init () 100 0) [.setSpw 5 95 none, .setExt 10 10]).g = (0, 100) ∧
    getSpw (run unitKern (init () 100 0)
      [.setSpw 5 95 none, .setExt 10 10, .getR 3, .setExt 0 0, .setSpw 20 40 (some 7), .setExt 4 5]).g = (16, 45) := by
  refine ⟨⟨?_, trivial, trivial, trivial, ?_, trivial, trivial⟩, ?_, ?_⟩
  · exact ⟨by decide, by decide, by decide, rfl⟩
  · exact ⟨by decide, by decide, by decide +kernel, by decide +kernel⟩
  · decide +kernel
  · decide +kernel

end HeraPspec.Settings
