import Verif.Model.JobMonitor
import Mathlib.Data.List.Zip
import Mathlib.Tactic.Common

/-!
C43: the job monitor.
-/
namespace HeraPspec.JobMonitor
variable {A : Type}

/-- The jobs of a round that failed: those called with a non-zero exit code, in order. -/
def failed (code : Nat → Nat → A → Int) (r : Nat) (args : List A) : List A :=
  (List.range args.length).filterMap (fun i => (args[i]?).bind (fun a => if code r i a = 0 then none else some a))

/-- A proper monitoring of `jobs` with at most `maxiter` rounds: every job is run in the first round, each later round runs
exactly the jobs that failed in the round before, and there is one more round as long as there are failures and tries left. -/
structure Monitored (code : Nat → Nat → A → Int) (maxiter : Nat) (jobs : List A) (rounds : List (List A)) (failures : List A) : Prop where
  first : rounds[0]? = some jobs
  rerun : ∀ r a, rounds[r + 1]? = some a → ∃ b, rounds[r]? = some b ∧ a = failed code r b ∧ a ≠ []
  last : ∃ b, rounds[rounds.length - 1]? = some b ∧ failures = failed code (rounds.length - 1) b
  atMost : rounds.length ≤ max 1 maxiter
  gaveUp : failures ≠ [] → rounds.length = max 1 maxiter

theorem zipIdx_succ_map {B : Type} (l : List A) (k : Nat) (f : A × Nat → B) :
    (l.zipIdx (k + 1)).map f = (l.zipIdx k).map (fun x => f (x.1, x.2 + 1)) := by
  rw [List.zipIdx_succ, List.map_map]; rfl

theorem failed_eq (code : Nat → Nat → A → Int) (r : Nat) (args : List A) :
    failed code r args = ((args.zipIdx).filter (fun ai => decide (code r ai.2 ai.1 ≠ 0))).map (·.1) := by
  unfold failed
  generalize code r = c
  induction args generalizing c with
  | nil => rfl
  | cons a l ih =>
    rw [List.length_cons, List.range_succ_eq_map, List.filterMap_cons, List.zipIdx_cons, List.filter_cons]
    have hr : (List.filterMap (fun i => ((a :: l)[i]?).bind (fun a => if c i a = 0 then none else some a)) (List.map Nat.succ (List.range l.length))) =
        ((l.zipIdx 1).filter (fun ai => decide (c ai.2 ai.1 ≠ 0))).map (·.1) := by
      rw [List.filterMap_map]
      have := ih (fun i => c (i + 1))
      simp only [Function.comp_def, Nat.succ_eq_add_one, List.getElem?_cons_succ]
      rw [this, List.zipIdx_succ, List.filter_map, List.map_map]
      rfl
    rw [hr]
    by_cases h : c 0 a = 0
    · simp [h]
    · simp [h]

theorem runRound_length (code : Nat → Nat → A → Int) (r : Nat) (args : List A) : (runRound code r args).length = args.length := by
  simp [runRound]

theorem runRound_get (code : Nat → Nat → A → Int) (r : Nat) (args : List A) (i : Nat) (a : A) (h : args[i]? = some a) :
    (runRound code r args)[i]? = some (code r i a) := by
  simp [runRound, h]

theorem all_zero_iff (code : Nat → Nat → A → Int) (r : Nat) (args : List A) :
    (runRound code r args).all (fun c => decide (c = 0)) = true ↔ failed code r args = [] := by
  rw [failed_eq, List.map_eq_nil_iff, List.filter_eq_nil_iff, List.all_eq_true]
  unfold runRound
  simp
  constructor
  · intro h a b hm; exact h _ a b hm rfl
  · rintro h _ a b hm rfl; exact h a b hm

/-- Masking the indices gives the failed jobs. -/
theorem map_mask (code : Nat → Nat → A → Int) (r : Nat) (ofIdx : Nat → A) (fs : List Nat) :
    (maskNonzero fs (runRound code r (fs.map ofIdx))).map ofIdx = failed code r (fs.map ofIdx) := by
  rw [failed_eq]
  unfold maskNonzero runRound
  generalize 0 = k
  induction fs generalizing k with
  | nil => rfl
  | cons f fs ih =>
    simp only [List.map_cons, List.zipIdx_cons, List.zip_cons_cons, List.filter_cons]
    have ih := ih (k + 1)
    by_cases h : code r k (ofIdx f) = 0 <;> simp [h] at ih ⊢ <;> exact ih

theorem map_where (code : Nat → Nat → A → Int) (ofIdx : Nat → A) (n : Nat) :
    (whereNonzero (runRound code 0 ((List.range n).map ofIdx))).map ofIdx = failed code 0 ((List.range n).map ofIdx) := by
  rw [failed_eq]
  unfold whereNonzero runRound
  have key : ∀ (l : List A) (k : Nat), (∀ i a, l[i]? = some a → ofIdx (k + i) = a) →
      List.map ofIdx ((((l.zipIdx k).map (fun ai => code 0 ai.2 ai.1)).zipIdx k |>.filter (fun c => decide (c.1 ≠ 0))).map (·.2)) =
        ((l.zipIdx k).filter (fun ai => decide (code 0 ai.2 ai.1 ≠ 0))).map (·.1) := by
    intro l
    induction l with
    | nil => intro _ _; rfl
    | cons a l ih =>
      intro k h
      have h0 : ofIdx k = a := by simpa using h 0 a rfl
      have ih := ih (k + 1) (fun i b hb => by
        have := h (i + 1) b (by simpa using hb)
        rw [← this]; congr 1; omega)
      simp only [List.zipIdx_cons, List.map_cons, List.filter_cons]
      by_cases hc : code 0 k a = 0
      · simp only [hc]
        simpa using ih
      · simp only [hc, ne_eq, not_false_eq_true, decide_true, if_true, List.map_cons, h0]
        rw [← ih]
  exact key _ 0 (fun i a h => by
    rw [List.getElem?_map, Option.map_eq_some_iff] at h
    obtain ⟨j, hj, h⟩ := h
    obtain ⟨h1, h2⟩ := List.getElem?_eq_some_iff.1 hj
    rw [List.getElem_range] at h2
    rw [← h, ← h2]; simp)

/-- The loop invariant: the calls so far, the last round `args` and the indices `fs` of its failures. -/
theorem loop_monitored (code : Nat → Nat → A → Int) (ofIdx : Nat → A) (maxiter : Nat) (jobs : List A) :
    ∀ (m counter : Nat) (fs : List Nat) (args : List A) (calls : List (List A)), maxiter - counter ≤ m →
      calls.length + 1 = counter → fs.map ofIdx = failed code calls.length args →
      (calls ++ [args])[0]? = some jobs →
      (∀ r a, (calls ++ [args])[r + 1]? = some a → ∃ b, (calls ++ [args])[r]? = some b ∧ a = failed code r b ∧ a ≠ []) →
      counter ≤ max 1 maxiter →
      Monitored code maxiter jobs (loop code ofIdx maxiter counter fs (runRound code calls.length args) (calls ++ [args])).2
        ((loop code ofIdx maxiter counter fs (runRound code calls.length args) (calls ++ [args])).1.map ofIdx) := by
  intro m
  induction m with
  | zero =>
    intro counter fs args calls hm hc hf h0 hr hb
    have hstop : loop code ofIdx maxiter counter fs (runRound code calls.length args) (calls ++ [args]) = (fs, calls ++ [args]) := by
      unfold loop
      split
      · rfl
      · rw [dif_pos (by omega)]
    rw [hstop]
    refine ⟨h0, hr, ⟨args, by simp, by simp [hf]⟩, by simp; omega, fun _ => by simp; omega⟩
  | succ m ih =>
    intro counter fs args calls hm hc hf h0 hr hb
    unfold loop
    split
    · rename_i hz
      rw [all_zero_iff] at hz
      refine ⟨h0, hr, ⟨args, by simp, by simp [hf]⟩, by simp; omega, fun h => absurd (by rw [hf, hz]) h⟩
    · rename_i hz
      rw [all_zero_iff] at hz
      by_cases hcm : counter ≥ maxiter
      · rw [dif_pos hcm]
        refine ⟨h0, hr, ⟨args, by simp, by simp [hf]⟩, by simp; omega, fun _ => by simp; omega⟩
      · rw [dif_neg hcm]
        have hlen : (calls ++ [args]).length = counter := by simp [hc]
        have := ih (counter + 1) (maskNonzero fs (runRound code counter (fs.map ofIdx))) (fs.map ofIdx) (calls ++ [args]) (by omega)
          (by rw [hlen]) (by rw [hlen]; exact map_mask code counter ofIdx fs)
          (by rw [List.getElem?_append_left (by simp)]; exact h0) ?_ (by omega)
        · rw [hlen] at this; exact this
        · intro r a ha
          rcases Nat.lt_or_ge (r + 1) (calls ++ [args]).length with hlt | hge
          · rw [List.getElem?_append_left hlt] at ha
            obtain ⟨b, hb1, hb2⟩ := hr r a ha
            exact ⟨b, by rw [List.getElem?_append_left (by omega)]; exact hb1, hb2⟩
          · have hreq : r = calls.length := by
              have h1 := List.getElem?_eq_some_iff.1 ha
              obtain ⟨h1, _⟩ := h1
              simp at h1 hge
              omega
            subst hreq
            rw [List.getElem?_append_right hge] at ha
            simp at ha
            refine ⟨args, by simp, ?_, ?_⟩
            · rw [← ha, hf]
            · rw [← ha, hf]; exact hz

/-- C43 (partial: the jobs are the indices themselves, i.e. `iterator = range(n)`, or more generally `run_func(i)` runs job `i`):
whatever the pattern of failures, the monitor runs every job once, re-runs exactly the failed ones, makes at most `maxiter`
rounds (one at least), and returns the indices of the jobs that still fail. It raises only if there is no job or if all fail at
the first try. Missing: other iterators: the code re-runs with indices instead of jobs. -/
theorem C43_reruns_failed_partial (code : Nat → Nat → A → Int) (ofIdx : Nat → A) (maxiter n : Nat) :
    match jobMonitor code ofIdx maxiter ((List.range n).map ofIdx) with
    | .ok (failures, rounds) => Monitored code maxiter ((List.range n).map ofIdx) rounds (failures.map ofIdx) ∧
        failures.length < n
    | .error .noOutput => n = 0
    | .error .allFailed => n ≠ 0 ∧ ∀ i < n, code 0 i (ofIdx i) ≠ 0 := by
  unfold jobMonitor
  rw [runRound_length, List.length_map, List.length_range]
  by_cases hn : n = 0
  · rw [if_pos hn]; exact hn
  · rw [if_neg hn]
    by_cases hall : (runRound code 0 ((List.range n).map ofIdx)).all (fun c => decide (c ≠ 0)) = true
    · rw [if_pos hall]
      refine ⟨hn, fun i hi => ?_⟩
      have := List.all_eq_true.1 hall (code 0 i (ofIdx i))
        (List.mem_of_getElem? (i := i) (runRound_get code 0 _ i (ofIdx i) (by simp [hi])))
      simpa using this
    · rw [if_neg hall]
      have hm := loop_monitored code ofIdx maxiter ((List.range n).map ofIdx) (maxiter - 1) 1
        (whereNonzero (runRound code 0 ((List.range n).map ofIdx))) ((List.range n).map ofIdx) [] (by omega) rfl
        (map_where code ofIdx n) rfl (fun r a h => by simp at h) (by omega)
      simp only [List.nil_append, List.length_nil] at hm
      refine ⟨hm, ?_⟩
      -- the result is a sublist of the first failures
      have hsub : ∀ (m counter : Nat) (fs : List Nat) (codes : List Int) (calls : List (List A)), maxiter - counter ≤ m →
          (loop code ofIdx maxiter counter fs codes calls).1.length ≤ fs.length := by
        intro m
        induction m with
        | zero =>
          intro counter fs codes calls h
          unfold loop; split
          · exact Nat.le_refl _
          · rw [dif_pos (by omega)]
        | succ m ih =>
          intro counter fs codes calls h
          unfold loop; split
          · exact Nat.le_refl _
          · split
            · exact Nat.le_refl _
            · refine Nat.le_trans (ih _ _ _ _ (by omega)) ?_
              unfold maskNonzero
              rw [List.length_map]
              exact Nat.le_trans (List.length_filter_le _ _) (by rw [List.length_zip]; exact Nat.min_le_left _ _)
      refine Nat.lt_of_le_of_lt (hsub maxiter 1 _ _ _ (by omega)) ?_
      unfold whereNonzero
      rw [List.length_map]
      have hex : ∃ c ∈ runRound code 0 ((List.range n).map ofIdx), c = 0 := by
        by_contra hne
        push Not at hne
        exact hall (List.all_eq_true.2 (fun c hc => by simpa using hne c hc))
      obtain ⟨c, hc, rfl⟩ := hex
      obtain ⟨i, hi⟩ := List.getElem?_of_mem hc
      have hl : ((runRound code 0 ((List.range n).map ofIdx)).zipIdx).length = n := by simp [runRound_length]
      conv => rhs; rw [← hl]
      rw [List.length_filter_lt_length_iff_exists]
      exact ⟨(0, i), List.mem_of_getElem? (i := i) (by simp [hi]), by simp⟩

/-- C43 counterexample: with other jobs the failed ones are *not* re-run: the monitor calls `run_func` with their indices. Here
job `"b"` fails once; the second round calls `run_func` with index 1, and the job counts as done although only `"b"`'s first,
failed call was ever made. -/
theorem C43_counterexample :
    jobMonitor (fun r _ a => if r = 0 ∧ a = "b" then 1 else 0) (fun i => toString i) 2 ["a", "b"] =
      .ok ([], [["a", "b"], ["1"]]) := by
  decide +kernel

/-- Non-vacuity: three jobs, job 1 fails twice; with two tries it is given up, with three it is done. -/
example : jobMonitor (fun r _ a => if r < 2 ∧ a = 1 then 1 else 0) id 2 [0, 1, 2] = .ok ([1], [[0, 1, 2], [1]]) := by decide +kernel
example : jobMonitor (fun r _ a => if r < 2 ∧ a = 1 then 1 else 0) id 3 [0, 1, 2] = .ok ([], [[0, 1, 2], [1], [1]]) := by
  decide +kernel

end HeraPspec.JobMonitor
