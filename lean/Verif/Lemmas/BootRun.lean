import Verif.Model.BootRun
import Verif.Lemmas.Average2
import Verif.Props.Bootstrap

/-! Lemmas for C120. -/
namespace HeraPspec.BootRun
open HeraPspec.UVP (Err mapE)
open HeraPspec.Average
open HeraPspec.Bootstrap
open HeraPspec.Combine (uniq mem_uniq)

theorem uniq_fold_prefix {α : Type} [DecidableEq α] (l acc : List α) :
    ∃ r, l.foldl (fun acc x => if x ∈ acc then acc else acc ++ [x]) acc = acc ++ r := by
  induction l generalizing acc with
  | nil => exact ⟨[], by simp⟩
  | cons a l ih =>
    rw [List.foldl_cons]
    split
    · exact ih acc
    · obtain ⟨r, hr⟩ := ih (acc ++ [a])
      exact ⟨a :: r, by rw [hr]; simp⟩

theorem uniq_head {α : Type} [DecidableEq α] (a : α) (l : List α) : ∃ r, uniq (a :: l) = a :: r := by
  obtain ⟨r, hr⟩ := uniq_fold_prefix l [a]
  exact ⟨r, by unfold Combine.uniq; rw [List.foldl_cons]; simpa using hr⟩

theorem avail_head {b : ℕ} {g blps : List ℕ} (hb : b ∈ blps) : ∃ r, avail (b :: g) blps = b :: r := by
  obtain ⟨r, hr⟩ := uniq_head b g
  unfold avail
  rw [hr, List.filter_cons_of_pos (by simpa using hb)]
  exact ⟨_, rfl⟩

/-- The groups as used: their first members, for given groups. -/
theorem groupsOf_some {so : List ℕ → List ℕ} {a : Args} {u : Obj ℂ} {G : List (List ℕ)} (ha : a.groups = some G)
    {gs : List (List ℕ × List ℝ)} (h : groupsOf so a u = .ok gs) :
    (∀ g ∈ G, ∃ b l, g = b :: l ∧ b ∈ u.rows.map (·.blp)) ∧
    ((weightsOf a G).length = G.length → gs.map (·.1) = G ++ (if u.exact then [] else so ((uniq (u.rows.map (·.blp))).filter (fun b => b ∉ G.flatten))).map (fun b => [b])) := by
  unfold groupsOf at h
  rw [ha] at h
  simp only [] at h
  split at h
  · cases h
  split at h
  · cases h
  rename_i c1
  split at h
  · cases h
  rename_i c2
  split at h
  · cases h
  split at h
  · cases h
  simp only [Except.ok.injEq] at h
  constructor
  · intro g hg
    rw [Bool.not_eq_true', ← Bool.not_eq_true, not_not, List.all_eq_true] at c2
    have := c2 g hg
    cases g with
    | nil => simp at this
    | cons b l => exact ⟨b, l, rfl, by simpa using this⟩
  · intro hl
    rw [← h, List.map_fst_zip]
    simp [hl]

/-- The rows of the average depend only on the first member of every group. -/
theorem meta_heads {circ : List ℝ → ℝ} {ta : Bool} {u : Obj ℂ} {gs gs' : List (List ℕ × List ℝ)} {ms ms' : List (List Meta)}
    (h : List.Forall₂ (fun g m => groupMeta circ ta u g = .ok m) gs ms) (h' : List.Forall₂ (fun g m => groupMeta circ ta u g = .ok m) gs' ms')
    (hh : gs.map (fun g => g.1.head?) = gs'.map (fun g => g.1.head?)) : ms = ms' := by
  induction h generalizing gs' ms' with
  | nil => cases gs' with
    | nil => cases h'; rfl
    | cons _ _ => simp at hh
  | @cons g m gs ms h1 h2 ih =>
    cases h' with
    | nil => simp at hh
    | @cons g' m' gs' ms' h1' h2' =>
      rw [List.map_cons, List.map_cons, List.cons.injEq] at hh
      rw [ih h2' hh.2]
      have : m = m' := by
        have e1 := hh.1
        unfold groupMeta at h1 h1'
        cases hg : g.1 with
        | nil => rw [hg] at h1; cases h1
        | cons b l =>
          cases hg' : g'.1 with
          | nil => rw [hg'] at h1'; cases h1'
          | cons b' l' =>
            rw [hg, hg'] at e1
            simp only [List.head?_cons, Option.some.injEq] at e1
            subst e1
            rw [hg] at h1; rw [hg'] at h1'
            simp only at h1 h1'
            rw [h1] at h1'
            exact Except.ok.inj h1'
      rw [this]

/-- Average and resample have the same rows and shapes. -/
theorem boot_rows {circ : List ℝ → ℝ} {so : List ℕ → List ℕ} {u avg : Obj ℂ} {groups draws : List (List ℕ)} {ta : Bool}
    (hl : groups.length = draws.length) (ha : averageSpectra circ so (avgArgs groups ta) u = .ok avg)
    {r : List (Obj ℂ × List (List ℝ))} (hb : bootstrapAverage circ so [u] groups ta draws = .ok r) :
    ∃ v ws, r = [(v, ws)] ∧ v.rows = avg.rows := by
  obtain ⟨v, hr, hv⟩ := C32_call hl hb
  refine ⟨v, _, hr, ?_⟩
  obtain ⟨gs, hgs, ⟨ms, hms, hf⟩, -⟩ := averageSpectra_ok ha
  obtain ⟨gs', hgs', ⟨ms', hms', hf'⟩, -⟩ := averageSpectra_ok hv
  rw [hms, hms']
  obtain ⟨hG, hG2⟩ := groupsOf_some (G := groups) rfl hgs
  obtain ⟨hG', hG2'⟩ := groupsOf_some (G := groups.map (fun g => avail g (u.rows.map (·.blp)))) rfl hgs'
  have e1 := hG2 (by simp [weightsOf, avgArgs])
  have e2 := hG2' (by simp [weightsOf, bootArgs, hl])
  have hfl : ∀ b ∈ uniq (u.rows.map (·.blp)), (b ∉ (groups.map (fun g => avail g (u.rows.map (·.blp)))).flatten ↔ b ∉ groups.flatten) := by
    intro b hb
    rw [mem_uniq] at hb
    apply not_congr
    simp only [List.mem_flatten, List.mem_map, exists_exists_and_eq_and]
    constructor
    · rintro ⟨g, hg, h⟩; exact ⟨g, hg, ((C32_available _ _).2 b).1 h |>.1⟩
    · rintro ⟨g, hg, h⟩; exact ⟨g, hg, ((C32_available _ _).2 b).2 ⟨h, hb⟩⟩
  congr 1
  symm
  apply meta_heads hf hf'
  have hx : ∀ l : List (List ℕ × List ℝ), l.map (fun g => g.1.head?) = (l.map (·.1)).map List.head? := by intro l; simp [List.map_map, Function.comp_def]
  rw [hx, hx, e1, e2, List.map_append, List.map_append]
  congr 1
  · rw [List.map_map]
    apply List.map_congr_left
    intro g hg
    obtain ⟨b, l, rfl, hb⟩ := hG g hg
    obtain ⟨r, hr⟩ := avail_head (g := l) hb
    simp [hr]
  · congr 3
    congr 1
    apply List.filter_congr
    intro b hb
    simp only [decide_eq_decide]
    exact (hfl b hb).symm

theorem length_drawAll {S : Type} (rng : Rng S) (ns : List ℕ) (st : S) : (drawAll rng ns st).1.length = ns.length := by
  induction ns generalizing st with
  | nil => rfl
  | cons n ns ih => simp [drawAll, ih]

end HeraPspec.BootRun
