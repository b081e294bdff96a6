import Verif.Model.PspecLoop
import Verif.Props.Cache
import Mathlib.Data.List.Nodup

/-!
C56 and C57: the normalisation matrices and the rows and metadata of `PSpecData.pspec`.
-/
namespace HeraPspec.PspecLoop
open HeraPspec.Settings

/-! ### C56 -/
section GH
variable {κ T P M V Pol GH : Type} [DecidableEq κ] [DecidableEq T] [DecidableEq M]

/-- Every entry of the cache is what would be computed for its flag weights, for any of the polarizations in use. -/
def GHOk (R : M → M) (fish : M → M → Option Pol → GH) (exact : Bool) (ps : List Pol) (c : GHCache κ M GH) : Prop :=
  ∀ e ∈ c, ∀ p ∈ ps, e.2.2 = fish (R e.2.1.1) (R e.2.1.2) (beamPol exact p)

theorem mem_set {K' V' : Type} [DecidableEq K'] (d : Dict K' V') (k : K') (v : V') (e : K' × V') (h : e ∈ d.set k v) :
    e = (k, v) ∨ e ∈ d := by
  induction d with
  | nil => simp [Dict.set] at h; exact Or.inl h
  | cons a d ih =>
    obtain ⟨k', v'⟩ := a
    unfold Dict.set at h
    split at h
    · rcases List.mem_cons.1 h with h | h
      · exact Or.inl h
      · exact Or.inr (List.mem_cons_of_mem _ h)
    · rcases List.mem_cons.1 h with h | h
      · exact Or.inr (h ▸ List.mem_cons_self)
      · rcases ih h with h | h
        · exact Or.inl h
        · exact Or.inr (List.mem_cons_of_mem _ h)

theorem ghStep_ok (R : M → M) (yOf : κ → M) (fish : M → M → Option Pol → GH) (exact : Bool) (ps : List Pol)
    (hsame : ∀ p ∈ ps, ∀ q ∈ ps, ∀ a b, fish a b (beamPol exact p) = fish a b (beamPol exact q))
    (c : GHCache κ M GH) (hc : GHOk R fish exact ps c) (r : Req κ Pol) (hr : r.pol ∈ ps) :
    (ghStep (fun k => R (yOf k)) yOf fish exact c r).2 = fish (R (yOf r.k1)) (R (yOf r.k2)) (beamPol exact r.pol) ∧
    GHOk R fish exact ps (ghStep (fun k => R (yOf k)) yOf fish exact c r).1 := by
  unfold ghStep
  cases hf : c.find? (fun e => decide (e.2.1 = (yOf r.k1, yOf r.k2))) with
  | some e =>
    have h1 := List.mem_of_find?_eq_some hf
    have h2 := List.find?_some hf
    simp only [decide_eq_true_eq] at h2
    refine ⟨?_, hc⟩
    have := hc e h1 r.pol hr
    rw [h2] at this
    exact this
  | none =>
    refine ⟨rfl, ?_⟩
    intro e he p hp
    rcases mem_set _ _ _ _ he with rfl | he
    · exact hsame _ hr _ hp _ _
    · exact hc e he p hp

theorem ghLoop_ok (R : M → M) (yOf : κ → M) (fish : M → M → Option Pol → GH) (exact : Bool) (ps : List Pol)
    (hsame : ∀ p ∈ ps, ∀ q ∈ ps, ∀ a b, fish a b (beamPol exact p) = fish a b (beamPol exact q)) (rs : List (Req κ Pol)) :
    ∀ (c : GHCache κ M GH), GHOk R fish exact ps c → (∀ r ∈ rs, r.pol ∈ ps) →
      ghLoop (fun k => R (yOf k)) yOf fish exact c rs =
        rs.map (fun r => fish (R (yOf r.k1)) (R (yOf r.k2)) (beamPol exact r.pol)) := by
  induction rs with
  | nil => intro c _ _; rfl
  | cons r rs ih =>
    intro c hc hr
    obtain ⟨h1, h2⟩ := ghStep_ok R yOf fish exact ps hsame c hc r (hr r List.mem_cons_self)
    simp only [ghLoop, List.map_cons, h1]
    rw [ih _ h2 (fun q hq => hr q (List.mem_cons_of_mem _ hq))]

/-- The R matrix computed from scratch in identity weighting, as a function of the flag weights. -/
def identityR (K : Kern κ T P M V) (g : Geom V) (t : T) (y : M) : M := K.form t g.spwN g.fext g.symm y (newI K g)

/-- In identity weighting, `R(key)` right after `clear_cache` depends on the key only through its flag weights `Y(key)`. -/
theorem C56_R_from_Y (K : Kern κ T P M V) (hb : ∀ v k w, K.binary (K.yOf v k w) = true) (s : PS κ T P M V)
    (hw : s.wt = .identity) (k : κ) (y : M) (hy : (qY K (clearCache s) k).2 = .ok y) :
    (qR K (clearCache s) k).2 = .ok (identityR K s.g s.taper y) := by
  obtain ⟨h1, h2, -⟩ := fresh_spec K hb s k
  rw [h2] at hy
  rw [h1, hw]
  cases hy
  rfl

/-- C56 (partial). In identity weighting, for any sequence of baseline-pairs and polarizations of one window, the G and H that
`pspec` uses are those computed for that very baseline-pair and polarization, provided the beam integrals of the polarizations
cannot be told apart: without `exact_norm`, or with a single polarization, or with equal beams. Missing: with `exact_norm` and
polarizations with different beams, the matrices of the first polarization are used for all (see the counterexample). -/
theorem C56_GH_partial (K : Kern κ T P M V) (g : Geom V) (t : T) (fish : M → M → Option Pol → GH) (exact : Bool)
    (rs : List (Req κ Pol))
    (hbeam : ∀ r ∈ rs, ∀ q ∈ rs, ∀ a b, fish a b (beamPol exact r.pol) = fish a b (beamPol exact q.pol)) :
    ghLoop (fun k => identityR K g t (fY K g k)) (fY K g) fish exact [] rs =
      rs.map (fun r => fish (identityR K g t (fY K g r.k1)) (identityR K g t (fY K g r.k2)) (beamPol exact r.pol)) := by
  refine ghLoop_ok (identityR K g t) (fY K g) fish exact (rs.map (·.pol)) ?_ rs [] ?_ ?_
  · intro p hp q hq a b
    obtain ⟨r, hr, rfl⟩ := List.mem_map.1 hp
    obtain ⟨r', hr', rfl⟩ := List.mem_map.1 hq
    exact hbeam r hr r' hr' a b
  · intro e he; cases he
  · intro r hr; exact List.mem_map.2 ⟨r, hr, rfl⟩

/-- C56 (partial), the usual case: without `exact_norm` the reuse is always right, for any number of polarizations. -/
theorem C56_GH_no_exact_norm (K : Kern κ T P M V) (g : Geom V) (t : T) (fish : M → M → Option Pol → GH) (rs : List (Req κ Pol)) :
    ghLoop (fun k => identityR K g t (fY K g k)) (fY K g) fish false [] rs =
      rs.map (fun r => fish (identityR K g t (fY K g r.k1)) (identityR K g t (fY K g r.k2)) none) :=
  C56_GH_partial K g t fish false rs (fun _ _ _ _ _ _ => rfl)

/-- C56 (counterexample). With `exact_norm`, unflagged data and two polarizations whose beam integrals differ (10 and 20), the
second polarization is normalised with the beam of the first. -/
theorem C56_counterexample_exact_norm :
    ghLoop (κ := ℕ) (Pol := ℕ) (fun _ => 1) (fun _ => 1) (fun a b p => a + b + p.getD 0) true [] [⟨0, 1, 10⟩, ⟨0, 1, 20⟩] = [12, 12] ∧
    [⟨0, 1, 10⟩, ⟨0, 1, 20⟩].map (fun r : Req ℕ ℕ => 1 + 1 + (beamPol true r.pol).getD 0) = [12, 22] := ⟨rfl, rfl⟩

/-- C56 is not vacuous: the cache is hit (requests 1 and 3) and missed. -/
example : ghLoop (κ := ℕ) (Pol := ℕ) (fun k => k % 2) (fun k => k % 2) (fun a b _ => 10 * a + b) false []
    [⟨0, 1, 10⟩, ⟨1, 1, 10⟩, ⟨2, 3, 20⟩] = [1, 11, 1] := rfl
end GH

/-! ### C57 -/
section Rows
variable {Blp Tm Pol Row : Type}

theorem rowsOf_map (times : Blp → List (Tm × Tm)) (blps : List Blp) {R : Type} (mk : Blp → Tm × Tm → R) :
    rowsOf times blps mk = (rowsOf times blps (fun b t => (b, t.1, t.2))).map (fun m => mk m.1 m.2) := by
  unfold rowsOf
  induction blps with
  | nil => rfl
  | cons b blps ih => simp only [List.flatMap_cons, List.map_append, ih, List.map_map]; rfl

theorem polLoop_spec (valid : Pol → Bool) (times : Blp → List (Tm × Tm)) (blps : List Blp) (mk : ℕ → Pol → Blp → Tm × Tm → Row) (i : ℕ)
    (pols : List Pol) : ∀ j,
      (polLoop valid times blps mk i j pols).polpairs = pols.filter valid ∧
      (polLoop valid times blps mk i j pols).data = (pols.filter valid).map (fun p => rowsOf times blps (mk i p)) ∧
      (1 ≤ j → (polLoop valid times blps mk i j pols).metaRows = []) := by
  induction pols with
  | nil => intro j; exact ⟨rfl, rfl, fun _ => rfl⟩
  | cons p ps ih =>
    intro j
    obtain ⟨h1, h2, h3⟩ := ih (j + 1)
    unfold polLoop
    dsimp only
    cases hv : valid p with
    | true =>
      simp only [if_true, List.filter_cons_of_pos hv, h1, h2, List.map_cons, h3 (Nat.le_add_left 1 j), List.append_nil, true_and]
      intro hj
      rw [if_neg (by omega)]
    | false =>
      rw [if_neg (by simp), List.filter_cons_of_neg (by simp [hv])]
      exact ⟨h1, h2, fun _ => h3 (Nat.le_add_left 1 j)⟩

theorem polLoop_meta (valid : Pol → Bool) (times : Blp → List (Tm × Tm)) (blps : List Blp) (mk : ℕ → Pol → Blp → Tm × Tm → Row) (i : ℕ)
    (p : Pol) (ps : List Pol) :
    (polLoop valid times blps mk i 0 (p :: ps)).metaRows =
      if valid p = true ∧ i = 0 then rowsOf times blps (fun b t => (b, t.1, t.2)) else [] := by
  have h3 := (polLoop_spec valid times blps mk i ps 1).2.2 le_rfl
  unfold polLoop
  dsimp only
  cases hv : valid p with
  | true =>
    simp only [if_true, h3, List.append_nil, true_and]
    by_cases hi : i = 0
    · subst hi; simp
    · rw [if_neg (by omega), if_neg hi]
  | false => simp [h3]

theorem spwLoop_spec (valid : Pol → Bool) (times : Blp → List (Tm × Tm)) (blps : List Blp) (mk : ℕ → Pol → Blp → Tm × Tm → Row)
    (pols : List Pol) (n : ℕ) : ∀ i r, spwLoop valid times blps mk pols i n = .ok r →
      (n ≠ 0 → r.polpairs = pols.filter valid) ∧
      r.data = (List.range' i n).map (fun i => (pols.filter valid).map (fun p => rowsOf times blps (mk i p))) ∧
      (1 ≤ i → r.metaRows = []) ∧
      (n ≠ 0 → i = 0 → r.metaRows = (polLoop valid times blps mk 0 0 pols).metaRows) := by
  induction n with
  | zero => intro i r h; cases h; exact ⟨fun h => absurd rfl h, rfl, fun _ => rfl, fun h => absurd rfl h⟩
  | succ n ih =>
    intro i r h
    unfold spwLoop at h
    dsimp only at h
    split at h
    · cases h
    · obtain ⟨h1, h2, -⟩ := polLoop_spec valid times blps mk i pols 0
      cases hr : spwLoop valid times blps mk pols (i + 1) n with
      | error e => rw [hr] at h; cases h
      | ok r' =>
        rw [hr] at h
        cases h
        obtain ⟨a1, a2, a3, -⟩ := ih (i + 1) r' hr
        have a3' := a3 (Nat.le_add_left 1 i)
        refine ⟨?_, ?_, ?_, ?_⟩
        · intro _
          dsimp only
          split
          · exact h1
          · rename_i hn; exact a1 hn
        · dsimp only
          rw [h2, a2, List.range'_succ]
          rfl
        · intro hi
          dsimp only
          rw [a3', List.append_nil]
          cases pols with
          | nil => rfl
          | cons p ps => rw [polLoop_meta, if_neg (by omega)]
        · intro _ hi
          subst hi
          dsimp only
          rw [a3', List.append_nil]

/-- C57 (partial). If the first requested polarization is available (others may be skipped), then in the object `pspec` returns,
for every window and every polarization it kept, in the order requested, row `n` is the spectrum of the baseline-pair and pair of
times of metadata row `n`; and the metadata rows are the baseline-pairs in the order requested, each with its integrations.
Missing: if the first requested polarization is skipped the metadata stay empty (see `C57_finding_first_skipped`). -/
theorem C57_rows_match_partial (valid : Pol → Bool) (times : Blp → List (Tm × Tm)) (blps : List Blp)
    (mk : ℕ → Pol → Blp → Tm × Tm → Row) (p : Pol) (ps : List Pol) (hp : valid p = true) (n : ℕ) (hn : n ≠ 0)
    (r : Result Blp Tm Pol Row) (h : pspecRows valid times blps mk (p :: ps) n = .ok r) :
    r.polpairs = (p :: ps).filter valid ∧
    r.metaRows = blps.flatMap (fun b => (times b).map (fun t => (b, t.1, t.2))) ∧
    r.data = (List.range n).map (fun i => r.polpairs.map (fun q => r.metaRows.map (fun m => mk i q m.1 m.2))) := by
  obtain ⟨h1, h2, -, h4⟩ := spwLoop_spec valid times blps mk (p :: ps) n 0 r h
  have hm : r.metaRows = rowsOf times blps (fun b t => (b, t.1, t.2)) := by
    rw [h4 hn rfl, polLoop_meta, if_pos ⟨hp, rfl⟩]
  refine ⟨h1 hn, hm, ?_⟩
  rw [h2, h1 hn, hm, List.range_eq_range']
  apply List.map_congr_left
  intro i _
  apply List.map_congr_left
  intro q _
  exact rowsOf_map times blps (mk i q)

/-- C57. With at least one available polarization the loops succeed, and with none they raise. -/
theorem C57_succeeds_iff (valid : Pol → Bool) (times : Blp → List (Tm × Tm)) (blps : List Blp)
    (mk : ℕ → Pol → Blp → Tm × Tm → Row) (pols : List Pol) (n : ℕ) (hn : n ≠ 0) :
    (∃ r, pspecRows valid times blps mk pols n = .ok r) ↔ ∃ p ∈ pols, valid p = true := by
  have key : ∀ n i, n ≠ 0 → ((∃ r, spwLoop valid times blps mk pols i n = .ok r) ↔ pols.filter valid ≠ []) := by
    intro n
    induction n with
    | zero => intro i h; exact absurd rfl h
    | succ n ih =>
      intro i _
      have h1 := (polLoop_spec valid times blps mk i pols 0).1
      unfold spwLoop
      dsimp only
      rw [h1]
      by_cases hf : pols.filter valid = []
      · simp [hf]
      · rw [if_neg hf]
        cases n with
        | zero => exact ⟨fun _ => hf, fun _ => ⟨_, rfl⟩⟩
        | succ n =>
          obtain ⟨r, hr⟩ := (ih (i + 1) (Nat.succ_ne_zero n)).2 hf
          rw [hr]
          exact ⟨fun _ => hf, fun _ => ⟨_, rfl⟩⟩
  rw [pspecRows, key n 0 hn]
  constructor
  · intro h
    obtain ⟨x, hx⟩ := List.exists_mem_of_ne_nil _ h
    exact ⟨x, (List.mem_filter.1 hx).1, (List.mem_filter.1 hx).2⟩
  · rintro ⟨x, h1, h2⟩ hc
    have := List.mem_filter.2 ⟨h1, h2⟩
    rw [hc] at this
    cases this

/-- C57 (finding). If the first requested polarization is not available, the metadata are empty whatever else is available. -/
theorem C57_finding_first_skipped (valid : Pol → Bool) (times : Blp → List (Tm × Tm)) (blps : List Blp)
    (mk : ℕ → Pol → Blp → Tm × Tm → Row) (p : Pol) (ps : List Pol) (hp : valid p = false) (n : ℕ) (hn : n ≠ 0)
    (r : Result Blp Tm Pol Row) (h : pspecRows valid times blps mk (p :: ps) n = .ok r) : r.metaRows = [] := by
  obtain ⟨-, -, -, h4⟩ := spwLoop_spec valid times blps mk (p :: ps) n 0 r h
  rw [h4 hn rfl, polLoop_meta, if_neg (by simp [hp])]

/-- C57 (counterexample). Polarizations 1 (not available) and 2 (available), one baseline-pair with two integrations: two rows of
data and no metadata. -/
theorem C57_counterexample_first_skipped :
    (match pspecRows (fun p : ℕ => p == 2) (fun _ : ℕ => [(5, 6), (7, 8)]) [37] (fun i q b t => (i, q, b, t)) [1, 2] 1 with
     | .ok r => some (r.polpairs, r.data, r.metaRows)
     | .error _ => none) =
    some ([2], [[[(0, 2, 37, (5, 6)), (0, 2, 37, (7, 8))]]], []) := rfl

/-- C57. The stored number of baseline-pair-times equals the number of rows when no baseline-pair and no integration is repeated. -/
theorem C57_Nbltpairs [DecidableEq Blp] [DecidableEq Tm] (times : Blp → List (Tm × Tm)) (blps : List Blp) (h1 : blps.Nodup)
    (h2 : ∀ b ∈ blps, (times b).Nodup) :
    nbltpairs (blps.flatMap (fun b => (times b).map (fun t => (b, t.1, t.2)))) =
      (blps.flatMap (fun b => (times b).map (fun t => (b, t.1, t.2)))).length := by
  unfold nbltpairs
  rw [List.Nodup.dedup]
  rw [List.nodup_flatMap]
  refine ⟨?_, ?_⟩
  · intro b hb
    refine (h2 b hb).map ?_
    intro x y hxy
    simp only [Prod.mk.injEq, true_and] at hxy
    exact Prod.ext hxy.1 hxy.2
  · refine h1.imp ?_
    intro a b hab
    show List.Disjoint _ _
    intro x hx hy
    obtain ⟨_, -, rfl⟩ := List.mem_map.1 hx
    obtain ⟨_, -, h⟩ := List.mem_map.1 hy
    simp only [Prod.mk.injEq] at h
    exact hab h.1.symm

/-- C57 (finding). A repeated baseline-pair gives repeated rows that `Nbltpairs` does not count. -/
theorem C57_finding_repeated : nbltpairs ([37, 37].flatMap (fun b : ℕ => ([(5, 6), (7, 8)] : List (ℕ × ℕ)).map (fun t => (b, t.1, t.2)))) = 2 ∧
    ([37, 37].flatMap (fun b : ℕ => ([(5, 6), (7, 8)] : List (ℕ × ℕ)).map (fun t => (b, t.1, t.2)))).length = 4 := by decide +kernel

/-- C57 is not vacuous: two windows, three polarizations of which the second is skipped, two baseline-pairs. -/
example :
    (match pspecRows (fun p : ℕ => p != 2) (fun b : ℕ => if b = 37 then [(5, 6), (7, 8)] else [(9, 9)]) [37, 38]
        (fun i q b t => 1000 * i + 100 * q + b + t.1) [1, 2, 3] 2 with
     | .ok r => some (r.polpairs, r.data, r.metaRows)
     | .error _ => none) =
    some ([1, 3], [[[142, 144, 147], [342, 344, 347]], [[1142, 1144, 1147], [1342, 1344, 1347]]],
      [(37, 5, 6), (37, 7, 8), (38, 9, 9)]) := rfl
end Rows
end HeraPspec.PspecLoop
