import Verif.Model.PspecRun
import Verif.Props.BootRun

/-!
C122: the driver `pspec_run` (pspecdata.py L4846-5187).
-/
namespace HeraPspec.PspecRun
open HeraPspec.Container
variable {V : Type}

/-! ### Specification -/

/-- The names of the datasets: as given, or `dset0`, `dset1`, ...; after interleaving there is another one, `dset1`. -/
def names (n : ℕ) (a : Args) : List String :=
  (a.labels.getD ((List.range n).map (fun i => "dset" ++ toString i))) ++ (if a.interleave then ["dset1"] else [])

/-- The pairs of datasets that are used: those given; else all pairs `i < j` (the dataset with itself if there is only one); after interleaving the two halves. -/
def UsedPair (n : ℕ) (a : Args) (i j : ℕ) : Prop :=
  if a.interleave then i = 0 ∧ j = 1
  else match a.dsetPairs with
    | some l => ((i : ℤ), (j : ℤ)) ∈ l
    | none => (1 < n ∧ i < j ∧ j < n) ∨ (n ≤ 1 ∧ i = 0 ∧ j = 0)

/-- A baseline is in a list in one of its orientations. -/
def Has (l : List Bl) (b : Bl) : Prop := b ∈ l ∨ (b.2, b.1) ∈ l

/-- The baselines for a pair of datasets: the redundant ones, or the given pairs whose baselines are in the respective dataset, in order. -/
noncomputable def baselines (W : World V) (a : Args) (i j : ℕ) : List Bl × List Bl :=
  open Classical in
  match a.blpairs with
  | none => W.reds i j
  | some l => ((l.filter (fun p => decide (Has (W.antpairs i) p.1 ∧ Has (W.antpairs j) p.2))).map (·.1),
      (l.filter (fun p => decide (Has (W.antpairs i) p.1 ∧ Has (W.antpairs j) p.2))).map (·.2))

/-- The pairs of polarizations: those given, else every polarization with itself. -/
def polarizations (W : World V) (a : Args) : List (String × String) := a.polPairs.getD (W.allPols.map (fun p => (p, p)))

/-- The group: as given, or the names joined by underscores. -/
def group (n : ℕ) (a : Args) : String := a.groupname.getD ("_".intercalate (names n a))

/-- There is something to compute for this pair. -/
def Work (W : World V) (a : Args) (i j : ℕ) : Prop := (baselines W a i j).1 ≠ [] ∧ (baselines W a i j).2 ≠ []

/-- The name of the result for a pair. -/
def resultName (n : ℕ) (a : Args) (i j : ℕ) : String :=
  (names n a).getD i "" ++ "_x_" ++ (names n a).getD j "" ++ a.psnameExt.getD ""

/-! ### Lemmas -/

theorem blsFor_eq (W : World V) (a : Args) (i j : ℕ) : blsFor W a i j = baselines W a i j := by
  unfold blsFor baselines
  cases a.blpairs with
  | none => rfl
  | some l =>
    have : (fun p : Bl × Bl => present (W.antpairs i) p.1 && present (W.antpairs j) p.2) =
        (fun p => open Classical in decide (Has (W.antpairs i) p.1 ∧ Has (W.antpairs j) p.2)) := by
      funext p
      rw [Bool.eq_iff_iff]
      refine Iff.trans ?_ (@decide_eq_true_iff _ (_)).symm
      simp [present, Has]
    simp only [this]

theorem pyIndex_nat (n k : ℕ) (h : k < n) : pyIndex n (k : ℤ) = some k := by
  unfold pyIndex
  rw [if_pos ⟨by omega, by exact_mod_cast h⟩]
  simp

theorem pyIndex_lt {n : ℕ} {i : ℤ} {k : ℕ} (h : pyIndex n i = some k) : k < n := by
  unfold pyIndex at h
  split at h
  · cases h; omega
  · split at h
    · cases h; omega
    · cases h

/-- No job without work is run. -/
def Job.Nonempty (x : Job) : Prop := x.bls1 ≠ [] ∧ x.bls2 ≠ []

theorem loop_spec (write : V → Bool) (W : World V) (pols : List (String × String)) (g : String) (ow : Bool) (js : List Job) :
    ∀ {f : File V} (st : Bool), WF f →
    WF (loop write W pols g ow f st js).1 ∧
    (∀ g' m, (g' ≠ g ∨ ∀ x ∈ js, x.Nonempty → m ≠ x.name) → slot (loop write W pols g ow f st js).1 g' m = slot f g' m) ∧
    (ow = false → ∀ g' m, slot f g' m ≠ .absent → slot (loop write W pols g ow f st js).1 g' m = slot f g' m) ∧
    (∀ b, (loop write W pols g ow f st js).2 = .ok b →
      (b = true ↔ st = true ∨ ∃ x ∈ js, x.Nonempty) ∧
      ((∀ x ∈ js, ∀ y ∈ js, x.Nonempty → y.Nonempty → x.name = y.name → W.pspec x.bls1 x.bls2 x.pair pols = W.pspec y.bls1 y.bls2 y.pair pols) →
        ∀ x ∈ js, x.Nonempty → ∃ v, W.pspec x.bls1 x.bls2 x.pair pols = some v ∧ slot (loop write W pols g ow f st js).1 g x.name = .stored v)) := by
  induction js with
  | nil =>
    intro f st hf
    exact ⟨hf, fun _ _ _ => rfl, fun _ _ _ _ => rfl, fun b hb => ⟨by cases hb; simp, by simp⟩⟩
  | cons x xs ih =>
    intro f st hf
    unfold loop
    split
    · rename_i hx
      have hne : ¬ x.Nonempty := by
        rintro ⟨h1, h2⟩
        rw [List.length_eq_zero_iff, List.length_eq_zero_iff] at hx
        rcases hx with h | h
        · exact h1 h
        · exact h2 h
      obtain ⟨i1, i2, i3, i4⟩ := ih (f := f) st hf
      refine ⟨i1, ?_, i3, ?_⟩
      · intro g' m h
        apply i2
        rcases h with h | h
        · exact Or.inl h
        · exact Or.inr (fun y hy => h y (List.mem_cons_of_mem _ hy))
      · intro b hb
        obtain ⟨j1, j2⟩ := i4 b hb
        refine ⟨?_, ?_⟩
        · rw [j1]
          constructor
          · rintro (h | ⟨y, hy, h⟩)
            · exact Or.inl h
            · exact Or.inr ⟨y, List.mem_cons_of_mem _ hy, h⟩
          · rintro (h | ⟨y, hy, h⟩)
            · exact Or.inl h
            · rcases List.mem_cons.1 hy with rfl | hy
              · exact absurd h hne
              · exact Or.inr ⟨y, hy, h⟩
        · intro hu y hy hyn
          rcases List.mem_cons.1 hy with rfl | hy
          · exact absurd hyn hne
          · exact j2 (fun a ha c hc => hu a (List.mem_cons_of_mem _ ha) c (List.mem_cons_of_mem _ hc)) y hy hyn
    · rename_i hx
      have hne : x.Nonempty := by
        rw [not_or, List.length_eq_zero_iff, List.length_eq_zero_iff] at hx
        exact hx
      cases hp : W.pspec x.bls1 x.bls2 x.pair pols with
      | none => exact ⟨hf, fun _ _ _ => rfl, fun _ _ _ _ => rfl, by simp⟩
      | some v =>
        simp only
        obtain ⟨w1, w2, w3, w4⟩ := BootRun.writeAll_spec write g ow [(x.name, v)] hf
        have hone : BootRun.writeAll write .rw g ow f [(x.name, v)] = match setOne write .rw false f g x.name (.uvp v) ow with
          | (f', .error e) => (f', .error (.cont e))
          | (f', .ok ()) => (f', .ok ()) := by
          unfold BootRun.writeAll
          generalize setOne write .rw false f g x.name (.uvp v) ow = z
          obtain ⟨f1, _ | _⟩ := z <;> rfl
        rw [hone] at w1 w2 w3 w4
        generalize setOne write .rw false f g x.name (.uvp v) ow = y at w1 w2 w3 w4
        obtain ⟨f1, r⟩ := y
        cases r with
        | error e =>
          simp only at w1 w2 w3 w4 ⊢
          refine ⟨w1, ?_, w3, by simp⟩
          intro g' m h
          apply w2
          rcases h with h | h
          · exact Or.inl h
          · exact Or.inr (by simpa using h x List.mem_cons_self hne)
        | ok r =>
          cases r
          simp only at w1 w2 w3 w4 ⊢
          obtain ⟨i1, i2, i3, i4⟩ := ih true w1
          refine ⟨i1, ?_, ?_, ?_⟩
          · intro g' m h
            rw [i2 g' m, w2 g' m]
            · rcases h with h | h
              · exact Or.inl h
              · exact Or.inr (by simpa using h x List.mem_cons_self hne)
            · rcases h with h | h
              · exact Or.inl h
              · exact Or.inr (fun y hy => h y (List.mem_cons_of_mem _ hy))
          · intro h g' m hm
            rw [i3 h g' m (by rw [w3 h g' m hm]; exact hm), w3 h g' m hm]
          · intro b hb
            obtain ⟨j1, j2⟩ := i4 b hb
            refine ⟨⟨fun _ => Or.inr ⟨x, List.mem_cons_self, hne⟩, fun _ => j1.2 (Or.inl rfl)⟩, ?_⟩
            intro hu
            have hrest := j2 (fun a ha c hc => hu a (List.mem_cons_of_mem _ ha) c (List.mem_cons_of_mem _ hc))
            intro y hy hyn
            rcases List.mem_cons.1 hy with rfl | hy
            · refine ⟨v, hp, ?_⟩
              by_cases hin : ∃ z ∈ xs, z.Nonempty ∧ z.name = y.name
              · obtain ⟨z, hz, hzn, he⟩ := hin
                obtain ⟨v', h1, h2⟩ := hrest z hz hzn
                have := hu z (List.mem_cons_of_mem _ hz) y hy hzn hyn he
                rw [h1, hp] at this
                rw [← he, h2, Option.some.inj this]
              · rw [i2 g y.name (Or.inr (fun z hz hzn he => hin ⟨z, hz, hzn, he.symm⟩))]
                obtain ⟨v', h1, h2⟩ := w4 trivial y.name (by simp)
                simp only [List.mem_cons, List.not_mem_nil, or_false, Prod.mk.injEq, true_and] at h1
                rw [h2, h1]
            · exact hrest y hy hyn

theorem jobs_ok {W : World V} {a : Args} {labels : List String} {ps : List (ℤ × ℤ)} {js : List Job} (h : jobs W a labels ps = .ok js) :
    List.Forall₂ (fun p x => ∃ i j, pyIndex labels.length p.1 = some i ∧ pyIndex labels.length p.2 = some j ∧
      x = ⟨p, (baselines W a i j).1, (baselines W a i j).2, labels.getD i "" ++ "_x_" ++ labels.getD j "" ++ a.psnameExt.getD ""⟩) ps js := by
  induction ps generalizing js with
  | nil => cases h; exact .nil
  | cons p ps ih =>
    unfold jobs at h
    split at h
    · rename_i i j hi hj
      cases hr : jobs W a labels ps with
      | error e => rw [hr] at h; cases h
      | ok r =>
        rw [hr] at h
        cases h
        exact .cons ⟨i, j, hi, hj, by rw [blsFor_eq]; rfl⟩ (ih hr)
    · cases h

theorem mem_combinations (n : ℕ) (p : ℤ × ℤ) : p ∈ combinations n ↔ ∃ i j : ℕ, p = ((i : ℤ), (j : ℤ)) ∧ i < j ∧ j < n := by
  unfold combinations
  simp only [List.mem_flatMap, List.mem_range, List.mem_map, List.mem_range'_1]
  constructor
  · rintro ⟨i, hi, j, hj, rfl⟩; exact ⟨i, j, rfl, by omega, by omega⟩
  · rintro ⟨i, j, rfl, h1, h2⟩; exact ⟨i, by omega, j, by omega, rfl⟩

/-- What a run does once its arguments are accepted. -/
theorem run_cases (write : V → Bool) (W : World V) (n : ℕ) (a : Args) (f : File V) :
    (∃ e, pspecRun write W n a f = (f, .error e)) ∨
    ∃ ps js, pspecRun write W n a f = loop write W (polarizations W a) (group n a) a.overwrite f false js ∧ jobs W a (names n a) ps = .ok js ∧
      (a.interleave = false → a.dsetPairs = none → ps = if n > 1 then combinations n else [(0, 0)]) ∧
      (a.interleave = false → ∀ l, a.dsetPairs = some l → ps = l) ∧ (a.interleave = true → ps = [(0, 1)]) ∧
      (∀ l, a.labels = some l → ∀ s ∈ l, '_' ∉ s.toList) ∧ (names n a).length = (if a.interleave then 2 else n) ∧
      (∀ s ∈ a.spwRanges.getD [], spwOk W.nfreqs s = true) ∧ polarizations W a ≠ [] ∧ (∀ l, a.labels = some l → l.length = n) ∧ (a.interleave = true → n = 1) := by
  unfold pspecRun
  cases hl : labelsOf n a with
  | error e => exact Or.inl ⟨e, rfl⟩
  | ok labels =>
    simp only
    have hlab : labels = a.labels.getD ((List.range n).map (fun i => "dset" ++ toString i)) ∧ ∀ l, a.labels = some l → ∀ s ∈ l, '_' ∉ s.toList := by
      unfold labelsOf at hl
      cases hal : a.labels with
      | none => rw [hal] at hl; cases hl; simp
      | some l =>
        rw [hal] at hl
        simp only at hl
        split at hl
        · cases hl
        · rename_i hu
          cases hl
          refine ⟨rfl, ?_⟩
          intro l' hl' s hs hc
          cases hl'
          apply hu
          rw [List.any_eq_true]
          exact ⟨s, hs, by simpa [hasUnderscore] using hc⟩
    split
    · exact Or.inl ⟨_, rfl⟩
    · rename_i hspw
      have hspw' : ∀ s ∈ a.spwRanges.getD [], spwOk W.nfreqs s = true := by
        rw [Bool.not_eq_true, Bool.not_eq_false', List.all_eq_true] at hspw
        exact hspw
      cases hp : polsOf W.allPols a with
      | error e => exact Or.inl ⟨e, rfl⟩
      | ok pols =>
        simp only
        have hpol : pols = polarizations W a ∧ pols ≠ [] := by
          unfold polsOf at hp
          unfold polarizations
          cases ha : a.polPairs with
          | none =>
            simp only [ha] at hp
            split at hp
            · cases hp
            · rename_i hne
              refine ⟨(Except.ok.inj hp).symm, ?_⟩
              rw [← Except.ok.inj hp]
              rintro e
              exact hne (by rw [e]; rfl)
          | some l =>
            simp only [ha] at hp
            split at hp
            · cases hp
            · rename_i hne
              refine ⟨(Except.ok.inj hp).symm, ?_⟩
              rw [← Except.ok.inj hp]
              rintro e
              exact hne (by rw [e]; rfl)
        obtain ⟨rfl, hpne⟩ := hpol
        split
        · exact Or.inl ⟨_, rfl⟩
        · rename_i hlen
          rw [not_not] at hlen
          have hlen' : ∀ l, a.labels = some l → l.length = n := by
            intro l hl; rw [← hlen, hlab.1, hl]; rfl
          split
          · rename_i hint
            split
            · exact Or.inl ⟨_, rfl⟩
            · rename_i h1
              rw [not_not] at h1
              have hn : names n a = labels ++ ["dset1"] := by unfold names; rw [hint, if_pos rfl, hlab.1]
              unfold finish
              rw [← hn]
              cases hj : jobs W a (names n a) [(0, 1)] with
              | error e => exact Or.inl ⟨e, rfl⟩
              | ok js =>
                refine Or.inr ⟨_, js, rfl, hj, by simp [hint], by simp [hint], fun _ => rfl, hlab.2, ?_, hspw', hpne, hlen', fun _ => h1⟩
                rw [hn]; simp [hlen, h1, hint]
          · rename_i hint
            have hint' : a.interleave = false := by simpa using hint
            have hn : names n a = labels := by unfold names; rw [hint', if_neg (by simp), hlab.1, List.append_nil]
            unfold finish
            rw [← hn]
            cases hj : jobs W a (names n a) (pairsOf n a) with
            | error e => exact Or.inl ⟨e, rfl⟩
            | ok js =>
              refine Or.inr ⟨_, js, rfl, hj, ?_, ?_, by simp [hint'], hlab.2, ?_, hspw', hpne, hlen', by simp [hint']⟩
              · intro _ hd; unfold pairsOf; rw [hd]
              · intro _ l hd; unfold pairsOf; rw [hd]
              · rw [hn]; simp [hlen, hint']

/-- Names without underscores: the name of a result determines the names of its datasets. -/
theorem name_inj {a b c d ext : String} (ha : '_' ∉ a.toList) (hb : '_' ∉ b.toList)
    (h : a ++ "_x_" ++ c ++ ext = b ++ "_x_" ++ d ++ ext) : a = b ∧ c = d := by
  have h1 := congrArg String.toList h
  simp only [String.toList_append] at h1
  have h2 := List.append_cancel_right h1
  rw [show "_x_".toList = ['_', 'x', '_'] from by decide +kernel] at h2
  simp only [List.append_assoc, List.cons_append, List.nil_append] at h2
  have key : ∀ (l : List Char) (r : List Char), '_' ∉ l → (l ++ '_' :: r).takeWhile (· ≠ '_') = l ∧ (l ++ '_' :: r).dropWhile (· ≠ '_') = '_' :: r := by
    intro l r hl
    have hp : ∀ x ∈ l, decide (x ≠ '_') = true := by
      intro x hx; rw [decide_eq_true_eq]; rintro rfl; exact hl hx
    rw [List.takeWhile_append_of_pos hp, List.dropWhile_append_of_pos hp]
    simp
  obtain ⟨a1, a2⟩ := key a.toList ('x' :: '_' :: c.toList) ha
  obtain ⟨b1, b2⟩ := key b.toList ('x' :: '_' :: d.toList) hb
  rw [h2] at a1 a2
  refine ⟨String.toList_inj.1 (a1.symm.trans b1), ?_⟩
  have := a2.symm.trans b2
  simp only [List.cons.injEq, true_and] at this
  exact String.toList_inj.1 this

theorem names_clean {n : ℕ} {a : Args} (h : ∀ l, a.labels = some l → ∀ s ∈ l, '_' ∉ s.toList) : ∀ s ∈ names n a, '_' ∉ s.toList := by
  intro s hs
  unfold names at hs
  rw [List.mem_append] at hs
  rcases hs with hs | hs
  · cases hl : a.labels with
    | some l => rw [hl] at hs; exact h l hl s hs
    | none =>
      rw [hl] at hs
      simp only [Option.getD_none, List.mem_map] at hs
      obtain ⟨i, -, rfl⟩ := hs
      rw [String.toList_append, BootRun.toList_toString, List.mem_append]
      rintro (h | h)
      · rw [show "dset".toList = ['d', 's', 'e', 't'] from by decide +kernel] at h; simp at h
      · have := BootRun.isDigits i _ h; simp [Char.isDigit] at this
  · split at hs
    · simp only [List.mem_cons, List.not_mem_nil, or_false] at hs
      subst hs
      decide +kernel
    · simp at hs

theorem usedPair_mem {n : ℕ} {a : Args} {ps : List (ℤ × ℤ)} (h1 : a.interleave = false → a.dsetPairs = none → ps = if n > 1 then combinations n else [(0, 0)])
    (h2 : a.interleave = false → ∀ l, a.dsetPairs = some l → ps = l) (h3 : a.interleave = true → ps = [(0, 1)]) (i j : ℕ) :
    UsedPair n a i j ↔ ((i : ℤ), (j : ℤ)) ∈ ps := by
  unfold UsedPair
  split
  · rename_i hi
    rw [h3 hi]
    simp only [List.mem_cons, List.not_mem_nil, or_false, Prod.mk.injEq]
    omega
  · rename_i hi
    have hi' : a.interleave = false := by simpa using hi
    cases hd : a.dsetPairs with
    | some l => rw [h2 hi' l hd]
    | none =>
      rw [h1 hi' hd]
      simp only
      split
      · rw [mem_combinations]
        constructor
        · rintro (⟨_, h⟩ | ⟨h, _⟩)
          · exact ⟨i, j, rfl, h⟩
          · omega
        · rintro ⟨i', j', h, h'⟩
          simp only [Prod.mk.injEq, Nat.cast_inj] at h
          obtain ⟨rfl, rfl⟩ := h
          exact Or.inl ⟨by omega, h'⟩
      · simp only [List.mem_cons, List.not_mem_nil, or_false, Prod.mk.injEq]
        omega

theorem pyIndex_eq {n : ℕ} {i : ℤ} {k : ℕ} (h : pyIndex n i = some k) (h0 : 0 ≤ i) : i = k := by
  unfold pyIndex at h
  split at h
  · cases h; omega
  · split at h
    · omega
    · cases h

theorem ps_nonneg {n : ℕ} {a : Args} {ps : List (ℤ × ℤ)} (h1 : a.interleave = false → a.dsetPairs = none → ps = if n > 1 then combinations n else [(0, 0)])
    (h2 : a.interleave = false → ∀ l, a.dsetPairs = some l → ps = l) (h3 : a.interleave = true → ps = [(0, 1)])
    (hpos : ∀ l, a.dsetPairs = some l → ∀ p ∈ l, 0 ≤ p.1 ∧ 0 ≤ p.2) : ∀ p ∈ ps, 0 ≤ p.1 ∧ 0 ≤ p.2 := by
  intro p hp
  cases hi : a.interleave with
  | true => rw [h3 hi] at hp; simp only [List.mem_cons, List.not_mem_nil, or_false] at hp; subst hp; simp
  | false =>
    cases hd : a.dsetPairs with
    | some l => rw [h2 hi l hd] at hp; exact hpos l hd p hp
    | none =>
      rw [h1 hi hd] at hp
      split at hp
      · obtain ⟨i, j, rfl, -⟩ := (mem_combinations _ _).1 hp; simp
      · simp only [List.mem_cons, List.not_mem_nil, or_false] at hp; subst hp; simp

/-- The jobs of an accepted run, in terms of the specification. -/
theorem jobs_spec {W : World V} {n : ℕ} {a : Args} {ps : List (ℤ × ℤ)} {js : List Job} (hj : jobs W a (names n a) ps = .ok js)
    (h1 : a.interleave = false → a.dsetPairs = none → ps = if n > 1 then combinations n else [(0, 0)])
    (h2 : a.interleave = false → ∀ l, a.dsetPairs = some l → ps = l) (h3 : a.interleave = true → ps = [(0, 1)])
    (hpos : ∀ l, a.dsetPairs = some l → ∀ p ∈ l, 0 ≤ p.1 ∧ 0 ≤ p.2) (x : Job) :
    x ∈ js ↔ ∃ i j : ℕ, i < (names n a).length ∧ j < (names n a).length ∧ UsedPair n a i j ∧
      x = ⟨((i : ℤ), (j : ℤ)), (baselines W a i j).1, (baselines W a i j).2, resultName n a i j⟩ := by
  have hF := jobs_ok hj
  have hnn := ps_nonneg h1 h2 h3 hpos
  have key : ∀ p ∈ ps, ∀ x, (∃ i j, pyIndex (names n a).length p.1 = some i ∧ pyIndex (names n a).length p.2 = some j ∧
      x = (⟨p, (baselines W a i j).1, (baselines W a i j).2, (names n a).getD i "" ++ "_x_" ++ (names n a).getD j "" ++ a.psnameExt.getD ""⟩ : Job)) →
      ∃ i j : ℕ, p = ((i : ℤ), (j : ℤ)) ∧ i < (names n a).length ∧ j < (names n a).length ∧
        x = ⟨((i : ℤ), (j : ℤ)), (baselines W a i j).1, (baselines W a i j).2, resultName n a i j⟩ := by
    rintro p hp x ⟨i, j, hi, hj, rfl⟩
    have e : p = ((i : ℤ), (j : ℤ)) := Prod.ext (pyIndex_eq hi (hnn p hp).1) (pyIndex_eq hj (hnn p hp).2)
    exact ⟨i, j, e, pyIndex_lt hi, pyIndex_lt hj, by subst e; rfl⟩
  constructor
  · intro hx
    obtain ⟨k, hk, rfl⟩ := List.mem_iff_getElem.1 hx
    have hk' : k < ps.length := by rw [hF.length_eq]; exact hk
    obtain ⟨i, j, e, hi, hj, ex⟩ := key ps[k] (List.getElem_mem hk') _ (List.forall₂_iff_get.1 hF |>.2 k hk' hk)
    refine ⟨i, j, hi, hj, ?_, ex⟩
    rw [usedPair_mem h1 h2 h3, ← e]
    exact List.getElem_mem hk'
  · rintro ⟨i, j, hi, hj, hu, rfl⟩
    rw [usedPair_mem h1 h2 h3] at hu
    obtain ⟨k, hk, he⟩ := List.mem_iff_getElem.1 hu
    have hk' : k < js.length := by rw [← hF.length_eq]; exact hk
    obtain ⟨i', j', e, -, -, ex⟩ := key ps[k] (List.getElem_mem hk) _ (List.forall₂_iff_get.1 hF |>.2 k hk hk')
    rw [he] at e
    simp only [Prod.mk.injEq, Nat.cast_inj] at e
    obtain ⟨rfl, rfl⟩ := e
    rw [← ex]
    exact List.getElem_mem hk'

/-- In an accepted run every used pair refers to existing datasets. -/
theorem used_lt {W : World V} {n : ℕ} {a : Args} {ps : List (ℤ × ℤ)} {js : List Job} (hj : jobs W a (names n a) ps = .ok js) {i j : ℕ}
    (hu : ((i : ℤ), (j : ℤ)) ∈ ps) : i < (names n a).length ∧ j < (names n a).length := by
  obtain ⟨k, hk, he⟩ := List.mem_iff_getElem.1 hu
  have hF := jobs_ok hj
  have hk' : k < js.length := by rw [← hF.length_eq]; exact hk
  obtain ⟨i', j', e1, e2, -⟩ := List.forall₂_iff_get.1 hF |>.2 k hk hk'
  simp only [List.get_eq_getElem, he] at e1 e2
  have a1 := pyIndex_eq e1 (by omega)
  have a2 := pyIndex_eq e2 (by omega)
  have b1 := pyIndex_lt e1
  have b2 := pyIndex_lt e2
  omega

theorem getD_of_lt {l : List String} {i : ℕ} (h : i < l.length) : l.getD i "" = l[i] := by
  simp [h]

/-! ### Theorems -/

/-- **C122** (partial). A run that ends without error, on datasets with different names, has stored, for every used pair of datasets for which there are
baselines, the spectra computed from these baselines, that pair and the chosen polarizations, in the chosen group under the names of the two
datasets; the flag (no warning) says that there was such a pair. Missing: repeated dataset labels, see `C122_finding_duplicate_labels`;
negative dataset indices. -/
theorem C122_stored_partial (write : V → Bool) (W : World V) (n : ℕ) (a : Args) {f : File V} (hf : WF f) (hnd : (names n a).Nodup)
    (hpos : ∀ l, a.dsetPairs = some l → ∀ p ∈ l, 0 ≤ p.1 ∧ 0 ≤ p.2) {b : Bool} (h : (pspecRun write W n a f).2 = .ok b) :
    (b = true ↔ ∃ i j, UsedPair n a i j ∧ Work W a i j) ∧
    ∀ i j, UsedPair n a i j → Work W a i j → ∃ v, W.pspec (baselines W a i j).1 (baselines W a i j).2 ((i : ℤ), (j : ℤ)) (polarizations W a) = some v ∧
      slot (pspecRun write W n a f).1 (group n a) (resultName n a i j) = .stored v := by
  rcases run_cases write W n a f with ⟨e, he⟩ | ⟨ps, js, he, hj, h1, h2, h3, hcl, hlen, hspw, hpol, hll, hint⟩
  · rw [he] at h; cases h
  · rw [he] at h ⊢
    have hjs := jobs_spec hj h1 h2 h3 hpos
    obtain ⟨-, -, -, h4⟩ := loop_spec write W (polarizations W a) (group n a) a.overwrite js false hf
    obtain ⟨hb, hst⟩ := h4 b h
    have hmem : ∀ {i j : ℕ}, UsedPair n a i j → (⟨((i : ℤ), (j : ℤ)), (baselines W a i j).1, (baselines W a i j).2, resultName n a i j⟩ : Job) ∈ js := by
      intro i j hu
      obtain ⟨b1, b2⟩ := used_lt hj ((usedPair_mem h1 h2 h3 i j).1 hu)
      exact (hjs _).2 ⟨i, j, b1, b2, hu, rfl⟩
    constructor
    · rw [hb]
      constructor
      · rintro (h | ⟨x, hx, hn⟩)
        · cases h
        · obtain ⟨i, j, -, -, hu, rfl⟩ := (hjs x).1 hx
          exact ⟨i, j, hu, hn⟩
      · rintro ⟨i, j, hu, hw⟩
        exact Or.inr ⟨_, hmem hu, hw⟩
    · intro i j hu hw
      refine hst ?_ _ (hmem hu) hw
      intro x hx y hy _ _ hname
      obtain ⟨i1, j1, ib, jb, -, rfl⟩ := (hjs x).1 hx
      obtain ⟨i2, j2, ib', jb', -, rfl⟩ := (hjs y).1 hy
      have hc := names_clean (n := n) hcl
      simp only [resultName, getD_of_lt ib, getD_of_lt jb, getD_of_lt ib', getD_of_lt jb'] at hname
      obtain ⟨e1, e2⟩ := name_inj (hc _ (List.getElem_mem ib)) (hc _ (List.getElem_mem ib')) hname
      have := (hnd.getElem_inj_iff).1 e1
      have := (hnd.getElem_inj_iff).1 e2
      subst_vars
      rfl

/-- **C122**. Whatever the outcome of a run, the container stays well formed; nothing changes except results of used pairs with baselines,
in the chosen group; and without `overwrite` nothing that was stored changes. -/
theorem C122_frame (write : V → Bool) (W : World V) (n : ℕ) (a : Args) {f : File V} (hf : WF f)
    (hpos : ∀ l, a.dsetPairs = some l → ∀ p ∈ l, 0 ≤ p.1 ∧ 0 ≤ p.2) :
    WF (pspecRun write W n a f).1 ∧
    (∀ g m, (g ≠ group n a ∨ ∀ i j, UsedPair n a i j → Work W a i j → m ≠ resultName n a i j) → slot (pspecRun write W n a f).1 g m = slot f g m) ∧
    (a.overwrite = false → ∀ g m, slot f g m ≠ .absent → slot (pspecRun write W n a f).1 g m = slot f g m) := by
  rcases run_cases write W n a f with ⟨e, he⟩ | ⟨ps, js, he, hj, h1, h2, h3, hcl, hlen, hspw, hpol, hll, hint⟩
  · rw [he]; exact ⟨hf, fun _ _ _ => rfl, fun _ _ _ _ => rfl⟩
  · rw [he]
    obtain ⟨w1, w2, w3, -⟩ := loop_spec write W (polarizations W a) (group n a) a.overwrite js false hf
    refine ⟨w1, ?_, w3⟩
    intro g m hgm
    apply w2
    rcases hgm with h | h
    · exact Or.inl h
    · refine Or.inr ?_
      intro x hx hn
      obtain ⟨i, j, -, -, hu, rfl⟩ := (jobs_spec hj h1 h2 h3 hpos x).1 hx
      exact h i j hu hn

/-- A valid spectral window for datasets with these numbers of channels. -/
def ValidSpw (nfreqs : List ℤ) (s : List ℤ) : Prop := ∃ a b, s = [a, b] ∧ 0 ≤ a ∧ a < b ∧ ∀ n ∈ nfreqs, b ≤ n

theorem spwOk_iff (nfreqs : List ℤ) (s : List ℤ) : spwOk nfreqs s = true ↔ ValidSpw nfreqs s := by
  unfold ValidSpw
  constructor
  · intro h
    unfold spwOk at h
    split at h
    · rename_i a b
      simp only [Bool.and_eq_true, decide_eq_true_eq, List.all_eq_true] at h
      exact ⟨a, b, rfl, h.1.1, h.1.2, h.2⟩
    · cases h
  · rintro ⟨a, b, rfl, h1, h2, h3⟩
    unfold spwOk
    simp only [Bool.and_eq_true, decide_eq_true_eq, List.all_eq_true]
    exact ⟨⟨h1, h2⟩, h3⟩

/-- **C122**. A run with invalid arguments is refused and leaves the container unchanged: a label with an underscore, a spectral window that is not an
increasing pair of channels within all datasets, no polarizations, a wrong number of labels, interleaving of several datasets, a used pair with a
dataset that does not exist. -/
theorem C122_refused (write : V → Bool) (W : World V) (n : ℕ) (a : Args) (f : File V)
    (hbad : (∃ l, a.labels = some l ∧ ∃ s ∈ l, '_' ∈ s.toList) ∨
      (∃ l, a.spwRanges = some l ∧ ∃ s ∈ l, ¬ ValidSpw W.nfreqs s) ∨
      polarizations W a = [] ∨
      (∃ l, a.labels = some l ∧ l.length ≠ n) ∨
      (a.interleave = true ∧ n ≠ 1) ∨
      ∃ i j, UsedPair n a i j ∧ ((names n a).length ≤ i ∨ (names n a).length ≤ j)) :
    ∃ e, pspecRun write W n a f = (f, .error e) := by
  rcases run_cases write W n a f with he | ⟨ps, js, he, hj, h1, h2, h3, hcl, hlen, hspw, hpol, hll, hint⟩
  · exact he
  · exfalso
    rcases hbad with ⟨l, hl, s, hs, hu⟩ | ⟨l, hl, s, hs, hv⟩ | h | ⟨l, hl, h⟩ | ⟨hi, hn⟩ | ⟨i, j, hu, h⟩
    · exact hcl l hl s hs hu
    · exact hv ((spwOk_iff _ _).1 (hspw s (by rw [hl]; exact hs)))
    · exact hpol h
    · exact h (hll l hl)
    · exact hn (hint hi)
    · obtain ⟨b1, b2⟩ := used_lt hj ((usedPair_mem h1 h2 h3 i j).1 hu)
      omega

/-! ### The hypotheses can be met, and the finding -/

/-- Three datasets; `pspec` succeeds with the code `100 i + 10 j + (number of baselines)`; given pairs: datasets 0 and 1 contain `(1, 2)`, dataset 2 does not. -/
def demoWorld : World ℕ where
  nfreqs := [20, 20, 20]
  allPols := ["xx"]
  antpairs := fun k => if k = 2 then [(3, 4)] else [(2, 1)]
  reds := fun _ _ => ([], [])
  pspec := fun b1 _ p _ => some (100 * p.1.toNat + 10 * p.2.toNat + b1.length)

/-- Arguments that use the given baseline pair. -/
def demoArgs : Args where
  psnameExt := none
  polPairs := none
  blpairs := some [((1, 2), (1, 2))]
  dsetPairs := none
  labels := none
  spwRanges := some [[5, 20]]
  interleave := false
  groupname := none
  overwrite := false

/-- The pair (0, 1) is stored under the default names; the pairs with dataset 2 have no baselines. -/
example : (pspecRun (fun _ => true) demoWorld 3 demoArgs [("header", [])]).2 = .ok true ∧
    slot (pspecRun (fun _ => true) demoWorld 3 demoArgs [("header", [])]).1 "dset0_dset1_dset2" "dset0_x_dset1" = .stored 11 ∧
    slot (pspecRun (fun _ => true) demoWorld 3 demoArgs [("header", [])]).1 "dset0_dset1_dset2" "dset0_x_dset2" = .absent := by decide +kernel

/-- The hypotheses of `C122_stored_partial` hold for it. -/
example : WF ([("header", [])] : File ℕ) ∧ (names 3 demoArgs).Nodup ∧ ∀ l, demoArgs.dsetPairs = some l → ∀ p ∈ l, 0 ≤ p.1 ∧ 0 ≤ p.2 := by
  have hg : ∀ g, groupOf ([("header", [])] : File ℕ) g = [] := by
    intro g
    by_cases h : "header" = g
    · subst h; rfl
    · simp [groupOf, Dict.get, h]
  refine ⟨⟨by decide, ?_, ?_⟩, by decide +kernel, by intro l h; cases h⟩
  · intro g; rw [hg]; exact List.nodup_nil
  · intro g n e h; rw [hg] at h; cases h

/-- Only dataset 2 with itself: nothing to do, nothing stored. -/
example : (pspecRun (fun _ => true) demoWorld 3 { demoArgs with dsetPairs := some [(2, 2)] } [("header", [])]).2 = .ok false := by decide +kernel

/-- **C122, finding**. Datasets may be given equal labels (`PSpecData` makes its own labels different), but the results are named by the labels as given: all
pairs get the same name. The second result cannot be stored and the run fails; with `overwrite` it succeeds and only the last result is left. -/
theorem C122_finding_duplicate_labels :
    (pspecRun (fun _ => true) { demoWorld with antpairs := fun _ => [(1, 2)] } 3 { demoArgs with labels := some ["a", "a", "a"] } [("header", [])]).2 ≠ .ok true ∧
    (pspecRun (fun _ => true) { demoWorld with antpairs := fun _ => [(1, 2)] } 3 { demoArgs with labels := some ["a", "a", "a"], overwrite := true } [("header", [])]).2
      = .ok true ∧
    (let f := (pspecRun (fun _ => true) { demoWorld with antpairs := fun _ => [(1, 2)] } 3 { demoArgs with labels := some ["a", "a", "a"], overwrite := true } [("header", [])]).1
     spectra f "a_a_a" = .ok ["a_x_a"] ∧ slot f "a_a_a" "a_x_a" = .stored 121) := by decide +kernel

end HeraPspec.PspecRun
