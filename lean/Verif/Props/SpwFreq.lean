import Verif.Model.SpwFreq
import Mathlib.Algebra.Order.Field.Basic
import Mathlib.Tactic.Linarith
import Mathlib.Tactic.FieldSimp

/-!
C44: frequency and redshift ranges as channel ranges.
-/
namespace HeraPspec.SpwFreq
open HeraPspec.UVP (mapE)
variable {K : Type} [LinearOrder K]

theorem mem_idxs (freqs : List K) (fmin fmax : K) (i : Nat) :
    i ∈ idxs freqs fmin fmax ↔ ∃ f, freqs[i]? = some f ∧ fmin ≤ f ∧ f < fmax := by
  unfold idxs
  simp [List.mem_map, List.mem_filter, List.mem_zipIdx_iff_getElem?]

theorem idxs_sorted (freqs : List K) (fmin fmax : K) : (idxs freqs fmin fmax).Pairwise (· < ·) := by
  unfold idxs
  have : ((freqs.zipIdx).map (·.2)).Pairwise (· < ·) := by
    have e : (freqs.zipIdx).map (·.2) = List.range freqs.length := by
      apply List.ext_getElem <;> simp
    rw [e]; exact List.pairwise_lt_range
  exact this.sublist (List.Sublist.map _ List.filter_sublist)

theorem ends_spec (l : List Nat) (hl : l.Pairwise (· < ·)) :
    (ends l = none ↔ l = []) ∧ ∀ a b, ends l = some (a, b) → a ∈ l ∧ b ∈ l ∧ ∀ i ∈ l, a ≤ i ∧ i ≤ b := by
  cases l with
  | nil => simp [ends]
  | cons x xs =>
    have hlast : (x :: xs).getLast? = some ((x :: xs).getLast (by simp)) := List.getLast?_eq_some_getLast (by simp)
    have hends : ends (x :: xs) = some (x, (x :: xs).getLast (by simp)) := by unfold ends; rw [hlast]; rfl
    refine ⟨by simp [hends], ?_⟩
    intro a b h
    rw [hends] at h
    obtain ⟨rfl, rfl⟩ := Prod.ext_iff.1 (Option.some.inj h)
    refine ⟨List.mem_cons_self, List.getLast_mem _, ?_⟩
    intro i hi
    constructor
    · rcases List.mem_cons.1 hi with rfl | hi
      · exact Nat.le_refl _
      · exact Nat.le_of_lt ((List.pairwise_cons.1 hl).1 i hi)
    · obtain ⟨n, hn⟩ := List.getElem_of_mem hi
      obtain ⟨hn, rfl⟩ := hn
      rw [List.getLast_eq_getElem]
      rcases Nat.lt_or_ge n ((x :: xs).length - 1) with h | h
      · exact Nat.le_of_lt (List.pairwise_iff_getElem.1 hl n _ hn (by simp) h)
      · have : n = (x :: xs).length - 1 := by omega
        subst this; exact Nat.le_refl _

theorem foldl_min_le (l : List K) (a x : K) (hx : x = a ∨ x ∈ l) : l.foldl min a ≤ x := by
  induction l generalizing a x with
  | nil => rcases hx with rfl | h; exact le_refl _; cases h
  | cons b l ih =>
    rw [List.foldl_cons]
    rcases hx with rfl | h
    · exact le_trans (ih (min x b) _ (Or.inl rfl)) (min_le_left _ _)
    · rcases List.mem_cons.1 h with rfl | h
      · exact le_trans (ih (min a x) _ (Or.inl rfl)) (min_le_right _ _)
      · exact ih _ _ (Or.inr h)

theorem foldl_min_mem (l : List K) (a : K) : l.foldl min a = a ∨ l.foldl min a ∈ l := by
  induction l generalizing a with
  | nil => left; rfl
  | cons b l ih =>
    rw [List.foldl_cons]
    rcases ih (min a b) with h | h
    · rcases min_choice a b with h2 | h2
      · left; rw [h, h2]
      · right; rw [h, h2]; exact List.mem_cons_self
    · right; exact List.mem_cons_of_mem _ h

theorem foldl_max_ge (l : List K) (a x : K) (hx : x = a ∨ x ∈ l) : x ≤ l.foldl max a := by
  induction l generalizing a x with
  | nil => rcases hx with rfl | h; exact le_refl _; cases h
  | cons b l ih =>
    rw [List.foldl_cons]
    rcases hx with rfl | h
    · exact le_trans (le_max_left _ _) (ih (max x b) _ (Or.inl rfl))
    · rcases List.mem_cons.1 h with rfl | h
      · exact le_trans (le_max_right _ _) (ih (max a x) _ (Or.inl rfl))
      · exact ih _ _ (Or.inr h)

theorem foldl_max_mem (l : List K) (a : K) : l.foldl max a = a ∨ l.foldl max a ∈ l := by
  induction l generalizing a with
  | nil => left; rfl
  | cons b l ih =>
    rw [List.foldl_cons]
    rcases ih (max a b) with h | h
    · rcases max_choice a b with h2 | h2
      · left; rw [h, h2]
      · right; rw [h, h2]; exact List.mem_cons_self
    · right; exact List.mem_cons_of_mem _ h

/-- The lower bound lies below every channel, or the upper bound above every channel. -/
def OutOfBand (freqs : List K) (r : K × K) : Prop := (∀ f ∈ freqs, r.1 < f) ∨ (∀ f ∈ freqs, f < r.2)

theorem npMin_lt (freqs : List K) (lo x : K) (h : npMin freqs = some lo) : x < lo ↔ ∀ f ∈ freqs, x < f := by
  cases freqs with
  | nil => simp [npMin] at h
  | cons a l =>
    obtain rfl : l.foldl min a = lo := by simpa [npMin] using h
    constructor
    · intro hx f hf
      refine lt_of_lt_of_le hx (foldl_min_le l a f ?_)
      exact List.mem_cons.1 hf
    · intro hx
      rcases foldl_min_mem l a with h | h
      · rw [h]; exact hx a List.mem_cons_self
      · exact hx _ (List.mem_cons_of_mem _ h)

theorem npMax_lt (freqs : List K) (hi x : K) (h : npMax freqs = some hi) : hi < x ↔ ∀ f ∈ freqs, f < x := by
  cases freqs with
  | nil => simp [npMax] at h
  | cons a l =>
    obtain rfl : l.foldl max a = hi := by simpa [npMax] using h
    constructor
    · intro hx f hf
      refine lt_of_le_of_lt (foldl_max_ge l a f ?_) hx
      exact List.mem_cons.1 hf
    · intro hx
      rcases foldl_max_mem l a with h | h
      · rw [h]; exact hx a List.mem_cons_self
      · exact hx _ (List.mem_cons_of_mem _ h)

/-- When one range is refused. -/
def Refused (freqs : List K) (boundsError : Bool) (r : K × K) : Prop :=
  freqs = [] ∨ r.2 < r.1 ∨ (boundsError = true ∧ OutOfBand freqs r)

/-- The channels of a range: `a` to `b` inclusive are exactly the channels with `fmin ≤ f < fmax`; `none` if there is none. -/
def Channels (freqs : List K) (r : K × K) : Option (Nat × Nat) → Prop
  | none => ∀ f ∈ freqs, ¬ (r.1 ≤ f ∧ f < r.2)
  | some (a, b) => a ≤ b ∧ b < freqs.length ∧ ∀ (i : Nat) (f : K), freqs[i]? = some f → ((a ≤ i ∧ i ≤ b) ↔ (r.1 ≤ f ∧ f < r.2))

theorem oneRange_spec (freqs : List K) (hs : freqs.Pairwise (· ≤ ·)) (be : Bool) (r : K × K) :
    match oneRange freqs be r with
    | .error _ => Refused freqs be r
    | .ok o => ¬ Refused freqs be r ∧ Channels freqs r o := by
  unfold oneRange
  by_cases h1 : r.2 < r.1
  · rw [if_pos h1]; exact Or.inr (Or.inl h1)
  rw [if_neg h1]
  cases freqs with
  | nil => exact Or.inl rfl
  | cons x xs =>
    generalize hfr : x :: xs = freqs at *
    have hne : freqs ≠ [] := by rw [← hfr]; simp
    obtain ⟨lo, hlo⟩ : ∃ lo, npMin freqs = some lo := by rw [← hfr]; exact ⟨_, rfl⟩
    obtain ⟨hi, hhi⟩ : ∃ hi, npMax freqs = some hi := by rw [← hfr]; exact ⟨_, rfl⟩
    rw [hlo, hhi]
    simp only
    by_cases h2 : r.1 < lo ∧ be = true
    · rw [if_pos h2]; exact Or.inr (Or.inr ⟨h2.2, Or.inl ((npMin_lt freqs lo _ hlo).1 h2.1)⟩)
    rw [if_neg h2]
    by_cases h3 : hi < r.2 ∧ be = true
    · rw [if_pos h3]; exact Or.inr (Or.inr ⟨h3.2, Or.inr ((npMax_lt freqs hi _ hhi).1 h3.1)⟩)
    rw [if_neg h3]
    refine ⟨?_, ?_⟩
    · rintro (h | h | ⟨hb, h | h⟩)
      · exact hne h
      · exact h1 h
      · exact h2 ⟨(npMin_lt freqs lo _ hlo).2 h, hb⟩
      · exact h3 ⟨(npMax_lt freqs hi _ hhi).2 h, hb⟩
    · obtain ⟨e1, e2⟩ := ends_spec (idxs freqs r.1 r.2) (idxs_sorted _ _ _)
      cases he : ends (idxs freqs r.1 r.2) with
      | none =>
        intro f hf hc
        obtain ⟨i, hi⟩ := List.getElem?_of_mem hf
        have : i ∈ idxs freqs r.1 r.2 := (mem_idxs _ _ _ _).2 ⟨f, hi, hc⟩
        rw [e1.1 he] at this
        cases this
      | some ab =>
        obtain ⟨a, b⟩ := ab
        obtain ⟨ha, hb, hab⟩ := e2 a b he
        obtain ⟨fa, hfa, ha1, ha2⟩ := (mem_idxs _ _ _ _).1 ha
        obtain ⟨fb, hfb, hb1, hb2⟩ := (mem_idxs _ _ _ _).1 hb
        refine ⟨(hab b hb).1, (List.getElem?_eq_some_iff.1 hfb).1, ?_⟩
        intro i f hf
        have mono : ∀ (i j : Nat) (f g : K), freqs[i]? = some f → freqs[j]? = some g → i ≤ j → f ≤ g := by
          intro i j f g hi hj hij
          obtain ⟨hi1, rfl⟩ := List.getElem?_eq_some_iff.1 hi
          obtain ⟨hj1, rfl⟩ := List.getElem?_eq_some_iff.1 hj
          rcases Nat.lt_or_eq_of_le hij with h | rfl
          · exact List.pairwise_iff_getElem.1 hs i j hi1 hj1 h
          · exact le_refl _
        constructor
        · rintro ⟨h1, h2⟩
          exact ⟨le_trans ha1 (mono a i fa f hfa hf h1), lt_of_le_of_lt (mono i b f fb hf hfb h2) hb2⟩
        · intro h
          exact hab i ((mem_idxs _ _ _ _).2 ⟨f, hf, h⟩)

theorem mapE_spec {α β ε : Type} (f : α → Except ε β) (P : α → Prop) (Q : α → β → Prop)
    (hf : ∀ a, match f a with | .error _ => P a | .ok b => ¬ P a ∧ Q a b) (l : List α) :
    match mapE f l with
    | .error _ => ∃ a ∈ l, P a
    | .ok bs => (∀ a ∈ l, ¬ P a) ∧ List.Forall₂ Q l bs := by
  induction l with
  | nil =>
    show (∀ a ∈ ([] : List α), ¬ P a) ∧ List.Forall₂ Q [] []
    exact ⟨fun a h => absurd h List.not_mem_nil, .nil⟩
  | cons a l ih =>
    have ha := hf a
    unfold mapE
    cases hfa : f a with
    | error e => rw [hfa] at ha; exact ⟨a, List.mem_cons_self, ha⟩
    | ok b =>
      rw [hfa] at ha
      cases hm : mapE f l with
      | error e =>
        rw [hm] at ih
        obtain ⟨x, hx, hp⟩ := ih
        exact ⟨x, List.mem_cons_of_mem _ hx, hp⟩
      | ok bs =>
        rw [hm] at ih
        refine ⟨?_, .cons ha.2 ih.2⟩
        intro x hx
        rcases List.mem_cons.1 hx with rfl | hx
        · exact ha.1
        · exact ih.1 x hx

/-- C44: for an ascending frequency axis, `spw_range_from_freqs` raises iff some range is upside down, the axis is empty, or
`bounds_error` is set and some range sticks out of the band; otherwise it returns, for each range in order, the first and last
channel such that the channels between them, both included, are exactly those with `fmin ≤ f < fmax`, or `(None, None)` if there
are none. In particular a range that sticks out is clipped to the band. -/
theorem C44_freqs (freqs : List K) (hs : freqs.Pairwise (· ≤ ·)) (ranges : List (K × K)) (be : Bool) :
    match spwRangeFromFreqs freqs ranges be with
    | .error _ => ∃ r ∈ ranges, Refused freqs be r
    | .ok out => (∀ r ∈ ranges, ¬ Refused freqs be r) ∧ List.Forall₂ (Channels freqs) ranges out := by
  have := mapE_spec (oneRange freqs be) (Refused freqs be) (Channels freqs) (fun r => by
    have h := oneRange_spec freqs hs be r
    revert h
    cases oneRange freqs be r <;> exact id) ranges
  unfold spwRangeFromFreqs
  revert this
  cases mapE (oneRange freqs be) ranges <;> exact id

/-- The channels of a redshift range, with `z = f21/f - 1` the redshift of a channel: `zmin < z ≤ zmax`. -/
def ZChannels [Field K] (f21 : K) (freqs : List K) (z : K × K) : Option (Nat × Nat) → Prop
  | none => ∀ f ∈ freqs, ¬ (z.1 < f21 / f - 1 ∧ f21 / f - 1 ≤ z.2)
  | some (a, b) => a ≤ b ∧ b < freqs.length ∧
      ∀ (i : Nat) (f : K), freqs[i]? = some f → ((a ≤ i ∧ i ≤ b) ↔ (z.1 < f21 / f - 1 ∧ f21 / f - 1 ≤ z.2))

theorem z_iff [Field K] [IsStrictOrderedRing K] (f21 f : K) (hf21 : 0 < f21) (hf : 0 < f) (z : K × K) (h1 : -1 < z.1) (h2 : -1 < z.2) :
    (z2f f21 z.2 ≤ f ∧ f < z2f f21 z.1) ↔ (z.1 < f21 / f - 1 ∧ f21 / f - 1 ≤ z.2) := by
  have p1 : 0 < z.1 + 1 := by linarith
  have p2 : 0 < z.2 + 1 := by linarith
  unfold z2f
  rw [div_le_iff₀ p2, lt_div_iff₀ p1, lt_sub_iff_add_lt, sub_le_iff_le_add, div_le_iff₀ hf, lt_div_iff₀ hf,
    mul_comm f, mul_comm f]
  exact and_comm

/-- C44: for positive ascending frequencies and redshifts above -1, a successful `spw_range_from_redshifts` returns for each range
the first and last of exactly the channels whose redshift satisfies `zmin < z ≤ zmax`. -/
theorem C44_redshifts [Field K] [IsStrictOrderedRing K] (f21 : K) (hf21 : 0 < f21) (freqs : List K) (hs : freqs.Pairwise (· ≤ ·))
    (hpos : ∀ f ∈ freqs, 0 < f) (ranges : List (K × K)) (hz : ∀ z ∈ ranges, -1 < z.1 ∧ -1 < z.2) (be : Bool)
    (out : List (Option (Nat × Nat))) (h : spwRangeFromRedshifts f21 freqs ranges be = .ok out) :
    List.Forall₂ (ZChannels f21 freqs) ranges out := by
  have := C44_freqs freqs hs (ranges.map (fun z => (z2f f21 z.2, z2f f21 z.1))) be
  unfold spwRangeFromRedshifts at h
  rw [h] at this
  have h2 := this.2
  rw [List.forall₂_map_left_iff] at h2
  clear this h
  induction h2 with
  | nil => exact .nil
  | @cons z o l os h1 _ ih =>
    refine .cons ?_ (ih (fun z hz' => hz z (List.mem_cons_of_mem _ hz')))
    obtain ⟨hz1, hz2⟩ := hz z List.mem_cons_self
    cases o with
    | none =>
      intro f hf hc
      exact h1 f hf ((z_iff f21 f hf21 (hpos f hf) z hz1 hz2).2 hc)
    | some ab =>
      obtain ⟨a, b⟩ := ab
      refine ⟨h1.1, h1.2.1, fun i f hf => ?_⟩
      rw [← z_iff f21 f hf21 (hpos f (List.mem_of_getElem? hf)) z hz1 hz2]
      exact h1.2.2 i f hf

/-- C44: `spw_range_from_redshifts` accepts a range that is ordered (`zmin ≤ zmax`) when `bounds_error` is off. -/
theorem C44_redshifts_accepts [Field K] [IsStrictOrderedRing K] (f21 : K) (hf21 : 0 < f21) (freqs : List K) (hs : freqs.Pairwise (· ≤ ·))
    (hne : freqs ≠ []) (ranges : List (K × K)) (hz : ∀ z ∈ ranges, -1 < z.1 ∧ z.1 ≤ z.2) :
    ∃ out, spwRangeFromRedshifts f21 freqs ranges false = .ok out := by
  have := C44_freqs freqs hs (ranges.map (fun z => (z2f f21 z.2, z2f f21 z.1))) false
  unfold spwRangeFromRedshifts
  cases h : spwRangeFromFreqs freqs (ranges.map (fun z => (z2f f21 z.2, z2f f21 z.1))) false with
  | ok out => exact ⟨out, rfl⟩
  | error e =>
    rw [h] at this
    obtain ⟨r, hr, href⟩ := this
    obtain ⟨z, hzm, rfl⟩ := List.mem_map.1 hr
    obtain ⟨hz1, hz2⟩ := hz z hzm
    rcases href with h | h | ⟨h, _⟩
    · exact absurd h hne
    · exfalso
      have p1 : 0 < z.1 + 1 := by linarith
      have p2 : 0 < z.2 + 1 := by linarith
      have : z2f f21 z.2 ≤ z2f f21 z.1 := by
        unfold z2f
        exact div_le_div_of_nonneg_left (le_of_lt hf21) p1 (by linarith)
      exact absurd h (not_lt.2 this)
    · cases h

/-- C44 finding: the last index is *inclusive*, whereas spectral windows elsewhere in the package (`PSpecData.set_spw`,
`spw_ranges` of `pspec`) exclude their upper index, so passing the result on drops the last channel of the range. -/
theorem C44_finding_inclusive_end : ∃ a b, spwRangeFromFreqs [(100 : ℚ), 101, 102, 103] [(101, 103)] true = .ok [some (a, b)] ∧
    (List.range 4).filter (fun i => decide (a ≤ i) && decide (i < b)) = [1] ∧
    ((List.range 4).filter (fun i => decide (a ≤ i) && decide (i ≤ b)) = [1, 2]) :=
  ⟨1, 2, by decide +kernel, by decide, by decide⟩

/-- Non-vacuity: an accepted and a clipped range, an empty and a refused one. -/
example : spwRangeFromFreqs [(100 : ℚ), 101, 102, 103] [(101, 103), (99, 101)] false = .ok [some (1, 2), some (0, 0)] := by decide +kernel
example : spwRangeFromFreqs [(100 : ℚ), 101, 102, 103] [(99, 101)] true = .error .value := by decide +kernel
example : spwRangeFromFreqs [(100 : ℚ), 101, 102, 103] [(50, 60)] false = .ok [none] := by decide +kernel
example : spwRangeFromRedshifts (1420 : ℚ) [100, 101, 102, 103] [(13, 14)] true = .error .value := by decide +kernel
example : spwRangeFromRedshifts (1420 : ℚ) [100, 101, 102, 103] [(1317/103, 1319/101)] true = .ok [some (1, 2)] := by decide +kernel

end HeraPspec.SpwFreq
