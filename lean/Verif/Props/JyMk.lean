import Verif.Model.JyMk
import Mathlib.Tactic.NormNum
import Mathlib.Tactic.Linarith

/-! C59: `Jy_to_mK` scales every data set at most once, whatever the history of calls. -/
namespace HeraPspec.JyMk

/-! Specification. -/

/-- The units of a data set read "Jy" in any capitalisation. -/
def InJy (u : UV) : Prop := u.units.map Char.toUpper = ['J', 'Y']

/-- `v` is `u` converted with the factors of `b`: each visibility is multiplied by the factor of its own polarization and
channel, and the units are mK. Nothing else changes. -/
structure ConvertedBy (b : Beam) (u v : UV) : Prop where
  units : v.units = ['m', 'K']
  pols : v.pols = u.pols
  nf : v.nf = u.nf
  data : ∀ r f j p, u.pols[j]? = some p → ∀ l, b p = some l → ∀ x : ℝ, (l[f]? = some x ∨ (l.length = 1 ∧ l[0]? = some x)) →
    f < u.nf → v.data r f j = u.data r f j * (x : ℂ)
  rest : ∀ r f j, u.pols.length ≤ j → v.data r f j = u.data r f j

theorem isJy_iff (u : UV) : isJy u = true ↔ InJy u := by simp [isJy, InJy, upper]

theorem foldl_scale (b : Beam) (L : List (ℕ × ℤ)) (hn : (L.map Prod.fst).Nodup) (d : ℕ → ℕ → ℕ → ℂ) (r f q : ℕ) :
    (∀ p, (q, p) ∈ L → L.foldl (scalePol b) d r f q = d r f q * (facAt b p f : ℂ)) ∧
    (q ∉ L.map Prod.fst → L.foldl (scalePol b) d r f q = d r f q) := by
  induction L generalizing d with
  | nil => simp
  | cons x L ih =>
    rw [List.map_cons, List.nodup_cons] at hn
    obtain ⟨h1, h2⟩ := ih hn.2 (scalePol b d x)
    constructor
    · intro p hp
      rw [List.foldl_cons]
      rcases List.mem_cons.1 hp with h | h
      · subst h
        rw [h2 hn.1]
        simp [scalePol]
      · rw [h1 p h]
        have : q ≠ x.1 := by
          intro he
          exact hn.1 (he ▸ List.mem_map.2 ⟨(q, p), h, rfl⟩)
        simp [scalePol, this]
    · intro hq
      rw [List.map_cons, List.mem_cons, not_or] at hq
      rw [List.foldl_cons, h2 hq.2]
      simp [scalePol, hq.1]

theorem enumPols_fst (u : UV) : (enumPols u).map Prod.fst = List.range u.pols.length := by
  unfold enumPols
  rw [List.map_fst_zip]
  simp

theorem mem_enumPols {u : UV} {j : ℕ} {p : ℤ} (h : u.pols[j]? = some p) : (j, p) ∈ enumPols u := by
  unfold enumPols
  obtain ⟨hj, he⟩ := List.getElem?_eq_some_iff.1 h
  rw [List.mem_iff_getElem]
  refine ⟨j, by simpa using hj, ?_⟩
  simp [he]

theorem convert_spec (b : Beam) (u : UV) (hf : fits b u = true) : ConvertedBy b u (convert b u) := by
  have hn : ((enumPols u).map Prod.fst).Nodup := by rw [enumPols_fst]; exact List.nodup_range
  refine ⟨rfl, rfl, rfl, ?_, ?_⟩
  · intro r f j p hp l hl x hx hfn
    have h := (foldl_scale b (enumPols u) hn u.data r f j).1 p (mem_enumPols hp)
    rw [show (convert b u).data r f j = (enumPols u).foldl (scalePol b) u.data r f j from rfl, h]
    have hfit : l.length = u.nf ∨ l.length = 1 := by
      unfold fits at hf
      rw [List.all_eq_true] at hf
      have := hf p (List.mem_of_getElem? hp)
      simpa [hl] using this
    have hv : facAt b p f = x := by
      unfold facAt
      rw [hl]
      by_cases h1 : l.length = 1
      · simp only [h1, if_true]
        rcases hx with hx | hx
        · obtain ⟨hlt, he⟩ := List.getElem?_eq_some_iff.1 hx
          have hf0 : f = 0 := by omega
          subst hf0
          simp [List.getD, hx]
        · simp [List.getD, hx.2]
      · simp only [h1, if_false]
        rcases hx with hx | hx
        · simp [List.getD, hx]
        · exact absurd hx.1 h1
    rw [hv]
  · intro r f j hj
    refine (foldl_scale b (enumPols u) hn u.data r f j).2 ?_
    rw [enumPols_fst]
    simpa using hj

theorem loop_length (b : Beam) (ds : List UV) : (loop b ds).1.length = ds.length := by
  induction ds with
  | nil => rfl
  | cons u us ih =>
    unfold loop
    split
    · simp [ih]
    · split <;> simp [ih]

theorem loop_get (b : Beam) (ds : List UV) (i : ℕ) (u v : UV) (hu : ds[i]? = some u) (hv : (loop b ds).1[i]? = some v) :
    v = u ∨ (InJy u ∧ ConvertedBy b u v) := by
  induction ds generalizing i with
  | nil => simp at hu
  | cons w us ih =>
    unfold loop at hv
    split at hv
    · cases i with
      | zero => simp at hu hv; left; rw [← hu, ← hv]
      | succ i => exact ih i (by simpa using hu) (by simpa using hv)
    · rename_i hj
      split at hv
      · rename_i hfit
        cases i with
        | zero =>
          simp at hu hv
          right
          subst hu; subst hv
          exact ⟨(isJy_iff w).1 (by simpa using hj), convert_spec b w hfit⟩
        | succ i => exact ih i (by simpa using hu) (by simpa using hv)
      · left
        rw [hu] at hv
        exact (Option.some.inj hv).symm

theorem loop_ok (b : Beam) (ds : List UV) (h : (loop b ds).2 = true) (i : ℕ) (u : UV) (hu : ds[i]? = some u) :
    ∃ v, (loop b ds).1[i]? = some v ∧ ((¬ InJy u ∧ v = u) ∨ (InJy u ∧ ConvertedBy b u v)) := by
  induction ds generalizing i with
  | nil => simp at hu
  | cons w us ih =>
    unfold loop at h ⊢
    split at h
    · rename_i hj
      rw [if_pos hj]
      cases i with
      | zero =>
        simp at hu
        subst hu
        refine ⟨w, by simp, Or.inl ⟨?_, rfl⟩⟩
        rw [← isJy_iff]
        simpa using hj
      | succ i => simpa using ih (by simpa using h) i (by simpa using hu)
    · rename_i hj
      rw [if_neg hj]
      split at h
      · rename_i hfit
        rw [if_pos hfit]
        cases i with
        | zero =>
          simp at hu
          subst hu
          exact ⟨_, by simp, Or.inr ⟨(isJy_iff w).1 (by simpa using hj), convert_spec b w hfit⟩⟩
        | succ i => simpa using ih (by simpa using h) i (by simpa using hu)
      · simp at h

theorem loop_fixed (b : Beam) (ds : List UV) (h : ∀ u ∈ ds, ¬ InJy u) : loop b ds = (ds, true) := by
  induction ds with
  | nil => rfl
  | cons u us ih =>
    have hu : isJy u = false := by
      have := h u (by simp)
      rw [← isJy_iff] at this
      simpa using this
    have := ih (fun v hv => h v (by simp [hv]))
    unfold loop
    simp [hu, this]

theorem jyToMk_length (b : Beam) (ds : List UV) : (jyToMk b ds).1.length = ds.length := by
  unfold jyToMk
  split
  · rfl
  · split
    · rfl
    · exact loop_length b ds

/-- C59. A call that returns converts every data set in Jy, each with the factors of its own polarizations, and changes no
other data set. -/
theorem C59_call (b : Beam) (ds : List UV) (h : (jyToMk b ds).2 = true) (i : ℕ) (u : UV) (hu : ds[i]? = some u) :
    ∃ v, (jyToMk b ds).1[i]? = some v ∧ ((¬ InJy u ∧ v = u) ∨ (InJy u ∧ ConvertedBy b u v)) := by
  unfold jyToMk at h ⊢
  split at h
  · simp at h
  · rename_i h1
    rw [if_neg h1]
    split at h
    · simp at h
    · rename_i h2
      rw [if_neg h2]
      exact loop_ok b ds h i u hu

theorem not_inJy_mK {v : UV} (h : v.units = ['m', 'K']) : ¬ InJy v := by
  unfold InJy
  rw [h]
  decide

theorem step_get (b : Beam) (ds : List UV) (i : ℕ) (u v : UV) (hu : ds[i]? = some u) (hv : (jyToMk b ds).1[i]? = some v) :
    v = u ∨ (InJy u ∧ ConvertedBy b u v) := by
  unfold jyToMk at hv
  split at hv
  · left; rw [hu] at hv; exact (Option.some.inj hv).symm
  · split at hv
    · left; rw [hu] at hv; exact (Option.some.inj hv).symm
    · exact loop_get b ds i u v hu hv

/-- C59. After any history of calls, with any beams and including calls that failed, every data set is either as it was at
the start or has been converted exactly once, by one of the beams, and only if it was in Jy. -/
theorem C59_history (bs : List Beam) (ds : List UV) (i : ℕ) (u v : UV) (hu : ds[i]? = some u)
    (hv : (calls bs ds)[i]? = some v) : v = u ∨ (InJy u ∧ ∃ b ∈ bs, ConvertedBy b u v) := by
  induction bs generalizing ds u with
  | nil =>
    left
    rw [show calls [] ds = ds from rfl, hu] at hv
    exact (Option.some.inj hv).symm
  | cons b bs ih =>
    have hlen : i < (jyToMk b ds).1.length := by
      rw [jyToMk_length]
      exact (List.getElem?_eq_some_iff.1 hu).1
    have hw : (jyToMk b ds).1[i]? = some ((jyToMk b ds).1[i]) := List.getElem?_eq_getElem hlen
    have hv' : (calls bs (jyToMk b ds).1)[i]? = some v := hv
    have h1 := step_get b ds i u _ hu hw
    have h2 := ih _ _ hw hv'
    rcases h1 with h1 | ⟨hj, hc⟩
    · rw [h1] at h2
      rcases h2 with h2 | ⟨h2, b', hb', hc'⟩
      · exact Or.inl h2
      · exact Or.inr ⟨h2, b', by simp [hb'], hc'⟩
    · rcases h2 with h2 | ⟨h2, -⟩
      · rw [h2]; exact Or.inr ⟨hj, b, by simp, hc⟩
      · exact absurd h2 (not_inJy_mK hc.units)

theorem none_inJy (b : Beam) (ds : List UV) (h : (jyToMk b ds).2 = true) : ∀ v ∈ (jyToMk b ds).1, ¬ InJy v := by
  intro v hv
  obtain ⟨i, hi, he⟩ := List.mem_iff_getElem.1 hv
  have hi' : i < ds.length := by rwa [jyToMk_length] at hi
  obtain ⟨w, hw, hc⟩ := C59_call b ds h i ds[i] (List.getElem?_eq_getElem hi')
  rw [List.getElem?_eq_getElem hi, he] at hw
  cases hw
  rcases hc with ⟨h1, h2⟩ | ⟨-, h2⟩
  · rw [h2]; exact h1
  · exact not_inJy_mK h2.units

theorem step_fixed (b : Beam) (ds : List UV) (h : ∀ u ∈ ds, ¬ InJy u) : (jyToMk b ds).1 = ds := by
  unfold jyToMk
  split
  · rfl
  · split
    · rfl
    · rw [loop_fixed b ds h]

/-- C59. Once one call has returned, any number of further calls, with any beams, leaves everything unchanged. -/
theorem C59_idempotent (b : Beam) (bs : List Beam) (ds : List UV) (h : (jyToMk b ds).2 = true) :
    calls (b :: bs) ds = (jyToMk b ds).1 := by
  have h' : ∀ u ∈ (jyToMk b ds).1, ¬ InJy u := none_inJy b ds h
  rw [show calls (b :: bs) ds = calls bs (jyToMk b ds).1 from rfl]
  generalize (jyToMk b ds).1 = s at h'
  induction bs with
  | nil => rfl
  | cons c bs ih => rw [show calls (c :: bs) s = calls bs (jyToMk c s).1 from rfl, step_fixed c s h']; exact ih

/-- C59. Calling `n + 1` times gives the same data as calling once. -/
theorem C59_any_number (b : Beam) (n : ℕ) (ds : List UV) (h : (jyToMk b ds).2 = true) :
    calls (List.replicate (n + 1) b) ds = calls [b] ds := C59_idempotent b (List.replicate n b) ds h

/-- C59. A call returns when every data set has the same number of polarizations and the beam has a factor per channel for each. -/
theorem C59_returns (b : Beam) (ds : List UV) (n : ℕ) (h1 : ∀ u ∈ ds, u.pols.length = n)
    (h2 : ∀ u ∈ ds, ∀ p ∈ u.pols, ∃ l, b p = some l ∧ l.length = u.nf) : (jyToMk b ds).2 = true := by
  have hr : ragged ds = false := by
    unfold ragged
    rw [List.any_eq_false]
    intro u hu
    rw [Bool.not_eq_true, List.any_eq_false]
    intro v hv
    simp [h1 u hu, h1 v hv]
  have ha : ds.any (fun u => u.pols.any (fun p => (b p).isNone)) = false := by
    rw [List.any_eq_false]
    intro u hu
    rw [Bool.not_eq_true, List.any_eq_false]
    intro p hp
    obtain ⟨l, hl, -⟩ := h2 u hu p hp
    simp [hl]
  unfold jyToMk
  rw [hr, ha]
  simp only [Bool.false_eq_true, if_false]
  clear hr ha h1
  induction ds with
  | nil => rfl
  | cons u us ih =>
    have hi := ih (fun v hv => h2 v (by simp [hv]))
    have hf : fits b u = true := by
      unfold fits
      rw [List.all_eq_true]
      intro p hp
      obtain ⟨l, hl, he⟩ := h2 u (by simp) p hp
      simp [hl, he]
    unfold loop
    by_cases hj : isJy u = true <;> simp [hj, hf, hi]

/-- Non-vacuity: two polarizations with different factors, a data set in Jy and one in kelvin-str. -/
noncomputable def demoBeam : Beam := fun p => if p = -5 then some [2, 3] else if p = -6 then some [5, 7] else none
def demoU : UV := ⟨['J', 'y'], [-5, -6], 2, fun r f j => (r : ℂ) + 10 * f + 100 * j⟩
def demoV : UV := ⟨['K', ' ', 's', 't', 'r'], [-5, -6], 2, fun _ _ _ => 1⟩

example : (jyToMk demoBeam [demoU, demoV]).2 = true := by
  refine C59_returns demoBeam _ 2 (by simp [demoU, demoV]) ?_
  intro u hu p hp
  simp only [List.mem_cons, List.not_mem_nil, or_false] at hu
  rcases hu with rfl | rfl <;> simp only [demoU, demoV, List.mem_cons, List.not_mem_nil, or_false] at hp <;>
    rcases hp with rfl | rfl <;> simp [demoBeam, demoU, demoV]

example : InJy demoU ∧ ¬ InJy demoV := by
  constructor <;> unfold InJy <;> decide

/-- The converted value of the demo: polarization −6, channel 1 is multiplied by 7. -/
example (v : UV) (h : ConvertedBy demoBeam demoU v) : v.data 3 1 1 = 113 * 7 := by
  have := h.data 3 1 1 (-6) (by rfl) [5, 7] (by simp [demoBeam]) 7 (Or.inl (by rfl)) (by decide)
  rw [this]
  simp [demoU]
  norm_num

end HeraPspec.JyMk
