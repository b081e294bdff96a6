import Verif.Spec.UVP
import Mathlib.Data.List.Sort
import Mathlib.Tactic.Linarith
import Mathlib.Data.Nat.Basic

/-! Lemmas on numpy index arrays, slices, masks and window renumbering. -/
namespace HeraPspec.UVP

variable {D W α β : Type}

/-- Keep the elements whose mask bit is set. -/
def mask : List Bool → List α → List α
  | b :: bs, x :: xs => if b then x :: mask bs xs else mask bs xs
  | _, _ => []

theorem mask_map_filter (R : List α) (p : α → Bool) (f : α → β) : mask (R.map p) (R.map f) = (R.filter p).map f := by
  induction R with
  | nil => rfl
  | cons a R ih => by_cases h : p a <;> simp [mask, h, ih]

theorem whereTrue_aux (bs : List Bool) (k : Nat) :
    ((bs.zipIdx k).filter (·.1)).map (·.2) = (whereTrue bs).map (k + ·) := by
  unfold whereTrue
  induction bs generalizing k with
  | nil => rfl
  | cons b bs ih =>
    have h1 := ih (k + 1)
    have h2 := ih 1
    cases b <;> simp only [List.zipIdx_cons, List.filter_cons, List.map_cons, Bool.false_eq_true, ↓reduceIte, Nat.zero_add,
      Nat.add_zero, h1, h2, List.map_map, List.cons.injEq, true_and] <;>
      (congr 1; funext x; simp only [Function.comp_apply]; omega)

theorem whereTrue_cons (b : Bool) (bs : List Bool) :
    whereTrue (b :: bs) = (if b then [0] else []) ++ (whereTrue bs).map (· + 1) := by
  have h := whereTrue_aux bs 1
  unfold whereTrue at *
  cases b <;> simp_all [List.zipIdx_cons] <;> (intros; omega)

theorem mem_whereTrue (bs : List Bool) (i : Nat) : i ∈ whereTrue bs ↔ bs[i]? = some true := by
  induction bs generalizing i with
  | nil => simp [whereTrue]
  | cons b bs ih =>
    rw [whereTrue_cons]
    cases i with
    | zero => cases b <;> simp
    | succ i => cases b <;> simp [ih]

theorem whereTrue_sorted (bs : List Bool) : (whereTrue bs).Pairwise (· < ·) := by
  induction bs with
  | nil => simp [whereTrue]
  | cons b bs ih =>
    rw [whereTrue_cons]
    have : ((whereTrue bs).map (· + 1)).Pairwise (· < ·) := by
      rw [List.pairwise_map]; exact ih.imp (by intro a b h; omega)
    cases b <;> simp [this]

theorem filterMap_whereTrue (bs : List Bool) (l : List α) (h : bs.length = l.length) :
    (whereTrue bs).filterMap (fun i => l[i]?) = mask bs l := by
  induction bs generalizing l with
  | nil => cases l <;> simp_all [whereTrue, mask]
  | cons b bs ih =>
    cases l with
    | nil => simp at h
    | cons x l =>
      rw [whereTrue_cons]
      have := ih l (by simpa using h)
      cases b <;> simp [mask, List.filterMap_map, Function.comp_def, this]

theorem whereTrue_eq_nil (bs : List Bool) : whereTrue bs = [] ↔ bs.any id = false := by
  induction bs with
  | nil => simp [whereTrue]
  | cons b bs ih => rw [whereTrue_cons]; cases b <;> simp_all

/-- Strictly sorted lists with the same members are equal. -/
theorem sorted_ext {l₁ l₂ : List Nat} (h₁ : l₁.Pairwise (· < ·)) (h₂ : l₂.Pairwise (· < ·)) (h : ∀ i, i ∈ l₁ ↔ i ∈ l₂) :
    l₁ = l₂ := List.Pairwise.eq_of_mem_iff h₁ h₂ h

theorem diffs_const {a d : Nat} {l : List Nat} (hs : (a :: l).Pairwise (· < ·)) (h : ∀ x ∈ diffs (a :: l), x = d) :
    ∀ i, i ∈ a :: l ↔ ∃ j, j ≤ l.length ∧ i = a + j * d := by
  induction l generalizing a with
  | nil => intro i; simp
  | cons b l ih =>
    intro i
    have hab : a < b := by simp at hs; omega
    have hd : d = b - a := (h (b - a) (by simp [diffs])).symm
    have hb : b = a + d := by omega
    have := ih (a := b) (by simp at hs ⊢; tauto) (by intro x hx; exact h x (by simp [diffs, hx]))
    rw [List.mem_cons, this]
    constructor
    · rintro (h | ⟨j, hj, h⟩)
      · exact ⟨0, by omega, by simp [h]⟩
      · refine ⟨j + 1, by simp; omega, ?_⟩
        rw [h, hb, Nat.add_mul]; omega
    · rintro ⟨j, hj, h⟩
      cases j with
      | zero => left; simpa using h
      | succ j => right; exact ⟨j, by simp at hj; omega, by rw [h, hb, Nat.add_mul]; omega⟩

theorem diffs_eq_nil {a : Nat} {l : List Nat} (h : diffs (a :: l) = []) : l = [] := by
  cases l <;> simp_all [diffs]

theorem getLast_sorted {l : List Nat} (hs : l.Pairwise (· < ·)) (hne : l ≠ []) : ∀ i ∈ l, i ≤ l.getLast hne := by
  induction l with
  | nil => simp
  | cons a l ih =>
    intro i hi
    cases l with
    | nil => simp_all
    | cons b l =>
      rw [List.getLast_cons (by simp)]
      rw [List.pairwise_cons] at hs
      rcases List.mem_cons.1 hi with rfl | hi
      · exact Nat.le_of_lt (hs.1 _ (List.getLast_mem _))
      · exact ih hs.2 (by simp) i hi

theorem filter_zipIdx_aux (l : List α) (k : Nat) (p : Nat → Bool) :
    ((l.zipIdx k).filter (fun x => p x.2)).map (·.1)
      = mask ((List.range l.length).map (fun i => p (k + i))) l := by
  induction l generalizing k with
  | nil => rfl
  | cons a l ih =>
    rw [List.zipIdx_cons, List.length_cons, List.range_succ_eq_map]
    simp only [List.filter_cons, List.map_cons, List.map_map, mask, Nat.add_zero]
    have := ih (k + 1)
    have e : ((fun i => p (k + i)) ∘ Nat.succ) = fun i => p (k + 1 + i) := by
      funext i; simp [Nat.succ_eq_add_one, Nat.add_comm, Nat.add_left_comm]
    rw [e, ← this]
    split <;> simp_all

/-- Indexing with the selection computed from a mask keeps exactly the masked elements. -/
theorem toSel_apply {bs : List Bool} {s : Sel} (hs : toSel (whereTrue bs) = .ok s) (l : List α) (h : bs.length = l.length) :
    s.apply l = mask bs l := by
  have hsorted := whereTrue_sorted bs
  have hmem := mem_whereTrue bs
  have hfm := filterMap_whereTrue bs l h
  generalize hw : whereTrue bs = w at *
  unfold toSel at hs
  -- the slice case
  have key : ∀ (a d : Nat) (rest : List Nat), w = a :: rest → 0 < d →
      (∀ x ∈ diffs (a :: rest), x = d) → ∀ b, b = (a :: rest).getLast (by simp) + 1 →
      (Sel.slice a b d).apply l = mask bs l := by
    intro a d rest hw' hd hx b hb
    simp only [Sel.apply]
    rw [filter_zipIdx_aux l 0 (fun i => decide (a ≤ i ∧ i < b ∧ (i - a) % d = 0))]
    congr 1
    subst hw'
    have hc := diffs_const hsorted hx
    have hl := getLast_sorted hsorted (by simp)
    have hlast := (hc _).1 (List.getLast_mem (l := a :: rest) (by simp))
    apply List.ext_getElem?
    intro i
    simp only [List.getElem?_map, Nat.zero_add]
    by_cases hi : i < l.length
    · rw [List.getElem?_range hi]
      have hib : i < bs.length := by omega
      rw [List.getElem?_eq_getElem hib]
      simp only [Option.map_some, Option.some.injEq]
      have hm := hmem i
      rw [List.getElem?_eq_getElem hib, hc] at hm
      rw [Bool.eq_iff_iff, decide_eq_true_iff]
      have hm' : (∃ j, j ≤ rest.length ∧ i = a + j * d) ↔ bs[i] = true := by simpa using hm
      rw [← hm']
      obtain ⟨jl, hjl, hjle⟩ := hlast
      constructor
      · rintro ⟨h1, h2, h3⟩
        obtain ⟨q, hq⟩ := Nat.dvd_of_mod_eq_zero h3
        refine ⟨q, ?_, by rw [Nat.mul_comm] at hq; omega⟩
        -- i ≤ last = a + jl * d
        have : d * q ≤ d * jl := by rw [← hq, Nat.mul_comm d jl]; omega
        exact le_trans (Nat.le_of_mul_le_mul_left this hd) hjl
      · rintro ⟨j, hj, e⟩
        refine ⟨by omega, ?_, ?_⟩
        · have := hl i ((hc i).2 ⟨j, hj, e⟩); omega
        · rw [e, Nat.add_sub_cancel_left]; simp
    · have h1 : bs[i]? = none := List.getElem?_eq_none (by omega)
      have h2 : (List.range l.length)[i]? = none := List.getElem?_eq_none (by simp; omega)
      rw [h1, h2]; rfl
  split at hs
  · simp at hs
  · rename_i a rest
    split at hs
    · rename_i hd
      cases hs
      exact key a 1 rest rfl Nat.one_pos (by simp [hd]) _ rfl
    · rename_i d ds hd
      split at hs
      · rename_i hall
        cases hs
        have hx : ∀ x ∈ diffs (a :: rest), x = d := by
          rw [hd]; intro x hx
          rcases List.mem_cons.1 hx with h | h
          · exact h
          · simpa using List.all_eq_true.1 hall x h
        refine key a d rest rfl ?_ hx _ rfl
        cases rest with
        | nil => simp [diffs] at hd
        | cons b r =>
          have : b - a = d := hx _ (by simp [diffs])
          simp at hsorted; omega
      · cases hs
        simp only [Sel.apply]; exact hfm

theorem toSel_ok {bs : List Bool} (h : bs.any id = true) : ∃ s, toSel (whereTrue bs) = .ok s := by
  have : whereTrue bs ≠ [] := by rw [Ne, whereTrue_eq_nil]; simp [h]
  unfold toSel
  split
  · contradiction
  · split
    · exact ⟨_, rfl⟩
    · split <;> exact ⟨_, rfl⟩

/-! ### window renumbering -/

theorem rankIn_getElem {K : List Nat} (hs : K.Pairwise (· < ·)) (i : Nat) (hi : i < K.length) : rankIn K K[i] = i := by
  unfold rankIn
  induction K generalizing i with
  | nil => simp at hi
  | cons a K ih =>
    rw [List.pairwise_cons] at hs
    cases i with
    | zero =>
      simp only [List.getElem_cons_zero, List.length_eq_zero_iff, List.filter_eq_nil_iff, List.mem_cons, decide_eq_true_eq]
      rintro x (rfl | hx)
      · omega
      · have := hs.1 x hx; omega
    | succ i =>
      have hi' : i < K.length := by simpa using hi
      have : a < K[i] := hs.1 _ (List.getElem_mem hi')
      simp only [List.getElem_cons_succ, List.filter_cons, this, decide_true, ↓reduceIte, List.length_cons, ih hs.2 i hi']

theorem le_getElem_sorted {K : List Nat} (hs : K.Pairwise (· < ·)) (i : Nat) (hi : i < K.length) : i ≤ K[i] := by
  have : ∀ (m : Nat) (K : List Nat) (hs : K.Pairwise (· < ·)) (hm : ∀ x ∈ K, m ≤ x) (i : Nat) (hi : i < K.length),
      m + i ≤ K[i] := by
    intro m K
    induction K generalizing m with
    | nil => intro _ _ i hi; simp at hi
    | cons a K ih =>
      intro hs hm i hi
      rw [List.pairwise_cons] at hs
      cases i with
      | zero => simpa using hm a (by simp)
      | succ i =>
        have := ih (m + 1) hs.2 (by intro x hx; have := hs.1 x hx; have := hm a (by simp); omega) i (by simpa using hi)
        simp only [List.getElem_cons_succ]; omega
  have := this 0 K hs (by simp) i hi; omega

/-- State of the labels after processing `0..i-1`. -/
def phi (K : List Nat) (i k : Nat) : Nat := if rankIn K k < i then rankIn K k else k

theorem phi_zero (K : List Nat) (k : Nat) : phi K 0 k = k := by simp [phi]

theorem rank_facts {K : List Nat} (hs : K.Pairwise (· < ·)) {k : Nat} (hk : k ∈ K) :
    rankIn K k < K.length ∧ rankIn K k ≤ k ∧ K[rankIn K k]? = some k := by
  obtain ⟨i, hi, rfl⟩ := List.mem_iff_getElem.1 hk
  rw [rankIn_getElem hs i hi]
  exact ⟨hi, le_getElem_sorted hs i hi, by simp [hi]⟩

theorem rank_mono {K : List Nat} (hs : K.Pairwise (· < ·)) {k k' : Nat} (hk : k ∈ K) (hk' : k' ∈ K) :
    rankIn K k ≤ rankIn K k' ↔ k ≤ k' := by
  obtain ⟨i, hi, rfl⟩ := List.mem_iff_getElem.1 hk
  obtain ⟨j, hj, rfl⟩ := List.mem_iff_getElem.1 hk'
  rw [rankIn_getElem hs i hi, rankIn_getElem hs j hj]
  have := List.pairwise_iff_getElem.1 hs
  constructor
  · intro h
    rcases Nat.lt_or_ge i j with h | h
    · exact Nat.le_of_lt (this i j hi hj h)
    · have : i = j := by omega
      subst this; exact Nat.le_refl _
  · intro h
    by_contra hc
    have := this j i hj hi (by omega)
    omega

theorem minAbove_phi {K : List Nat} (hs : K.Pairwise (· < ·)) {i : Nat} (hi : i < K.length)
    (hni : i ∉ K.map (phi K i)) : minAbove i (K.map (phi K i)) = some K[i] := by
  have hr := rankIn_getElem hs i hi
  have hle := le_getElem_sorted hs i hi
  have hphi : phi K i K[i] = K[i] := by simp [phi, hr]
  have hne : K[i] ≠ i := by
    intro e
    apply hni
    exact List.mem_map.2 ⟨K[i], List.getElem_mem hi, by rw [hphi, e]⟩
  unfold minAbove
  rw [List.min?_eq_some_iff]
  constructor
  · rw [List.mem_filter]
    exact ⟨List.mem_map.2 ⟨K[i], List.getElem_mem hi, hphi⟩, by simp; omega⟩
  · intro b hb
    rw [List.mem_filter, List.mem_map] at hb
    obtain ⟨⟨k, hk, rfl⟩, hlt⟩ := hb
    simp only [decide_eq_true_eq] at hlt
    unfold phi at hlt ⊢
    split at hlt
    · omega
    · rename_i hge
      rw [if_neg hge]
      rw [← rank_mono hs (List.getElem_mem hi) hk, hr]; omega

theorem renum_phi {K : List Nat} (hs : K.Pairwise (· < ·)) {i : Nat} (hi : i < K.length) {k : Nat} (hk : k ∈ K) :
    (if phi K i k = K[i] then i else phi K i k) = phi K (i + 1) k := by
  have hr := rankIn_getElem hs i hi
  have hle := le_getElem_sorted hs i hi
  unfold phi
  by_cases h1 : rankIn K k < i
  · have h2 : rankIn K k < i + 1 := by omega
    have h3 : rankIn K k ≠ K[i] := by omega
    simp only [h1, h2, h3, ↓reduceIte]
  · rw [if_neg h1]
    by_cases h2 : rankIn K k = i
    · have := (rank_facts hs hk).2.2
      rw [h2] at this
      have e : K[i] = k := by rw [List.getElem?_eq_getElem hi] at this; simpa using this
      rw [if_pos e.symm, if_pos (by omega), h2]
    · rw [if_neg (c := rankIn K k < i + 1) (by omega), if_neg]
      rintro rfl; exact h2 hr

theorem phi_mem {K : List Nat} (hs : K.Pairwise (· < ·)) {i : Nat} (hi : i < K.length)
    (h : i ∈ K.map (phi K i)) {k : Nat} (hk : k ∈ K) : phi K i k = phi K (i + 1) k := by
  obtain ⟨k', hk', e⟩ := List.mem_map.1 h
  have hf := rank_facts hs hk'
  unfold phi at e
  split at e
  · omega
  · have hk'i : rankIn K k' = i := by omega
    unfold phi
    by_cases h1 : rankIn K k < i
    · rw [if_pos h1, if_pos (by omega)]
    · rw [if_neg h1]
      by_cases h2 : rankIn K k = i
      · have a := (rank_facts hs hk).2.2
        rw [h2] at a
        rw [hk'i] at hf
        have : k = k' := by have := a.symm.trans hf.2.2; simpa using this
        rw [if_pos (by omega), h2, this, e]
      · rw [if_neg (by omega)]

theorem downConvert_aux {K : List Nat} (hs : K.Pairwise (· < ·)) (F Y : List Nat) (hF : ∀ x ∈ F, x ∈ K)
    (hY : ∀ x ∈ Y, x ∈ K) (m : Nat) : ∀ (i : Nat), i + m = K.length → ∀ u : UVP D W, u.spwArray = K.map (phi K i) →
      u.spwFreqArray = F.map (phi K i) → u.spwDlyArray = Y.map (phi K i) →
      downConvert (List.range' i m) u = .ok { u with
        spwArray := K.map (phi K K.length), spwFreqArray := F.map (phi K K.length),
        spwDlyArray := Y.map (phi K K.length) } := by
  induction m with
  | zero =>
    intro i hi u h1 h2 h3
    have : i = K.length := by omega
    subst this
    simp [downConvert, ← h1, ← h2, ← h3]
  | succ m ih =>
    intro i hi u h1 h2 h3
    have hiK : i < K.length := by omega
    rw [List.range'_succ]
    unfold downConvert
    by_cases hin : i ∈ K.map (phi K i)
    · have hc : ∀ L : List Nat, (∀ x ∈ L, x ∈ K) → L.map (phi K i) = L.map (phi K (i + 1)) := by
        intro L hL; apply List.map_congr_left; intro x hx; exact phi_mem hs hiK hin (hL x hx)
      rw [if_pos (by rw [h1]; exact hin)]
      exact ih (i + 1) (by omega) u (by rw [h1, hc K (by simp)]) (by rw [h2, hc F hF]) (by rw [h3, hc Y hY])
    · rw [if_neg (by rw [h1]; exact hin), h1, minAbove_phi hs hiK hin]
      have hc : ∀ L : List Nat, (∀ x ∈ L, x ∈ K) → renum K[i] i (L.map (phi K i)) = L.map (phi K (i + 1)) := by
        intro L hL
        unfold renum
        rw [List.map_map]
        apply List.map_congr_left; intro x hx; exact renum_phi hs hiK (hL x hx)
      simp only []
      rw [ih (i + 1) (by omega)]
      · rw [hc K (by simp)]
      · rw [h2, hc F hF]
      · rw [h3, hc Y hY]

theorem map_rank {K : List Nat} (hs : K.Pairwise (· < ·)) : K.map (rankIn K) = List.range K.length := by
  apply List.ext_getElem
  · simp
  · intro i h1 h2
    simp [rankIn_getElem hs i (by simpa using h1)]

/-- The loop renumbers every label by its rank among the kept ones. -/
theorem downConvert_spec {K : List Nat} (hs : K.Pairwise (· < ·)) (u : UVP D W) (h1 : u.spwArray = K)
    (hF : ∀ x ∈ u.spwFreqArray, x ∈ K) (hY : ∀ x ∈ u.spwDlyArray, x ∈ K) :
    downConvert (List.range K.length) u = .ok { u with
      spwArray := List.range K.length, spwFreqArray := u.spwFreqArray.map (rankIn K),
      spwDlyArray := u.spwDlyArray.map (rankIn K) } := by
  have hid : ∀ L : List Nat, L.map (phi K 0) = L := by
    intro L; rw [show phi K 0 = id from funext (phi_zero K)]; simp
  have hend : ∀ L : List Nat, (∀ x ∈ L, x ∈ K) → L.map (phi K K.length) = L.map (rankIn K) := by
    intro L hL; apply List.map_congr_left; intro x hx; simp [phi, (rank_facts hs (hL x hx)).1]
  have := downConvert_aux hs u.spwFreqArray u.spwDlyArray hF hY K.length 0 (by omega) u (by rw [h1, hid]) (hid _).symm
    (hid _).symm
  rw [List.range_eq_range', this, hend K (by simp), hend _ hF, hend _ hY, map_rank hs, List.range_eq_range']

end HeraPspec.UVP
