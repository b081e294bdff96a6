import Verif.Model.RedGroups
import Verif.Props.Antnums
import Verif.Props.Blpairs
import Mathlib.Data.Nat.Digits.Lemmas
import Mathlib.Data.List.Perm.Basic

namespace HeraPspec.RedGroups
open Antnums (Bl Blp)

section
variable {F : Type} [AddCommGroup F] [LinearOrder F] [IsOrderedAddMonoid F]

theorem matches_self (lt at_ : F) (hl : 0 < lt) (ha : 0 < at_) (x : Item F) : matches_ lt at_ x x = true := by
  simp [matches_, hl, ha]

theorem redLoop_perm (lt at_ : F) (hl : 0 < lt) (ha : 0 < at_) (n : Nat) (l : List (Item F)) (h : l.length ≤ n) :
    (redLoop lt at_ n l).flatten.Perm (l.map (·.bl)) := by
  induction n generalizing l with
  | zero => cases l with
    | nil => simp [redLoop]
    | cons x l => simp at h
  | succ n ih => cases l with
    | nil => simp [redLoop]
    | cons x l =>
      simp only [redLoop, List.flatten_cons]
      have hlen : ((x :: l).filter (fun y => !matches_ lt at_ x y)).length ≤ n := by
        rw [List.filter_cons_of_neg (by simp [matches_self lt at_ hl ha x])]
        have := List.length_filter_le (fun y => !matches_ lt at_ x y) l
        simp only [List.length_cons] at h; omega
      have h1 := ih _ hlen
      refine (h1.append_left _).trans ?_
      rw [← List.map_append]
      exact (List.filter_append_perm (matches_ lt at_ x) (x :: l)).map _

/-- Each group is non-empty and its members match its first member. -/
theorem redLoop_close (lt at_ : F) (hl : 0 < lt) (ha : 0 < at_) (n : Nat) (l : List (Item F)) :
    ∀ g ∈ redLoop lt at_ n l, ∃ x ∈ l, ∃ xs : List (Item F), g = x.bl :: xs.map (·.bl) ∧
      (∀ y ∈ xs, y ∈ l ∧ matches_ lt at_ x y = true) := by
  induction n generalizing l with
  | zero => intro g hg; simp [redLoop] at hg
  | succ n ih => cases l with
    | nil => intro g hg; simp [redLoop] at hg
    | cons x l =>
      intro g hg
      simp only [redLoop, List.mem_cons] at hg
      rcases hg with rfl | hg
      · rw [List.filter_cons_of_pos (matches_self lt at_ hl ha x)]
        refine ⟨x, by simp, l.filter (matches_ lt at_ x), by simp, ?_⟩
        intro y hy
        obtain ⟨h1, h2⟩ := List.mem_filter.1 hy
        exact ⟨List.mem_cons_of_mem _ h1, h2⟩
      · obtain ⟨y, hy, xs, hg, hxs⟩ := ih _ g hg
        refine ⟨y, (List.mem_filter.1 hy).1, xs, hg, ?_⟩
        intro z hz
        exact ⟨(List.mem_filter.1 (hxs z hz).1).1, (hxs z hz).2⟩
end

/-! ### `_get_red_blpairs` -/

theorem concatInt_eq (a b : Int) (ha : 0 ≤ a) (hb : 100000 ≤ b) (hb2 : b < 1000000) :
    concatInt a b = a * 1000000 + b := by
  obtain ⟨m, rfl⟩ := Int.eq_ofNat_of_zero_le ha
  obtain ⟨n, rfl⟩ := Int.eq_ofNat_of_zero_le (by omega : 0 ≤ b)
  unfold concatInt
  simp only [Int.toNat_natCast]
  have h1 : (Nat.digits 10 n).length = 6 := by
    have := Nat.lt_digits_length_iff (b := 10) (by norm_num) n (k := 5)
    have := Nat.digits_length_le_iff (b := 10) (by norm_num) n (k := 6)
    omega
  rw [Nat.ofDigits_append, Nat.ofDigits_digits, Nat.ofDigits_digits, h1]
  push_cast; ring

theorem get_foldl_set (g : List Int) (i : Nat) (d : Dict Int Nat) (b : Int) :
    Dict.get (g.foldl (fun d bl => Dict.set d bl i) d) b = if b ∈ g then some i else Dict.get d b := by
  induction g generalizing d with
  | nil => simp
  | cons x g ih =>
    rw [List.foldl_cons, ih, Dict.get_set]
    by_cases h : b ∈ g
    · simp [h]
    · by_cases h2 : x = b
      · subst h2; simp [h]
      · simp [h, h2, Ne.symm h2]

theorem get_groupIdx_aux (l : List (List Int)) (k : Nat) (d : Dict Int Nat) (b : Int)
    (hn : l.flatten.Nodup) :
    Dict.get ((l.zipIdx k).foldl (fun d gi => gi.1.foldl (fun d bl => Dict.set d bl gi.2) d) d) b =
      if b ∈ l.flatten then some (k + l.findIdx (fun g => decide (b ∈ g))) else Dict.get d b := by
  induction l generalizing k d with
  | nil => simp
  | cons g l ih =>
    rw [List.flatten_cons, List.nodup_append] at hn
    rw [List.zipIdx_cons, List.foldl_cons, ih _ _ hn.2.1, get_foldl_set, List.findIdx_cons]
    by_cases hg : b ∈ g
    · have hl : b ∉ l.flatten := fun h => hn.2.2 b hg b h rfl
      rw [if_neg hl]; simp [hg]
    · by_cases hl : b ∈ l.flatten
      · rw [if_pos hl, if_pos (by rw [List.flatten_cons]; exact List.mem_append_right _ hl)]; simp [hg]; omega
      · rw [if_neg hl, if_neg hg, if_neg (by rw [List.flatten_cons, List.mem_append]; tauto)]

theorem get_groupIdx (l : List (List Int)) (b : Int) (hn : l.flatten.Nodup) :
    Dict.get (groupIdx l) b = if b ∈ l.flatten then some (l.findIdx (fun g => decide (b ∈ g))) else none := by
  unfold groupIdx
  rw [get_groupIdx_aux l 0 [] b hn]; simp

/-- With disjoint groups, the group index of `b` is `i` iff `b` is in the `i`-th group. -/
theorem findIdx_iff (l : List (List Int)) (b : Int) (i : Nat) (hn : l.flatten.Nodup)
    (hi : i < l.length) (hb : b ∈ l.flatten) :
    l.findIdx (fun g => decide (b ∈ g)) = i ↔ b ∈ l[i] := by
  induction l generalizing i with
  | nil => simp at hb
  | cons g l ih =>
    rw [List.flatten_cons, List.nodup_append] at hn
    rw [List.findIdx_cons]
    by_cases hg : b ∈ g
    · cases i with
      | zero => simp [hg]
      | succ i =>
        simp only [hg, decide_true, cond_true, List.getElem_cons_succ]
        constructor
        · intro h; omega
        · intro h
          exact absurd rfl (hn.2.2 b hg b (List.mem_flatten.2 ⟨_, List.getElem_mem _, h⟩))
    · have hl : b ∈ l.flatten := by
        rw [List.flatten_cons, List.mem_append] at hb; tauto
      cases i with
      | zero => simp [hg]
      | succ i =>
        simp only [hg, decide_false, cond_false, List.getElem_cons_succ]
        rw [← ih i hn.2.1 (by simpa using hi) hl]; omega

theorem lookupAll_ok (d : Dict Int Nat) (bs : List Int) (f : Int → Nat) (h : ∀ b ∈ bs, Dict.get d b = some (f b)) :
    lookupAll d bs = .ok (bs.map f) := by
  induction bs with
  | nil => rfl
  | cons b bs ih =>
    unfold lookupAll
    rw [h b (by simp)]
    simp only
    rw [ih (fun x hx => h x (by simp [hx]))]
    rfl

theorem lookupAll_error (d : Dict Int Nat) (bs : List Int) (b : Int) (hb : b ∈ bs) (h : Dict.get d b = none) :
    lookupAll d bs = .error .key := by
  induction bs with
  | nil => simp at hb
  | cons x bs ih =>
    unfold lookupAll
    cases hx : Dict.get d x with
    | none => rfl
    | some i =>
      simp only
      rcases List.mem_cons.1 hb with rfl | hb
      · rw [hx] at h; cases h
      · rw [ih hb]

theorem zip4_map {α : Type} (l : List α) (f g : α → Int) (u v : α → Nat) (i : Nat) :
    ((((l.map f).zip (l.map g)).zip ((l.map u).zip (l.map v))).filter (fun x => x.2.1 = i ∧ x.2.2 = i)).map
      (fun x => concatInt x.1.1 x.1.2) = (l.filter (fun a => u a = i ∧ v a = i)).map (fun a => concatInt (f a) (g a)) := by
  induction l with
  | nil => rfl
  | cons a l ih =>
    simp only [List.map_cons, List.zip_cons_cons]
    by_cases h : u a = i ∧ v a = i
    · rw [List.filter_cons_of_pos (by simpa using h), List.filter_cons_of_pos (by simpa using h)]
      simp only [List.map_cons, ih]
    · rw [List.filter_cons_of_neg (by simpa using h), List.filter_cons_of_neg (by simpa using h)]
      exact ih

/-! ### `get_blvec_reds` -/
section
variable {K V : Type} (close : V → V → Bool)

theorem insertFirst_perm (k : K) (v : V) (gs : List (V × List K)) :
    ((insertFirst close k v gs).map (·.2)).flatten.Perm (k :: (gs.map (·.2)).flatten) := by
  induction gs with
  | nil => simp [insertFirst]
  | cons g gs ih =>
    obtain ⟨u, ks⟩ := g
    unfold insertFirst
    split
    · simp only [List.map_cons, List.flatten_cons]
      rw [List.append_assoc]
      exact List.perm_middle
    · simp only [List.map_cons, List.flatten_cons]
      exact (ih.append_left ks).trans List.perm_middle

/-- Invariant: each group is headed by a baseline with the group's vector, all later members are close to it, and all
members come from the input. -/
def GInv (done : List (K × V)) (gs : List (V × List K)) : Prop :=
  ∀ g ∈ gs, ∃ k ks, g.2 = k :: ks ∧ (k, g.1) ∈ done ∧ ∀ x ∈ ks, ∃ v, (x, v) ∈ done ∧ close g.1 v = true

theorem GInv_mono (done done' : List (K × V)) (gs : List (V × List K)) (h : GInv close done gs)
    (hs : done ⊆ done') : GInv close done' gs := by
  intro g hg
  obtain ⟨k, ks, h1, h2, h3⟩ := h g hg
  refine ⟨k, ks, h1, hs h2, fun x hx => ?_⟩
  obtain ⟨v, hv, hc⟩ := h3 x hx
  exact ⟨v, hs hv, hc⟩

theorem insertFirst_inv (done : List (K × V)) (k : K) (v : V) (hk : (k, v) ∈ done) (gs : List (V × List K))
    (h : GInv close done gs) : GInv close done (insertFirst close k v gs) := by
  induction gs with
  | nil =>
    intro g hg
    simp only [insertFirst, List.mem_singleton] at hg; subst hg
    exact ⟨k, [], rfl, hk, by simp⟩
  | cons g0 gs ih =>
    obtain ⟨u, ks0⟩ := g0
    have hgs : GInv close done gs := fun g hg => h g (List.mem_cons_of_mem _ hg)
    unfold insertFirst
    split
    · rename_i hc
      intro g hg
      rcases List.mem_cons.1 hg with rfl | hg
      · obtain ⟨k', ks', h1, h2, h3⟩ := h (u, ks0) (by simp)
        refine ⟨k', ks' ++ [k], by simp only [] at h1 ⊢; rw [h1]; rfl, h2, ?_⟩
        intro x hx
        rcases List.mem_append.1 hx with hx | hx
        · exact h3 x hx
        · rw [List.mem_singleton] at hx; subst hx; exact ⟨v, hk, hc⟩
      · exact hgs g hg
    · intro g hg
      rcases List.mem_cons.1 hg with rfl | hg
      · exact h _ (by simp)
      · exact ih hgs g hg

theorem blvec_fold (l done : List (K × V)) (gs : List (V × List K)) (h : GInv close done gs)
    (hp : (gs.map (·.2)).flatten.Perm (done.map (·.1))) :
    GInv close (done ++ l) (l.foldl (fun gs e => insertFirst close e.1 e.2 gs) gs) ∧
    ((l.foldl (fun gs e => insertFirst close e.1 e.2 gs) gs).map (·.2)).flatten.Perm ((done ++ l).map (·.1)) := by
  induction l generalizing done gs with
  | nil => simpa using ⟨h, hp⟩
  | cons e l ih =>
    have h1 : GInv close (done ++ [e]) (insertFirst close e.1 e.2 gs) :=
      insertFirst_inv close (done ++ [e]) e.1 e.2 (by simp) gs (GInv_mono close done _ gs h (by simp))
    have h2 : ((insertFirst close e.1 e.2 gs).map (·.2)).flatten.Perm ((done ++ [e]).map (·.1)) := by
      refine (insertFirst_perm close e.1 e.2 gs).trans ?_
      rw [List.map_append, List.map_singleton]
      exact (hp.cons e.1).trans (List.perm_append_singleton _ _).symm
    have := ih (done ++ [e]) _ h1 h2
    simpa using this
end

/-! ### calc_blpair_reds -/

theorem flagXants_mem (ants : List Int) (bls : List Bl) (good : Bl → Bool) (ia ic : Bool) (a : Int) :
    a ∈ flagXants ants bls good ia ic ↔ a ∈ ants ∧ ∀ bl ∈ bls, good bl = true →
      (bl.1 = bl.2 → ia = true) → (bl.1 ≠ bl.2 → ic = true) → a ≠ bl.1 ∧ a ≠ bl.2 := by
  unfold flagXants
  induction bls generalizing ants with
  | nil => simp
  | cons b bls ih =>
    rw [List.foldl_cons, ih]
    simp only [List.forall_mem_cons]
    by_cases hskip : (!ia && b.1 == b.2) || (!ic && b.1 != b.2)
    · rw [if_pos hskip]
      simp only [Bool.or_eq_true, Bool.and_eq_true, Bool.not_eq_true', beq_iff_eq, bne_iff_ne] at hskip
      constructor
      · rintro ⟨h1, h2⟩
        refine ⟨h1, ?_, h2⟩
        intro _ e1 e2
        rcases hskip with ⟨h3, h4⟩ | ⟨h3, h4⟩
        · rw [e1 h4] at h3; cases h3
        · rw [e2 h4] at h3; cases h3
      · rintro ⟨h1, -, h2⟩; exact ⟨h1, h2⟩
    · rw [if_neg hskip]
      simp only [Bool.or_eq_true, Bool.and_eq_true, Bool.not_eq_true', beq_iff_eq, bne_iff_ne, not_or, not_and,
        Bool.not_eq_false] at hskip
      by_cases hg : good b
      · rw [if_pos hg]
        rw [List.mem_filter]
        simp only [decide_eq_true_eq]
        constructor
        · rintro ⟨⟨h1, h2⟩, h3⟩
          exact ⟨h1, fun _ _ _ => h2, h3⟩
        · rintro ⟨h1, h2, h3⟩
          refine ⟨⟨h1, h2 hg ?_ ?_⟩, h3⟩
          · intro h; by_contra hc; exact hskip.1 (by simpa using hc) h
          · intro h; by_contra hc; exact hskip.2 (by simpa using hc) h
      · rw [if_neg hg]
        constructor
        · rintro ⟨h1, h2⟩; exact ⟨h1, fun h => absurd h hg, h2⟩
        · rintro ⟨h1, -, h2⟩; exact ⟨h1, h2⟩

theorem getReds_mem (posReds : List (List Bl)) (keep : List Bl → Bool) (ants : List Int) (aa ao : Bool)
    (xants : List Int) (r : List Bl) (hr : r ∈ getReds posReds keep ants aa ao xants) :
    r ≠ [] ∧ (∀ bl ∈ r, bl.1 ∉ xants ∧ bl.2 ∉ xants) := by
  unfold getReds at hr
  simp only [List.mem_filter, List.mem_map, decide_eq_true_eq] at hr
  obtain ⟨⟨r0, -, rfl⟩, hpos⟩ := hr
  refine ⟨fun h => by rw [h] at hpos; simp at hpos, ?_⟩
  intro bl hbl
  simpa using (List.mem_filter.1 hbl).2

/-- Membership in the output of the loop. -/
theorem calcPairs_spec (fb ea ec ep : Bool) (a1 a2 : List Bl) (rs : List (List Bl)) (j : Nat)
    (out : List ((Bl × Bl) × Nat)) (h : calcPairs fb ea ec ep a1 a2 rs j = .ok out) :
    ∀ p i, (p, i) ∈ out ↔ ∃ k r, i = j + k ∧ rs[k]? = some r ∧
      ∃ blps, groupPairs fb ea ec ep a1 a2 r = .ok blps ∧ p ∈ blps := by
  induction rs generalizing j out with
  | nil => simp only [calcPairs, Except.ok.injEq] at h; subst h; simp
  | cons r rs ih =>
    unfold calcPairs at h
    cases hg : groupPairs fb ea ec ep a1 a2 r with
    | error e => rw [hg] at h; cases h
    | ok blps =>
      rw [hg] at h
      simp only at h
      cases hr : calcPairs fb ea ec ep a1 a2 rs (j + 1) with
      | error e => rw [hr] at h; cases h
      | ok rest =>
        rw [hr] at h
        simp only [Except.ok.injEq] at h
        subst h
        intro p i
        rw [List.mem_append, ih _ _ hr]
        constructor
        · rintro (h | ⟨k, r', hi, hk, hb⟩)
          · obtain ⟨q, hq, e⟩ := List.mem_map.1 h
            cases e
            exact ⟨0, r, by omega, by simp, blps, hg, hq⟩
          · exact ⟨k + 1, r', by omega, by simpa using hk, hb⟩
        · rintro ⟨k, r', hi, hk, b, hb, hp⟩
          cases k with
          | zero =>
            left
            simp only [List.getElem?_cons_zero, Option.some.injEq] at hk; subst hk
            rw [hg] at hb; cases hb
            exact List.mem_map.2 ⟨p, hp, by rw [hi]; rfl⟩
          | succ k => right; exact ⟨k, r', by omega, by simpa using hk, b, hb, hp⟩

theorem calcPairs_ok (fb ea ec ep : Bool) (a1 a2 : List Bl) (rs : List (List Bl)) (j : Nat)
    (hx : ¬ (ea = true ∧ ec = true)) (hne : ∀ r ∈ rs, r ≠ []) :
    ∃ out, calcPairs fb ea ec ep a1 a2 rs j = .ok out := by
  induction rs generalizing j with
  | nil => exact ⟨[], rfl⟩
  | cons r rs ih =>
    obtain ⟨out, ho⟩ := ih (j + 1) (fun r hr => hne r (by simp [hr]))
    have : ∃ blps, groupPairs fb ea ec ep a1 a2 r = .ok blps := by
      unfold groupPairs Blpairs.construct
      rw [if_neg (hne r (by simp)), if_neg hx]
      simp only
      split <;> exact ⟨_, rfl⟩
    obtain ⟨b, hb⟩ := this
    refine ⟨_, by unfold calcPairs; rw [hb]; simp only; rw [ho]⟩

end HeraPspec.RedGroups
