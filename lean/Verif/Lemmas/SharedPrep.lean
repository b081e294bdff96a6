import Verif.Model.SharedPrep
import Verif.Props.Flags
import Verif.Props.Rephase
import Verif.Props.JyMk
import Verif.Props.Times

/-! Lemmas for C162. -/
namespace HeraPspec.Shared
open HeraPspec.Labels (Mem)

/-! ### Flags -/
section flags
open HeraPspec.Flags

theorem bcastSpw_outside (S : Shape) (thr : ℚ) (w : ℕ × ℕ) (F : Arr) {r f p : ℕ}
    (h : ¬ (r < S.base.length ∧ f < S.nf ∧ p < S.npol)) : bcastSpw S thr F w r f p = F r f p := by
  unfold bcastSpw
  have key : ∀ (L : List (ℕ × ℕ)) (F : Arr), (∀ x ∈ L, x.1 < S.npol) → L.foldl (bcastOne S thr w) F r f p = F r f p := by
    intro L
    induction L with
    | nil => intro F _; rfl
    | cons x L ih =>
      intro F hx
      rw [List.foldl_cons, ih _ (fun y hy => hx y (List.mem_cons_of_mem _ hy))]
      unfold bcastOne
      have h1 := hx x (by simp)
      by_cases hp : p = x.1
      · by_cases hr : r ∈ rowsOf S x.2
        · have hr' : r < S.base.length := by
            have := mem_rowsOf.1 hr
            exact (List.getElem?_eq_some_iff.1 this).1
          have hf : ¬ f < S.nf := fun hf => h ⟨hr', hf, hp ▸ h1⟩
          have hc : f ∉ chans S w := by rw [mem_chans]; exact fun hh => hf hh.1
          have he : exceeds S F x.1 x.2 thr f = false := by unfold exceeds; simp [hf]
          simp [hc, he]
        · simp [hr]
      · simp [hp]
  apply key
  intro x hx
  obtain ⟨p', bl⟩ := x
  exact (mem_work.1 hx).1

theorem sameBl_self {S : Shape} {r : ℕ} (hr : r < S.base.length) : SameBl S r r := ⟨hr, rfl⟩

theorem live_sameBl {S : Shape} {F : Arr} {p r r' : ℕ} (h : SameBl S r r') : live S F p r' = live S F p r := by
  unfold live SameBl
  ext x
  simp only [Finset.mem_filter, h.2]

/-- Broadcasting over the whole band a second time changes nothing. -/
theorem broadcast_idem (S : Shape) (h1 : 0 < S.nf) (h2 : S.nf ≤ 1000000) (thr : ℚ) (F G : Arr)
    (h : broadcast S thr false [(0, S.nf)] F = some G) : broadcast S thr false [(0, S.nf)] G = some G := by
  classical
  have hs : broadcast S thr false [(0, S.nf)] G = some (bcastSpw S thr G (0, S.nf)) := by
    unfold broadcast at h ⊢
    rw [if_neg (by simp)] at h ⊢
    split at h
    · cases h
    · rename_i hw
      rw [if_neg hw]
      rfl
  rw [hs]
  congr 1
  have hmono : ∀ r f p, F r f p = true → G r f p = true := fun r f p hh => C58_never_unflags S thr _ F G h r f p hh
  have hG := C58_one_window S h1 h2 thr (0, S.nf) F G h
  have hG2 := C58_one_window S h1 h2 thr (0, S.nf) G _ hs
  funext r f p
  by_cases hin : r < S.base.length ∧ f < S.nf ∧ p < S.npol
  swap
  · exact bcastSpw_outside S thr _ G hin
  obtain ⟨hr, hf, hp⟩ := hin
  -- a live row of G holds only flags of channels above the threshold
  have hlive : ∀ r', SameBl S r r' → ¬ FullRow S G p r' → ∀ f', f' < S.nf → (G r' f' p = true ↔ Above S F p r thr f') := by
    intro r' hsb hnf f' hf'
    have hab : Above S F p r' thr f' ↔ Above S F p r thr f' := by
      unfold Above
      rw [live_sameBl hsb]
    rw [hG r' f' p hsb.1 hf' hp, hab]
    constructor
    · rintro (hF | hA | ⟨_, g, hg, _, hFg, hA⟩)
      · by_contra hA
        apply hnf
        intro g hg
        rw [hG r' g p hsb.1 hg hp]
        refine Or.inr (Or.inr ⟨⟨Nat.zero_le _, hg⟩, f', hf', ⟨Nat.zero_le _, hf'⟩, hF, ?_⟩)
        rw [hab]; exact hA
      · exact hA
      · exact (hnf (fun g' hg' => (hG r' g' p hsb.1 hg' hp).2 (Or.inr (Or.inr ⟨⟨Nat.zero_le _, hg'⟩, g, hg, ‹_›, hFg, hA⟩)))).elim
    · exact fun hA => Or.inr (Or.inl hA)
  have hmem : ∀ x, x ∈ live S G p r ↔ x < S.base.length ∧ SameBl S r x ∧ ¬ FullRow S G p x := by
    intro x; unfold live; simp
  have hsub : (live S G p r).Nonempty → (live S F p r).Nonempty := by
    rintro ⟨x, hx⟩
    obtain ⟨a1, a2, a3⟩ := (hmem x).1 hx
    refine ⟨x, ?_⟩
    unfold live
    rw [Finset.mem_filter]
    exact ⟨Finset.mem_range.2 a1, a2, fun hh => a3 (fun g hg => hmono _ _ _ (hh g hg))⟩
  have hfilt : ∀ f', f' < S.nf → (live S G p r).filter (fun r' => G r' f' p = true) =
      if Above S F p r thr f' then live S G p r else ∅ := by
    intro f' hf'
    split
    · rename_i hA
      rw [Finset.filter_true_of_mem]
      intro x hx
      obtain ⟨_, a2, a3⟩ := (hmem x).1 hx
      exact (hlive x a2 a3 f' hf').2 hA
    · rename_i hA
      rw [Finset.filter_false_of_mem]
      intro x hx
      obtain ⟨_, a2, a3⟩ := (hmem x).1 hx
      exact fun hh => hA ((hlive x a2 a3 f' hf').1 hh)
  -- channels above the threshold now were above it before
  have hAG : ∀ f', f' < S.nf → Above S G p r thr f' → Above S F p r thr f' := by
    intro f' hf' hA
    obtain ⟨hne, hlt⟩ := hA
    by_contra hn
    rw [hfilt f' hf', if_neg hn] at hlt
    simp only [Finset.card_empty, Nat.cast_zero, zero_div] at hlt
    apply hn
    refine ⟨hsub hne, lt_of_lt_of_le hlt ?_⟩
    positivity
  have goal : bcastSpw S thr G (0, S.nf) r f p = true ↔ G r f p = true := by
    rw [hG2 r f p hr hf hp]
    constructor
    · rintro (hh | hA | ⟨_, g, hg, _, hGg, hnA⟩)
      · exact hh
      · rw [hG r f p hr hf hp]
        exact Or.inr (Or.inl (hAG f hf hA))
      · by_cases hfull : FullRow S G p r
        · exact hfull f hf
        · exfalso
          have hA := (hlive r (sameBl_self hr) hfull g hg).1 hGg
          have hmr : r ∈ live S G p r := (hmem r).2 ⟨hr, sameBl_self hr, hfull⟩
          have hne : (live S G p r).Nonempty := ⟨r, hmr⟩
          apply hnA
          refine ⟨hne, ?_⟩
          rw [hfilt g hg, if_pos hA]
          have hc : ((live S G p r).card : ℚ) ≠ 0 := by
            have := Finset.card_pos.2 hne
            positivity
          rw [div_self hc]
          refine lt_of_lt_of_le hA.2 ?_
          have hc' : (0 : ℚ) < (live S F p r).card := by
            have := Finset.card_pos.2 hA.1
            exact_mod_cast this
          rw [div_le_one hc']
          exact_mod_cast Finset.card_filter_le _ _
    · exact fun hh => Or.inl hh
  cases hx : bcastSpw S thr G (0, S.nf) r f p <;> cases hy : G r f p <;> simp [hx, hy] at goal ⊢

theorem unflag_idem (S : Shape) (thr : ℚ) (ws : List (ℕ × ℕ)) (F G : Arr) (h : broadcast S thr true ws F = some G) :
    broadcast S thr true ws G = some G := by
  have key : ∀ (ws : List (ℕ × ℕ)) (F : Arr) (r f p : ℕ), ws.foldl unflagSpw F r f p =
      if ∃ w ∈ ws, w.1 ≤ f ∧ f < w.2 then false else F r f p := by
    intro ws
    induction ws with
    | nil => intro F r f p; simp
    | cons w ws ih =>
      intro F r f p
      rw [List.foldl_cons, ih]
      unfold unflagSpw
      by_cases h1 : ∃ v ∈ ws, v.1 ≤ f ∧ f < v.2
      · rw [if_pos h1, if_pos]
        obtain ⟨v, hv, hh⟩ := h1
        exact ⟨v, List.mem_cons_of_mem _ hv, hh⟩
      · rw [if_neg h1]
        by_cases h2 : w.1 ≤ f ∧ f < w.2
        · rw [if_pos h2, if_pos ⟨w, by simp, h2⟩]
        · rw [if_neg h2, if_neg]
          rintro ⟨v, hv, hh⟩
          rcases List.mem_cons.1 hv with e | hv
          · exact h2 (e ▸ hh)
          · exact h1 ⟨v, hv, hh⟩
  unfold broadcast at h ⊢
  rw [if_pos rfl] at h ⊢
  cases h
  congr 1
  funext r f p
  rw [key, key]
  split <;> rfl

end flags

/-! ### The loop -/

/-- Apply a step `n` times. -/
def again {D : Type} (f : D → Option D) : ℕ → D → Option D
  | 0, d => some d
  | n + 1, d => (f d).bind (again f n)

theorem again_fixed {D : Type} {f : D → Option D} {d e : D} (h1 : f d = some e) (h2 : f e = some e) (n : ℕ) :
    again f (n + 1) d = some e := by
  have : ∀ n, again f n e = some e := by
    intro n
    induction n with
    | zero => rfl
    | succ n ih => rw [again, h2]; exact ih
  rw [again, h1]
  exact this n

theorem positions_snd (refs : List ℕ) : (positions refs).map Prod.snd = refs := by
  unfold positions
  rw [List.map_snd_zip]
  simp

theorem each_again {D : Type} (f : D → Option D) (L : List (ℕ × ℕ)) (m m' : Mem D)
    (h : each (fun _ => f) m L = (m', true)) : ∀ a, again f ((L.map Prod.snd).count a) (m a) = some (m' a) := by
  induction L generalizing m with
  | nil =>
    simp only [each, Prod.mk.injEq, and_true] at h
    intro a; simp [again, h]
  | cons x L ih =>
    obtain ⟨i, b⟩ := x
    rw [each] at h
    split at h
    · simp at h
    · rename_i d hd
      intro a
      have := ih _ h a
      by_cases hab : b = a
      · subst hab
        rw [Function.update_self] at this
        simp only [List.map_cons, List.count_cons_self, again, hd]
        exact this
      · rw [Function.update_of_ne (fun e => hab e.symm)] at this
        rw [List.map_cons, List.count_cons_of_ne hab]
        exact this

/-- The number of positions other than `k` at which `a` sits. -/
theorem count_eraseIdx (refs : List ℕ) (k a : ℕ) :
    (positions refs).countP (fun x => decide (x.2 = a ∧ x.1 ≠ k)) = (refs.eraseIdx k).count a := by
  have key : ∀ (refs : List ℕ) (j k : ℕ), ((List.range' j refs.length).zip refs).countP (fun x => decide (x.2 = a ∧ x.1 ≠ k + j)) =
      (refs.eraseIdx k).count a := by
    intro refs
    induction refs with
    | nil => intro j k; simp
    | cons b refs ih =>
      intro j k
      rw [List.length_cons, List.range'_succ, List.zip_cons_cons, List.countP_cons]
      cases k with
      | zero =>
        simp only [Nat.zero_add, ne_eq, not_true_eq_false, and_false, decide_false, Bool.false_eq_true, if_false, Nat.add_zero,
          List.eraseIdx_cons_zero]
        have : ∀ (l : List ℕ) (s : ℕ), j < s → ((List.range' s l.length).zip l).countP (fun x => decide (x.2 = a ∧ ¬ x.1 = j)) = l.count a := by
          intro l
          induction l with
          | nil => intro s _; simp
          | cons c l ihl =>
            intro s hs
            rw [List.length_cons, List.range'_succ, List.zip_cons_cons, List.countP_cons, ihl (s + 1) (by omega), List.count_cons]
            have hne : ¬ s = j := by omega
            simp [hne]
        exact this refs (j + 1) (by omega)
      | succ k =>
        rw [List.eraseIdx_cons_succ, List.count_cons]
        have e := ih (j + 1) k
        have e2 : k + (j + 1) = k + 1 + j := by omega
        rw [e2] at e
        rw [e]
        have hne : ¬ j = k + 1 + j := by omega
        simp [hne]
  have := key refs 0 k
  unfold positions
  rw [List.range_eq_range']
  simpa using this

end HeraPspec.Shared
