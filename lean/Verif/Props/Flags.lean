import Verif.Spec.Flags
import Mathlib.Tactic.Linarith
import Mathlib.Tactic.FieldSimp
import Mathlib.Data.Finset.Dedup
import Mathlib.Data.List.Nodup
import Mathlib.Data.List.Range
import Mathlib.Data.List.ProdSigma

/-!
C58: `broadcast_dset_flags`.
-/
namespace HeraPspec.Flags

theorem mem_rowsOf {S : Shape} {bl r : ℕ} : r ∈ rowsOf S bl ↔ S.base[r]? = some bl := by
  unfold rowsOf
  simp only [List.mem_filter, List.mem_range, beq_iff_eq, and_iff_right_iff_imp]
  intro h
  exact (List.getElem?_eq_some_iff.1 h).1

theorem mem_chans {S : Shape} {w : ℕ × ℕ} {f : ℕ} : f ∈ chans S w ↔ f < S.nf ∧ InWin w f := by
  unfold chans InWin
  simp

/-- Two arrays agree on a baseline and polarization. -/
def Agree (S : Shape) (p bl : ℕ) (F G : Arr) : Prop := ∀ r ∈ rowsOf S bl, ∀ f, F r f p = G r f p

theorem contig_congr {S : Shape} {p bl : ℕ} {F G : Arr} (h : Agree S p bl F G) {r : ℕ} (hr : r ∈ rowsOf S bl) :
    contig S F p r = contig S G p r := by
  unfold contig rowCount
  simp only [h r hr]

theorem nonContig_congr {S : Shape} {p bl : ℕ} {F G : Arr} (h : Agree S p bl F G) : nonContig S F p bl = nonContig S G p bl := by
  unfold nonContig
  apply List.filter_congr
  intro r hr
  rw [contig_congr h hr]

theorem exceeds_congr {S : Shape} {p bl : ℕ} {F G : Arr} (h : Agree S p bl F G) (thr : ℚ) (f : ℕ) :
    exceeds S F p bl thr f = exceeds S G p bl thr f := by
  unfold exceeds
  rw [nonContig_congr h]
  have : (nonContig S G p bl).filter (fun r => F r f p) = (nonContig S G p bl).filter (fun r => G r f p) := by
    apply List.filter_congr
    intro r hr
    exact h r (List.mem_filter.1 hr).1 f
  rw [this]

theorem flagInt_congr {S : Shape} {p bl : ℕ} {F G : Arr} (h : Agree S p bl F G) (thr : ℚ) (w : ℕ × ℕ) {r : ℕ} (hr : r ∈ rowsOf S bl) :
    flagInt S F p bl thr w r = flagInt S G p bl thr w r := by
  unfold flagInt
  simp only [h r hr, exceeds_congr h]

theorem bcastOne_congr {S : Shape} {p bl : ℕ} {F G : Arr} (h : Agree S p bl F G) (thr : ℚ) (w : ℕ × ℕ) {r : ℕ} (hr : r ∈ rowsOf S bl)
    (f : ℕ) : bcastOne S thr w F (p, bl) r f p = bcastOne S thr w G (p, bl) r f p := by
  unfold bcastOne
  simp only [h r hr, exceeds_congr h, flagInt_congr h thr w hr]

theorem agree_other {S : Shape} {p bl : ℕ} (F : Arr) (thr : ℚ) (w : ℕ × ℕ) (x : ℕ × ℕ) (hx : x ≠ (p, bl)) :
    Agree S p bl (bcastOne S thr w F x) F := by
  intro r hr f
  unfold bcastOne
  have : (decide (p = x.1) && decide (r ∈ rowsOf S x.2)) = false := by
    rw [Bool.and_eq_false_iff, decide_eq_false_iff_not, decide_eq_false_iff_not]
    by_cases h1 : p = x.1
    · right
      intro h2
      rw [mem_rowsOf] at hr h2
      rw [hr] at h2
      exact hx (Prod.ext h1.symm (Option.some.inj h2).symm)
    · exact Or.inl h1
  rw [this]
  simp

theorem foldl_bcast {S : Shape} (thr : ℚ) (w : ℕ × ℕ) (p bl : ℕ) (L : List (ℕ × ℕ)) : ∀ (F : Arr), L.Nodup → ∀ r ∈ rowsOf S bl, ∀ f,
    L.foldl (bcastOne S thr w) F r f p = if (p, bl) ∈ L then bcastOne S thr w F (p, bl) r f p else F r f p := by
  induction L with
  | nil => intro F _ r _ f; simp
  | cons x L ih =>
    intro F hn r hr f
    rw [List.nodup_cons] at hn
    rw [List.foldl_cons, ih _ hn.2 r hr f]
    by_cases hx : x = (p, bl)
    · subst hx
      rw [if_neg hn.1, if_pos List.mem_cons_self]
    · have ha := agree_other (S := S) F thr w x hx
      by_cases hm : (p, bl) ∈ L
      · rw [if_pos hm, if_pos (List.mem_cons_of_mem _ hm)]
        exact bcastOne_congr ha thr w hr f
      · rw [if_neg hm, if_neg (by simp [hm, Ne.symm hx])]
        exact ha r hr f

theorem work_nodup (S : Shape) : (work S).Nodup := by
  unfold work
  rw [List.nodup_flatMap]
  refine ⟨?_, ?_⟩
  · intro p _
    exact S.base.nodup_dedup.map (fun a b h => (Prod.mk.inj h).2)
  · refine List.nodup_range.imp ?_
    intro a b hab
    show List.Disjoint _ _
    intro x hx hy
    obtain ⟨_, -, rfl⟩ := List.mem_map.1 hx
    obtain ⟨_, -, h⟩ := List.mem_map.1 hy
    exact hab (Prod.mk.inj h).1.symm

theorem mem_work {S : Shape} {p bl : ℕ} : (p, bl) ∈ work S ↔ p < S.npol ∧ bl ∈ S.base := by
  unfold work
  simp only [List.mem_flatMap, List.mem_range, List.mem_map, List.mem_dedup, Prod.mk.injEq]
  constructor
  · rintro ⟨a, h1, b, h2, rfl, rfl⟩; exact ⟨h1, h2⟩
  · rintro ⟨h1, h2⟩; exact ⟨p, h1, bl, h2, rfl, rfl⟩

theorem bcastSpw_apply {S : Shape} (thr : ℚ) (F : Arr) (w : ℕ × ℕ) {r bl p : ℕ} (hr : S.base[r]? = some bl) (hp : p < S.npol) (f : ℕ) :
    bcastSpw S thr F w r f p = (F r f p || (exceeds S F p bl thr f || (flagInt S F p bl thr w r && decide (f ∈ chans S w)))) := by
  unfold bcastSpw
  rw [foldl_bcast thr w p bl (work S) F (work_nodup S) r (mem_rowsOf.2 hr) f,
    if_pos (mem_work.2 ⟨hp, List.mem_of_getElem? hr⟩)]
  unfold bcastOne
  simp [mem_rowsOf.2 hr]

theorem bcastOne_mono (S : Shape) (thr : ℚ) (w : ℕ × ℕ) (F : Arr) (x : ℕ × ℕ) (r f q : ℕ) (h : F r f q = true) :
    bcastOne S thr w F x r f q = true := by
  unfold bcastOne; rw [h]; rfl

theorem bcastSpw_mono (S : Shape) (thr : ℚ) (F : Arr) (w : ℕ × ℕ) (r f q : ℕ) (h : F r f q = true) : bcastSpw S thr F w r f q = true := by
  unfold bcastSpw
  generalize work S = L
  induction L generalizing F with
  | nil => exact h
  | cons x L ih => exact ih _ (bcastOne_mono S thr w F x r f q h)

/-! ### The threshold -/

theorem contig_iff {S : Shape} (h1 : 0 < S.nf) (h2 : S.nf ≤ 1000000) (F : Arr) (p r : ℕ) : contig S F p r = true ↔ FullRow S F p r := by
  unfold contig
  rw [decide_eq_true_eq]
  have hle : rowCount S F p r ≤ S.nf := by
    unfold rowCount
    exact (List.length_filter_le _ _).trans (by simp)
  have hfull : rowCount S F p r = S.nf ↔ FullRow S F p r := by
    unfold rowCount FullRow
    have := List.length_filter_eq_length_iff (p := fun f => F r f p) (l := List.range S.nf)
    rw [List.length_range] at this
    rw [this]
    simp
  rw [← hfull]
  have hpos : (0 : ℚ) < S.nf := by exact_mod_cast h1
  have hq : (S.nf : ℚ) ≤ 1000000 := by exact_mod_cast h2
  rw [gt_iff_lt, lt_div_iff₀ hpos]
  constructor
  · intro h
    by_contra hc
    have : rowCount S F p r + 1 ≤ S.nf := by omega
    have : (rowCount S F p r : ℚ) + 1 ≤ S.nf := by exact_mod_cast this
    linarith
  · intro h
    rw [h]
    linarith

theorem live_eq {S : Shape} (h1 : 0 < S.nf) (h2 : S.nf ≤ 1000000) (F : Arr) (p : ℕ) {r bl : ℕ} (hr : S.base[r]? = some bl) :
    live S F p r = (nonContig S F p bl).toFinset := by
  ext r'
  unfold live nonContig SameBl
  simp only [Finset.mem_filter, Finset.mem_range, List.mem_toFinset, List.mem_filter, mem_rowsOf, Bool.not_eq_true',
    ← contig_iff h1 h2, hr, Bool.not_eq_true]
  constructor
  · rintro ⟨-, ⟨-, h3⟩, h4⟩; exact ⟨h3, h4⟩
  · rintro ⟨h3, h4⟩
    have := (List.getElem?_eq_some_iff.1 h3).1
    exact ⟨this, ⟨this, h3⟩, h4⟩

theorem nonContig_nodup (S : Shape) (F : Arr) (p bl : ℕ) : (nonContig S F p bl).Nodup :=
  (List.nodup_range.filter _).filter _

theorem exceeds_iff {S : Shape} (h1 : 0 < S.nf) (h2 : S.nf ≤ 1000000) (F : Arr) (p : ℕ) {r bl : ℕ} (hr : S.base[r]? = some bl) (thr : ℚ)
    {f : ℕ} (hf : f < S.nf) : exceeds S F p bl thr f = true ↔ Above S F p r thr f := by
  unfold exceeds Above
  rw [live_eq h1 h2 F p hr]
  have hn := nonContig_nodup S F p bl
  have e1 : (nonContig S F p bl).toFinset.card = (nonContig S F p bl).length := List.toFinset_card_of_nodup hn
  have e2 : ((nonContig S F p bl).toFinset.filter (fun r' => F r' f p = true)).card =
      ((nonContig S F p bl).filter (fun r => F r f p)).length := by
    rw [← List.toFinset_filter, List.toFinset_card_of_nodup (hn.filter _)]
  rw [e1, e2]
  simp only [Bool.and_eq_true, decide_eq_true_eq, hf, true_and, Bool.not_eq_true', List.isEmpty_eq_false_iff, gt_iff_lt]
  rw [List.toFinset_nonempty_iff]

/-! ### C58 -/

/-- C58, exact result for one window. A pixel ends up flagged exactly if it was flagged, or its channel is above the threshold
(among the integrations of its baseline that are not entirely flagged), or it lies in the window and its integration was flagged
in some channel of the window that is not above the threshold. (Bands of at most a million channels, so that the "more than
0.999999 flagged" of the code means "entirely flagged".) -/
theorem C58_one_window (S : Shape) (h1 : 0 < S.nf) (h2 : S.nf ≤ 1000000) (thr : ℚ) (w : ℕ × ℕ) (F G : Arr)
    (h : broadcast S thr false [w] F = some G) (r f p : ℕ) (hr : r < S.base.length) (hf : f < S.nf) (hp : p < S.npol) :
    G r f p = true ↔ F r f p = true ∨ Above S F p r thr f ∨
      (InWin w f ∧ ∃ f', f' < S.nf ∧ InWin w f' ∧ F r f' p = true ∧ ¬ Above S F p r thr f') := by
  unfold broadcast at h
  rw [if_neg (by simp)] at h
  split at h
  · cases h
  · cases h
    have hb : S.base[r]? = some (S.base[r]) := List.getElem?_eq_getElem hr
    show bcastSpw S thr F w r f p = true ↔ _
    rw [bcastSpw_apply thr F w hb hp f, Bool.or_eq_true, Bool.or_eq_true, exceeds_iff h1 h2 F p hb thr hf, Bool.and_eq_true,
      decide_eq_true_eq, mem_chans]
    have hfi : flagInt S F p S.base[r] thr w r = true ↔ ∃ f', f' < S.nf ∧ InWin w f' ∧ F r f' p = true ∧ ¬ Above S F p r thr f' := by
      unfold flagInt
      rw [List.any_eq_true]
      constructor
      · rintro ⟨f', ha, hb'⟩
        rw [mem_chans] at ha
        rw [Bool.and_eq_true, Bool.not_eq_true'] at hb'
        refine ⟨f', ha.1, ha.2, hb'.1, ?_⟩
        rw [← exceeds_iff h1 h2 F p hb thr ha.1, hb'.2]
        simp
      · rintro ⟨f', a1, a2, a3, a4⟩
        refine ⟨f', mem_chans.2 ⟨a1, a2⟩, ?_⟩
        rw [← exceeds_iff h1 h2 F p hb thr a1] at a4
        rw [a3]
        simpa using a4
    rw [hfi]
    constructor
    · rintro (h | h | ⟨h, -, h'⟩)
      · exact Or.inl h
      · exact Or.inr (Or.inl h)
      · exact Or.inr (Or.inr ⟨h', h⟩)
    · rintro (h | h | ⟨h', h⟩)
      · exact Or.inl h
      · exact Or.inr (Or.inl h)
      · exact Or.inr (Or.inr ⟨h, hf, h'⟩)

/-- Within the window, a flagged pixel belongs to a channel flagged for all times of the baseline, or to an integration flagged in
the whole window. -/
def SeparableIn (S : Shape) (w : ℕ × ℕ) (F : Arr) : Prop :=
  ∀ r < S.base.length, ∀ p < S.npol, ∀ f < S.nf, InWin w f → F r f p = true →
    (∀ r', SameBl S r r' → F r' f p = true) ∨ (∀ f' < S.nf, InWin w f' → F r f' p = true)

theorem separable_self (S : Shape) (thr : ℚ) (F : Arr) (w : ℕ × ℕ) : SeparableIn S w (bcastSpw S thr F w) := by
  intro r hr p hp f hf hw h
  have hb : S.base[r]? = some (S.base[r]) := List.getElem?_eq_getElem hr
  by_cases he : exceeds S F p S.base[r] thr f = true
  · left
    intro r' hr'
    rw [bcastSpw_apply thr F w (hr'.2.trans hb) hp f, he]
    simp
  · right
    have hfi : flagInt S F p S.base[r] thr w r = true := by
      rw [bcastSpw_apply thr F w hb hp f] at h
      simp only [Bool.not_eq_true] at he
      rw [he, Bool.false_or, Bool.or_eq_true] at h
      rcases h with h | h
      · unfold flagInt
        rw [List.any_eq_true]
        exact ⟨f, mem_chans.2 ⟨hf, hw⟩, by rw [h, he]; rfl⟩
      · rw [Bool.and_eq_true] at h; exact h.1
    intro f' hf' hw'
    rw [bcastSpw_apply thr F w hb hp f', hfi]
    have : f' ∈ chans S w := mem_chans.2 ⟨hf', hw'⟩
    simp [this]

theorem separable_other (S : Shape) (thr : ℚ) (F : Arr) (w v : ℕ × ℕ) (hd : Disjoint' w v) (h : SeparableIn S v F) :
    SeparableIn S v (bcastSpw S thr F w) := by
  intro r hr p hp f hf hw hF
  have hb : S.base[r]? = some (S.base[r]) := List.getElem?_eq_getElem hr
  rw [bcastSpw_apply thr F w hb hp f] at hF
  have hnw : f ∉ chans S w := fun hc => hd f ⟨(mem_chans.1 hc).2, hw⟩
  simp only [hnw, decide_false, Bool.and_false, Bool.or_false, Bool.or_eq_true] at hF
  rcases hF with hF | hF
  · rcases h r hr p hp f hf hw hF with h | h
    · left; intro r' hr'; exact bcastSpw_mono _ _ _ _ _ _ _ (h r' hr')
    · right; intro f' hf' hw'; exact bcastSpw_mono _ _ _ _ _ _ _ (h f' hf' hw')
  · left
    intro r' hr'
    rw [bcastSpw_apply thr F w (hr'.2.trans hb) hp f, hF]
    simp

theorem foldl_separable (S : Shape) (thr : ℚ) (ws : List (ℕ × ℕ)) : ∀ F : Arr, ws.Pairwise Disjoint' →
    (∀ v, (∀ w ∈ ws, Disjoint' w v) → SeparableIn S v F → SeparableIn S v (ws.foldl (bcastSpw S thr) F)) ∧
    ∀ v ∈ ws, SeparableIn S v (ws.foldl (bcastSpw S thr) F) := by
  induction ws with
  | nil => intro F _; exact ⟨fun v _ h => h, fun v hv => by cases hv⟩
  | cons w ws ih =>
    intro F hp
    rw [List.pairwise_cons] at hp
    obtain ⟨i1, i2⟩ := ih (bcastSpw S thr F w) hp.2
    refine ⟨?_, ?_⟩
    · intro v hv h
      exact i1 v (fun x hx => hv x (List.mem_cons_of_mem _ hx)) (separable_other S thr F w v (hv w List.mem_cons_self) h)
    · intro v hv
      rcases List.mem_cons.1 hv with rfl | hv
      · refine i1 v (fun x hx f hc => hp.1 x hx f ⟨hc.2, hc.1⟩) (separable_self S thr F v)
      · exact i2 v hv

/-- C58. After broadcasting on any list of disjoint windows, within each window a pixel is flagged if and only if its channel is
flagged for all times of its baseline or its integration is flagged in all channels of the window. -/
theorem C58_separable (S : Shape) (thr : ℚ) (ws : List (ℕ × ℕ)) (hd : ws.Pairwise Disjoint') (F G : Arr)
    (h : broadcast S thr false ws F = some G) (w : ℕ × ℕ) (hw : w ∈ ws) (r p f : ℕ) (hr : r < S.base.length) (hp : p < S.npol)
    (hf : f < S.nf) (hin : InWin w f) :
    G r f p = true ↔ (∀ r', SameBl S r r' → G r' f p = true) ∨ (∀ f' < S.nf, InWin w f' → G r f' p = true) := by
  unfold broadcast at h
  rw [if_neg (by simp)] at h
  split at h
  · cases h
  · cases h
    constructor
    · exact (foldl_separable S thr ws F hd).2 w hw r hr p hp f hf hin
    · rintro (h | h)
      · exact h r ⟨hr, rfl⟩
      · exact h f hf hin

/-- C58. Broadcasting never removes a flag, whatever the windows and the threshold. -/
theorem C58_never_unflags (S : Shape) (thr : ℚ) (ws : List (ℕ × ℕ)) (F G : Arr) (h : broadcast S thr false ws F = some G) (r f p : ℕ)
    (hF : F r f p = true) : G r f p = true := by
  unfold broadcast at h
  rw [if_neg (by simp)] at h
  split at h
  · cases h
  · cases h
    clear * - hF
    induction ws generalizing F with
    | nil => exact hF
    | cons w ws ih => exact ih _ (bcastSpw_mono S thr F w r f p hF)

/-- C58. With `unflag=True` exactly the windows are cleared. -/
theorem C58_unflag (S : Shape) (thr : ℚ) (ws : List (ℕ × ℕ)) (F : Arr) :
    ∃ G, broadcast S thr true ws F = some G ∧ ∀ r f p, G r f p = true ↔ F r f p = true ∧ ∀ w ∈ ws, ¬ InWin w f := by
  refine ⟨_, rfl, ?_⟩
  intro r f p
  induction ws generalizing F with
  | nil => simp
  | cons w ws ih =>
    rw [List.foldl_cons, ih]
    unfold unflagSpw InWin
    by_cases hw : w.1 ≤ f ∧ f < w.2
    · simp [hw]
    · simp [hw]
      intro _ _ h1
      by_contra h2
      exact hw ⟨h1, by omega⟩

/-- C58. Broadcasting succeeds when every window holds at least one channel of the band. -/
theorem C58_succeeds_iff (S : Shape) (thr : ℚ) (ws : List (ℕ × ℕ)) (F : Arr) :
    (∃ G, broadcast S thr false ws F = some G) ↔ ∀ w ∈ ws, ∃ f < S.nf, InWin w f := by
  unfold broadcast
  rw [if_neg (by simp)]
  have hc : ∀ w, (chans S w).isEmpty = true ↔ ¬ ∃ f < S.nf, InWin w f := by
    intro w
    rw [List.isEmpty_iff, List.eq_nil_iff_forall_not_mem]
    simp only [mem_chans]
    push Not
    rfl
  by_cases h : ws.any (fun w => (chans S w).isEmpty) = true
  · rw [if_pos h]
    rw [List.any_eq_true] at h
    obtain ⟨w, hw, he⟩ := h
    constructor
    · rintro ⟨G, hG⟩; cases hG
    · intro ha; exact absurd (ha w hw) ((hc w).1 he)
  · rw [if_neg h]
    refine ⟨fun _ w hw => ?_, fun _ => ⟨_, rfl⟩⟩
    by_contra hn
    exact h (List.any_eq_true.2 ⟨w, hw, (hc w).2 hn⟩)

/-- C58. Channels outside every window are flagged only as whole channels: if such a pixel becomes flagged, its channel is flagged
for all times of its baseline. -/
theorem C58_outside (S : Shape) (thr : ℚ) (ws : List (ℕ × ℕ)) (F G : Arr) (h : broadcast S thr false ws F = some G)
    (r p f : ℕ) (hr : r < S.base.length) (hp : p < S.npol) (hout : ∀ w ∈ ws, ¬ InWin w f) (hF : F r f p = false)
    (hG : G r f p = true) (r' : ℕ) (hr' : SameBl S r r') : G r' f p = true := by
  unfold broadcast at h
  rw [if_neg (by simp)] at h
  split at h
  · cases h
  · cases h
    rename_i hne
    clear hne
    induction ws generalizing F with
    | nil => rw [List.foldl_nil, hF] at hG; cases hG
    | cons w ws ih =>
      rw [List.foldl_cons] at hG ⊢
      have hb : S.base[r]? = some (S.base[r]) := List.getElem?_eq_getElem hr
      by_cases he : bcastSpw S thr F w r f p = true
      · have hx : exceeds S F p S.base[r] thr f = true := by
          rw [bcastSpw_apply thr F w hb hp f, hF] at he
          have hnw : f ∉ chans S w := fun hc => hout w List.mem_cons_self (mem_chans.1 hc).2
          simpa [hnw] using he
        have h2 : bcastSpw S thr F w r' f p = true := by
          rw [bcastSpw_apply thr F w (hr'.2.trans hb) hp f, hx]; simp
        clear * - h2
        generalize bcastSpw S thr F w = F' at h2
        induction ws generalizing F' with
        | nil => exact h2
        | cons w ws ih => exact ih _ (bcastSpw_mono S thr F' w r' f p h2)
      · exact ih (bcastSpw S thr F w) (fun x hx => hout x (List.mem_cons_of_mem _ hx)) (by simpa using he) hG

/-- A small waterfall: one baseline with four integrations, six channels; channel 1 is flagged in three of four integrations,
channel 4 in the last one, integration 3 is flagged at channel 2. -/
def demo : Arr := fun r f _ => (f == 1 && r != 3) || (f == 2 && r == 3) || (f == 4 && r != 0)

/-- The shape of the example. -/
def demoShape : Shape := ⟨[7, 7, 7, 7], 6, 1⟩

/-- C58 is not vacuous: with threshold 1/2 and window 0:3, channel 1 is flagged for all times, integration 3 in the window; channel 4,
outside the window, is flagged for all times too. -/
example : (broadcast demoShape (1 / 2) false [(0, 3)] demo).map
      (fun G => (List.range 4).map (fun r => (List.range 6).map (fun f => G r f 0))) =
    some [[false, true, false, false, true, false], [false, true, false, false, true, false], [false, true, false, false, true, false],
      [true, true, true, false, true, false]] := by decide +kernel

/-- C58 (finding). Channels outside the requested windows are flagged as well when they exceed the threshold: channel 4 of
integration 0 above. -/
theorem C58_finding_outside : demo 0 4 0 = false ∧
    (broadcast demoShape (1 / 2) false [(0, 3)] demo).map (fun G => G 0 4 0) = some true := by decide +kernel

/-- C58 (finding). With overlapping windows the result need not be separable within a window: window 0:3 then 2:5. -/
theorem C58_finding_overlap :
    (broadcast ⟨[7, 7, 7, 7], 6, 1⟩ (1 / 2) false [(0, 3), (2, 5)] (fun r f _ => r == 1 && f == 4)).map
      (fun G => ([G 1 2 0, G 1 0 0, G 0 2 0] : List Bool)) = some [true, false, false] := by decide +kernel

end HeraPspec.Flags
