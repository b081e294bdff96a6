import Verif.Model.ExactWin
import Verif.Props.UVP
import Verif.Lemmas.MapE

/-! C116: `get_exact_window_functions`. -/
namespace HeraPspec.ExactWin
open HeraPspec.UVP

variable {D W A K : Type}

/-! ### Specification -/

/-- The groups partition the baseline-pairs of the object, as `get_red_blpairs` guarantees (C10). -/
structure Partition (o : Obj D W) (gs : List (List ℤ × ℚ)) : Prop where
  cover : ∀ m ∈ o.rows, ∃ g ∈ gs, m.blpair ∈ g.1
  present : ∀ g ∈ gs, ∀ b ∈ g.1, ∃ m ∈ o.rows, m.blpair = b
  disjoint : ∀ g ∈ gs, ∀ g' ∈ gs, ∀ b, b ∈ g.1 → b ∈ g'.1 → g = g'

/-- The windows meant by the argument: all, one, or a list, all of them windows of the object. -/
inductive Asks (n : ℕ) : SpwArg → List ℕ → Prop
  | all : Asks n .none (List.range n)
  | one (s : ℕ) : s < n → Asks n (.int s) [s]
  | list (l : List ℕ) : (∀ s ∈ l, s < n) → Asks n (.seq (l.map (fun s : ℕ => Elem.int s))) l

/-- The window functions a window should have: for every polarization (index `p`) and row, those of the baseline length of the group of
the row's baseline-pair, and the bins of the window and polarization. -/
def RightFor (o : Obj D W) (a : Ask A K) (s : ℕ) (w : SpwWin A K) : Prop :=
  w.win.length = o.pols.length ∧ w.kperp.length = o.pols.length ∧ w.kpara.length = o.pols.length ∧
  ∀ p : ℕ, p < o.pols.length → w.kperp[p]? = some (a.kperp s p) ∧ w.kpara[p]? = some (a.kpara s p) ∧
    ∃ l : List (Option A), w.win[p]? = some l ∧ l.length = o.rows.length ∧
      ∀ (i : ℕ) (m : Meas D W), o.rows[i]? = some m → ∀ g ∈ a.groups, m.blpair ∈ g.1 → l[i]? = some (some (a.wf s p g.2))

/-! ### Lemmas -/

theorem inner_get {u : UVP D W} (x : A) (bs : List ℤ) (out : List (Option A)) (i : ℕ) :
    (bs.foldl (fun acc b => acc.mapIdx (fun i o => if u.blpairArray[i]? = some b then some x else o)) out)[i]? =
      out[i]?.map (fun o => if ∃ b ∈ bs, u.blpairArray[i]? = some b then some x else o) := by
  induction bs generalizing out with
  | nil => simp
  | cons b bs ih =>
    rw [List.foldl_cons, ih, List.getElem?_mapIdx]
    cases out[i]? with
    | none => rfl
    | some o =>
      simp only [Option.map_some, Option.some.injEq, List.mem_cons, exists_eq_or_imp]
      by_cases h : ∃ b ∈ bs, u.blpairArray[i]? = some b
      · rw [if_pos h, if_pos (Or.inr h)]
      · rw [if_neg h]
        by_cases h' : u.blpairArray[i]? = some b
        · rw [if_pos h', if_pos (Or.inl h')]
        · rw [if_neg h', if_neg (by rintro (h1 | h1); exact h' h1; exact h h1)]

theorem fillRows_length (u : UVP D W) (wf : ℚ → A) (gs : List (List ℤ × ℚ)) (out : List (Option A)) :
    (fillRows u wf gs out).length = out.length := by
  induction gs generalizing out with
  | nil => rfl
  | cons g gs ih =>
    unfold fillRows
    rw [ih]
    generalize g.1 = bs
    induction bs generalizing out with
    | nil => rfl
    | cons b bs ihb => rw [List.foldl_cons, ihb]; simp

/-- A row keeps its value if its baseline-pair is in no group of the rest. -/
theorem fillRows_keep {u : UVP D W} (wf : ℚ → A) (gs : List (List ℤ × ℚ)) (out : List (Option A)) (i : ℕ) (b : ℤ)
    (hb : u.blpairArray[i]? = some b) (h : ∀ g ∈ gs, b ∉ g.1) : (fillRows u wf gs out)[i]? = out[i]? := by
  induction gs generalizing out with
  | nil => rfl
  | cons g gs ih =>
    unfold fillRows
    rw [ih _ (fun g hg => h g (List.mem_cons_of_mem _ hg)), inner_get]
    rw [if_neg' (by
      rintro ⟨c, hc, hc'⟩
      rw [hb, Option.some.injEq] at hc'
      exact h g (by simp) (hc' ▸ hc))]
where
  if_neg' {i : ℕ} {out : List (Option A)} {P : Prop} [Decidable P] {x : A} (h : ¬ P) :
      out[i]?.map (fun o => if P then some x else o) = out[i]? := by
    simp only [if_neg h, Option.map_id']

theorem fillRows_get {u : UVP D W} (wf : ℚ → A) (gs : List (List ℤ × ℚ)) (out : List (Option A)) (i : ℕ) (b : ℤ) (g : List ℤ × ℚ)
    (hg : g ∈ gs) (hb : u.blpairArray[i]? = some b) (hbg : b ∈ g.1) (hd : ∀ g' ∈ gs, b ∈ g'.1 → g' = g) (hi : i < out.length) :
    (fillRows u wf gs out)[i]? = some (some (wf g.2)) := by
  induction gs generalizing out with
  | nil => cases hg
  | cons g' gs ih =>
    unfold fillRows
    by_cases hin : ∃ x ∈ gs, b ∈ x.1
    · obtain ⟨x, hx, hbx⟩ := hin
      have : x = g := hd x (List.mem_cons_of_mem _ hx) hbx
      subst this
      apply ih _ hx (fun y hy => hd y (List.mem_cons_of_mem _ hy))
      have : ∀ (bs : List ℤ) (out : List (Option A)), (bs.foldl (fun acc b => acc.mapIdx (fun i o =>
          if u.blpairArray[i]? = some b then some (wf g'.2) else o)) out).length = out.length := by
        intro bs
        induction bs with
        | nil => intro out; rfl
        | cons b bs ihb => intro out; rw [List.foldl_cons, ihb]; simp
      rw [this]; exact hi
    · push Not at hin
      rw [fillRows_keep wf gs _ i b hb hin, inner_get]
      rcases List.mem_cons.1 hg with rfl | hg
      · rw [List.getElem?_eq_getElem hi, Option.map_some, if_pos ⟨b, hbg, hb⟩]
      · exact absurd hbg (hin g hg)

theorem mapE_range {α ε : Type} {f : ℕ → Except ε α} {g : ℕ → α} (l : List ℕ) (h : ∀ p ∈ l, f p = .ok (g p)) :
    mapE f l = .ok (l.map g) := by
  rw [mapE_ok_iff]
  induction l with
  | nil => simp
  | cons a l ih => exact .cons (h a (by simp)) (ih (fun p hp => h p (List.mem_cons_of_mem _ hp)))

theorem oneSpw_right {u : UVP D W} {o : Obj D W} (hr : Represents u o) (a : Ask A K) (hp : Partition o a.groups) (s : ℕ)
    (hk : ∀ p q, p < o.pols.length → q < o.pols.length → (a.kperp s p).length = (a.kperp s q).length ∧ (a.kpara s p).length = (a.kpara s q).length) :
    ∃ w, oneSpw u a s = .ok w ∧ RightFor o a s w := by
  have hone : ∀ p ∈ List.range u.polpairArray.length, onePol u a s p = .ok (fillRows u (a.wf s p) a.groups (u.blpairArray.map (fun _ => none))) := by
    intro p _
    unfold onePol
    rw [if_pos]
    rw [List.all_eq_true]
    intro g hg
    rw [List.all_eq_true]
    intro b hb
    obtain ⟨m, hm, hmb⟩ := hp.present g hg b hb
    simp only [decide_eq_true_eq]
    rw [hr.blpair]
    exact List.mem_map.2 ⟨m, hm, hmb⟩
  have hsame : ∀ (f : ℕ → List K) (n : ℕ), (∀ p q, p < n → q < n → (f p).length = (f q).length) → sameLength ((List.range n).map f) = true := by
    intro f n h
    cases hx : (List.range n).map f with
    | nil => rfl
    | cons x l =>
      unfold sameLength
      rw [List.all_eq_true]
      intro y hy
      have hx' : x ∈ (List.range n).map f := by rw [hx]; simp
      have hy' : y ∈ (List.range n).map f := by rw [hx]; simp [hy]
      rw [List.mem_map] at hx' hy'
      obtain ⟨p, hp, rfl⟩ := hx'
      obtain ⟨q, hq, rfl⟩ := hy'
      exact decide_eq_true (h q p (List.mem_range.1 hq) (List.mem_range.1 hp))
  unfold oneSpw
  rw [mapE_range _ hone]
  simp only
  rw [hr.pols] at *
  rw [if_pos (by rw [hsame _ _ (fun p q h1 h2 => (hk p q h1 h2).1), hsame _ _ (fun p q h1 h2 => (hk p q h1 h2).2)]; rfl)]
  refine ⟨_, rfl, by simp, by simp, by simp, ?_⟩
  intro p hpl
  refine ⟨by simp [hpl], by simp [hpl], fillRows u (a.wf s p) a.groups (u.blpairArray.map (fun _ => none)), by simp [hpl], ?_, ?_⟩
  · rw [fillRows_length, hr.blpair]; simp
  · intro i m hm g hg hmg
    have hb : u.blpairArray[i]? = some m.blpair := by rw [hr.blpair, List.getElem?_map, hm]; rfl
    refine fillRows_get (a.wf s p) a.groups _ i m.blpair g hg hb hmg (fun g' hg' h' => hp.disjoint g' hg' g hg _ h' hmg) ?_
    have := (List.getElem?_eq_some_iff.1 hb).1
    simpa using this

theorem norm_asks {n : ℕ} {arg : SpwArg} {l : List ℕ} (h : Asks n arg l) : normSpws arg (List.range n) = .ok l := by
  have hin : ∀ s : ℕ, s < n → ((s : ℤ) ∈ (List.range n).map (fun v : ℕ => (v : ℤ))) := fun s hs => List.mem_map.2 ⟨s, List.mem_range.2 hs, rfl⟩
  cases h with
  | all => rfl
  | one s hs =>
    simp only [normSpws, rawSpws, List.all_cons, List.all_nil, Bool.and_true, decide_eq_true_eq]
    rw [if_pos (hin s hs)]
    simp
  | list l hl =>
    simp only [normSpws, rawSpws]
    have : mapE Elem.toInt (l.map (fun s : ℕ => Elem.int s)) = .ok (l.map (fun s : ℕ => (s : ℤ))) := by
      clear hl
      induction l with
      | nil => rfl
      | cons a l ih => rw [List.map_cons]; unfold mapE; rw [ih]; rfl
    rw [this]
    simp only
    rw [if_pos]
    · rw [List.map_map]; congr 1
      conv_rhs => rw [← List.map_id l]
      apply List.map_congr_left; intro s _; simp
    · rw [List.all_eq_true]
      intro x hx
      rw [List.mem_map] at hx
      obtain ⟨s, hs, rfl⟩ := hx
      exact decide_eq_true (hin s (hl s hs))

instance : Inhabited (SpwWin A K) := ⟨⟨[], [], []⟩⟩

theorem compute_right {u : UVP D W} {o : Obj D W} (hr : Represents u o) (a : Ask A K) (hp : Partition o a.groups) (l : List ℕ)
    (hk : ∀ s ∈ l, ∀ p q, p < o.pols.length → q < o.pols.length → (a.kperp s p).length = (a.kperp s q).length ∧ (a.kpara s p).length = (a.kpara s q).length) :
    ∃ d, compute u a l = .ok d ∧ (∀ s ∈ l, ∃ w, Dict.get d s = some w ∧ RightFor o a s w) ∧ ∀ s, s ∉ l → Dict.get d s = none := by
  choose! g hg hgr using fun s (hs : s ∈ l) => oneSpw_right hr a hp s (hk s hs)
  have h1 : mapE (fun s => (oneSpw u a s).map (fun w => (s, w))) l = .ok (l.map (fun s => (s, g s))) := by
    apply mapE_range
    intro s hs
    rw [hg s hs]; rfl
  have h2 : ∀ (l : List ℕ) (d : Dict ℕ (SpwWin A K)) (s : ℕ), Dict.get ((l.map (fun s => (s, g s))).foldl (fun d e => Dict.set d e.1 e.2) d) s =
      if s ∈ l then some (g s) else Dict.get d s := by
    intro l
    induction l with
    | nil => intro d s; simp
    | cons x l ih =>
      intro d s
      rw [List.map_cons, List.foldl_cons, ih, Dict.get_set]
      by_cases hs : s ∈ l
      · simp [hs]
      · by_cases hx : x = s
        · subst hx; simp [hs]
        · simp [hs, hx, Ne.symm hx]
  refine ⟨_, by unfold compute; rw [h1]; rfl, ?_, ?_⟩
  · intro s hs; exact ⟨g s, by rw [h2, if_pos hs], hgr s hs⟩
  · intro s hs; rw [h2, if_neg hs]; rfl

/-! ### Theorems -/

/-- **C116** For the windows asked for, `get_exact_window_functions` computes, for every polarization and every row, the window functions
of the baseline length of the redundant group of the row's baseline-pair (so no row is left empty, and redundant rows agree), with the
bins of that window and polarization, and nothing for other windows. If all windows are asked for, in the object's order, and `inplace`
is set, the object keeps them and is marked as having exact window functions; in every other case the object is unchanged and the window
functions are returned. -/
theorem C116_exact_windows {u : UVP D W} {o : Obj D W} (hr : Represents u o) (a : Ask A K) (hp : Partition o a.groups) (st : WinState A K)
    (arg : SpwArg) (l : List ℕ) (ha : Asks o.nspw arg l)
    (hk : ∀ s ∈ l, ∀ p q, p < o.pols.length → q < o.pols.length → (a.kperp s p).length = (a.kperp s q).length ∧ (a.kpara s p).length = (a.kpara s q).length)
    (inplace : Bool) :
    ∃ d, (∀ s ∈ l, ∃ w, Dict.get d s = some w ∧ RightFor o a s w) ∧ (∀ s, s ∉ l → Dict.get d s = none) ∧
      (inplace = true ∧ l = List.range o.nspw → exactWindows u a st arg inplace = (⟨true, some d⟩, .ok none)) ∧
      (¬ (inplace = true ∧ l = List.range o.nspw) → exactWindows u a st arg inplace = (st, .ok (some d))) := by
  obtain ⟨d, hd, h1, h2⟩ := compute_right hr a hp l hk
  refine ⟨d, h1, h2, ?_, ?_⟩
  · rintro ⟨hi, hl⟩
    unfold exactWindows
    rw [hr.spw, norm_asks ha]
    simp only [hd]
    rw [if_pos (by simp [hi, hl])]
  · intro hne
    unfold exactWindows
    rw [hr.spw, norm_asks ha]
    simp only [hd]
    rw [if_neg (by simpa using hne)]

/-- **C116** A window the object does not have is refused with `ValueError`, a window that is not an integer with `TypeError`, and nothing
changes. -/
theorem C116_refused {u : UVP D W} {o : Obj D W} (hr : Represents u o) (a : Ask A K) (st : WinState A K) (inplace : Bool) :
    (∀ l : List ℤ, (∃ s ∈ l, s < 0 ∨ (o.nspw : ℤ) ≤ s) → exactWindows u a st (.seq (l.map Elem.int)) inplace = (st, .error .value)) ∧
    (∀ s : ℤ, (s < 0 ∨ (o.nspw : ℤ) ≤ s) → exactWindows u a st (.int s) inplace = (st, .error .value)) ∧
    (∀ l : List ℤ, ∀ l' : List Elem, exactWindows u a st (.seq (l.map Elem.int ++ .other :: l')) inplace = (st, .error .type)) ∧
    exactWindows u a st .other inplace = (st, .error .type) := by
  have hbad : ∀ l : List ℤ, (∃ s ∈ l, s < 0 ∨ (o.nspw : ℤ) ≤ s) →
      l.all (fun s => decide (s ∈ (List.range o.nspw).map (fun v : ℕ => (v : ℤ)))) = false := by
    rintro l ⟨s, hs, hb⟩
    rw [Bool.eq_false_iff]
    intro h
    rw [List.all_eq_true] at h
    have := h s hs
    simp only [decide_eq_true_eq, List.mem_map, List.mem_range] at this
    obtain ⟨v, hv, rfl⟩ := this
    omega
  have hmap : ∀ l : List ℤ, mapE Elem.toInt (l.map Elem.int) = .ok l := by
    intro l
    induction l with
    | nil => rfl
    | cons a l ih => rw [List.map_cons]; unfold mapE; rw [ih]; rfl
  refine ⟨?_, ?_, ?_, ?_⟩
  · intro l hl
    unfold exactWindows
    simp only [normSpws, rawSpws, hmap, hr.spw, hbad l hl, Bool.false_eq_true, if_false]
  · intro s hs
    unfold exactWindows
    simp only [normSpws, rawSpws, hr.spw, hbad [s] ⟨s, by simp, hs⟩, Bool.false_eq_true, if_false]
  · intro l l'
    have : mapE Elem.toInt (l.map Elem.int ++ .other :: l') = .error .type := by
      induction l with
      | nil => rfl
      | cons a l ih => rw [List.map_cons, List.cons_append]; unfold mapE; rw [ih]; rfl
    unfold exactWindows
    simp only [normSpws, rawSpws, this]
  · rfl

/-! ### Concrete cases -/

/-- Window functions that record what was asked for: `1000 s + 100 p + length`. -/
def exAsk : Ask ℤ ℕ where
  wf s p len := 1000 * s + 100 * p + len.num
  kperp _ _ := [1, 2]
  kpara _ _ := [1, 2, 3]
  groups := [([101102102103], 14), ([103104104105], 29)]

example : Partition exObj exAsk.groups := by
  constructor
  · decide +kernel
  · decide +kernel
  · intro g hg g' hg' b h1 h2
    simp only [exAsk, List.mem_cons, List.not_mem_nil, or_false] at hg hg'
    rcases hg with rfl | rfl <;> rcases hg' with rfl | rfl <;> simp_all

example : Asks exObj.nspw (.seq [.int 1]) [1] := .list [1] (by decide)

/-- The window functions of a returned dictionary. -/
def wins (r : WinState ℤ ℕ × Except XErr (Option (Dict ℕ (SpwWin ℤ ℕ)))) : List (ℕ × List (List (Option ℤ))) :=
  match r.2 with
  | .ok (some d) => d.map (fun e => (e.1, e.2.win))
  | _ => []

example : wins (exactWindows (store exObj) exAsk ⟨false, none⟩ (.int 1) true) =
    [(1, [[some 1014, some 1014, some 1029], [some 1114, some 1114, some 1129]])] := by
  decide +kernel

end HeraPspec.ExactWin
