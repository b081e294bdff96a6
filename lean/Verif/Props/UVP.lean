import Verif.Lemmas.UVPRead
import Mathlib.Tactic.Positivity
import Mathlib.Tactic.NormNum

/-!
C12-C15, C17-C20: selection and reading of UVPSpec objects.

The specification (`Meas`, `Obj`, `Represents`, `Valid`, `keepRow`, `specSelect`, `Accepts`) is in `Verif/Spec/UVP.lean`.
-/
namespace HeraPspec.UVP

variable {D W : Type}

/-- Any content can be stored: the object whose arrays hold `o`. -/
def store (o : Obj D W) : UVP D W where
  spwArray := List.range o.nspw
  spwFreqArray := o.chans.map (·.1)
  freqArray := o.chans.map (·.2)
  spwDlyArray := o.dlys.map (·.1)
  dlyArray := o.dlys.map (·.2)
  folded := o.folded
  blpairArray := o.rows.map Meas.blpair
  time1 := o.rows.map (·.t1)
  time2 := o.rows.map (·.t2)
  timeAvg := o.rows.map (·.tAvg)
  lst1 := o.rows.map (·.l1)
  lst2 := o.rows.map (·.l2)
  lstAvg := o.rows.map (·.lAvg)
  polpairArray := o.pols
  data := (List.range o.nspw).map (fun s => (s, o.rows.map (·.dat s)))
  integ := (List.range o.nspw).map (fun s => (s, o.rows.map (·.itg s)))
  label1 := []

theorem get_rangeMap {V : Type} (n : Nat) (f : Nat → V) (s : Nat) :
    Dict.get (K := Nat) ((List.range n).map (fun s => (s, f s))) s = if s < n then some (f s) else none := by
  by_cases h : s < n
  · rw [if_pos h]
    apply Dict.get_of_mem
    · simp only [Dict.keys, List.map_map, Function.comp_def, List.map_id']; exact List.nodup_range
    · exact List.mem_map.2 ⟨s, by simpa using h, rfl⟩
  · rw [if_neg h, Dict.get_eq_none_iff]
    simp only [Dict.keys, List.map_map, Function.comp_def, List.map_id', List.mem_range]; exact h

theorem store_represents (o : Obj D W) : Represents (store o) o := by
  constructor <;> try rfl
  · exact get_rangeMap _ _
  · exact get_rangeMap _ _

/-- A two-window, two-polarization object with three rows. -/
def exObj : Obj Int ℚ where
  nspw := 2
  chans := [(0, 100), (0, 101), (1, 110), (1, 111)]
  dlys := [(0, -1), (0, 0), (1, -1), (1, 0)]
  folded := false
  pols := [1515, 1414]
  rows := [
    { bl1 := 101102, bl2 := 102103, t1 := 1, t2 := 2, tAvg := 3 / 2, l1 := 0, l2 := 0, lAvg := 0,
      dat := fun s => if s = 0 then [[1, 2], [3, 4]] else [[5, 6], [7, 8]], itg := fun _ => [1, 1] },
    { bl1 := 101102, bl2 := 102103, t1 := 2, t2 := 3, tAvg := 5 / 2, l1 := 0, l2 := 0, lAvg := 0,
      dat := fun s => if s = 0 then [[11, 12], [13, 14]] else [[15, 16], [17, 18]], itg := fun _ => [1, 2] },
    { bl1 := 103104, bl2 := 104105, t1 := 1, t2 := 2, tAvg := 3 / 2, l1 := 0, l2 := 0, lAvg := 0,
      dat := fun s => if s = 0 then [[21, 22], [23, 24]] else [[25, 26], [27, 28]], itg := fun _ => [3, 1] }]

theorem exObj_valid : Valid exObj := by
  constructor
  · decide
  · decide
  · intro s hs; have : s = 0 ∨ s = 1 := by simp [exObj] at hs; omega
    rcases this with rfl | rfl
    · exact ⟨(0, 100), by simp [exObj], rfl⟩
    · exact ⟨(1, 110), by simp [exObj], rfl⟩
  · intro s hs; have : s = 0 ∨ s = 1 := by simp [exObj] at hs; omega
    rcases this with rfl | rfl
    · exact ⟨(0, -1), by simp [exObj], rfl⟩
    · exact ⟨(1, -1), by simp [exObj], rfl⟩
  · decide
  · intro m hm s hs d hd
    simp only [exObj, List.mem_cons, List.not_mem_nil, or_false] at hm
    rcases hm with rfl | rfl | rfl <;> (simp only at hd; split at hd <;> (simp at hd; rcases hd with rfl | rfl <;> rfl))
  · intro m hm s hs
    simp only [exObj, List.mem_cons, List.not_mem_nil, or_false] at hm
    rcases hm with rfl | rfl | rfl <;> rfl

/-! ### C12 -/

/-- **C12** Selection keeps exactly the requested rows. Whatever the request (windows, baselines, baseline-pairs, times,
LSTs, polarization pairs), if it is meaningful the result holds exactly the rows of the original that satisfy it, in the
original order, each with its own times, LSTs and spectra. -/
theorem C12_select_exact {u : UVP D W} {o : Obj D W} (hr : Represents u o) (hv : Valid o) (a : Args)
    (ha : Accepts o a) (hf : o.folded = false ∨ a.spws = none) :
    ∃ u', select u a = .ok u' ∧ Represents u' (specSelect o a) ∧ Valid (specSelect o a) := by
  obtain ⟨u', h1, h2, _⟩ := select_refines hr hv ha hf
  exact ⟨u', h1, h2, valid_specSelect hv a⟩

/-- **C12** A request that matches nothing or is malformed raises. -/
theorem C12_select_rejects {u : UVP D W} {o : Obj D W} (hr : Represents u o) (hv : Valid o) (a : Args)
    (hf : o.folded = false ∨ a.spws = none) (ha : ¬ Accepts o a) : ∃ e, select u a = .error e :=
  select_error hr hv hf ha

/-- **C12** For a pure row selection, spelled out on the arrays: every array keeps exactly the entries of the rows that
satisfy the request. -/
theorem C12_rows {u u' : UVP D W} {o : Obj D W} (hr : Represents u o) (hv : Valid o) (a : Args)
    (hs : a.spws = none) (hp : a.polpairs = none) (h : select u a = .ok u') :
    u'.blpairArray = (o.rows.filter (keepRow a)).map Meas.blpair ∧
    u'.timeAvg = (o.rows.filter (keepRow a)).map (·.tAvg) ∧
    u'.time1 = (o.rows.filter (keepRow a)).map (·.t1) ∧
    u'.time2 = (o.rows.filter (keepRow a)).map (·.t2) ∧
    (∀ s, s < o.nspw → Dict.get u'.data s = some ((o.rows.filter (keepRow a)).map (·.dat s))) ∧
    (∀ s, s < o.nspw → Dict.get u'.integ s = some ((o.rows.filter (keepRow a)).map (·.itg s))) := by
  have ha : Accepts o a := by
    by_contra hc
    obtain ⟨e, he⟩ := select_error hr hv (Or.inr hs) hc
    rw [he] at h; cases h
  obtain ⟨u'', h1, h2, _⟩ := select_refines hr hv ha (Or.inr hs)
  rw [h] at h1; cases h1
  have hK : keptSpws o.nspw a = List.range o.nspw := by simp [keptSpws, hs]
  have hkp : ∀ p, keepPol a p = true := by intro p; simp [keepPol, hp]
  have hke : ∀ {γ : Type} (d : List γ), d.length = o.pols.length → keepEntries a o.pols d = d := by
    intro γ d hd
    unfold keepEntries
    rw [List.filter_eq_self.2 (fun x _ => hkp x.1), List.map_snd_zip (by omega)]
  refine ⟨?_, ?_, ?_, ?_, ?_, ?_⟩
  · rw [h2.blpair, specSelect, List.map_map]; rfl
  · rw [h2.timeAvg, specSelect, List.map_map]; rfl
  · rw [h2.time1, specSelect, List.map_map]; rfl
  · rw [h2.time2, specSelect, List.map_map]; rfl
  · intro s hs'
    rw [h2.data, if_pos (by simpa [specSelect, hK] using hs')]
    simp only [specSelect, hK, List.map_map]
    congr 1
    apply List.map_congr_left
    intro m hm
    have e : (List.range o.nspw).getD s 0 = s := by simp [hs']
    simp only [Function.comp_apply, e]
    conv_rhs => rw [← List.map_id (m.dat s)]
    apply List.map_congr_left
    intro d hd
    exact hke d (hv.dat m (List.mem_of_mem_filter hm) s hs' d hd)
  · intro s hs'
    rw [h2.integ, if_pos (by simpa [specSelect, hK] using hs')]
    simp only [specSelect, hK, List.map_map]
    congr 1
    apply List.map_congr_left
    intro m hm
    have e : (List.range o.nspw).getD s 0 = s := by simp [hs']
    simp only [Function.comp_apply, e]
    exact hke _ (hv.itg m (List.mem_of_mem_filter hm) s hs')

example : Accepts exObj { blpairs := some [101102102103], times := some [5 / 2], spws := some [1], polpairs := some [1414] } := by
  refine ⟨?_, by simp, by simp, by simp, Or.inr ⟨_, by simp [exObj]; right; left; rfl, by
    simp [keepRow, near, Meas.blpair]; positivity⟩, Or.inr ⟨1414, by simp [exObj], rfl⟩⟩
  intro l hl; cases hl; simp [exObj]

/-- **C12** finding: the per-spectrum label arrays (`label_1_array`, `label_2_array`), which have one entry per window,
row and polarization, are not sliced by a selection, so afterwards they have the shape of the old object. -/
theorem C12_finding_labels_not_selected {u u' : UVP D W} {o : Obj D W} (hr : Represents u o) (hv : Valid o) (a : Args)
    (hf : o.folded = false ∨ a.spws = none) (h : select u a = .ok u') : u'.label1 = u.label1 := by
  have ha : Accepts o a := by
    by_contra hc
    obtain ⟨e, he⟩ := select_error hr hv hf hc
    rw [he] at h; cases h
  obtain ⟨u'', h1, _, h3⟩ := select_refines hr hv ha hf
  rw [h] at h1; cases h1; exact h3

/-! ### C13 -/

/-- **C13** Selecting windows `l`: with `K` the increasing list of requested labels, the new labels are `0..n-1`, the data
under new label `j` is that of the `j`-th kept window, and the channels keep order, frequency and delay. -/
theorem C13_window_selection {u : UVP D W} {o : Obj D W} (hr : Represents u o) (hv : Valid o) (hfold : o.folded = false)
    (l : List Nat) (hne : l ≠ []) (hl : ∀ s ∈ l, s < o.nspw) :
    ∃ (u' : UVP D W) (K : List Nat), select u { spws := some l } = .ok u' ∧
      K.Pairwise (· < ·) ∧ (∀ s, s ∈ K ↔ s ∈ l) ∧
      u'.spwArray = List.range K.length ∧
      (∀ j (hj : j < K.length), Dict.get u'.data j = Dict.get u.data K[j] ∧ Dict.get u'.integ j = Dict.get u.integ K[j]) ∧
      (∀ j, K.length ≤ j → Dict.get u'.data j = none) ∧
      (∃ new : Nat → Nat, (∀ j (hj : j < K.length), new K[j] = j) ∧
        u'.spwFreqArray.zip u'.freqArray =
          ((u.spwFreqArray.zip u.freqArray).filter (fun c => decide (c.1 ∈ l))).map (fun c => (new c.1, c.2)) ∧
        u'.spwDlyArray.zip u'.dlyArray =
          ((u.spwDlyArray.zip u.dlyArray).filter (fun c => decide (c.1 ∈ l))).map (fun c => (new c.1, c.2))) ∧
      u'.blpairArray = u.blpairArray ∧ u'.timeAvg = u.timeAvg ∧ u'.polpairArray = u.polpairArray := by
  have ha : Accepts o { spws := some l } :=
    ⟨by intro l' e; cases e; exact ⟨hne, hl⟩, by simp, by simp, by simp, by simp, by simp⟩
  obtain ⟨u', h1, h2, _⟩ := select_refines hr hv ha (Or.inl hfold)
  set a : Args := { spws := some l } with haa
  set K := keptSpws o.nspw a with hK
  have hsort : K.Pairwise (· < ·) := keptSpws_sorted _ _
  have hmem : ∀ s, s ∈ K ↔ s ∈ l := by
    intro s; rw [hK, mem_keptSpws]; simp only [haa, Option.some.injEq, forall_eq']
    exact ⟨fun h => h.2, fun h => ⟨hl s h, h⟩⟩
  have hkr : ∀ m : Meas D W, keepRow a m = true := by intro m; rfl
  have hke : ∀ {γ : Type} (d : List γ), d.length = o.pols.length → keepEntries a o.pols d = d := by
    intro γ d hd
    unfold keepEntries
    have hkp : ∀ x : Int × γ, keepPol a x.1 = true := fun _ => rfl
    have hfe : (o.pols.zip d).filter (fun x => keepPol a x.1) = o.pols.zip d := List.filter_eq_self.2 (fun x _ => hkp x)
    rw [hfe, List.map_snd_zip (by omega)]
  have hrows : o.rows.filter (keepRow a) = o.rows := List.filter_eq_self.2 (fun m _ => hkr m)
  have hlt : ∀ j (hj : j < K.length), K[j] < o.nspw := by
    intro j hj; exact (mem_keptSpws.1 (List.getElem_mem hj)).1
  have hgd : ∀ j (hj : j < K.length), K.getD j 0 = K[j] := by
    intro j hj; simp [List.getElem?_eq_getElem hj]
  refine ⟨u', K, h1, hsort, hmem, ?_, ?_, ?_, ?_, ?_, ?_, ?_⟩
  · rw [h2.spw]; rfl
  · intro j hj
    rw [h2.data, h2.integ, hr.data, hr.integ, if_pos (hlt j hj), if_pos (hlt j hj)]
    have : j < (specSelect o a).nspw := hj
    rw [if_pos this, if_pos this]
    simp only [specSelect, ← hK, hrows, List.map_map]
    constructor
    · congr 1
      apply List.map_congr_left
      intro m hm
      simp only [Function.comp_apply, hgd j hj]
      conv_rhs => rw [← List.map_id (m.dat K[j])]
      exact List.map_congr_left (fun d hd => hke d (hv.dat m hm _ (hlt j hj) d hd))
    · congr 1
      apply List.map_congr_left
      intro m hm
      simp only [Function.comp_apply, hgd j hj]
      exact hke _ (hv.itg m hm _ (hlt j hj))
  · intro j hj
    rw [h2.data, if_neg]
    show ¬ j < K.length
    omega
  · refine ⟨rankIn K, fun j hj => rankIn_getElem hsort j hj, ?_, ?_⟩
    · rw [h2.spwFreq, h2.freq, hr.spwFreq, hr.freq, List.zip_map', List.zip_map']
      simp only [specSelect, ← hK, List.map_map, Function.comp_def]
      simp only [hmem, List.map_id', Prod.mk.eta]
    · rw [h2.spwDly, h2.dly, hr.spwDly, hr.dly, List.zip_map', List.zip_map']
      simp only [specSelect, ← hK, List.map_map, Function.comp_def]
      simp only [hmem, List.map_id', Prod.mk.eta]
  · rw [h2.blpair, hr.blpair, specSelect]; simp only [hrows, List.map_map]; rfl
  · rw [h2.timeAvg, hr.timeAvg, specSelect]; simp only [hrows, List.map_map]; rfl
  · rw [h2.pols, hr.pols, specSelect]; exact List.filter_eq_self.2 (fun p _ => rfl)

example : ([1] : List Nat) ≠ [] ∧ (∀ s ∈ [1], s < exObj.nspw) ∧ exObj.folded = false := by decide

/-- A folded object with delays -1, 0, 1. -/
def exFolded : Obj Int ℚ where
  nspw := 1
  chans := [(0, 100)]
  dlys := [(0, -1), (0, 0), (0, 1)]
  folded := true
  pols := [1515]
  rows := [{ bl1 := 101102, bl2 := 102103, t1 := 1, t2 := 2, tAvg := 3 / 2, l1 := 0, l2 := 0, lAvg := 0,
             dat := fun _ => [[0], [1], [2]], itg := fun _ => [1] }]

/-- **C13** finding: on a folded object a window selection drops the delays at or below zero from `dly_array` and
`spw_dly_array` but not from the data, so the number of delays no longer agrees. -/
theorem C13_finding_folded_selection_shrinks_delays :
    ∃ (u u' : UVP Int ℚ), u.folded = true ∧ select u { spws := some [0] } = .ok u' ∧
      u.spwDlyArray.length = 3 ∧ u'.spwDlyArray.length = 1 ∧
      Dict.get u'.data 0 = some [[[0], [1], [2]]] ∧ Dict.get u.data 0 = some [[[0], [1], [2]]] := by
  have h : spwToDlyIndices (store exFolded) [0] = .ok [2] := by
    norm_num [spwToDlyIndices, store, exFolded, whereTrue]
  exact ⟨store exFolded, _, rfl, by simp only [select, selectSpws, h]; rfl, rfl, rfl, rfl, rfl⟩

/-! ### C14 -/

/-- Two objects hold the same arrays. -/
structure Same (u v : UVP D W) : Prop where
  spw : u.spwArray = v.spwArray
  spwFreq : u.spwFreqArray = v.spwFreqArray
  freq : u.freqArray = v.freqArray
  spwDly : u.spwDlyArray = v.spwDlyArray
  dly : u.dlyArray = v.dlyArray
  blpair : u.blpairArray = v.blpairArray
  time1 : u.time1 = v.time1
  time2 : u.time2 = v.time2
  timeAvg : u.timeAvg = v.timeAvg
  lst1 : u.lst1 = v.lst1
  lst2 : u.lst2 = v.lst2
  lstAvg : u.lstAvg = v.lstAvg
  pols : u.polpairArray = v.polpairArray
  data : ∀ s, Dict.get u.data s = Dict.get v.data s
  integ : ∀ s, Dict.get u.integ s = Dict.get v.integ s

theorem keepEntries_comp (a b c : Args) (hc : ∀ p, keepPol c p = (keepPol a p && keepPol b p)) (pols : List Int)
    {γ : Type} (d : List γ) (h : d.length = pols.length) :
    keepEntries b (pols.filter (keepPol a)) (keepEntries a pols d) = keepEntries c pols d := by
  show (((pols.filter (keepPol a)).zip (keepEntries a pols d)).filter _).map _ = _
  rw [zip_keepEntries a pols d h, List.filter_filter]
  unfold keepEntries
  congr 1
  apply List.filter_congr
  intro x _
  rw [hc, Bool.and_comm]

theorem compose_core {u u1 u2 : UVP D W} {o : Obj D W} (hr : Represents u o) (hv : Valid o) (a b c : Args)
    (ha : a.spws = none) (hb : b.spws = none) (hc : c.spws = none)
    (hrow : ∀ m : Meas D W, keepRow c m = (keepRow a m && keepRow b m))
    (hpol : ∀ p, keepPol c p = (keepPol a p && keepPol b p))
    (hC : Accepts o c) (h1 : select u a = .ok u1) (h2 : select u1 b = .ok u2) :
    ∃ v, select u c = .ok v ∧ Same v u2 := by
  have hA : Accepts o a := by
    by_contra hcon
    obtain ⟨e, he⟩ := select_error hr hv (Or.inr ha) hcon
    rw [he] at h1; cases h1
  obtain ⟨w1, e1, r1, _⟩ := select_refines hr hv hA (Or.inr ha)
  rw [h1] at e1; cases e1
  have hv1 := valid_specSelect hv a
  have hB : Accepts (specSelect o a) b := by
    by_contra hcon
    obtain ⟨e, he⟩ := select_error r1 hv1 (Or.inr hb) hcon
    rw [he] at h2; cases h2
  obtain ⟨w2, e2, r2, _⟩ := select_refines r1 hv1 hB (Or.inr hb)
  rw [h2] at e2; cases e2
  have hKa : keptSpws o.nspw a = List.range o.nspw := by simp [keptSpws, ha]
  have hKc : keptSpws o.nspw c = List.range o.nspw := by simp [keptSpws, hc]
  have hn1 : (specSelect o a).nspw = o.nspw := by simp [specSelect, hKa]
  have hKb : keptSpws (specSelect o a).nspw b = List.range o.nspw := by simp [keptSpws, hb, hn1]
  have hkb : ∀ (m : Meas D W) (f : Nat → List (List D)) (g : Nat → List W), keepRow b { m with dat := f, itg := g } = keepRow b m := by
    intro m f g; rfl
  have hrows12 : ∀ (γ : Type) (F : Meas D W → γ), (∀ (m : Meas D W) f g, F { m with dat := f, itg := g } = F m) →
      (specSelect (specSelect o a) b).rows.map F = (o.rows.filter (keepRow c)).map F := by
    intro γ F hF
    simp only [specSelect, List.map_map, List.filter_map, List.filter_filter]
    have : (keepRow b ∘ fun m : Meas D W => { m with
      dat := fun j => (m.dat ((keptSpws o.nspw a).getD j 0)).map (keepEntries a o.pols)
      itg := fun j => keepEntries a o.pols (m.itg ((keptSpws o.nspw a).getD j 0)) }) = keepRow b := by
      funext m; exact hkb m _ _
    simp only [this, Function.comp_def, hF]
    congr 1
    apply List.filter_congr
    intro m _
    rw [hrow]
    exact Bool.and_comm _ _
  have hrowsC : ∀ (γ : Type) (F : Meas D W → γ), (∀ (m : Meas D W) f g, F { m with dat := f, itg := g } = F m) →
      (specSelect o c).rows.map F = (o.rows.filter (keepRow c)).map F := by
    intro γ F hF
    simp only [specSelect, List.map_map, Function.comp_def, hF]
  have hchs : ∀ L : List (Nat × ℚ), (∀ x ∈ L, x.1 < o.nspw) →
      (L.filter (fun x => decide (x.1 ∈ List.range o.nspw))).map (fun x => (rankIn (List.range o.nspw) x.1, x.2)) = L := by
    intro L hL
    rw [List.filter_eq_self.2 (by intro x hx; simp [hL x hx])]
    conv_rhs => rw [← List.map_id L]
    exact List.map_congr_left (fun x hx => by simp [rankIn_range (hL x hx)])
  have hch1 : (specSelect o a).chans = o.chans := by
    simp only [specSelect, hKa]; exact hchs _ hv.chans_lt
  have hdl1 : (specSelect o a).dlys = o.dlys := by
    simp only [specSelect, hKa]; exact hchs _ hv.dlys_lt
  obtain ⟨v, ev, rv, _⟩ := select_refines hr hv hC (Or.inr hc)
  refine ⟨v, ev, ?_⟩
  have hn2 : (specSelect (specSelect o a) b).nspw = o.nspw := by simp [specSelect, keptSpws, ha, hb]
  have hnc : (specSelect o c).nspw = o.nspw := by simp [specSelect, hKc]
  have hch2 : (specSelect (specSelect o a) b).chans = o.chans := by
    show ((specSelect o a).chans.filter _).map _ = _
    rw [hKb, hch1]; exact hchs _ hv.chans_lt
  have hdl2 : (specSelect (specSelect o a) b).dlys = o.dlys := by
    show ((specSelect o a).dlys.filter _).map _ = _
    rw [hKb, hdl1]; exact hchs _ hv.dlys_lt
  have hchc : (specSelect o c).chans = o.chans := by
    simp only [specSelect, hKc]; exact hchs _ hv.chans_lt
  have hdlc : (specSelect o c).dlys = o.dlys := by
    simp only [specSelect, hKc]; exact hchs _ hv.dlys_lt
  constructor
  · rw [rv.spw, r2.spw, hnc, hn2]
  · rw [rv.spwFreq, r2.spwFreq, hchc, hch2]
  · rw [rv.freq, r2.freq, hchc, hch2]
  · rw [rv.spwDly, r2.spwDly, hdlc, hdl2]
  · rw [rv.dly, r2.dly, hdlc, hdl2]
  · rw [rv.blpair, r2.blpair, hrowsC, hrows12] <;> (intros; rfl)
  · rw [rv.time1, r2.time1, hrowsC, hrows12] <;> (intros; rfl)
  · rw [rv.time2, r2.time2, hrowsC, hrows12] <;> (intros; rfl)
  · rw [rv.timeAvg, r2.timeAvg, hrowsC, hrows12] <;> (intros; rfl)
  · rw [rv.lst1, r2.lst1, hrowsC, hrows12] <;> (intros; rfl)
  · rw [rv.lst2, r2.lst2, hrowsC, hrows12] <;> (intros; rfl)
  · rw [rv.lstAvg, r2.lstAvg, hrowsC, hrows12] <;> (intros; rfl)
  · rw [rv.pols, r2.pols]
    simp only [specSelect, List.filter_filter]
    exact List.filter_congr (fun p _ => by rw [hpol, Bool.and_comm])
  · intro s
    rw [rv.data, r2.data, hnc, hn2]
    by_cases hs : s < o.nspw
    · have e : (List.range o.nspw).getD s 0 = s := by simp [hs]
      rw [if_pos hs, if_pos hs]
      simp only [specSelect, hKa, hKc, List.length_range, List.map_map, List.filter_map, List.filter_filter]
      have hkb' : (keepRow b ∘ fun m : Meas D W => { m with
        dat := fun j => (m.dat ((List.range o.nspw).getD j 0)).map (keepEntries a o.pols)
        itg := fun j => keepEntries a o.pols (m.itg ((List.range o.nspw).getD j 0)) }) = keepRow b := by
        funext m; exact hkb m _ _
      simp only [hkb']
      have hfil : o.rows.filter (fun m => keepRow a m && keepRow b m) = o.rows.filter (keepRow c) :=
        List.filter_congr (fun m _ => (hrow m).symm)
      have hfil' : o.rows.filter (fun m => keepRow b m && keepRow a m) = o.rows.filter (keepRow c) :=
        List.filter_congr (fun m _ => by rw [hrow m, Bool.and_comm])
      first | rw [hfil] | rw [hfil']
      congr 1
      apply List.map_congr_left
      intro m hm
      have hb2 : (keptSpws o.nspw b) = List.range o.nspw := by simp [keptSpws, hb]
      simp only [Function.comp_apply, hb2, e, List.map_map]
      apply List.map_congr_left
      intro d hd
      exact (keepEntries_comp a b c hpol o.pols d (hv.dat m (List.mem_of_mem_filter hm) s hs d hd)).symm
    · rw [if_neg hs, if_neg hs]
  · intro s
    rw [rv.integ, r2.integ, hnc, hn2]
    by_cases hs : s < o.nspw
    · have e : (List.range o.nspw).getD s 0 = s := by simp [hs]
      rw [if_pos hs, if_pos hs]
      simp only [specSelect, hKa, hKc, List.length_range, List.map_map, List.filter_map, List.filter_filter]
      have hkb' : (keepRow b ∘ fun m : Meas D W => { m with
        dat := fun j => (m.dat ((List.range o.nspw).getD j 0)).map (keepEntries a o.pols)
        itg := fun j => keepEntries a o.pols (m.itg ((List.range o.nspw).getD j 0)) }) = keepRow b := by
        funext m; exact hkb m _ _
      simp only [hkb']
      have hfil : o.rows.filter (fun m => keepRow a m && keepRow b m) = o.rows.filter (keepRow c) :=
        List.filter_congr (fun m _ => (hrow m).symm)
      have hfil' : o.rows.filter (fun m => keepRow b m && keepRow a m) = o.rows.filter (keepRow c) :=
        List.filter_congr (fun m _ => by rw [hrow m, Bool.and_comm])
      first | rw [hfil] | rw [hfil']
      congr 1
      apply List.map_congr_left
      intro m hm
      have hb2 : (keptSpws o.nspw b) = List.range o.nspw := by simp [keptSpws, hb]
      simp only [Function.comp_apply, hb2, e]
      exact (keepEntries_comp a b c hpol o.pols _ (hv.itg m (List.mem_of_mem_filter hm) s hs)).symm
    · rw [if_neg hs, if_neg hs]

/-- **C14** Selecting with `a` and then with `b` equals selecting once with a request `c` that is their conjunction. -/
theorem C14_select_compose {u u1 u2 : UVP D W} {o : Obj D W} (hr : Represents u o) (hv : Valid o) (a b c : Args)
    (ha : a.spws = none) (hb : b.spws = none) (hc : c.spws = none)
    (hrow : ∀ m : Meas D W, keepRow c m = (keepRow a m && keepRow b m))
    (hpol : ∀ p, keepPol c p = (keepPol a p && keepPol b p))
    (hcb : c.bls ≠ some []) (hcbp : c.blpairs ≠ some []) (hct : c.times = none ∨ c.lsts = none)
    (h1 : select u a = .ok u1) (h2 : select u1 b = .ok u2) (hne : o.rows ≠ []) (hpne : o.pols ≠ []) :
    ∃ v, select u c = .ok v ∧ Same v u2 := by
  have hA : Accepts o a := by
    by_contra hcon
    obtain ⟨e, he⟩ := select_error hr hv (Or.inr ha) hcon
    rw [he] at h1; cases h1
  obtain ⟨w1, e1, r1, _⟩ := select_refines hr hv hA (Or.inr ha)
  rw [h1] at e1; cases e1
  have hv1 := valid_specSelect hv a
  have hB : Accepts (specSelect o a) b := by
    by_contra hcon
    obtain ⟨e, he⟩ := select_error r1 hv1 (Or.inr hb) hcon
    rw [he] at h2; cases h2
  have hC : Accepts o c := by
    refine ⟨by simp [hc], hcb, hcbp, hct, ?_, ?_⟩
    · right
      have hBr := hB.rows
      rcases hBr with h | ⟨m, hm, hk⟩
      · -- `b` keeps every row
        have hall : ∀ m : Meas D W, keepRow b m = true := by
          intro m; obtain ⟨x1, x2, x3, x4⟩ := h; simp [keepRow, x1, x2, x3, x4]
        rcases hA.rows with h' | ⟨m, hm, hk⟩
        · obtain ⟨m, l, e⟩ := List.exists_cons_of_ne_nil hne
          refine ⟨m, by simp [e], ?_⟩
          obtain ⟨x1, x2, x3, x4⟩ := h'
          rw [hrow, hall]; simp [keepRow, x1, x2, x3, x4]
        · exact ⟨m, hm, by rw [hrow, hall, hk]; rfl⟩
      · simp only [specSelect, List.mem_map, List.mem_filter] at hm
        obtain ⟨m', ⟨h1, h2⟩, rfl⟩ := hm
        exact ⟨m', h1, by rw [hrow, h2]; exact hk⟩
    · right
      rcases hB.pols with h | ⟨p, hp, hk⟩
      · have hall : ∀ p, keepPol b p = true := by intro p; simp [keepPol, h]
        rcases hA.pols with h' | ⟨p, hp, hk⟩
        · obtain ⟨p, l, e⟩ := List.exists_cons_of_ne_nil hpne
          exact ⟨p, by simp [e], by rw [hpol, hall]; simp [keepPol, h']⟩
        · exact ⟨p, hp, by rw [hpol, hall, hk]; rfl⟩
      · simp only [specSelect, List.mem_filter] at hp
        exact ⟨p, hp.1, by rw [hpol, hp.2, hk]; rfl⟩
  exact compose_core hr hv a b c ha hb hc hrow hpol hC h1 h2

/-- **C14** Selecting the same rows and polarizations twice is the same as selecting them once. -/
theorem C14_select_idempotent {u u1 : UVP D W} {o : Obj D W} (hr : Represents u o) (hv : Valid o) (a : Args)
    (ha : a.spws = none) (h1 : select u a = .ok u1) : ∃ u2, select u1 a = .ok u2 ∧ Same u1 u2 := by
  have hA : Accepts o a := by
    by_contra hcon
    obtain ⟨e, he⟩ := select_error hr hv (Or.inr ha) hcon
    rw [he] at h1; cases h1
  obtain ⟨w1, e1, r1, _⟩ := select_refines hr hv hA (Or.inr ha)
  rw [h1] at e1; cases e1
  have hA' : Accepts (specSelect o a) a := by
    refine ⟨by simp [ha], hA.bls, hA.blpairs, hA.timesLsts, ?_, ?_⟩
    · rcases hA.rows with h | ⟨m, hm, hk⟩
      · exact Or.inl h
      · right
        exact ⟨_, List.mem_map.2 ⟨m, List.mem_filter.2 ⟨hm, hk⟩, rfl⟩, hk⟩
    · rcases hA.pols with h | ⟨p, hp, hk⟩
      · exact Or.inl h
      · exact Or.inr ⟨p, List.mem_filter.2 ⟨hp, hk⟩, hk⟩
  obtain ⟨u2, e2, _, _⟩ := select_refines r1 (valid_specSelect hv a) hA' (Or.inr ha)
  obtain ⟨v, ev, hsame⟩ := compose_core hr hv a a a ha ha ha (by intro m; simp) (by intro p; simp) hA h1 e2
  rw [h1] at ev; cases ev
  exact ⟨u2, e2, hsame⟩

/-- **C14** Two baseline-pair selections in a row keep the intersection: the instance of the composition theorem for
`select(blpairs=A)` followed by `select(blpairs=B)`. -/
theorem C14_blpairs_then_blpairs {u u1 u2 : UVP D W} {o : Obj D W} (hr : Represents u o) (hv : Valid o) (A B : List Int)
    (h1 : select u { blpairs := some A } = .ok u1) (h2 : select u1 { blpairs := some B } = .ok u2)
    (hne : o.rows ≠ []) (hpne : o.pols ≠ []) (hAB : A.filter (fun b => decide (b ∈ B)) ≠ []) :
    ∃ v, select u { blpairs := some (A.filter (fun b => decide (b ∈ B))) } = .ok v ∧ Same v u2 := by
  refine C14_select_compose hr hv { blpairs := some A } { blpairs := some B } _ rfl rfl rfl ?_ ?_ ?_ ?_ ?_ h1 h2 hne hpne
  · intro m; simp [keepRow]
  · intro p; rfl
  · simp
  · simpa using hAB
  · simp

/-- **C14** A baseline-pair selection followed by a time selection is the joint selection. -/
theorem C14_blpairs_then_times {u u1 u2 : UVP D W} {o : Obj D W} (hr : Represents u o) (hv : Valid o) (A : List Int)
    (T : List ℚ) (h1 : select u { blpairs := some A } = .ok u1) (h2 : select u1 { times := some T } = .ok u2)
    (hne : o.rows ≠ []) (hpne : o.pols ≠ []) :
    ∃ v, select u { blpairs := some A, times := some T } = .ok v ∧ Same v u2 := by
  have hA : A ≠ [] := by
    rintro rfl
    obtain ⟨e, he⟩ := select_error (a := { blpairs := some [] }) hr hv (Or.inr rfl) (fun h => h.blpairs rfl)
    rw [he] at h1; cases h1
  refine C14_select_compose hr hv { blpairs := some A } { times := some T } _ rfl rfl rfl ?_ ?_ ?_ ?_ ?_ h1 h2 hne hpne
  · intro m; simp [keepRow]
  · intro p; rfl
  · simp
  · simpa using hA
  · simp

/-- **C14** A polarization selection keeps the stored order. -/
theorem C14_polpairs_keep_order {u u' : UVP D W} {o : Obj D W} (hr : Represents u o) (hv : Valid o) (ps : List Int)
    (h : select u { polpairs := some ps } = .ok u') :
    u'.polpairArray = u.polpairArray.filter (fun p => decide (p ∈ ps)) := by
  have hA : Accepts o { polpairs := some ps } := by
    by_contra hcon
    obtain ⟨e, he⟩ := select_error hr hv (Or.inr rfl) hcon
    rw [he] at h; cases h
  obtain ⟨w1, e1, r1, _⟩ := select_refines hr hv hA (Or.inr rfl)
  rw [h] at e1; cases e1
  rw [r1.pols, hr.pols]; rfl

example : ∃ u1 u2, select (store exObj) { blpairs := some [101102102103] } = .ok u1 ∧
    select u1 { blpairs := some [101102102103, 103104104105] } = .ok u2 ∧ u2.timeAvg = [3 / 2, 5 / 2] :=
  ⟨_, _, rfl, rfl, rfl⟩

/-! ### C15 -/

/-- **C15** Reading after a selection: for an unfolded object, every kept window `K[j]`, baseline-pair and polarization
pair, `get_data` on the result returns the spectra `get_data` returned on the original, restricted to the rows that
satisfy the request. -/
theorem C15_read_after_select {u u' : UVP D W} {o : Obj D W} (hr : Represents u o) (hv : Valid o) (hn : o.pols.Nodup)
    (hfold : o.folded = false) (a : Args) (h : select u a = .ok u') (j : Nat) (hj : j < (keptSpws o.nspw a).length)
    (b p : Int) (hb : ∃ m ∈ o.rows, m.blpair = b ∧ keepRow a m = true) (hp : p ∈ o.pols) (hkp : keepPol a p = true) :
    ∃ spec : Meas D W → List D,
      getData u (keptSpws o.nspw a)[j] b p = .ok ((o.rows.filter (fun m => decide (m.blpair = b))).map spec) ∧
      getData u' j b p =
        .ok (((o.rows.filter (fun m => decide (m.blpair = b))).filter (keepRow a)).map spec) := by
  have hA : Accepts o a := by
    by_contra hcon
    obtain ⟨e, he⟩ := select_error hr hv (Or.inl hfold) hcon
    rw [he] at h; cases h
  obtain ⟨w1, e1, r1, _⟩ := select_refines hr hv hA (Or.inl hfold)
  rw [h] at e1; cases e1
  have hlt : (keptSpws o.nspw a)[j] < o.nspw := (mem_keptSpws.1 (List.getElem_mem hj)).1
  refine ⟨fun m => (m.dat (keptSpws o.nspw a)[j]).filterMap (entry o.pols p), ?_, ?_⟩
  · obtain ⟨m, hm, e, _⟩ := hb
    exact getData_spec hr hv hn hlt ⟨m, hm, e⟩ hp hfold
  · have hb' : ∃ m ∈ (specSelect o a).rows, m.blpair = b := by
      obtain ⟨m, hm, e, hk⟩ := hb
      exact ⟨_, List.mem_map.2 ⟨m, List.mem_filter.2 ⟨hm, hk⟩, rfl⟩, e⟩
    have hp' : p ∈ (specSelect o a).pols := List.mem_filter.2 ⟨hp, hkp⟩
    rw [getData_spec r1 (valid_specSelect hv a) (List.Nodup.filter _ hn) (show j < (specSelect o a).nspw from hj) hb' hp'
      hfold]
    congr 1
    simp only [specSelect, List.filter_map, List.map_map, List.filter_filter]
    have hcomm : o.rows.filter (fun m => decide (m.blpair = b) && keepRow a m)
        = o.rows.filter (fun m => keepRow a m && decide (m.blpair = b)) :=
      List.filter_congr (fun m _ => Bool.and_comm _ _)
    rw [← hcomm]
    apply List.map_congr_left
    intro m hm
    have hm' := List.mem_of_mem_filter hm
    have hgd : (keptSpws o.nspw a).getD j 0 = (keptSpws o.nspw a)[j] := by simp [List.getElem?_eq_getElem hj]
    simp only [Function.comp_apply, hgd, List.filterMap_map]
    apply List.filterMap_congr
    intro d hd
    exact entry_keepEntries hkp (hv.dat m hm' _ hlt d hd)

example : getData (store exObj) 1 101102102103 1414 = .ok [[6, 8], [16, 18]] := rfl

example : ∃ u', select (store exObj) { spws := some [1], polpairs := some [1414], bls := some [101102] } = .ok u' ∧
    getData u' 0 101102102103 1414 = .ok [[6, 8], [16, 18]] := ⟨_, rfl, rfl⟩

/-! ### C17 -/

/-- **C17** `get_data((s, b, p))` returns exactly the rows with baseline-pair `b`, in order: the entries for `p` of the
spectra of window `s`. -/
theorem C17_get_data_exact {u : UVP D W} {o : Obj D W} (hr : Represents u o) (hv : Valid o) (hn : o.pols.Nodup)
    (hf : o.folded = false) (s : Nat) (b p : Int) (hs : s < o.nspw) (hb : ∃ m ∈ o.rows, m.blpair = b) (hp : p ∈ o.pols) :
    getData u s b p = .ok ((o.rows.filter (fun m => decide (m.blpair = b))).map
      (fun m => (m.dat s).filterMap (fun d => (o.pols.zip d).lookup p))) :=
  getData_spec hr hv hn hs hb hp hf

/-- **C17** Unknown windows, baseline-pairs or polarization pairs are rejected (folded or not). -/
theorem C17_unknown_key_rejected {u : UVP D W} {o : Obj D W} (hr : Represents u o) (hv : Valid o) (s : Nat) (b p : Int)
    (h : ¬ (s < o.nspw ∧ (∃ m ∈ o.rows, m.blpair = b) ∧ p ∈ o.pols)) : ∃ e, getData u s b p = .error e := by
  obtain ⟨e, he⟩ := keyToIndices_error hr hv h
  unfold getData
  rw [he]; exact ⟨e, rfl⟩

theorem orderedUnique_aux (l acc : List Int) (h : acc.Nodup) :
    (l.foldl (fun acc x => if x ∈ acc then acc else acc ++ [x]) acc).Nodup ∧
    ∀ x, x ∈ l.foldl (fun acc x => if x ∈ acc then acc else acc ++ [x]) acc ↔ x ∈ acc ∨ x ∈ l := by
  induction l generalizing acc with
  | nil => exact ⟨h, by simp⟩
  | cons a l ih =>
    simp only [List.foldl_cons]
    by_cases ha : a ∈ acc
    · rw [if_pos ha]
      refine ⟨(ih acc h).1, fun x => ?_⟩
      rw [(ih acc h).2]
      constructor
      · rintro (h | h) <;> simp [h]
      · rintro (h | h)
        · exact Or.inl h
        · rcases List.mem_cons.1 h with rfl | h
          · exact Or.inl ha
          · exact Or.inr h
    · rw [if_neg ha]
      have hn : (acc ++ [a]).Nodup := by
        rw [List.nodup_append]; exact ⟨h, by simp, by intro x hx y hy; simp at hy; subst hy; rintro rfl; exact ha hx⟩
      refine ⟨(ih _ hn).1, fun x => ?_⟩
      rw [(ih _ hn).2]
      simp only [List.mem_append, List.mem_cons, List.not_mem_nil, or_false, or_assoc]

/-- **C17** `get_all_keys` lists every existing key exactly once. -/
theorem C17_all_keys_once {u : UVP D W} {o : Obj D W} (hr : Represents u o) (hn : o.pols.Nodup) :
    (getAllKeys u).Nodup ∧
    ∀ s b p, (s, b, p) ∈ getAllKeys u ↔ s < o.nspw ∧ (∃ m ∈ o.rows, m.blpair = b) ∧ p ∈ o.pols := by
  have hou := orderedUnique_aux u.blpairArray [] List.nodup_nil
  unfold getAllKeys
  rw [hr.spw, hr.pols, List.length_range]
  constructor
  · rw [List.nodup_flatMap]
    refine ⟨?_, ?_⟩
    · intro s _
      rw [List.nodup_flatMap]
      refine ⟨?_, ?_⟩
      · intro p _
        exact List.Nodup.map (by intro a b h; simpa using h) hou.1
      · refine List.Pairwise.imp ?_ hn
        intro p q hpq
        simp only [Function.onFun, List.disjoint_left, List.mem_map]
        rintro _ ⟨x, _, rfl⟩ ⟨y, _, h⟩
        simp at h; exact hpq h.2.symm
    · refine List.Pairwise.imp ?_ List.nodup_range
      intro s t hst
      simp only [Function.onFun, List.disjoint_left, List.mem_flatMap, List.mem_map]
      rintro _ ⟨p, _, x, _, rfl⟩ ⟨q, _, y, _, h⟩
      simp at h; exact hst h.1.symm
  · intro s b p
    simp only [List.mem_flatMap, List.mem_range, List.mem_map, Prod.mk.injEq]
    have hmem : b ∈ orderedUnique u.blpairArray ↔ ∃ m ∈ o.rows, m.blpair = b := by
      rw [show orderedUnique u.blpairArray = u.blpairArray.foldl _ [] from rfl, hou.2 b, hr.blpair]; simp
    constructor
    · rintro ⟨s', hs', p', hp', b', hb', rfl, rfl, rfl⟩
      exact ⟨hs', hmem.1 hb', hp'⟩
    · rintro ⟨hs, hb, hp⟩
      exact ⟨s, hs, p, hp, b, hmem.2 hb, rfl, rfl, rfl⟩

/-- **C17** Every key `get_all_keys` lists can be read. -/
theorem C17_all_keys_readable {u : UVP D W} {o : Obj D W} (hr : Represents u o) (hv : Valid o) (hn : o.pols.Nodup)
    (k : Nat × Int × Int) (hk : k ∈ getAllKeys u) : ∃ x, getData u k.1 k.2.1 k.2.2 = .ok x := by
  obtain ⟨s, b, p⟩ := k
  obtain ⟨hs, hb, hp⟩ := ((C17_all_keys_once hr hn).2 s b p).1 hk
  obtain ⟨i, hki, _⟩ := keyToIndices_spec hr hv hn hs hb hp
  unfold getData
  simp only [hki, bind, Except.bind, hr.data, if_pos hs]
  exact ⟨_, rfl⟩

example : getAllKeys (store exObj) = [(0, 101102102103, 1515), (0, 103104104105, 1515), (0, 101102102103, 1414),
    (0, 103104104105, 1414), (1, 101102102103, 1515), (1, 103104104105, 1515), (1, 101102102103, 1414),
    (1, 103104104105, 1414)] := by rfl

end HeraPspec.UVP
