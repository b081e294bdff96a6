import Verif.Model.GetCov
import Verif.Props.Access
import Verif.Props.UVPRead

/-! C112: `get_cov` and `get_window_function`. -/
namespace HeraPspec.GetCov
open HeraPspec.UVP HeraPspec.Access

variable {D S : Type}

/-! ### Specification -/

/-- The array holds `c s m` for row `m` in window `s`. -/
def Holds {A : Type} (a : Dict ℕ (List A)) (o : Obj D ℚ) (c : ℕ → Meas D ℚ → A) : Prop :=
  ∀ s, s < o.nspw → Dict.get a s = some (o.rows.map (c s))

/-- The entries of a matrix (first axis, second axis, polarization pair) for one polarization pair. -/
def forPol (pols : List ℤ) (p : ℤ) (m : List (List (List S))) : List (List S) := m.map (fun r => r.filterMap (fun x => (pols.zip x).lookup p))

/-- The part of a matrix at strictly positive delays on both axes. -/
def positiveBlock {A : Type} (dl : List ℚ) (m : List (List A)) : List (List A) := (positivePart dl m).map (positivePart dl)

/-! ### Lemmas -/

theorem key_fail {u : UVP D ℚ} {re im : Option (Arr4 S)} {s : ℕ} {b p : ℤ} {om : Bool} {e : Err} (h : keyToIndicesOmit u s b p om = .error e)
    (c : Component) : getCov u re im s b p om c = .error (.key e) := by
  unfold getCov; rw [h]; rfl

theorem count_window {u : UVP D ℚ} {o : Obj D ℚ} (hr : Represents u o) (s : ℕ) : u.spwDlyArray.count s = (windowDelays o s).length := by
  rw [hr.spwDly]
  unfold windowDelays
  rw [List.count, List.countP_map, List.countP_eq_length_filter, List.length_map]
  congr 1

theorem negSlice_positive {A : Type} {dl : List ℚ} {δ : ℚ} (hδ : 0 < δ) (hc : Centred dl δ) (h3 : 3 ≤ dl.length) (l : List A)
    (hl : l.length = dl.length) : negSlice l (dl.length - dl.length / 2 - 1) = positivePart dl l := by
  rw [positivePart_drop hδ hc _ hl]
  unfold negSlice
  rw [if_neg (by omega), hl, show dl.length - (dl.length - dl.length / 2 - 1) = dl.length / 2 + 1 by omega]

theorem positivePart_mem {A : Type} {dl : List ℚ} {l : List A} {x : A} (h : x ∈ positivePart dl l) : x ∈ l := by
  unfold positivePart at h
  rw [List.mem_map] at h
  obtain ⟨y, hy, rfl⟩ := h
  exact (List.of_mem_zip (List.mem_of_mem_filter hy)).2

theorem slice4_spec {u : UVP D ℚ} {o : Obj D ℚ} (hr : Represents u o) (hn : o.pols.Nodup) {s : ℕ} (hs : s < o.nspw) {p : ℤ} {i : ℕ}
    (hi : o.pols[i]? = some p) (q : Meas D ℚ → Bool) {a : Arr4 S} {c : ℕ → Meas D ℚ → List (List (List S))} (ha : Holds a o c)
    (hf : o.folded = false) :
    slice4 u a (s, whereTrue (o.rows.map q), i) = .ok ((o.rows.filter q).map (fun m => forPol o.pols p (c s m))) := by
  unfold slice4
  rw [ha s hs]
  simp only
  rw [take_rows, List.map_map]
  congr 1
  apply List.map_congr_left
  intro m _
  simp only [Function.comp_apply, block, hr.folded, hf, Bool.false_eq_true, if_false, forPol]
  apply List.map_congr_left
  intro r _
  congr 1
  funext x
  exact (lookup_zip_getElem hn hi x).symm

theorem slice4_folded {u : UVP D ℚ} {o : Obj D ℚ} (hr : Represents u o) (hn : o.pols.Nodup) {s : ℕ} (hs : s < o.nspw) {p : ℤ} {i : ℕ}
    (hi : o.pols[i]? = some p) (q : Meas D ℚ → Bool) {a : Arr4 S} {c : ℕ → Meas D ℚ → List (List (List S))} (ha : Holds a o c)
    (hf : o.folded = true) {δ : ℚ} (hδ : 0 < δ) (hc : Centred (windowDelays o s) δ) (h3 : 3 ≤ (windowDelays o s).length)
    (hl : ∀ m ∈ o.rows, (c s m).length = (windowDelays o s).length)
    (hl2 : ∀ m ∈ o.rows, ∀ r ∈ c s m, r.length = (windowDelays o s).length) :
    slice4 u a (s, whereTrue (o.rows.map q), i) =
      .ok ((o.rows.filter q).map (fun m => forPol o.pols p (positiveBlock (windowDelays o s) (c s m)))) := by
  unfold slice4
  rw [ha s hs]
  simp only
  rw [take_rows, List.map_map]
  congr 1
  apply List.map_congr_left
  intro m hm
  have hm' := List.mem_of_mem_filter hm
  simp only [Function.comp_apply, block, hr.folded, hf, if_true, forPol, positiveBlock, posCount, count_window hr s, List.map_map]
  rw [negSlice_positive hδ hc h3 _ (hl m hm')]
  apply List.map_congr_left
  intro r hrm
  simp only [Function.comp_apply]
  rw [negSlice_positive hδ hc h3 _ (hl2 m hm' r (positivePart_mem hrm))]
  congr 1
  funext x
  exact (lookup_zip_getElem hn hi x).symm

/-! ### Theorems -/

/-- **C112** On an object that is not folded, `get_cov` returns for each component the stored delay-delay matrices of the requested
polarization pair, one per row of the baseline-pair (without the flagged ones, if so asked), in the order of `get_data`, so that matrix
`t` belongs to spectrum `t`; `get_window_function` does the same for the approximate and the exact window functions. -/
theorem C112_get_cov_and_window {u : UVP D ℚ} {o : Obj D ℚ} (hr : Represents u o) (hv : Valid o) (hn : o.pols.Nodup) (hf : o.folded = false)
    (s : ℕ) (b p : ℤ) (hs : s < o.nspw) (hb : ∃ m ∈ o.rows, m.blpair = b) (hp : p ∈ o.pols) (om : Bool)
    (re im w : Arr4 S) (cr ci cw : ℕ → Meas D ℚ → List (List (List S))) (hre : Holds re o cr) (him : Holds im o ci) (hw : Holds w o cw)
    (w5 : Arr5 S) (cw5 : ℕ → Meas D ℚ → List (List (List (List S)))) (hw5 : Holds w5 o cw5) :
    getCov u (some re) (some im) s b p om .real = .ok ((rowsOf o s b p om).map (fun m => forPol o.pols p (cr s m))) ∧
    getCov u (some re) (some im) s b p om .imag = .ok ((rowsOf o s b p om).map (fun m => forPol o.pols p (ci s m))) ∧
    getWindow u (.approx w) s b p om = .ok (.three ((rowsOf o s b p om).map (fun m => forPol o.pols p (cw s m)))) ∧
    getWindow u (.exact w5) s b p om = .ok (.four ((rowsOf o s b p om).map (fun m => (cw5 s m).map (forPol o.pols p)))) ∧
    getDataOmit u s b p om = .ok ((rowsOf o s b p om).map (fun m => (m.dat s).filterMap (fun d => (o.pols.zip d).lookup p))) := by
  obtain ⟨i, hk, hi⟩ := omit_spec hr hv hn hs hb hp om
  refine ⟨?_, ?_, ?_, ?_, (C94_omit_flags hr hv hn hf s b p hs hb hp om).1⟩
  · unfold getCov; rw [hk]; exact slice4_spec hr hn hs hi _ hre hf
  · unfold getCov; rw [hk]; exact slice4_spec hr hn hs hi _ him hf
  · unfold getWindow; rw [hk]
    show (slice4 u w _).map WinOut.three = _
    rw [slice4_spec hr hn hs hi _ hw hf]; rfl
  · unfold getWindow; rw [hk]
    show (slice5 u w5 _).map WinOut.four = _
    unfold slice5
    rw [hw5 s hs]
    simp only
    rw [take_rows, List.map_map, hr.folded, hf]
    simp only [Bool.false_eq_true, if_false, Except.map]
    congr 2
    apply List.map_congr_left
    intro m _
    simp only [Function.comp_apply, row5, forPol]
    apply List.map_congr_left
    intro r _
    apply List.map_congr_left
    intro x _
    congr 1
    funext y
    exact (lookup_zip_getElem hn hi y).symm

/-- **C112** (three or more delays; approximate window functions) On a folded object whose window has delays centred on zero, the
covariances and the approximate window functions returned are the blocks at strictly positive delays on both axes, again row by row.
Missing: windows of one or two delays (the whole matrix is returned, see `C112_counterexample_two_delays`) and exact window functions
(the wrong axis is indexed, see `C112_counterexample_exact_folded`). -/
theorem C112_folded_partial {u : UVP D ℚ} {o : Obj D ℚ} (hr : Represents u o) (hv : Valid o) (hn : o.pols.Nodup) (hf : o.folded = true)
    (s : ℕ) (b p : ℤ) (hs : s < o.nspw) (hb : ∃ m ∈ o.rows, m.blpair = b) (hp : p ∈ o.pols) (om : Bool)
    (re im w : Arr4 S) (cr ci cw : ℕ → Meas D ℚ → List (List (List S))) (hre : Holds re o cr) (him : Holds im o ci) (hw : Holds w o cw)
    (δ : ℚ) (hδ : 0 < δ) (hc : Centred (windowDelays o s) δ) (h3 : 3 ≤ (windowDelays o s).length)
    (hsq : ∀ c ∈ [cr, ci, cw], ∀ m ∈ o.rows, (c s m).length = (windowDelays o s).length ∧
      ∀ r ∈ c s m, r.length = (windowDelays o s).length) :
    getCov u (some re) (some im) s b p om .real =
      .ok ((rowsOf o s b p om).map (fun m => forPol o.pols p (positiveBlock (windowDelays o s) (cr s m)))) ∧
    getCov u (some re) (some im) s b p om .imag =
      .ok ((rowsOf o s b p om).map (fun m => forPol o.pols p (positiveBlock (windowDelays o s) (ci s m)))) ∧
    getWindow u (.approx w) s b p om =
      .ok (.three ((rowsOf o s b p om).map (fun m => forPol o.pols p (positiveBlock (windowDelays o s) (cw s m))))) := by
  obtain ⟨i, hk, hi⟩ := omit_spec hr hv hn hs hb hp om
  refine ⟨?_, ?_, ?_⟩
  · unfold getCov; rw [hk]
    exact slice4_folded hr hn hs hi _ hre hf hδ hc h3 (fun m hm => (hsq cr (by simp) m hm).1) (fun m hm => (hsq cr (by simp) m hm).2)
  · unfold getCov; rw [hk]
    exact slice4_folded hr hn hs hi _ him hf hδ hc h3 (fun m hm => (hsq ci (by simp) m hm).1) (fun m hm => (hsq ci (by simp) m hm).2)
  · unfold getWindow; rw [hk]
    show (slice4 u w _).map WinOut.three = _
    rw [slice4_folded hr hn hs hi _ hw hf hδ hc h3 (fun m hm => (hsq cw (by simp) m hm).1) (fun m hm => (hsq cw (by simp) m hm).2)]; rfl

/-- **C112** A valid key with an unknown component is refused (`ValueError`), and a component that was never computed raises
`AttributeError`; an invalid key fails as in `get_data`. -/
theorem C112_errors (u : UVP D ℚ) (re im : Option (Arr4 S)) (s : ℕ) (b p : ℤ) (om : Bool) :
    (∀ e, keyToIndicesOmit u s b p om = .error e → ∀ c, getCov u re im s b p om c = .error (.key e)) ∧
    (∀ e, keyToIndicesOmit u s b p om = .error e → getDataOmit u s b p om = .error e) ∧
    (∀ k, keyToIndicesOmit u s b p om = .ok k → getCov u re im s b p om .other = .error .value ∧
      getCov u none im s b p om .real = .error .attribute ∧ getCov u re none s b p om .imag = .error .attribute) := by
  refine ⟨fun e h c => key_fail h c, fun e h => ?_, fun k h => ?_⟩
  · unfold getDataOmit; rw [h]; rfl
  · unfold getCov; rw [h]; exact ⟨rfl, rfl, rfl⟩

/-! ### Concrete cases -/

/-- A folded object with one row, one window of four delays and two polarization pairs. -/
def exF : Obj Int ℚ where
  nspw := 1
  chans := [(0, 100)]
  dlys := [(0, -2), (0, -1), (0, 0), (0, 1)]
  folded := true
  pols := [1515, 1414]
  rows := [{ bl1 := 101102, bl2 := 102103, t1 := 1, t2 := 2, tAvg := 3/2, l1 := 0, l2 := 0, lAvg := 0,
             dat := fun _ => [[0, 0], [0, 0], [5, 6], [7, 8]], itg := fun _ => [1, 1] }]

/-- A matrix for `exF`: entry `(i, j)` is `10 i + j` (first pair) and its negative (second pair). -/
def exM : List (List (List ℤ)) := (List.range 4).map (fun i => (List.range 4).map (fun j => [(10 * i + j : ℤ), -(10 * i + j : ℤ)]))

example : getCov (store exF) (some [(0, [exM])]) (some [(0, [exM])]) 0 101102102103 1414 true .imag = .ok [[[-33]]] := by decide +kernel
example : Centred (windowDelays exF 0) 1 ∧ 3 ≤ (windowDelays exF 0).length ∧ exM.length = 4 ∧ (∀ r ∈ exM, r.length = 4) := by
  refine ⟨?_, by decide, by decide, by decide⟩
  unfold Centred
  decide +kernel
example : getCov (store { exF with folded := false }) (some [(0, [exM])]) none 0 101102102103 1515 false .real =
    .ok [[[0, 1, 2, 3], [10, 11, 12, 13], [20, 21, 22, 23], [30, 31, 32, 33]]] := by decide +kernel

/-- **C112** counterexample: with two delays (none positive) the whole matrix is returned. -/
theorem C112_counterexample_two_delays :
    getCov (store { exF with dlys := [(0, -1), (0, 0)] }) (some [(0, [[[[(1 : ℤ)], [2]], [[3], [4]]]])]) none 0 101102102103 1515 false .real
      = .ok [[[1, 2], [3, 4]]] := by decide +kernel

/-- Exact window functions for `exF` (four delays, two k_perp bins, three k_para bins, two pairs): entry `(i, c, k)` is `100 i + 10 c + k`
for the first pair and its negative for the second. -/
def exW : List (List (List (List ℤ))) := (List.range 4).map (fun i => (List.range 2).map (fun c => (List.range 3).map (fun k =>
  [(100 * i + 10 * c + k : ℤ), -(100 * i + 10 * c + k : ℤ)])))

/-- **C112** counterexample: on a folded object with exact window functions, `get_window_function` for the second polarization pair
returns, for the positive delay, the values of BOTH pairs in the second k_para bin of the last k_perp bin, instead of the two by three
k_perp-k_para plane of the second pair. -/
theorem C112_counterexample_exact_folded :
    getWindow (store exF) (.exact [(0, [exW])]) 0 101102102103 1414 false = .ok (.four [[[[311, -311]]]]) ∧
    getWindow (store { exF with folded := false }) (.exact [(0, [exW])]) 0 101102102103 1414 false = .ok (.four [
      [[[0, -1, -2], [-10, -11, -12]], [[-100, -101, -102], [-110, -111, -112]], [[-200, -201, -202], [-210, -211, -212]],
       [[-300, -301, -302], [-310, -311, -312]]]]) := by
  constructor <;> decide +kernel

end HeraPspec.GetCov
