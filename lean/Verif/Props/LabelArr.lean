import Verif.Model.LabelArr
import Mathlib.Data.List.GetD
import Mathlib.Data.List.Perm.Subperm

/-! C147: the labels of spectra through the life of an object. -/
namespace HeraPspec.LabelArr

/-! ### Specification -/

/-- Which data set the spectrum at each window, row and polarization came from. -/
abbrev Origin := ℕ → ℕ → ℕ → String

/-- The label the object gives for a spectrum (`labels[label_1_array[i, j, k]]`). -/
def labelAt (o : Obj) (i j k : ℕ) : Option String := (((o.arr[i]?).bind (fun a => a[j]?)).bind (fun r => r[k]?)).bind (fun l => o.labels[l]?)

/-- The labels of all spectra are the data sets they came from. -/
def Right (o : Obj) (org : Origin) : Prop := ∀ i < o.nspw, ∀ j < o.nrow, ∀ k < o.npol, labelAt o i j k = some (org i j k)

/-- All spectra came from one data set. -/
def Uniform (o : Obj) (org : Origin) : Prop := ∃ s, ∀ i < o.nspw, ∀ j < o.nrow, ∀ k < o.npol, org i j k = s

/-- The places kept by a selection lie in the object. -/
def Within (n : ℕ) (l : List ℕ) : Prop := ∀ x ∈ l, x < n

/-- Increasing lists of places (what a selection produces). -/
def Places (n : ℕ) (l : List ℕ) : Prop := l.Pairwise (· < ·) ∧ Within n l

/-- The origin after a combination. -/
def orgOf (orgs : ℕ → Origin) (place : List (List (List (ℕ × ℕ × ℕ × ℕ)))) : Origin := fun i j k =>
  ((((place[i]?).bind (fun a => a[j]?)).bind (fun r => r[k]?)).map (fun s => orgs s.1 s.2.1 s.2.2.1 s.2.2.2)).getD ""

/-- The table of places has the shape of the result and points into the objects. -/
structure GoodPlaces (us : List Obj) (nspw nrow npol : ℕ) (place : List (List (List (ℕ × ℕ × ℕ × ℕ)))) : Prop where
  n1 : place.length = nspw
  n2 : ∀ a ∈ place, a.length = nrow
  n3 : ∀ a ∈ place, ∀ r ∈ a, r.length = npol
  ok : ∀ a ∈ place, ∀ r ∈ a, ∀ s ∈ r, ∃ u, us[s.1]? = some u ∧ s.2.1 < u.nspw ∧ s.2.2.1 < u.nrow ∧ s.2.2.2 < u.npol

/-- How objects come about: made by `pspec`, selected, averaged over groups of rows of the same origin, combined, in any order. `mixed` says whether
selections and averages of objects with several origins are allowed. -/
inductive Built (mixed : Bool) : Obj → Origin → Prop
  | fresh (nspw nrow npol : ℕ) (l1 l2 : String) : Built mixed (fresh nspw nrow npol l1 l2) (fun _ _ _ => l1)
  | select (o : Obj) (org : Origin) (spws rows pols : List ℕ) (h : Built mixed o org) (hs : Places o.nspw spws) (hr : Places o.nrow rows) (hp : Places o.npol pols)
      (hm : mixed = true ∨ Uniform o org) :
      Built mixed (select o spws rows pols) (fun i j k => org (spws.getD i 0) (rows.getD j 0) (pols.getD k 0))
  | average (o : Obj) (org : Origin) (groups : List (List ℕ)) (h : Built mixed o org) (hg : ∀ g ∈ groups, g ≠ [] ∧ Within o.nrow g)
      (hn : groups.length ≤ o.nrow)
      (hsame : ∀ g ∈ groups, ∀ x ∈ g, ∀ y ∈ g, ∀ i < o.nspw, ∀ k < o.npol, org i x k = org i y k) (hm : mixed = true ∨ Uniform o org) :
      Built mixed (average o groups) (fun i j k => org i ((groups.getD j []).headD 0) k)
  | combine (us : List Obj) (orgs : ℕ → Origin) (nspw nrow npol : ℕ) (place : List (List (List (ℕ × ℕ × ℕ × ℕ)))) (o : Obj)
      (h : ∀ l u, us[l]? = some u → Built mixed u (orgs l)) (hp : GoodPlaces us nspw nrow npol place) (ho : combine us nspw nrow npol place = .ok o) :
      Built mixed o (orgOf orgs place)

/-! ### Proofs -/

theorem places_length {n : ℕ} {l : List ℕ} (h : Places n l) : l.length ≤ n := by
  have hn : l.Nodup := h.1.imp (fun hab => Nat.ne_of_lt hab)
  have := List.subperm_of_subset hn (l₂ := List.range n) (fun x hx => List.mem_range.2 (h.2 x hx))
  simpa using this.length_le

theorem mapE_get {α β : Type} {f : α → Except Err β} {l : List α} {m : List β} (h : mapE f l = .ok m) (i : ℕ) :
    (∀ a, l[i]? = some a → ∃ b, f a = .ok b ∧ m[i]? = some b) ∧ (l[i]? = none → m[i]? = none) := by
  induction l generalizing m i with
  | nil => simp only [mapE, Except.ok.injEq] at h; subst h; simp
  | cons x l ih =>
    simp only [mapE] at h
    split at h
    · cases h
    · rename_i b hb
      split at h
      · cases h
      · rename_i bs hbs
        cases h
        cases i with
        | zero => simp [hb]
        | succ i => simpa using ih hbs i

theorem mapE_succeeds {α β : Type} {f : α → Except Err β} {l : List α} (h : ∀ a ∈ l, ∃ b, f a = .ok b) : ∃ m, mapE f l = .ok m := by
  induction l with
  | nil => exact ⟨[], rfl⟩
  | cons x l ih =>
    obtain ⟨b, hb⟩ := h x List.mem_cons_self
    obtain ⟨bs, hbs⟩ := ih (fun a ha => h a (List.mem_cons_of_mem _ ha))
    exact ⟨b :: bs, by simp only [mapE, hb, hbs]⟩

theorem labelAt_fresh {nspw nrow npol : ℕ} {l1 l2 : String} {i j k : ℕ} (hi : i < nspw) (hj : j < nrow) (hk : k < npol) :
    labelAt (fresh nspw nrow npol l1 l2) i j k = some l1 := by
  unfold labelAt fresh
  simp only [List.getElem?_replicate, hi, hj, hk, if_true, Option.bind_some]
  have hm : l1 ∈ pySorted (fun a b => decide (a ≤ b)) [l1, l2].dedup := by simp
  rw [List.getElem?_eq_getElem (List.idxOf_lt_length_of_mem hm), List.getElem_idxOf]

theorem entry_spec {us : List Obj} {labels : List String} {s : ℕ × ℕ × ℕ × ℕ} {u : Obj} (hu : us[s.1]? = some u) {x : String}
    (hx : labelAt u s.2.1 s.2.2.1 s.2.2.2 = some x) (hm : x ∈ labels) : entry us labels s = .ok (labels.idxOf x) := by
  unfold entry
  unfold labelAt at hx
  rw [hu]
  simp only
  cases h : ((u.arr[s.2.1]?).bind (fun a => a[s.2.2.1]?)).bind (fun r => r[s.2.2.2]?) with
  | none => rw [h] at hx; cases hx
  | some l =>
    rw [h, Option.bind_some] at hx
    simp only [hx, if_pos hm]

theorem labelAt_mem {u : Obj} {i j k : ℕ} {x : String} (h : labelAt u i j k = some x) : x ∈ u.labels := by
  unfold labelAt at h
  cases h2 : ((u.arr[i]?).bind (fun a => a[j]?)).bind (fun r => r[k]?) with
  | none => rw [h2] at h; cases h
  | some l => rw [h2, Option.bind_some] at h; exact List.mem_of_getElem? h

theorem combine_right {us : List Obj} {orgs : ℕ → Origin} {nspw nrow npol : ℕ} {place : List (List (List (ℕ × ℕ × ℕ × ℕ)))} {o : Obj}
    (hR : ∀ l u, us[l]? = some u → Right u (orgs l)) (hp : GoodPlaces us nspw nrow npol place) (ho : combine us nspw nrow npol place = .ok o) :
    Right o (orgOf orgs place) := by
  unfold combine at ho
  simp only at ho
  split at ho
  · cases ho
  · rename_i arr harr
    cases ho
    intro i hi j hj k hk
    simp only at hi hj hk
    have h1 : i < place.length := by rw [hp.n1]; exact hi
    have hm1 := List.getElem_mem h1
    have h2 : j < (place[i]).length := by rw [hp.n2 _ hm1]; exact hj
    have hm2 := List.getElem_mem h2
    have h3 : k < (place[i][j]).length := by rw [hp.n3 _ hm1 _ hm2]; exact hk
    have hm3 := List.getElem_mem h3
    obtain ⟨u, hu, q1, q2, q3⟩ := hp.ok _ hm1 _ hm2 _ hm3
    have hx := hR _ u hu _ q1 _ q2 _ q3
    obtain ⟨b, hb, e1⟩ := (mapE_get harr i).1 _ (List.getElem?_eq_getElem h1)
    obtain ⟨c, hc, e2⟩ := (mapE_get hb j).1 _ (List.getElem?_eq_getElem h2)
    obtain ⟨d, hd, e3⟩ := (mapE_get hc k).1 _ (List.getElem?_eq_getElem h3)
    have hmem : orgs (place[i][j][k]).1 (place[i][j][k]).2.1 (place[i][j][k]).2.2.1 (place[i][j][k]).2.2.2 ∈
        pySorted (fun a b => decide (a ≤ b)) ((us.flatMap (·.labels)).dedup) := by
      rw [mem_pySorted, List.mem_dedup, List.mem_flatMap]
      exact ⟨u, List.mem_of_getElem? hu, labelAt_mem hx⟩
    rw [entry_spec hu hx hmem] at hd
    cases hd
    unfold labelAt orgOf
    simp only [e1, e2, e3, Option.bind_some, List.getElem?_eq_getElem h1, List.getElem?_eq_getElem h2, List.getElem?_eq_getElem h3, Option.map_some, Option.getD_some]
    rw [List.getElem?_eq_getElem (List.idxOf_lt_length_of_mem hmem), List.getElem_idxOf]

theorem getD_mem {l : List ℕ} {i : ℕ} (h : i < l.length) : l.getD i 0 ∈ l := by
  rw [List.getD_eq_getElem _ _ h]; exact List.getElem_mem h

/-- **C147** (partial). The label of every spectrum names the data set it came from, for every object that can be made by `pspec`, selections, averages and
combinations in any order.

Missing: selections and averages of objects whose spectra come from several data sets: the label arrays are then left as they were, and belong to other
spectra (`C147_counterexample_select`). -/
theorem C147_labels_partial (o : Obj) (org : Origin) (h : Built false o org) : Right o org := by
  induction h with
  | fresh nspw nrow npol l1 l2 => intro i hi j hj k hk; exact labelAt_fresh hi hj hk
  | select o org spws rows pols _ hs hr hp hm ih =>
    obtain ⟨s, hu⟩ := hm.resolve_left (by simp)
    intro i hi j hj k hk
    simp only [select] at hi hj hk
    have := places_length hs
    have := places_length hr
    have := places_length hp
    have e1 : labelAt (select o spws rows pols) i j k = labelAt o i j k := rfl
    rw [e1, ih i (by omega) j (by omega) k (by omega), hu i (by omega) j (by omega) k (by omega)]
    show some s = some (org _ _ _)
    rw [hu _ (hs.2 _ (getD_mem hi)) _ (hr.2 _ (getD_mem hj)) _ (hp.2 _ (getD_mem hk))]
  | average o org groups _ hg hn hsame hm ih =>
    obtain ⟨s, hu⟩ := hm.resolve_left (by simp)
    intro i hi j hj k hk
    simp only [average] at hi hj hk
    have e1 : labelAt (average o groups) i j k = labelAt o i j k := rfl
    have hgm : groups.getD j [] ∈ groups := by rw [List.getD_eq_getElem _ _ hj]; exact List.getElem_mem hj
    obtain ⟨hne, hw⟩ := hg _ hgm
    have hx : (groups.getD j []).headD 0 < o.nrow := by
      obtain ⟨a, l, e⟩ := List.exists_cons_of_ne_nil hne
      rw [e, List.headD_cons]; exact hw a (by rw [e]; exact List.mem_cons_self)
    rw [e1, ih i hi j (by omega) k hk, hu i hi j (by omega) k hk]
    show some s = some (org _ _ _)
    rw [hu i hi _ hx k hk]
  | combine us orgs nspw nrow npol place o _ hp ho ih =>
    exact combine_right ih hp ho

/-- **C147** Combining objects with right labels never fails for the labels, and gives right labels. -/
theorem C147_combine (us : List Obj) (orgs : ℕ → Origin) (hR : ∀ l u, us[l]? = some u → Right u (orgs l)) (nspw nrow npol : ℕ)
    (place : List (List (List (ℕ × ℕ × ℕ × ℕ)))) (hp : GoodPlaces us nspw nrow npol place) :
    ∃ o, combine us nspw nrow npol place = .ok o ∧ Right o (orgOf orgs place) := by
  have hok : ∃ arr, mapE (mapE (mapE (entry us (pySorted (fun a b => decide (a ≤ b)) ((us.flatMap (·.labels)).dedup))))) place = .ok arr := by
    apply mapE_succeeds
    intro a ha
    apply mapE_succeeds
    intro r hr
    apply mapE_succeeds
    intro s hs
    obtain ⟨u, hu, q1, q2, q3⟩ := hp.ok a ha r hr s hs
    have hx := hR _ u hu _ q1 _ q2 _ q3
    refine ⟨_, entry_spec hu hx ?_⟩
    rw [mem_pySorted, List.mem_dedup, List.mem_flatMap]
    exact ⟨u, List.mem_of_getElem? hu, labelAt_mem hx⟩
  obtain ⟨arr, harr⟩ := hok
  have ho : combine us nspw nrow npol place = .ok ⟨nspw, nrow, npol, pySorted (fun a b => decide (a ≤ b)) ((us.flatMap (·.labels)).dedup), arr⟩ := by
    unfold combine; simp only [harr]
  exact ⟨_, ho, combine_right hR hp ho⟩

/-- **C147** (finding). `label_1_array` is documented to have "shape of data", but a selection that drops a window leaves it with the old number of windows,
whatever the object. -/
theorem C147_finding_shape (o : Obj) (h : o.arr.length = o.nspw) (spws rows pols : List ℕ) (hlt : spws.length < o.nspw) :
    (select o spws rows pols).arr.length ≠ (select o spws rows pols).nspw := by
  simp only [select]; omega

/-- Two rows from data set `a`, combined with two rows from data set `b`. -/
def exPlace : List (List (List (ℕ × ℕ × ℕ × ℕ))) := [[[(0, 0, 0, 0)], [(0, 0, 1, 0)], [(1, 0, 0, 0)], [(1, 0, 1, 0)]]]

/-- The combination. -/
def exObj : Obj := ⟨1, 4, 1, ["a", "b"], [[[0], [0], [1], [1]]]⟩

theorem ex_combine : combine [fresh 1 2 1 "a" "a", fresh 1 2 1 "b" "b"] 1 4 1 exPlace = .ok exObj := by decide +kernel

theorem ex_good : GoodPlaces [fresh 1 2 1 "a" "a", fresh 1 2 1 "b" "b"] 1 4 1 exPlace := by
  refine ⟨rfl, ?_, ?_, ?_⟩
  · simp [exPlace]
  · simp [exPlace]
  · intro a ha r hr s hs
    simp only [exPlace, List.mem_cons, List.not_mem_nil, or_false] at ha
    subst ha
    simp only [List.mem_cons, List.not_mem_nil, or_false] at hr
    rcases hr with rfl | rfl | rfl | rfl <;>
    · simp only [List.mem_cons, List.not_mem_nil, or_false] at hs
      subst hs
      exact ⟨_, rfl, by simp [fresh], by simp [fresh], by simp [fresh]⟩

theorem ex_built (mixed : Bool) : Built mixed exObj (orgOf (fun l => if l = 0 then fun _ _ _ => "a" else fun _ _ _ => "b") exPlace) := by
  refine .combine [fresh 1 2 1 "a" "a", fresh 1 2 1 "b" "b"] _ 1 4 1 exPlace exObj ?_ ex_good ex_combine
  intro l u hu
  match l, hu with
  | 0, hu => cases hu; exact .fresh 1 2 1 "a" "a"
  | 1, hu => cases hu; exact .fresh 1 2 1 "b" "b"
  | l + 2, hu => simp at hu

/-- Non-vacuity of `C147_labels_partial`: an object with two origins, each spectrum with its own label. -/
example : Right exObj (orgOf (fun l => if l = 0 then fun _ _ _ => "a" else fun _ _ _ => "b") exPlace) ∧ labelAt exObj 0 1 0 = some "a" ∧ labelAt exObj 0 2 0 = some "b" :=
  ⟨C147_labels_partial _ _ (ex_built false), rfl, rfl⟩

/-- **C147** (counterexample). Selecting the last two rows of that object: both came from `b` and both are labelled `a`. Combining the selection with another
object makes the wrong label permanent. -/
theorem C147_counterexample_select : ∃ org, Built true (select exObj [0] [2, 3] [0]) org ∧ org 0 0 0 = "b" ∧ labelAt (select exObj [0] [2, 3] [0]) 0 0 0 = some "a" ∧
    ∃ o, combine [select exObj [0] [2, 3] [0], fresh 1 1 1 "c" "c"] 1 3 1 [[[(0, 0, 0, 0)], [(0, 0, 1, 0)], [(1, 0, 0, 0)]]] = .ok o ∧ o.labels = ["a", "b", "c"] ∧
      labelAt o 0 0 0 = some "a" := by
  refine ⟨_, .select exObj _ [0] [2, 3] [0] (ex_built true) ⟨by simp, by simp [Within, exObj]⟩ ⟨by simp, by simp [Within, exObj]⟩ ⟨by simp, by simp [Within, exObj]⟩ (.inl rfl),
    by decide +kernel, by decide +kernel, ⟨1, 3, 1, ["a", "b", "c"], [[[0], [0], [2]]]⟩, by decide +kernel, rfl, by decide +kernel⟩

end HeraPspec.LabelArr
