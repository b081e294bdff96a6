import Verif.Model.CovQ
import Mathlib.Tactic.NormNum
import Mathlib.Tactic.Ring
import Mathlib.Tactic.FieldSimp

/-! C111: `cov_q_hat`. -/
namespace HeraPspec.CovQ
variable {K ι : Type}

/-! Specification. -/

/-- The times meant by the argument. -/
def Meant (nt : ℕ) : TimeArg → List ℤ → Prop
  | .none, l => l.length = nt ∧ ∀ i : ℕ, i < nt → l[i]? = some (i : ℤ)
  | .one t, l => l = [t]
  | .list m, l => l = m
  | .other, _ => False

/-- The pairs of keys meant by the arguments: one pair, or pairs at the same positions of two lists of the same length. -/
def Paired : Keys K → Keys K → List (K × K) → Prop
  | .one a, .one b, l => l = [(a, b)]
  | .list m, .list n, l => m.length = n.length ∧ l = m.zip n
  | _, _, _ => False

/-- The harmonic mean of numbers: one divided by the mean of the inverses. -/
noncomputable def harmonic (l : List ℂ) : ℂ := l.length / (l.map (fun z => 1 / z)).sum

private theorem fold_inv (l : List ℂ) (h : ∀ z ∈ l, z ≠ 0) (s : ℂ) :
    l.foldl (fun acc z => addO acc (inv? z)) (some s) = some (s + (l.map (fun z => 1 / z)).sum) := by
  induction l generalizing s with
  | nil => simp
  | cons z l ih =>
    have hz : inv? z = some (1 / z) := if_neg (h z (by simp))
    rw [List.foldl_cons, hz]
    rw [show addO (some s) (some (1 / z)) = some (s + 1 / z) from rfl, ih (fun y hy => h y (List.mem_cons_of_mem _ hy))]
    simp only [List.map_cons, List.sum_cons, add_assoc]

private theorem fold_none (l : List ℂ) : l.foldl (fun acc z => addO acc (inv? z)) none = none := by
  induction l with
  | nil => rfl
  | cons z l ih => rw [List.foldl_cons]; exact ih

theorem elem_harmonic (l : List ℂ) (h : ∀ z ∈ l, z ≠ 0) (hs : (l.map (fun z => 1 / z)).sum ≠ 0) : elem l.length l = some (harmonic l) := by
  unfold elem
  rw [fold_inv l h]
  simp only [zero_add]
  rw [show inv? (l.map (fun z => 1 / z)).sum = some (1 / (l.map (fun z => 1 / z)).sum) from if_neg hs]
  simp only [harmonic, mul_one_div]

theorem elem_zero (n : ℕ) (l : List ℂ) (h : (0 : ℂ) ∈ l) : elem n l = none := by
  have hf : ∀ s, l.foldl (fun acc z => addO acc (inv? z)) (some s) = none := by
    induction l with
    | nil => simp at h
    | cons z l ih =>
      intro s
      rw [List.foldl_cons]
      by_cases hz : z = 0
      · have : inv? z = none := if_pos hz
        rw [this]; exact fold_none l
      · have : inv? z = some (1 / z) := if_neg hz
        rw [this]
        rcases List.mem_cons.1 h with h | h
        · exact absurd h.symm hz
        · exact ih h _
  unfold elem
  rw [hf]

private theorem vs_spec (V : K → K → Option ℤ → Option (Matrix ι ι ℂ)) (t : Option ℤ) (l : List (K × K)) (r : List (Matrix ι ι ℂ)) (h : vs V t l = some r) :
    r.length = l.length ∧ ∀ (n : ℕ) (k : K × K), l[n]? = some k → ∃ v, r[n]? = some v ∧ V k.1 k.2 t = some v := by
  induction l generalizing r with
  | nil => simp only [vs, Option.some.injEq] at h; subst h; simp
  | cons k l ih =>
    unfold vs at h
    cases hv : V k.1 k.2 t with
    | none => rw [hv] at h; cases h
    | some v =>
      cases hr : vs V t l with
      | none => rw [hv, hr] at h; cases h
      | some r' =>
        rw [hv, hr] at h
        simp only [Option.some.injEq] at h
        subst h
        obtain ⟨h1, h2⟩ := ih r' hr
        refine ⟨by simp [h1], ?_⟩
        intro n q hq
        cases n with
        | zero => simp only [List.getElem?_cons_zero, Option.some.injEq] at hq; subst hq; exact ⟨v, by simp, hv⟩
        | succ n => simp only [List.getElem?_cons_succ] at hq ⊢; exact h2 n q hq

private theorem allTimes_spec (V : K → K → Option ℤ → Option (Matrix ι ι ℂ)) (m : Model) (ks : List (K × K)) (n : ℕ) (ts : List ℤ)
    (r : List (Matrix ι ι (Option ℂ))) (h : allTimes V m ks n ts = .ok r) :
    r.length = ts.length ∧ ∀ (i : ℕ) (t : ℤ), ts[i]? = some t → ∃ x, r[i]? = some x ∧ oneTime V m ks n t = .ok x := by
  induction ts generalizing r with
  | nil => simp only [allTimes, Except.ok.injEq] at h; subst h; simp
  | cons t ts ih =>
    unfold allTimes at h
    cases hx : oneTime V m ks n t with
    | error e => rw [hx] at h; cases h
    | ok x =>
      cases hr : allTimes V m ks n ts with
      | error e => rw [hx, hr] at h; cases h
      | ok r' =>
        rw [hx, hr] at h
        simp only [Except.ok.injEq] at h
        subst h
        obtain ⟨h1, h2⟩ := ih r' hr
        refine ⟨by simp [h1], ?_⟩
        intro i s hs
        cases i with
        | zero => simp only [List.getElem?_cons_zero, Option.some.injEq] at hs; subst hs; exact ⟨x, by simp, hx⟩
        | succ i => simp only [List.getElem?_cons_succ] at hs ⊢; exact h2 i s hs

private theorem times_meant (nt : ℕ) (ta : TimeArg) (ts : List ℤ) (h : Meant nt ta ts) : times nt ta = .ok ts := by
  cases ta with
  | none =>
    obtain ⟨h1, h2⟩ := h
    simp only [times, Except.ok.injEq]
    apply List.ext_getElem?
    intro i
    by_cases hi : i < nt
    · rw [h2 i hi]; simp [hi]
    · rw [List.getElem?_eq_none (by simpa using hi), List.getElem?_eq_none (by omega)]
  | one t => exact congrArg _ h.symm
  | list l => exact congrArg _ h.symm
  | other => exact h.elim

/-- **C111** (partial). For the models "dsets" and "empirical" there is one matrix for each time asked for, in order; its element (i, j) is the harmonic mean
over the pairs of keys of the elements (i, j) of their covariance matrices (of that time, for "dsets"), wherever these are not zero; with a single pair it is
that element itself.

Missing: elements that are zero (`C111_finding_zero`), the model "autos" (`C111_finding_autos`), and the bounds of the times
(`C111_counterexample_time`). -/
theorem C111_harmonic_partial (V : K → K → Option ℤ → Option (Matrix ι ι ℂ)) (nt : ℕ) (key1 key2 : Keys K) (m : Model) (hm : m = .dsets ∨ m = .empirical)
    (ta : TimeArg) (ts : List ℤ) (hts : Meant nt ta ts) (ks : List (K × K)) (hk : Paired key1 key2 ks) (r : List (Matrix ι ι (Option ℂ)))
    (h : covQHat V nt key1 key2 m ta = .ok r) :
    r.length = ts.length ∧ ∀ (n : ℕ) (t : ℤ), ts[n]? = some t → ∃ (x : Matrix ι ι (Option ℂ)) (l : List (Matrix ι ι ℂ)), r[n]? = some x ∧ l.length = ks.length ∧
      (∀ (a : ℕ) (k : K × K), ks[a]? = some k → ∃ v, l[a]? = some v ∧ V k.1 k.2 (if m = .dsets then some t else none) = some v) ∧
      ∀ i j, (∀ v ∈ l, v i j ≠ 0) → ((l.map (fun v => 1 / v i j)).sum ≠ 0) → x i j = some (harmonic (l.map (fun v => v i j))) := by
  unfold covQHat at h
  rw [times_meant nt ta ts hts] at h
  simp only at h
  have hkl : ∃ a b, keyLists key1 key2 = .ok (a, b) ∧ a.zip b = ks ∧ a.length = ks.length := by
    cases key1 <;> cases key2 <;> simp only [Paired] at hk
    · subst hk; exact ⟨_, _, rfl, rfl, rfl⟩
    · rename_i l m
      refine ⟨l, m, ?_, hk.2.symm, ?_⟩
      · simp only [keyLists, if_pos hk.1.symm]
      · rw [hk.2, List.length_zip, hk.1, Nat.min_self]
  obtain ⟨a, b, e, ez, el⟩ := hkl
  rw [e] at h
  simp only [ez, el] at h
  split_ifs at h with hc
  obtain ⟨h1, h2⟩ := allTimes_spec _ _ _ _ _ _ h
  refine ⟨h1, ?_⟩
  intro n t ht
  obtain ⟨x, hx, ho⟩ := h2 n t ht
  have hto : timeOf m t = if m = .dsets then some t else none := by rcases hm with rfl | rfl <;> rfl
  have ho' : ∃ l, vs V (timeOf m t) ks = some l ∧ x = fun i j => elem ks.length (l.map (fun v => v i j)) := by
    unfold oneTime at ho
    rcases hm with rfl | rfl <;> simp only at ho
    all_goals
      cases hv : vs V (timeOf _ t) ks with
      | none => rw [hv] at ho; cases ho
      | some l => rw [hv] at ho; exact ⟨l, rfl, (Except.ok.inj ho).symm⟩
  obtain ⟨l, hl, rfl⟩ := ho'
  obtain ⟨hlen, hall⟩ := vs_spec _ _ _ _ hl
  refine ⟨_, l, hx, hlen, ?_, ?_⟩
  · intro a k hk'
    rw [← hto]
    exact hall a k hk'
  · intro i j hnz hs
    have := elem_harmonic (l.map (fun v => v i j)) (by
      intro z hz
      obtain ⟨v, hv, rfl⟩ := List.mem_map.1 hz
      exact hnz v hv) (by rw [List.map_map]; exact hs)
    rw [List.length_map, hlen] at this
    exact this

/-- The harmonic mean of one number is the number. -/
theorem harmonic_one (z : ℂ) (h : z ≠ 0) : harmonic [z] = z := by
  simp [harmonic]

/-- Times below zero or more than one above the last are refused; so are an argument that is no integer or list, lists of keys of different lengths and a
list with a single key. -/
theorem C111_refused (V : K → K → Option ℤ → Option (Matrix ι ι ℂ)) (nt : ℕ) (m : Model) :
    (∀ k1 k2 l, (∃ ks, Paired k1 k2 ks) → (∃ t ∈ l, t < 0 ∨ (nt : ℤ) < t) → covQHat V nt k1 k2 m (.list l) = .error .value) ∧
    (∀ k1 k2, covQHat V nt k1 k2 m .other = .error .value) ∧
    (∀ l1 l2 ta, ta ≠ .other → l1.length ≠ l2.length → covQHat V nt (.list l1) (.list l2) m ta = .error .assertion) ∧
    (∀ l k ta, ta ≠ .other → covQHat V nt (.list l) (.one k) m ta = .error .assertion ∧ covQHat V nt (.one k) (.list l) m ta = .error .assertion) := by
  have hta : ∀ ta, ta ≠ TimeArg.other → ∃ ts, times nt ta = .ok ts := by
    intro ta h
    cases ta with
    | none => exact ⟨_, rfl⟩
    | one t => exact ⟨_, rfl⟩
    | list l => exact ⟨_, rfl⟩
    | other => exact absurd rfl h
  refine ⟨?_, fun _ _ => rfl, ?_, ?_⟩
  · rintro k1 k2 l ⟨ks, hk⟩ ⟨t, ht, hb⟩
    have hkl : ∃ p, keyLists k1 k2 = .ok p := by
      cases k1 <;> cases k2 <;> simp only [Paired] at hk
      · exact ⟨_, rfl⟩
      · exact ⟨_, if_pos hk.1.symm⟩
    obtain ⟨p, hp⟩ := hkl
    unfold covQHat
    simp only [times, hp]
    rw [if_pos]
    rw [List.any_eq_true]
    refine ⟨t, ht, ?_⟩
    simp only [Bool.not_eq_true', Bool.and_eq_false_iff, decide_eq_false_iff_not]
    omega
  · intro l1 l2 ta h hl
    obtain ⟨ts, hts⟩ := hta ta h
    unfold covQHat
    rw [hts]
    simp only [keyLists, if_neg (Ne.symm hl)]
  · intro l k ta h
    obtain ⟨ts, hts⟩ := hta ta h
    unfold covQHat
    rw [hts]
    exact ⟨rfl, rfl⟩

/-- Finding: the documented model "autos" (and any other name) is accepted, and every element of the result is undefined (a division by zero). -/
theorem C111_finding_autos (V : K → K → Option ℤ → Option (Matrix ι ι ℂ)) (nt : ℕ) (k1 k2 : K) (r : List (Matrix ι ι (Option ℂ)))
    (h : covQHat V nt (.one k1) (.one k2) .other .none = .ok r) : r.length = nt ∧ ∀ x ∈ r, ∀ i j, x i j = none := by
  unfold covQHat at h
  simp only [times, keyLists] at h
  split_ifs at h with hc
  obtain ⟨h1, h2⟩ := allTimes_spec _ _ _ _ _ _ h
  refine ⟨by simpa using h1, ?_⟩
  intro x hx i j
  obtain ⟨n, hn⟩ := List.mem_iff_getElem?.1 hx
  have hlt : n < (List.map Int.ofNat (List.range nt)).length := by
    rw [← h1]; exact (List.getElem?_eq_some_iff.1 hn).1
  obtain ⟨y, hy, ho⟩ := h2 n _ (List.getElem?_eq_getElem hlt)
  rw [hn] at hy
  cases hy
  rw [← Except.ok.inj ho]
  simp [elem, inv?]

/-- Finding: an element that is zero in the covariance of some pair of keys is undefined in the result (a division by zero), e.g. all elements off the diagonal
of a diagonal covariance. -/
theorem C111_finding_zero (V : K → K → Option ℤ → Option (Matrix ι ι ℂ)) (m : Model) (hm : m ≠ .other) (ks : List (K × K)) (n : ℕ) (t : ℤ)
    (x : Matrix ι ι (Option ℂ)) (h : oneTime V m ks n t = .ok x) (k : K × K) (hk : k ∈ ks) (v : Matrix ι ι ℂ) (hv : V k.1 k.2 (timeOf m t) = some v)
    (i j : ι) (h0 : v i j = 0) : x i j = none := by
  have ho' : ∃ l, vs V (timeOf m t) ks = some l ∧ x = fun i j => elem n (l.map (fun v => v i j)) := by
    unfold oneTime at h
    cases m <;> simp only at h
    · cases hv : vs V (timeOf .dsets t) ks with
      | none => rw [hv] at h; cases h
      | some l => rw [hv] at h; exact ⟨l, rfl, (Except.ok.inj h).symm⟩
    · cases hv : vs V (timeOf .empirical t) ks with
      | none => rw [hv] at h; cases h
      | some l => rw [hv] at h; exact ⟨l, rfl, (Except.ok.inj h).symm⟩
    · exact absurd rfl hm
  obtain ⟨l, hl, rfl⟩ := ho'
  obtain ⟨a, ha⟩ := List.mem_iff_getElem?.1 hk
  obtain ⟨w, hw, hw'⟩ := (vs_spec _ _ _ _ hl).2 a k ha
  rw [hv] at hw'
  cases hw'
  apply elem_zero
  rw [List.mem_map]
  exact ⟨v, List.mem_iff_getElem?.2 ⟨a, hw⟩, h0⟩

/-- A 1 x 1 covariance matrix that does not depend on the time. -/
noncomputable def exV : ℕ → ℕ → Option ℤ → Option (Matrix (Fin 1) (Fin 1) ℂ) := fun k _ _ => some (fun _ _ => if k = 0 then 2 else 6)

/-- With two times in the data (0 and 1), time 2 is accepted and gives a result. -/
theorem C111_counterexample_time :
    ∃ x, covQHat exV 2 (.one 0) (.one 0) .empirical (.one 2) = .ok [x] ∧ x 0 0 = some 2 := by
  refine ⟨fun i j => elem 1 [2], ?_, ?_⟩
  · rfl
  · have := elem_harmonic [2] (by simp) (by simp)
    rw [harmonic_one 2 (by norm_num)] at this
    exact this

/-- Non-vacuity: the harmonic mean of 2 and 6 is 3. -/
example : ∃ x, covQHat exV 2 (.list [0, 1]) (.list [0, 1]) .dsets (.list [1]) = .ok [x] ∧ x 0 0 = some 3 := by
  refine ⟨fun i j => elem 2 [2, 6], rfl, ?_⟩
  have := elem_harmonic [2, 6] (by simp) (by norm_num)
  have e : harmonic [2, 6] = 3 := by simp [harmonic]; norm_num
  rw [e] at this
  exact this

end HeraPspec.CovQ
