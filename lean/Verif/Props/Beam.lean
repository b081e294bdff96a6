import Verif.Model.Beam
import Mathlib.Tactic.Ring
import Mathlib.Tactic.NormNum
import Mathlib.Data.Int.Basic

/-! C67: beam arrays stay consistent under any sequence of `add_pol`. -/
namespace HeraPspec.Beam
variable {V : Type}

/-! Specification. -/

/-- The eight polarizations of the documentation: pI, pQ, pU, pV, XX, YY, XY, YX. -/
def Pol (k : ℤ) : Prop := k = 1 ∨ k = 2 ∨ k = 3 ∨ k = 4 ∨ k = -5 ∨ k = -6 ∨ k = -7 ∨ k = -8

/-- A consistent object: both dictionaries list the same polarizations in the same order, each once and valid, with one value per
beam frequency. -/
structure Consistent (b : Beam V) : Prop where
  keys : b.omP.keys = b.omPP.keys
  nodup : b.omP.keys.Nodup
  pol : ∀ k ∈ b.omP.keys, Pol k
  lenP : ∀ k l, Dict.get b.omP k = some l → l.length = b.n
  lenPP : ∀ k l, Dict.get b.omPP k = some l → l.length = b.n

theorem mem_allowed (k : ℤ) : k ∈ allowed ↔ Pol k := by
  simp [allowed, Pol]

theorem keys_set_congr {A B : Type} (d : Dict ℤ A) (e : Dict ℤ B) (k : ℤ) (v : A) (w : B) (h : d.keys = e.keys) :
    (Dict.set d k v).keys = (Dict.set e k w).keys := by
  induction d generalizing e with
  | nil =>
    cases e with
    | nil => rfl
    | cons x e => simp [Dict.keys] at h
  | cons x d ih =>
    cases e with
    | nil => simp [Dict.keys] at h
    | cons y e =>
      obtain ⟨x1, x2⟩ := x
      obtain ⟨y1, y2⟩ := y
      simp only [Dict.keys, List.map_cons, List.cons.injEq] at h
      obtain ⟨h1, h2⟩ := h
      subst h1
      unfold Dict.set
      by_cases hk : x1 = k
      · simp [hk, Dict.keys, h2]
      · have := ih e h2
        simp only [Dict.keys] at this
        simp [hk, Dict.keys, this]

theorem addPol_consistent (s2n : String → Option ℤ) (b : Beam V) (pol : PolKey) (p pp : Option (List V)) (h : Consistent b) :
    Consistent (addPol s2n b pol p pp).1 ∧ (addPol s2n b pol p pp).1.n = b.n := by
  unfold addPol
  split
  · exact ⟨h, rfl⟩
  · rename_i k hk
    split
    · exact ⟨h, rfl⟩
    · rename_i ha
      rw [not_not, mem_allowed] at ha
      split
      · rename_i p pp
        split
        · exact ⟨h, rfl⟩
        · rename_i hl
          push Not at hl
          refine ⟨⟨keys_set_congr _ _ k p pp h.keys, Dict.keys_set_nodup _ _ _ h.nodup, ?_, ?_, ?_⟩, rfl⟩
          · intro x hx
            rcases (Dict.keys_set_mem _ _ _ _).1 hx with rfl | hx
            · exact ha
            · exact h.pol x hx
          · intro x l hx
            simp only [Dict.get_set] at hx
            split at hx
            · cases hx; exact hl.1
            · exact h.lenP x l hx
          · intro x l hx
            simp only [Dict.get_set] at hx
            split at hx
            · cases hx; exact hl.2
            · exact h.lenPP x l hx
      · exact ⟨h, rfl⟩

theorem foldE_ind {α β : Type} (f : β → α → Except Err β) (Q : β → Prop) (hf : ∀ b a b', Q b → f b a = .ok b' → Q b') (l : List α) :
    ∀ b b', Q b → foldE f b l = .ok b' → Q b' := by
  induction l with
  | nil => intro b b' hb h; cases h; exact hb
  | cons a l ih =>
    intro b b' hb h
    unfold foldE at h
    split at h
    · cases h
    · rename_i b1 h1
      exact ih b1 b' (hf b a b1 hb h1) h

theorem init_consistent (s2n : String → Option ℤ) (n : ℕ) (P PP : Arg V) (b : Beam V) (d dd : Dict PolKey (Option (List V)))
    (h : init s2n n P PP = .ok (b, d, dd)) : Consistent b ∧ b.n = n := by
  unfold init at h
  split at h
  · cases h
  · split at h
    · cases h
    · split at h
      · cases h
      · split at h
        · cases h
        · rename_i b' hf
          cases h
          refine foldE_ind (initStep s2n d dd) (fun b => Consistent b ∧ b.n = n) ?_ allowed _ b ?_ hf
          · intro b a b' hb hs
            unfold initStep at hs
            split at hs
            · cases hs; exact hb
            · rename_i p pp _ _
              have := addPol_consistent s2n b (.num a) p pp hb.1
              split at hs
              · rename_i b1 hb1
                cases hs
                rw [hb1] at this
                exact ⟨this.1, by rw [this.2]; exact hb.2⟩
              · cases hs
            · cases hs
          · refine ⟨⟨rfl, List.nodup_nil, ?_, ?_, ?_⟩, rfl⟩ <;> simp [Dict.keys]

/-- C67. After construction with any arguments and any history of `add_pol` calls, accepted or rejected, the object is consistent and
its number of frequencies is unchanged. -/
theorem C67_history (s2n : String → Option ℤ) (n : ℕ) (P PP : Arg V) (b : Beam V) (d dd : Dict PolKey (Option (List V)))
    (h : init s2n n P PP = .ok (b, d, dd)) (cs : List (Call V)) : Consistent (calls s2n b cs) ∧ (calls s2n b cs).n = n := by
  obtain ⟨hb, hn⟩ := init_consistent s2n n P PP b d dd h
  clear h
  induction cs generalizing b with
  | nil => exact ⟨hb, hn⟩
  | cons c cs ih =>
    have := addPol_consistent s2n b c.pol c.p c.pp hb
    exact ih _ this.1 (by rw [this.2]; exact hn)

/-- C67. A rejected `add_pol` changes nothing. -/
theorem C67_rejected (s2n : String → Option ℤ) (b : Beam V) (pol : PolKey) (p pp : Option (List V)) (e : Err)
    (h : (addPol s2n b pol p pp).2 = some e) : (addPol s2n b pol p pp).1 = b := by
  cases hk : resolve s2n pol with
  | none => simp [addPol, hk]
  | some k =>
    by_cases ha : k ∈ allowed
    · cases p with
      | none => simp [addPol, hk, ha]
      | some l =>
        cases pp with
        | none => simp [addPol, hk, ha]
        | some ll =>
          by_cases hl : l.length ≠ b.n ∨ ll.length ≠ b.n
          · simp [addPol, hk, ha, hl]
          · simp [addPol, hk, ha, hl] at h
    · simp [addPol, hk, ha]

/-- C67. `add_pol` is accepted exactly for a valid polarization and two arrays with one value per frequency. -/
theorem C67_accepted_iff (s2n : String → Option ℤ) (b : Beam V) (pol : PolKey) (p pp : Option (List V)) :
    (addPol s2n b pol p pp).2 = none ↔ ∃ k l ll, resolve s2n pol = some k ∧ Pol k ∧ p = some l ∧ pp = some ll ∧ l.length = b.n ∧ ll.length = b.n := by
  unfold addPol
  cases hk : resolve s2n pol with
  | none => simp
  | some k =>
    by_cases ha : k ∈ allowed
    · simp only [ha, not_true, if_false]
      have ha' := (mem_allowed k).1 ha
      cases p with
      | none => simp
      | some l =>
        cases pp with
        | none => simp
        | some ll =>
          simp only
          by_cases hl : l.length ≠ b.n ∨ ll.length ≠ b.n
          · rw [if_pos hl]
            simp
            intro _ h1
            rcases hl with hl | hl
            · exact absurd h1 hl
            · exact hl
          · rw [if_neg hl]
            push Not at hl
            simp [ha', hl]
    · simp only [ha, not_false_eq_true, if_true]
      simp
      intro h
      exact absurd ((mem_allowed k).2 h) ha

/-- C67. An accepted `add_pol` sets exactly the two arrays of its polarization. -/
theorem C67_effect (s2n : String → Option ℤ) (b : Beam V) (pol : PolKey) (k : ℤ) (l ll : List V) (hk : resolve s2n pol = some k)
    (h : (addPol s2n b pol (some l) (some ll)).2 = none) (x : ℤ) :
    powerInt s2n (addPol s2n b pol (some l) (some ll)).1 (.num x) =
      (if x = k then .ok l else match Dict.get b.omP x with | some y => .ok y | none => .error .key) ∧
    powerSqInt s2n (addPol s2n b pol (some l) (some ll)).1 (.num x) =
      (if x = k then .ok ll else match Dict.get b.omPP x with | some y => .ok y | none => .error .key) := by
  unfold addPol at h ⊢
  simp only [hk] at h ⊢
  by_cases ha : k ∉ allowed
  · rw [if_pos ha] at h; cases h
  · rw [if_neg ha] at h ⊢
    by_cases hl : l.length ≠ b.n ∨ ll.length ≠ b.n
    · simp [hl] at h
    · simp only [hl, if_false]
      unfold powerInt powerSqInt
      simp only [resolve, Dict.get_set, if_true]
      by_cases hx : x = k
      · subst hx; simp
      · simp only [Ne.symm hx, if_false, hx]
        constructor <;> split <;> simp_all

/-- C67. Reads agree: for every polarization either both integrals are available, each with one value per frequency, or neither is. -/
theorem C67_reads (s2n : String → Option ℤ) (b : Beam V) (h : Consistent b) (pol : PolKey) :
    (∃ l ll, powerInt s2n b pol = .ok l ∧ powerSqInt s2n b pol = .ok ll ∧ l.length = b.n ∧ ll.length = b.n) ∨
    (∃ e, powerInt s2n b pol = .error e ∧ powerSqInt s2n b pol = .error e) := by
  unfold powerInt powerSqInt
  cases hk : resolve s2n pol with
  | none => exact Or.inr ⟨_, rfl, rfl⟩
  | some k =>
    simp only
    have h1 := Dict.get_isSome_iff b.omP k
    have h2 := Dict.get_isSome_iff b.omPP k
    rw [← h.keys, ← h1] at h2
    cases hp : Dict.get b.omP k with
    | some l =>
      rw [hp] at h2
      obtain ⟨ll, hll⟩ := Option.isSome_iff_exists.1 (h2.2 rfl)
      rw [hll]
      exact Or.inl ⟨l, ll, rfl, rfl, h.lenP k l hp, h.lenPP k ll hll⟩
    | none =>
      have : Dict.get b.omPP k = none := by
        rw [hp] at h2
        simpa using h2
      rw [this]
      cases b.avail <;> exact Or.inr ⟨_, rfl, rfl⟩

theorem omegaCols_get (s2n : String → Option ℤ) (b : Beam V) (ps : List (String × String)) :
    ∀ xs ys, omegaCols s2n b ps = .ok (xs, ys) → xs.length = ps.length ∧ ys.length = ps.length ∧
      ∀ (j : ℕ) (p q : String), ps[j]? = some (p, q) → p = q ∧ ∃ x y, powerInt s2n b (.str p) = .ok x ∧ powerSqInt s2n b (.str p) = .ok y ∧
        xs[j]? = some x ∧ ys[j]? = some y := by
  induction ps with
  | nil => intro xs ys h; cases h; simp
  | cons a ps ih =>
    obtain ⟨p, q⟩ := a
    intro xs ys h
    unfold omegaCols at h
    split at h
    · cases h
    · rename_i hpq
      rw [not_not] at hpq
      split at h
      · rename_i x y hx hy
        split at h
        · rename_i xs' ys' hr
          cases h
          obtain ⟨h1, h2, h3⟩ := ih xs' ys' hr
          refine ⟨by simp [h1], by simp [h2], ?_⟩
          intro j p' q' hj
          cases j with
          | zero =>
            simp at hj
            obtain ⟨rfl, rfl⟩ := hj
            exact ⟨hpq, x, y, hx, hy, by simp, by simp⟩
          | succ j => simpa using h3 j p' q' (by simpa using hj)
        · cases h
      · cases h
      · cases h

theorem transpose_get (n : ℕ) (cols : List (List V)) (h : ∀ c ∈ cols, c.length = n) (i j : ℕ) (hi : i < n) (c : List V)
    (hc : cols[j]? = some c) : ∃ row, (transpose n cols)[i]? = some row ∧ row.length = cols.length ∧ row[j]? = c[i]? := by
  unfold transpose
  refine ⟨cols.filterMap (fun c => c[i]?), by simp [hi], ?_⟩
  induction cols generalizing j with
  | nil => simp at hc
  | cons a cols ih =>
    have hin := hi
    · have ha : i < a.length := by rw [h a (by simp)]; exact hin
      rw [List.filterMap_cons, List.getElem?_eq_getElem ha]
      simp only
      cases j with
      | zero =>
        simp at hc
        subst hc
        refine ⟨?_, by simp [List.getElem?_eq_getElem ha]⟩
        have : (cols.filterMap (fun c => c[i]?)).length = cols.length := by
          clear ih
          induction cols with
          | nil => rfl
          | cons e cols ih =>
            have he : i < e.length := by rw [h e (by simp)]; exact hin
            rw [List.filterMap_cons, List.getElem?_eq_getElem he]
            simp only [List.length_cons]
            rw [ih (fun c hc => h c (by rcases List.mem_cons.1 hc with rfl | hc <;> simp [*]))]
        simp [this]
      | succ j =>
        obtain ⟨h1, h2⟩ := ih (fun c hc => h c (by simp [hc])) j (by simpa using hc)
        exact ⟨by simp [h1], by simpa using h2⟩

/-- C67. `get_Omegas` of auto pairs: entry (frequency i, pair j) of each table is the value at frequency i of the integral of pair j. -/
theorem C67_get_omegas (s2n : String → Option ℤ) (b : Beam V) (hb : Consistent b) (ps : List (String × String)) (P PP : List (List V))
    (h : getOmegas s2n b ps = .ok (P, PP)) : P.length = b.n ∧ PP.length = b.n ∧
      ∀ (j : ℕ) (p q : String), ps[j]? = some (p, q) → p = q ∧ ∃ x y, powerInt s2n b (.str p) = .ok x ∧ powerSqInt s2n b (.str p) = .ok y ∧
        ∀ i, i < b.n → ∃ r s, P[i]? = some r ∧ PP[i]? = some s ∧ r.length = ps.length ∧ s.length = ps.length ∧ r[j]? = x[i]? ∧ s[j]? = y[i]? := by
  unfold getOmegas at h
  split at h
  · cases h
  · rename_i xs ys ho
    cases h
    obtain ⟨h1, h2, h3⟩ := omegaCols_get s2n b ps xs ys ho
    refine ⟨by simp [transpose], by simp [transpose], ?_⟩
    have hlen : (∀ c ∈ xs, c.length = b.n) ∧ (∀ c ∈ ys, c.length = b.n) := by
      constructor
      · intro c hc
        obtain ⟨j, hj, he⟩ := List.mem_iff_getElem.1 hc
        obtain ⟨-, x, y, hx, hy, hxj, -⟩ := h3 j (ps[j]'(by omega)).1 (ps[j]'(by omega)).2 (List.getElem?_eq_getElem (by omega))
        rw [List.getElem?_eq_getElem hj, he] at hxj
        cases hxj
        rcases C67_reads s2n b hb (.str (ps[j]'(by omega)).1) with ⟨l, ll, g1, g2, g3, g4⟩ | ⟨e, g1, -⟩
        · rw [hx] at g1; cases g1; exact g3
        · rw [hx] at g1; cases g1
      · intro c hc
        obtain ⟨j, hj, he⟩ := List.mem_iff_getElem.1 hc
        obtain ⟨-, x, y, hx, hy, -, hyj⟩ := h3 j (ps[j]'(by omega)).1 (ps[j]'(by omega)).2 (List.getElem?_eq_getElem (by omega))
        rw [List.getElem?_eq_getElem hj, he] at hyj
        cases hyj
        rcases C67_reads s2n b hb (.str (ps[j]'(by omega)).1) with ⟨l, ll, g1, g2, g3, g4⟩ | ⟨e, -, g2⟩
        · rw [hy] at g2; cases g2; exact g4
        · rw [hy] at g2; cases g2
    intro j p q hj
    obtain ⟨hpq, x, y, hx, hy, hxj, hyj⟩ := h3 j p q hj
    refine ⟨hpq, x, y, hx, hy, ?_⟩
    intro i hi
    obtain ⟨r, r1, r2, r3⟩ := transpose_get b.n xs hlen.1 i j hi x hxj
    obtain ⟨s, s1, s2, s3⟩ := transpose_get b.n ys hlen.2 i j hi y hyj
    exact ⟨r, s, r1, s1, by omega, by omega, r3, s3⟩

/-- C67. A pair of different polarizations is refused by `get_Omegas`. -/
theorem C67_cross_refused (s2n : String → Option ℤ) (b : Beam V) (ps : List (String × String)) (p q : String) (hpq : p ≠ q)
    (hm : (p, q) ∈ ps) (P PP : List (List V)) : getOmegas s2n b ps ≠ .ok (P, PP) := by
  intro h
  unfold getOmegas at h
  split at h
  · cases h
  · rename_i xs ys ho
    obtain ⟨j, hj⟩ := List.mem_iff_getElem?.1 hm
    exact hpq ((omegaCols_get s2n b ps xs ys ho).2.2 j p q hj).1

/-- Conversion table for the examples. -/
def s2n : String → Option ℤ
  | "pI" => some 1
  | "XX" => some (-5)
  | _ => none

/-- Non-vacuity: string and integer keys, then an accepted and two rejected additions. -/
example : (init (V := ℕ) s2n 2 (.dict [(.str "XX", some [1, 2]), (.num 1, some [3, 4])]) (.dict [(.num 1, some [5, 6]), (.str "XX", some [7, 8])])).toOption.map
    (fun x => ((calls s2n x.1 [⟨.str "pI", some [9, 9], some [8, 8]⟩, ⟨.num (-6), some [1], some [1, 1]⟩, ⟨.num 7, some [1, 1], some [1, 1]⟩]).omP,
      (calls s2n x.1 [⟨.str "pI", some [9, 9], some [8, 8]⟩]).omPP)) =
    some ([(1, [9, 9]), (-5, [1, 2])], [(1, [8, 8]), (-5, [7, 8])]) := by decide +kernel

/-- C67: a beam made from two arrays is a pI beam (polarization number 1): it answers these arrays for it and refuses all other polarizations. -/
theorem C67_arrays (s2n : String → Option ℤ) (n : ℕ) (p pp : List V) (hp : p.length = n) (hpp : pp.length = n) :
    ∃ b d dd, init s2n n (.arr p) (.arr pp) = .ok (b, d, dd) ∧ ∀ k : ℤ,
      (k = 1 → powerInt s2n b (.num k) = .ok p ∧ powerSqInt s2n b (.num k) = .ok pp) ∧ (k ≠ 1 → ∃ e, powerInt s2n b (.num k) = .error e) := by
  subst hp
  have h1 : init s2n p.length (.arr p) (.arr pp) = .ok (⟨p.length, [(1, p)], [(1, pp)], true⟩, [(.num 1, some p)], [(.num 1, some pp)]) := by
    simp [init, args, rename, allowed, Dict.keys, foldE, initStep, Dict.get, addPol, resolve, hpp, Dict.set]
  refine ⟨_, _, _, h1, fun k => ⟨?_, fun hk => ?_⟩⟩
  · rintro rfl
    simp [powerInt, powerSqInt, resolve, Dict.get]
  · simp [powerInt, resolve, Dict.get, hk, Ne.symm hk]

/-- C67 finding: the constructor renames the keys of the caller's dictionaries in place. -/
theorem C67_finding_caller_dict : (init (V := ℕ) s2n 1 (.dict [(.str "XX", some [1])]) (.dict [(.str "XX", some [2])])).toOption.map (fun x => x.2) =
    some ([(.num (-5), some [1])], [(.num (-5), some [2])]) := by decide +kernel

/-- C67 finding: an object without polarizations answers with AttributeError instead of KeyError. -/
theorem C67_finding_empty : (init (V := ℕ) s2n 1 (.dict []) (.dict [])).toOption.map (fun x => powerInt s2n x.1 (.num 1) = .error .attribute) =
    some True := by simp [init, args, rename, Dict.keys, foldE, allowed, initStep, powerInt, resolve, Except.toOption]

end HeraPspec.Beam
