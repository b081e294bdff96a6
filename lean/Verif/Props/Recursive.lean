import Verif.Model.Recursive
import Verif.Lemmas.Combine3

/-!
C25, C26: `recursive_combine_uvpspec`, `fast_merge_baselines`.
-/
namespace HeraPspec.Recursive
open HeraPspec.UVP (Err)
open HeraPspec.Combine (bind_ok)
variable {α : Type}

/-! ### Specification -/

/-- A merge plan: a binary tree of two-object merges. -/
inductive Plan (α : Type) | leaf (a : α) | node (l r : Plan α)

/-- The inputs of a plan, left to right. -/
def Plan.inputs : Plan α → List α
  | .leaf a => [a]
  | .node l r => l.inputs ++ r.inputs

/-- Carrying out a plan. -/
def Plan.run (m : α → α → Except Err α) : Plan α → Except Err α
  | .leaf a => .ok a
  | .node l r => do
    let x ← l.run m
    let y ← r.run m
    m x y

/-- Depth of a plan. -/
def Plan.depth : Plan α → Nat
  | .leaf _ => 0
  | .node l r => max l.depth r.depth + 1

/-- Merging one after the other, left to right. -/
def foldMerge (m : α → α → Except Err α) : List α → Except Err α
  | [] => .error .value
  | a :: l => l.foldlM m a

/-- Associativity of a merge that may fail. -/
def Assoc (m : α → α → Except Err α) : Prop :=
  ∀ a b c, (do let x ← m a b; m x c) = (do let y ← m b c; m a y)

/-! ### C25 -/

/-- C25: the empty list raises. -/
theorem C25_empty_raises (m : α → α → Except Err α) : recursive m [] = .error .value := by unfold recursive; rfl

/-- C25: for every non-empty list the recursion carries out a merge plan whose inputs are exactly the list, each once and
in order, and whose depth is logarithmic (`2 ^ depth < 2 * n`). -/
theorem C25_uses_every_input_once (m : α → α → Except Err α) (us : List α) (h : us ≠ []) :
    ∃ p : Plan α, p.inputs = us ∧ recursive m us = p.run m ∧ 2 ^ p.depth < 2 * us.length := by
  induction hn : us.length using Nat.strong_induction_on generalizing us with
  | _ n ih =>
    match us, h with
    | [a], _ =>
      refine ⟨.leaf a, rfl, ?_, ?_⟩
      · unfold recursive; rfl
      · simp [Plan.depth] at *; omega
    | [a, b], _ =>
      refine ⟨.node (.leaf a) (.leaf b), rfl, ?_, ?_⟩
      · unfold recursive; rfl
      · simp [Plan.depth] at *; omega
    | a :: b :: c :: l, _ =>
      set us := a :: b :: c :: l with hus
      have hl : 3 ≤ us.length := by simp [hus]
      have l1 : (us.take (us.length / 2)).length = us.length / 2 := by simp; omega
      have l2 : (us.drop (us.length / 2)).length = us.length - us.length / 2 := by simp
      obtain ⟨p, hp1, hp2, hp3⟩ := ih _ (by omega) (us.take (us.length / 2))
        (List.ne_nil_of_length_pos (by omega)) rfl
      obtain ⟨q, hq1, hq2, hq3⟩ := ih _ (by omega) (us.drop (us.length / 2))
        (List.ne_nil_of_length_pos (by omega)) rfl
      refine ⟨.node p q, ?_, ?_, ?_⟩
      · simp [Plan.inputs, hp1, hq1]
      · rw [hus]; unfold recursive; simp only [← hus]
        simp only [hp2, hq2]; rfl
      · simp only [Plan.depth]
        have key : ∀ d h : Nat, 2 ^ d < 2 * h → 2 * h ≤ us.length + 1 → 2 ^ (d + 1) < 2 * n := by
          intro d h h1 h2
          rw [pow_succ]
          cases d with
          | zero => simp; omega
          | succ d => rw [pow_succ] at *; omega
        rcases le_total p.depth q.depth with hd | hd
        · rw [max_eq_right hd]; exact key _ _ hq3 (by omega)
        · rw [max_eq_left hd]; exact key _ _ hp3 (by omega)

theorem bind_assoc' {β γ : Type} (x : Except Err α) (f : α → Except Err β) (g : β → Except Err γ) :
    ((x >>= f) >>= g) = (x >>= fun a => f a >>= g) := by cases x <;> rfl

theorem foldlM_shift {m : α → α → Except Err α} (ha : Assoc m) (a b : α) (l : List α) :
    (do let y ← l.foldlM m b; m a y) = (do let x ← m a b; l.foldlM m x) := by
  induction l generalizing b with
  | nil => show (Except.ok b >>= m a) = (m a b >>= Except.ok); cases h : m a b <;> (show m a b = _; rw [h]; rfl)
  | cons c l ih =>
    simp only [List.foldlM_cons]
    rw [bind_assoc']
    have h1 : (m b c >>= fun x => List.foldlM m x l >>= m a) = (m b c >>= fun x => m a x >>= fun z => List.foldlM m z l) := by
      congr 1; funext x; exact ih x
    rw [h1, ← bind_assoc', ← ha a b c, bind_assoc']

theorem foldMerge_append {m : α → α → Except Err α} (ha : Assoc m) {l r : List α} (hl : l ≠ []) (hr : r ≠ []) :
    foldMerge m (l ++ r) = (do let x ← foldMerge m l; let y ← foldMerge m r; m x y) := by
  obtain ⟨a, l, rfl⟩ := List.exists_cons_of_ne_nil hl
  obtain ⟨b, r, rfl⟩ := List.exists_cons_of_ne_nil hr
  show (l ++ b :: r).foldlM m a = (l.foldlM m a >>= fun x => r.foldlM m b >>= fun y => m x y)
  rw [List.foldlM_append]
  congr 1; funext x
  rw [List.foldlM_cons]
  exact (foldlM_shift ha x b r).symm

theorem Plan.inputs_ne_nil (p : Plan α) : p.inputs ≠ [] := by
  cases p with
  | leaf a => simp [Plan.inputs]
  | node l r => simp [Plan.inputs, Plan.inputs_ne_nil l]

theorem Plan.run_eq {m : α → α → Except Err α} (ha : Assoc m) (p : Plan α) : p.run m = foldMerge m p.inputs := by
  induction p with
  | leaf a => rfl
  | node l r h1 h2 => rw [Plan.inputs, foldMerge_append ha l.inputs_ne_nil r.inputs_ne_nil, Plan.run, h1, h2]

/-- C25: for every associative (possibly failing) merge, recursive combination equals merging left to right; in particular
it fails exactly if that fails. -/
theorem C25_equals_left_fold {m : α → α → Except Err α} (ha : Assoc m) (us : List α) (h : us ≠ []) :
    recursive m us = foldMerge m us := by
  obtain ⟨p, hp, hr, _⟩ := C25_uses_every_input_once m us h
  rw [hr, Plan.run_eq ha, hp]

/-- Non-vacuity: addition that refuses to exceed 20 is associative and can fail. -/
def exMerge (a b : Nat) : Except Err Nat := if a + b > 20 then .error .value else .ok (a + b)

theorem exMerge_assoc : Assoc exMerge := by
  intro a b c
  unfold exMerge
  simp only [bind, Except.bind]
  by_cases h1 : a + b > 20
  · rw [if_pos h1]
    by_cases h2 : b + c > 20
    · rw [if_pos h2]
    · rw [if_neg h2]; simp only []; rw [if_pos (by omega)]
  · rw [if_neg h1]; simp only []
    by_cases h2 : b + c > 20
    · rw [if_pos h2, if_pos (by omega)]
    · rw [if_neg h2]; simp only [add_assoc]

example : recursive exMerge [3, 1, 4, 1, 5] = .ok 14 ∧ recursive exMerge [3, 1, 4, 1, 5, 9] = .error .value := by
  rw [C25_equals_left_fold exMerge_assoc _ (by simp), C25_equals_left_fold exMerge_assoc _ (by simp)]
  exact ⟨rfl, rfl⟩

/-! ### C26 -/

theorem flatMap_batches (files : List α) (k : Nat) (j : Nat) :
    (List.range j).flatMap (batch files k) = files.take (j * k) := by
  induction j with
  | zero => simp
  | succ j ih =>
    rw [List.range_succ, List.flatMap_append, ih, List.flatMap_singleton]
    unfold batch
    have h1 : files.take (min ((j + 1) * k) files.length) = files.take ((j + 1) * k) := by
      rw [List.take_eq_take_iff]; simp
    rw [h1]
    have h2 : files.take (j * k) = (files.take ((j + 1) * k)).take (j * k) := by
      rw [List.take_take]; congr 1; rw [add_mul]; omega
    rw [h2, List.take_append_drop]

/-- C26: for every batch size >= 1 the batches cover the file list exactly once and in order, and each holds between one
and `batch_size` files. -/
theorem C26_batches_cover (files : List α) (k : Nat) (hk : 1 ≤ k) :
    (List.range (numBatches files.length k)).flatMap (batch files k) = files ∧
    ∀ i < numBatches files.length k, batch files k i ≠ [] ∧ (batch files k i).length ≤ k := by
  constructor
  · rw [flatMap_batches]
    apply List.take_of_length_le
    unfold numBatches
    have := Nat.div_add_mod (files.length + k - 1) k
    have := Nat.mod_lt (files.length + k - 1) hk
    rw [mul_comm]; omega
  · intro i hi
    have h1 : i * k < files.length := by
      unfold numBatches at hi
      have := Nat.div_mul_le_self (files.length + k - 1) k
      have h2 : (i + 1) * k ≤ (files.length + k - 1) / k * k := Nat.mul_le_mul_right _ hi
      rw [add_mul] at h2; omega
    have hl : (batch files k i).length = min (i * k + k) files.length - i * k := by
      unfold batch; simp [add_mul]
    exact ⟨List.ne_nil_of_length_pos (by omega), by omega⟩

theorem loop_plan (m : α → α → Except Err α) (files : List α) (k : Nat) (is : List Nat)
    (hb : ∀ i ∈ is, batch files k i ≠ []) (p : Plan α) (a : α) (ha : p.run m = .ok a) :
    ∃ q : Plan α, q.inputs = p.inputs ++ is.flatMap (batch files k) ∧
      loop m files k is (some a) = (q.run m).map some := by
  induction is generalizing p a with
  | nil => exact ⟨p, by simp, by rw [ha]; rfl⟩
  | cons i is ih =>
    obtain ⟨pb, hpb, hrb, _⟩ := C25_uses_every_input_once m (batch files k i) (hb i List.mem_cons_self)
    obtain ⟨rest, hrest⟩ : ∃ rest : Plan α → Plan α, ∀ x : Plan α,
        (rest x).inputs = x.inputs ++ is.flatMap (batch files k) ∧
        ∀ e, x.run m = .error e → (rest x).run m = .error e := by
      have hb' : ∀ i ∈ is, batch files k i ≠ [] := fun j hj => hb j (List.mem_cons_of_mem _ hj)
      clear ih hb
      induction is with
      | nil => exact ⟨id, fun x => ⟨by simp, fun e he => he⟩⟩
      | cons j is ih2 =>
        obtain ⟨r, hr⟩ := ih2 (fun x hx => hb' x (List.mem_cons_of_mem _ hx))
        obtain ⟨pj, hpj, _⟩ := C25_uses_every_input_once m (batch files k j) (hb' j List.mem_cons_self)
        refine ⟨fun x => r (.node x pj), fun x => ⟨?_, fun e he => (hr _).2 e ?_⟩⟩
        · rw [(hr _).1, Plan.inputs, hpj]; simp
        · rw [Plan.run, he]; rfl
    unfold loop
    rw [hrb]
    cases hpr : pb.run m with
    | error e =>
      refine ⟨rest (.node p pb), ?_, ?_⟩
      · rw [(hrest _).1, Plan.inputs, hpb]; simp
      · rw [(hrest _).2 e (by rw [Plan.run, ha, hpr]; rfl)]; rfl
    | ok b =>
      have h2 : recursive m [a, b] = (Plan.node p pb).run m := by
        rw [Plan.run, ha, hpr]; unfold recursive; rfl
      simp only []
      rw [h2]
      cases hc : (Plan.node p pb).run m with
      | error e =>
        refine ⟨rest (.node p pb), ?_, ?_⟩
        · rw [(hrest _).1, Plan.inputs, hpb]; simp
        · rw [(hrest _).2 e hc]; rfl
      | ok c =>
        obtain ⟨q, hq, hl⟩ := ih (fun j hj => hb j (List.mem_cons_of_mem _ hj)) (.node p pb) c hc
        exact ⟨q, by rw [hq, Plan.inputs, hpb]; simp, hl⟩

/-- C26: for every non-empty file list and every batch size >= 1 (or none), the merge carries out a plan whose inputs are
exactly the files, each once and in order. -/
theorem C26_uses_every_file_once (m : α → α → Except Err α) (files : List α) (hf : files ≠ []) (bs : Option Nat)
    (hbs : bs ≠ some 0) : ∃ p : Plan α, p.inputs = files ∧ fastMerge m files bs = p.run m := by
  have hlen : 0 < files.length := List.length_pos_iff.2 hf
  have hk : 1 ≤ bs.getD files.length := by
    cases bs with
    | none => exact hlen
    | some k => have : k ≠ 0 := fun h => hbs (by rw [h]); simp; omega
  unfold fastMerge
  simp only []
  generalize bs.getD files.length = k at hk
  rw [if_neg (by omega)]
  obtain ⟨hcov, hne⟩ := C26_batches_cover files k hk
  cases hr : List.range (numBatches files.length k) with
  | nil => rw [hr] at hcov; simp at hcov; exact absurd hcov (by simpa using hf)
  | cons i is =>
    have hmem : ∀ j ∈ i :: is, batch files k j ≠ [] := by
      intro j hj; rw [← hr, List.mem_range] at hj; exact (hne j hj).1
    obtain ⟨pb, hpb, hrb, _⟩ := C25_uses_every_input_once m (batch files k i) (hmem i List.mem_cons_self)
    rw [hr, List.flatMap_cons] at hcov
    unfold loop
    rw [hrb]
    cases hpr : pb.run m with
    | ok b =>
      obtain ⟨q, hq, hl⟩ := loop_plan m files k is (fun j hj => hmem j (List.mem_cons_of_mem _ hj)) pb b hpr
      refine ⟨q, by rw [hq, hpb, hcov], ?_⟩
      simp only [hl]
      cases q.run m <;> rfl
    | error e =>
      by_cases hz : is.flatMap (batch files k) = []
      · refine ⟨pb, by rw [hz, List.append_nil] at hcov; rw [hpb, hcov], ?_⟩
        simp only [hpr]
      · obtain ⟨q, hq, _⟩ := C25_uses_every_input_once m _ hz
        refine ⟨.node pb q, by rw [Plan.inputs, hpb, hq, hcov], ?_⟩
        rw [Plan.run, hpr]; rfl

/-- C26: for an associative merge, the result is the same for every batch size >= 1, and the same as without batching. -/
theorem C26_batch_size_irrelevant {m : α → α → Except Err α} (ha : Assoc m) (files : List α) (hf : files ≠ [])
    (k : Nat) (hk : 1 ≤ k) : fastMerge m files (some k) = fastMerge m files none ∧
      fastMerge m files none = foldMerge m files := by
  obtain ⟨p, hp, h1⟩ := C26_uses_every_file_once m files hf (some k) (by simp; omega)
  obtain ⟨q, hq, h2⟩ := C26_uses_every_file_once m files hf none (by simp)
  rw [h1, h2, Plan.run_eq ha, Plan.run_eq ha, hp, hq]
  exact ⟨rfl, rfl⟩

/-- Finding: with no matching files (or batch size 0) the code divides by zero / has nothing to write. -/
theorem C26_no_files_raises (m : α → α → Except Err α) (bs : Option Nat) : ∃ e, fastMerge m [] bs = .error e := by
  unfold fastMerge
  simp only [List.length_nil]
  by_cases h : bs.getD 0 = 0
  · rw [if_pos h]; exact ⟨_, rfl⟩
  · rw [if_neg h]
    have : numBatches 0 (bs.getD 0) = 0 := by
      unfold numBatches; exact Nat.div_eq_of_lt (by omega)
    rw [this]; exact ⟨_, rfl⟩

/-! ### The actual merge -/
section
open HeraPspec.Combine
variable {R M T Z S X C K V : Type}
variable [LinearOrder R] [LinearOrder T] [DecidableEq C] [DecidableEq K] [DecidableEq V]
variable {rangeOf : M → R} {rnd : T → T} {close : S → S → Bool}

/-- Well-formed objects with sorted windows, pairwise apart in baseline-pair-times and agreeing on windows and polpairs. -/
structure Mergeable (rangeOf : M → R) (us : List (Obj M T Z S X C K V)) : Prop where
  pair : us.Pairwise (PairOK rangeOf .blpairts)
  wf : ∀ v ∈ us, WF rangeOf v
  windows : ∀ v ∈ us, (v.spwMeta.map rangeOf).Pairwise (· ≤ ·)

/-- Object `u` has the content of all of `us`. -/
structure IsUnion (rangeOf : M → R) (us : List (Obj M T Z S X C K V)) (u : Obj M T Z S X C K V) : Prop where
  entries : ∀ r b p x n1 n2, Has rangeOf u r b p x n1 n2 ↔ ∃ v ∈ us, Has rangeOf v r b p x n1 n2
  rows : ∀ b, b ∈ u.blpts ↔ ∃ v ∈ us, b ∈ v.blpts
  spws : ∀ r, r ∈ u.spwMeta.map rangeOf ↔ ∃ v ∈ us, r ∈ v.spwMeta.map rangeOf
  pols : ∀ p, p ∈ u.pols ↔ ∃ v ∈ us, p ∈ v.pols
  rparams : ∀ k v, Dict.get u.rparams k = some v ↔ ∃ w ∈ us, Dict.get w.rparams k = some v
  wf : WF rangeOf u
  windows : (u.spwMeta.map rangeOf).Pairwise (· ≤ ·)

theorem plan_union (p : Plan (Obj M T Z S X C K V)) {u : Obj M T Z S X C K V} (hm : Mergeable rangeOf p.inputs)
    (h : p.run (fun a b => combine rangeOf rnd close [a, b]) = .ok u) : IsUnion rangeOf p.inputs u := by
  induction p generalizing u with
  | leaf a =>
    cases h
    constructor <;> first | (intros; simp [Plan.inputs]) | exact hm.wf _ (by simp [Plan.inputs]) | skip
    exact hm.windows _ (by simp [Plan.inputs])
  | node l r ihl ihr =>
    rw [Plan.run] at h
    obtain ⟨x, hx, h⟩ := bind_ok.1 h
    obtain ⟨y, hy, h⟩ := bind_ok.1 h
    have hp := List.pairwise_append.1 hm.pair
    have ux := ihl ⟨hp.1, fun v hv => hm.wf v (by simp [Plan.inputs, hv]), fun v hv => hm.windows v (by simp [Plan.inputs, hv])⟩ hx
    have uy := ihr ⟨hp.2.1, fun v hv => hm.wf v (by simp [Plan.inputs, hv]), fun v hv => hm.windows v (by simp [Plan.inputs, hv])⟩ hy
    obtain ⟨vl, hvl⟩ := List.exists_mem_of_ne_nil _ l.inputs_ne_nil
    obtain ⟨vr, hvr⟩ := List.exists_mem_of_ne_nil _ r.inputs_ne_nil
    have hpair : PairOK rangeOf .blpairts x y := by
      refine ⟨?_, ?_, ?_⟩
      · simp only [reduceCtorEq, if_false]
        intro s
        rw [ux.spws, uy.spws]
        constructor
        · rintro ⟨v, hv, hs⟩; refine ⟨vr, hvr, ?_⟩
          have := (hp.2.2 v hv vr hvr).1; simp only [reduceCtorEq, if_false] at this; exact (this s).1 hs
        · rintro ⟨v, hv, hs⟩; refine ⟨vl, hvl, ?_⟩
          have := (hp.2.2 vl hvl v hv).1; simp only [reduceCtorEq, if_false] at this; exact (this s).2 hs
      · simp only [if_true]
        have hdis : ∀ b ∈ x.blpts, b ∉ y.blpts := by
          intro b hb hb'
          obtain ⟨v, hv, h1⟩ := (ux.rows b).1 hb
          obtain ⟨w, hw, h2⟩ := (uy.rows b).1 hb'
          have := (hp.2.2 v hv w hw).2.1; simp only [if_true] at this; exact this.1 b h1 h2
        refine ⟨hdis, fun hsame => ?_⟩
        have h0 := (hp.2.2 vl hvl vr hvr).2.1
        simp only [if_true] at h0
        apply h0.2
        intro b
        constructor
        · intro hb; have h1 := (ux.rows b).2 ⟨vl, hvl, hb⟩; exact absurd ((hsame b).1 h1) (hdis b h1)
        · intro hb; have h1 := (uy.rows b).2 ⟨vr, hvr, hb⟩; exact absurd h1 (hdis b ((hsame b).2 h1))
      · simp only [reduceCtorEq, if_false]
        intro s
        rw [ux.pols, uy.pols]
        constructor
        · rintro ⟨v, hv, hs⟩; refine ⟨vr, hvr, ?_⟩
          have := (hp.2.2 v hv vr hvr).2.2; simp only [reduceCtorEq, if_false] at this; exact (this s).1 hs
        · rintro ⟨v, hv, hs⟩; refine ⟨vl, hvl, ?_⟩
          have := (hp.2.2 vl hvl v hv).2.2; simp only [reduceCtorEq, if_false] at this; exact (this s).2 hs
    obtain ⟨ax, u0, rows, hc, _⟩ := (combine_iff (by simp)).1 h
    obtain rfl : ax = .blpairts := by
      have h1 : PairOK rangeOf ax x y := by have := hc.pair; simpa using this
      have a1 := pairAxis_ok.2 h1; have a2 := pairAxis_ok.2 hpair
      rw [a1] at a2; cases a2; rfl
    have hal : Aligned rangeOf rnd .blpairts [x, y] := by
      refine ⟨by simp, by simp, ?_⟩
      intro _ u0 h0; simp at h0; subst h0; exact ux.windows
    obtain ⟨h1, h2, h3, h4, h5, h6, h7, h8, h9⟩ := combine_spec hc (by
      intro v hv; simp at hv; rcases hv with rfl | rfl
      · exact ux.wf
      · exact uy.wf) hal h
    constructor
    · intro r' b p' z n1 n2; rw [h1]; simp [Plan.inputs, ux.entries, uy.entries, or_and_right, exists_or]
    · intro b; rw [h4, mem_newBlpts]; simp [Plan.inputs, ux.rows, uy.rows, or_and_right, exists_or]
    · intro b; rw [h3, mem_newSpws]
      have e1 := ux.spws b; have e2 := uy.spws b
      simp only [Obj.spws, List.exists_mem_cons_iff, Plan.inputs, List.mem_append]
      rw [e1, e2]; simp [or_and_right, exists_or]
    · intro b; rw [h5, mem_newPols]; simp [Plan.inputs, ux.pols, uy.pols, or_and_right, exists_or]
    · intro k v; rw [h7]; simp [Plan.inputs, ux.rparams, uy.rparams, or_and_right, exists_or]
    · exact h9
    · rw [h3]; exact sorted_newSpws

/-- C25 with the actual `combine_uvpspec`: whenever recursive combination of mergeable objects succeeds, the result holds
exactly the entries of all inputs. -/
theorem C25_recursive_combine_entries {us : List (Obj M T Z S X C K V)} (hne : us ≠ []) (hm : Mergeable rangeOf us)
    {u : Obj M T Z S X C K V} (h : recursive (fun a b => combine rangeOf rnd close [a, b]) us = .ok u) :
    IsUnion rangeOf us u := by
  obtain ⟨p, rfl, hr, _⟩ := C25_uses_every_input_once (fun a b => combine rangeOf rnd close [a, b]) us hne
  exact plan_union p hm (hr ▸ h)

/-- C26 with the actual `combine_uvpspec`: two batch sizes that both succeed give objects with the same rows and entries,
namely those of all files. -/
theorem C26_fast_merge_entries {files : List (Obj M T Z S X C K V)} (hne : files ≠ []) (hm : Mergeable rangeOf files)
    (bs : Option Nat) (hbs : bs ≠ some 0) {u : Obj M T Z S X C K V}
    (h : fastMerge (fun a b => combine rangeOf rnd close [a, b]) files bs = .ok u) : IsUnion rangeOf files u := by
  obtain ⟨p, rfl, hr⟩ := C26_uses_every_file_once (fun a b => combine rangeOf rnd close [a, b]) files hne bs hbs
  exact plan_union p hm (hr ▸ h)

end

example : fastMerge exMerge [1, 2, 3, 4, 5] (some 2) = .ok 15 ∧ fastMerge exMerge [1, 2, 3, 4, 5] (some 7) = .ok 15 ∧
    fastMerge exMerge [9, 9, 9] (some 2) = .error .value := by
  have h1 := C26_batch_size_irrelevant exMerge_assoc [1, 2, 3, 4, 5] (by simp) 2 (by simp)
  have h2 := C26_batch_size_irrelevant exMerge_assoc [1, 2, 3, 4, 5] (by simp) 7 (by simp)
  have h3 := C26_batch_size_irrelevant exMerge_assoc [9, 9, 9] (by simp) 2 (by simp)
  rw [h1.1, h1.2, h2.1, h2.2, h3.1, h3.2]
  exact ⟨rfl, rfl, rfl⟩

end HeraPspec.Recursive
