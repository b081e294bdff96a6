import Verif.Model.FromData
import Verif.Props.PspecCall
import Verif.Props.Blpairs

/-!
Property C165: `uvpspec_from_data` forms exactly the spectra of the pairs of distinct baselines within each group.
-/
namespace HeraPspec.FromData
open HeraPspec.PspecCall
open HeraPspec.UVP (getData)

variable {D W : Type}

/-- What the argument `bl_grps` stands for: a non-empty list of baselines is one group, a non-empty list of non-empty groups is those groups. -/
def Stands (a : List GArg) (gs : List (List Bl)) : Prop :=
  (∃ l, l ≠ [] ∧ a = l.map .bl ∧ gs = [l]) ∨ (gs ≠ [] ∧ (∀ g ∈ gs, g ≠ []) ∧ a = gs.map .grp)

/-- The pairs wanted: two baselines of one group, the first one earlier in it. -/
def Wanted (gs : List (List Bl)) (p : Blp) : Prop := ∃ g ∈ gs, Blpairs.Precedes g p.1 p.2

theorem map_filterMap {α β : Type} {f : α → Option β} {g : β → α} (hg : ∀ x y, f x = some y → x = g y) : ∀ {l : List α}, l.all (fun x => (f x).isSome) = true →
    l = (l.filterMap f).map g
  | [], _ => rfl
  | x :: l, h => by
    rw [List.all_cons, Bool.and_eq_true] at h
    obtain ⟨y, hy⟩ := Option.isSome_iff_exists.1 h.1
    rw [List.filterMap_cons_some hy, List.map_cons, ← hg x y hy, ← map_filterMap hg h.2]

theorem groupsOf_iff {a : List GArg} {gs : List (List Bl)} : groupsOf a = .ok gs ↔ Stands a gs := by
  have h1 : ∀ l : List Bl, (l.map GArg.bl).filterMap GArg.bl? = l := fun l => by
    induction l with
    | nil => rfl
    | cons x l ih => rw [List.map_cons, List.filterMap_cons]; simp only [GArg.bl?, ih]
  have h2 : ∀ l : List (List Bl), (l.map GArg.grp).filterMap GArg.grp? = l := fun l => by
    induction l with
    | nil => rfl
    | cons x l ih => rw [List.map_cons, List.filterMap_cons]; simp only [GArg.grp?, ih]
  constructor
  · intro h
    unfold groupsOf at h
    rcases a with _ | ⟨_ | _, a⟩
    · cases h
    · simp only at h
      split at h
      · rename_i hall
        cases h
        refine .inl ⟨_, ?_, map_filterMap (fun x y hxy => ?_) hall, rfl⟩
        · rw [List.filterMap_cons_some (by rfl)]; simp
        · cases x <;> cases hxy; rfl
      · cases h
    · simp only at h
      split at h
      · rename_i hall
        split at h
        · rename_i hne
          cases h
          refine .inr ⟨?_, fun g hg => of_decide_eq_true (List.all_eq_true.1 hne g hg), map_filterMap (fun x y hxy => ?_) hall⟩
          · rw [List.filterMap_cons_some (by rfl)]; simp
          · cases x <;> cases hxy; rfl
        · cases h
      · cases h
  · rintro (⟨l, hl, rfl, rfl⟩ | ⟨hg, hne, rfl⟩)
    · have hall : (l.map GArg.bl).all (fun x => x.bl?.isSome) = true := by simp [GArg.bl?]
      have hf := h1 l
      obtain ⟨x, l, rfl⟩ := List.exists_cons_of_ne_nil hl
      unfold groupsOf
      rw [List.map_cons] at *
      simp only
      rw [if_pos hall, hf]
    · have hall : (gs.map GArg.grp).all (fun x => x.grp?.isSome) = true := by simp [GArg.grp?]
      have hf := h2 gs
      have hne' : gs.all (fun g => decide (g ≠ [])) = true := List.all_eq_true.2 (fun g hg => decide_eq_true (hne g hg))
      obtain ⟨x, l, rfl⟩ := List.exists_cons_of_ne_nil hg
      unfold groupsOf
      rw [List.map_cons] at *
      simp only
      rw [if_pos hall, hf, if_pos hne']

theorem precedes_mem {g : List Bl} {p : Blp} (h : Blpairs.Precedes g p.1 p.2) : p.1 ∈ g ∧ p.2 ∈ g := by
  obtain ⟨i, j, -, hi, hj⟩ := h
  exact ⟨List.mem_of_getElem? hi, List.mem_of_getElem? hj⟩

theorem precedes_ne {g : List Bl} (hn : g.Nodup) {p : Blp} (h : Blpairs.Precedes g p.1 p.2) : p.1 ≠ p.2 :=
  Blpairs.sublist_pair_ne g hn _ _ ((Blpairs.precedes_iff _ _ _).1 h)

/-- The pairs collected for groups without a common or repeated baseline. -/
theorem collect_spec : ∀ (gs : List (List Bl)), gs.flatten.Nodup → (∀ g ∈ gs, g ≠ []) →
    ∃ blps : List Blp, collect gs = .ok (blps.map (·.1), blps.map (·.2)) ∧ blps.Nodup ∧ ∀ p, p ∈ blps ↔ Wanted gs p := by
  intro gs
  induction gs with
  | nil => intro _ _; exact ⟨[], rfl, List.nodup_nil, fun p => by simp [Wanted]⟩
  | cons g gs ih =>
    intro hn hne
    rw [List.flatten_cons, List.nodup_append] at hn
    obtain ⟨rest, hr1, hr2, hr3⟩ := ih hn.2.1 (fun x hx => hne x (List.mem_cons_of_mem _ hx))
    obtain ⟨b1, b2, bp, e, hnd, hmem, l1, l2, g1, g2⟩ := Blpairs.C07_construct_spec g hn.1 (hne g List.mem_cons_self) true false true (by simp)
    have e1 : b1 = bp.map (·.1) := List.ext_getElem? (fun i => by rw [g1 i, List.getElem?_map])
    have e2 : b2 = bp.map (·.2) := List.ext_getElem? (fun i => by rw [g2 i, List.getElem?_map])
    have hw : ∀ p, p ∈ bp ↔ Blpairs.Precedes g p.1 p.2 := by
      rintro ⟨a, b⟩
      rw [hmem]
      constructor
      · rintro (⟨-, -, h⟩ | h)
        · cases h
        · exact h.2.2.2.2 rfl
      · intro h
        exact .inr ⟨precedes_ne hn.1 h, (precedes_mem h).1, (precedes_mem h).2, rfl, fun _ => h⟩
    refine ⟨bp ++ rest, ?_, ?_, ?_⟩
    · unfold collect
      rw [e]
      simp only [hr1, e1, e2, List.map_append]
    · refine List.nodup_append.2 ⟨hnd, hr2, ?_⟩
      rintro p hp q hq rfl
      obtain ⟨x, hx, hpx⟩ := (hr3 p).1 hq
      exact hn.2.2 p.1 (precedes_mem ((hw p).1 hp)).1 p.1 (List.mem_flatten.2 ⟨x, hx, (precedes_mem hpx).1⟩) rfl
    · intro p
      rw [List.mem_append, hw, hr3]
      constructor
      · rintro (h | ⟨x, hx, h⟩)
        · exact ⟨g, List.mem_cons_self, h⟩
        · exact ⟨x, List.mem_cons_of_mem _ hx, h⟩
      · rintro ⟨x, hx, h⟩
        rcases List.mem_cons.1 hx with rfl | hx
        · exact .inl h
        · exact .inr ⟨x, hx, h⟩

/-- The request that the arguments make: both labels, the pairs, the windows and the first polarization of the data with itself. -/
def request (blps : List Blp) (spws : List (ℕ × ℕ)) (pol : ℤ) : Meaning := ⟨"d1", "d2", blps, spws, [(pol, pol)]⟩

/-- The other keyword arguments are in order and ask for the windows `spws`. -/
structure Keywords (w : World D W) (rest : Call) (spws : List (ℕ × ℕ)) : Prop where
  wins : Lists [(0, w.nfreqs)] rest.spws spws
  exts : ∃ l, Lists (List.replicate spws.length (0, 0)) rest.exts l ∧ l.length = spws.length
  ndlys : ∃ l, Lists (List.replicate spws.length none) rest.ndlys l ∧ l.length = spws.length

theorem asks_of {w : World D W} {s : Source} {pol : ℤ} {blps : List Blp} {rest : Call} {spws : List (ℕ × ℕ)} (hk : Keywords w rest spws) (hb : blps ≠ [])
    (hpos : w.posOk (blps.map Validate.Item.pair) = true) :
    Asks (worldOf w s) (callOf s pol (blps.map (·.1), blps.map (·.2)) rest) (request blps spws pol) := by
  refine ⟨⟨0, 1, rfl, ⟨0, rfl, .inl rfl⟩, ⟨1, rfl, .inl rfl⟩⟩, by simpa [callOf] using hb, by simp [callOf, request], by simp [callOf, request], ?_, hpos, hk.wins, hk.exts, hk.ndlys, .cons ⟨rfl, rfl⟩ .nil⟩
  intro i a b p h1 h2 h3
  simp only [callOf, request, List.map_map, List.getElem?_map] at h1 h2 h3
  rw [h3] at h1 h2
  cases h1; cases h2
  rfl

theorem asks_conv {w : World D W} {s : Source} {pol : ℤ} {blps : List Blp} {rest : Call} {m : Meaning}
    (h : Asks (worldOf w s) (callOf s pol (blps.map (·.1), blps.map (·.2)) rest) m) :
    m = request blps m.spws pol ∧ blps ≠ [] ∧ w.posOk (blps.map Validate.Item.pair) = true ∧ Keywords w rest m.spws := by
  obtain ⟨⟨a, b, h1, ⟨k1, q1, r1⟩, ⟨k2, q2, r2⟩⟩, h2, h3, h4, h5, h6, h7, h8, h9, h10⟩ := h
  simp only [callOf, List.cons.injEq, DsetArg.int.injEq, and_true] at h1
  obtain ⟨rfl, rfl⟩ := h1
  have e1 : m.label1 = "d1" := by
    simp only [worldOf] at q1 r1
    match k1, q1, r1 with
    | 0, q1, _ => exact (by simpa using q1.symm)
    | 1, _, r1 => simp at r1
    | k + 2, q1, _ => simp at q1
  have e2 : m.label2 = "d2" := by
    simp only [worldOf] at q2 r2
    match k2, q2, r2 with
    | 0, _, r2 => simp at r2
    | 1, q2, _ => exact (by simpa using q2.symm)
    | k + 2, q2, _ => simp at q2
  have e3 : m.blps = blps := by
    simp only [callOf, List.length_map] at h3
    apply List.ext_getElem?
    intro i
    by_cases hi : i < blps.length
    · have hi' : i < m.blps.length := by omega
      have := h5 i (.one blps[i].1) (.one blps[i].2) m.blps[i] (by simp [callOf, hi]) (by simp [callOf, hi]) (List.getElem?_eq_getElem hi')
      rw [List.getElem?_eq_getElem hi, List.getElem?_eq_getElem hi']
      exact congrArg some this
    · rw [List.getElem?_eq_none (by omega), List.getElem?_eq_none (by omega)]
  have e4 : m.pols = [(pol, pol)] := by
    simp only [callOf, PolsArg.list] at h10
    obtain ⟨⟨x, y⟩, l, ⟨hp1, hp2⟩, ht, he⟩ := List.forall₂_cons_left_iff.1 h10
    rw [List.forall₂_nil_left_iff] at ht
    simp only [NumFor] at hp1 hp2
    rw [he, ht, ← hp1, ← hp2]
  refine ⟨?_, ?_, e3 ▸ h6, ⟨h7, h8, h9⟩⟩
  · cases m; simp only [request] at *; simp only [e1, e2, e3, e4]
  · intro h; rw [h] at h2; exact h2 rfl

theorem fromData_iff {w : World D W} {s : Source} {a : List GArg} {rest : Call} {out : Out D W} :
    fromData w s a rest = .ok out ↔ ∃ pol ps gs b, s.pols = pol :: ps ∧ groupsOf a = .ok gs ∧ collect gs = .ok b ∧ pspec (worldOf w s) (callOf s pol b rest) = .ok out := by
  unfold fromData
  rcases hp : s.pols with _ | ⟨pol, ps⟩
  · simp
  · rcases hg : groupsOf a with e | gs
    · simp
    · rcases hc : collect gs with e | b
      · simp only [hc]
        constructor
        · intro h; cases h
        · rintro ⟨pol', ps', gs', b', -, h2, h3, -⟩
          cases h2; rw [hc] at h3; cases h3
      · simp only [hc]
        constructor
        · intro h; exact ⟨pol, ps, gs, b, rfl, rfl, hc, h⟩
        · rintro ⟨pol', ps', gs', b', h1, h2, h3, h4⟩
          cases h1; cases h2; rw [hc] at h3; cases h3
          exact h4

/-- **C165** For groups without a common or repeated baseline the call is carried out exactly if the data have a polarization, some group has two baselines, the
other keyword arguments are in order with at least one window, and every wanted spectrum can be computed; here for data that have the polarization pair and
integrations for every pair, and redundant groups. -/
theorem C165_accepted_iff (w : World D W) (s : Source) (a : List GArg) (gs : List (List Bl)) (hs : Stands a gs) (hn : gs.flatten.Nodup) (rest : Call)
    (pol : ℤ) (hpol : s.pols.head? = some pol) (hok : w.polOk (pol, pol) = true) (hpos : ∀ blps : List Blp, (∀ p ∈ blps, Wanted gs p) → w.posOk (blps.map Validate.Item.pair) = true)
    (hr : ∀ n, ∀ blps : List Blp, (∀ p ∈ blps, Wanted gs p) → Regular w n blps) :
    (∃ out, fromData w s a rest = .ok out) ↔
      (∃ p, Wanted gs p) ∧ ∃ spws, Keywords w rest spws ∧ spws ≠ [] ∧ ∀ i < spws.length, ∀ p, Wanted gs p → ∃ l, w.val i (pol, pol) p = .ok l := by
  obtain ⟨ps, hps⟩ : ∃ ps, s.pols = pol :: ps := by
    cases h : s.pols with
    | nil => rw [h] at hpol; cases hpol
    | cons x l => rw [h] at hpol; cases hpol; exact ⟨l, rfl⟩
  have hne : ∀ g ∈ gs, g ≠ [] := by
    rcases hs with ⟨l, hl, -, rfl⟩ | ⟨-, h, -⟩
    · simpa using hl
    · exact h
  obtain ⟨blps, hc, hnd, hm⟩ := collect_spec gs hn hne
  have hb : ∀ p ∈ blps, Wanted gs p := fun p hp => (hm p).1 hp
  have hreg : ∀ n, Regular (worldOf w s) n blps := fun n => ⟨(hr n blps hb).obs, (hr n blps hb).len, (hr n blps hb).dlys, (hr n blps hb).freqs, (hr n blps hb).ants⟩
  constructor
  · rintro ⟨out, h⟩
    obtain ⟨pol', ps', gs', b, h1, h2, h3, h4⟩ := fromData_iff.1 h
    rw [hps] at h1; cases h1
    rw [groupsOf_iff.2 hs] at h2; cases h2
    rw [hc] at h3; cases h3
    by_cases hA : ∃ m, Asks (worldOf w s) (callOf s pol (blps.map (·.1), blps.map (·.2)) rest) m
    · obtain ⟨m, hm'⟩ := hA
      obtain ⟨e1, e2, e3, e4⟩ := asks_conv hm'
      have := (C145_accepted_iff (worldOf w s) _ m hm' (by rw [e1]; exact ⟨_, rfl, hok⟩) (by rw [e1]; exact hreg _)).1 ⟨out, h4⟩
      obtain ⟨p, l, rfl⟩ := List.exists_cons_of_ne_nil e2
      refine ⟨⟨p, hb p List.mem_cons_self⟩, m.spws, e4, this.1, ?_⟩
      intro i hi q hq
      refine this.2 i hi (pol, pol) ?_ q ?_
      · rw [e1]; unfold Meaning.available; exact List.mem_filter.2 ⟨List.mem_cons_self, hok⟩
      · rw [e1]; exact (hm q).2 hq
    · obtain ⟨e, he⟩ := C145_ill_formed _ _ (fun m hm => hA ⟨m, hm⟩)
      rw [he] at h4; cases h4
  · rintro ⟨⟨p, hp⟩, spws, hk, hsne, hv⟩
    have hbne : blps ≠ [] := by rintro rfl; exact absurd ((hm p).2 hp) (by simp)
    have hA := asks_of (s := s) (pol := pol) hk hbne (hpos blps hb)
    obtain ⟨out, ho⟩ := (C145_accepted_iff (worldOf w s) _ _ hA ⟨_, rfl, hok⟩ (hreg _)).2 ⟨hsne, fun i hi q hq b hbm => by
      have : q = (pol, pol) := by
        unfold Meaning.available at hq
        simpa [request] using (List.mem_filter.1 hq).1
      subst this
      exact hv i hi b ((hm b).1 hbm)⟩
    exact ⟨out, fromData_iff.2 ⟨pol, ps, gs, _, hps, groupsOf_iff.2 hs, hc, ho⟩⟩


/-- What an accepted call did, for groups without a common or repeated baseline. -/
theorem asked {w : World D W} {s : Source} {a : List GArg} {gs : List (List Bl)} (hs : Stands a gs) (hn : gs.flatten.Nodup) {rest : Call} {pol : ℤ}
    (hpol : s.pols.head? = some pol) {out : Out D W} (h : fromData w s a rest = .ok out) :
    ∃ blps : List Blp, blps.Nodup ∧ (∀ p, p ∈ blps ↔ Wanted gs p) ∧ ∃ spws, Keywords w rest spws ∧
      Asks (worldOf w s) (callOf s pol (blps.map (·.1), blps.map (·.2)) rest) (request blps spws pol) ∧
      pspec (worldOf w s) (callOf s pol (blps.map (·.1), blps.map (·.2)) rest) = .ok out := by
  have hne : ∀ g ∈ gs, g ≠ [] := by
    rcases hs with ⟨l, hl, -, rfl⟩ | ⟨-, h, -⟩
    · simpa using hl
    · exact h
  obtain ⟨blps, hc, hnd, hm⟩ := collect_spec gs hn hne
  obtain ⟨pol', ps', gs', b, h1, h2, h3, h4⟩ := fromData_iff.1 h
  rw [h1] at hpol; cases hpol
  rw [groupsOf_iff.2 hs] at h2; cases h2
  rw [hc] at h3; cases h3
  by_cases hA : ∃ m, Asks (worldOf w s) (callOf s pol (blps.map (·.1), blps.map (·.2)) rest) m
  · obtain ⟨m, hm'⟩ := hA
    obtain ⟨e1, e2, e3, e4⟩ := asks_conv hm'
    rw [e1] at hm'
    exact ⟨blps, hnd, hm, m.spws, e4, hm', h4⟩
  · obtain ⟨e, he⟩ := C145_ill_formed _ _ (fun m hm => hA ⟨m, hm⟩)
    rw [he] at h4; cases h4

/-- **C165** For groups without a common or repeated baseline, the baseline-pairs of the result are exactly the pairs of two baselines of one group, the earlier
one first; each has one row per integration; and `get_data` of each of them returns the spectra computed for it, for the first polarization of the data with itself,
which is the only one in the result. -/
theorem C165_pairs (w : World D W) (s : Source) (a : List GArg) (gs : List (List Bl)) (hs : Stands a gs) (hn : gs.flatten.Nodup) (rest : Call) (pol : ℤ)
    (hpol : s.pols.head? = some pol) (hrange : Polpair.ValidPol pol) (hok : w.polOk (pol, pol) = true)
    (hr : ∀ n, ∀ blps : List Blp, (∀ p ∈ blps, Wanted gs p) → Regular w n blps) (out : Out D W) (h : fromData w s a rest = .ok out) :
    (∀ k, k ∈ out.u.blpairArray ↔ ∃ p, Wanted gs p ∧ k = blCode p.1 * 1000000 + blCode p.2) ∧
    (∀ p, Wanted gs p → out.u.blpairArray.count (blCode p.1 * 1000000 + blCode p.2) = (w.obs p).length) ∧
    out.u.polpairArray = [(20 + pol) * 100 + (20 + pol)] ∧
    ∃ spws, Keywords w rest spws ∧ spws ≠ [] ∧ out.u.spwArray = List.range spws.length ∧
      ∀ i < spws.length, ∀ p, Wanted gs p → ∃ l, w.val i (pol, pol) p = .ok l ∧
        getData out.u i (blCode p.1 * 1000000 + blCode p.2) ((20 + pol) * 100 + (20 + pol)) = .ok (l.map (·.spec)) := by
  obtain ⟨blps, hnd, hm, spws, hk, hA, hp⟩ := asked hs hn hpol h
  have hreg : Regular (worldOf w s) spws.length blps := by
    have := hr spws.length blps (fun p hp => (hm p).1 hp)
    exact ⟨this.obs, this.len, this.dlys, this.freqs, this.ants⟩
  have hav : (request blps spws pol).available (worldOf w s) = [(pol, pol)] := by
    unfold Meaning.available
    exact List.filter_eq_self.2 (fun q hq => by rw [List.mem_singleton.1 hq]; exact hok)
  obtain ⟨n, hno, h1, h2, h3, h4, h5⟩ := asks_iff.1 hA
  obtain ⟨hv, hrep, -, hout⟩ := pspec_content hp hno (onlyPairs_iff.2 h1) (by rw [h5]; exact ⟨_, rfl, hok⟩) (by rw [h4]; exact hreg)
  have hbl : ∀ m : Blp, Antnums.antnumsToBlpair m = blCode m.1 * 1000000 + blCode m.2 := by
    intro m; rw [Antnums.antnumsToBlpair_eq]; unfold blCode; ring
  have harr : out.u.blpairArray = (rowsOf (worldOf w s) blps).map (fun m => blCode m.1.1 * 1000000 + blCode m.1.2) := by
    rw [hrep.blpair]; simp only [content, List.map_map]; rfl
  refine ⟨?_, ?_, ?_, spws, hk, ?_, ?_, ?_⟩
  · intro k
    rw [harr, List.mem_map]
    constructor
    · rintro ⟨x, hx, rfl⟩
      exact ⟨x.1, (hm _).1 (rowsOf_mem hx), rfl⟩
    · rintro ⟨p, hpw, rfl⟩
      have hpb := (hm p).2 hpw
      obtain ⟨o, l, hol⟩ := List.exists_cons_of_ne_nil (hreg.obs p hpb)
      exact ⟨(p, o, 0), List.mem_flatMap.2 ⟨p, hpb, List.mem_map.2 ⟨(o, 0), by rw [hol]; simp [List.zipIdx_cons], rfl⟩⟩, rfl⟩
  · intro p hpw
    have hpb := (hm p).2 hpw
    rw [harr, List.count_eq_countP, List.countP_map, List.countP_eq_length_filter]
    have : (rowsOf (worldOf w s) blps).filter ((fun x => x == blCode p.1 * 1000000 + blCode p.2) ∘ fun m => blCode m.1.1 * 1000000 + blCode m.1.2) =
        (rowsOf (worldOf w s) blps).filter (fun m => decide (m.1 = p)) := by
      apply List.filter_congr
      intro x hx
      simp only [Function.comp_apply]
      rw [Bool.eq_iff_iff]
      simp only [beq_iff_eq, decide_eq_true_eq]
      exact ⟨fun e => code_inj (hreg.ants _ (rowsOf_mem hx)) (hreg.ants _ hpb) e, fun e => by rw [e]⟩
    rw [this, filter_rows hnd hpb, List.length_map, List.length_zipIdx]
    rfl
  · rw [hrep.pols, h5]
    have : (request blps spws pol).pols.filter (worldOf w s).polOk = [(pol, pol)] := hav
    rw [this]; rfl
  · rintro rfl
    obtain ⟨n', b', r, data, e1, -, e3, -⟩ := pspec_iff.1 hp
    rw [hno] at e1; cases e1
    exact e3 h4
  · rw [hrep.spw, h4]; rfl
  · intro i hi p hpw
    obtain ⟨l, hl, hg⟩ := C146_read_back (worldOf w s) _ _ hA ⟨hnd, List.nodup_singleton _, fun q hq => by rw [List.mem_singleton.1 hq]; exact ⟨hrange, hrange⟩, _, rfl, hok⟩ hreg out hp i hi
      (pol, pol) (by rw [hav]; exact List.mem_cons_self) p ((hm p).2 hpw)
    rw [hbl] at hg
    exact ⟨l, hl, hg⟩

/-- **C165** Without a polarization, or with an argument that is neither a non-empty list of baselines nor a non-empty list of non-empty lists of baselines, the
call raises. -/
theorem C165_ill_formed (w : World D W) (s : Source) (a : List GArg) (rest : Call) (h : s.pols = [] ∨ ∀ gs, ¬ Stands a gs) : ∃ e, fromData w s a rest = .error e := by
  cases hf : fromData w s a rest with
  | error e => exact ⟨e, rfl⟩
  | ok out =>
    obtain ⟨pol, ps, gs, b, h1, h2, -⟩ := fromData_iff.1 hf
    rcases h with h | h
    · rw [h] at h1; cases h1
    · exact absurd (groupsOf_iff.1 h2) (h gs)

theorem collect_any : ∀ (gs : List (List Bl)) (b : List Bl × List Bl), collect gs = .ok b →
    ∃ blps : List Blp, b = (blps.map (·.1), blps.map (·.2)) ∧ ∀ p ∈ blps, p.1 ≠ p.2 ∧ ∃ g ∈ gs, p.1 ∈ g ∧ p.2 ∈ g
  | [], b, h => by cases h; exact ⟨[], rfl, by simp⟩
  | g :: gs, b, h => by
    unfold collect at h
    cases hc : Blpairs.construct g true false true with
    | error e => rw [hc] at h; cases h
    | ok r =>
      rw [hc] at h
      simp only at h
      cases hr : collect gs with
      | error e => rw [hr] at h; cases h
      | ok t =>
        rw [hr] at h; cases h
        obtain ⟨rest, rfl, hrest⟩ := collect_any gs t hr
        have hex := (Blpairs.C07_exclusion_any_list g r.1 r.2.1 r.2.2 true false true hc).1 rfl
        have hg : g ≠ [] := by rintro rfl; cases hc
        have he : r = ((r.2.2).map (·.1), (r.2.2).map (·.2), r.2.2) := by
          unfold Blpairs.construct at hc
          rw [if_neg hg, if_neg (by simp)] at hc
          cases hc; rfl
        have hm : ∀ p ∈ r.2.2, p.1 ∈ g ∧ p.2 ∈ g := by
          unfold Blpairs.construct at hc
          rw [if_neg hg, if_neg (by simp)] at hc
          cases hc
          rintro ⟨x, y⟩ hp
          have hp := List.mem_of_mem_filter hp
          simp only [if_true, Bool.false_eq_true, if_false] at hp
          rcases List.mem_append.1 hp with hp | hp
          · exact Blpairs.comb2_mem_fst _ _ _ hp
          · have := (Blpairs.mem_zip_self _ _ _).1 hp
            exact ⟨this.1, this.2 ▸ this.1⟩
        refine ⟨r.2.2 ++ rest, ?_, ?_⟩
        · rw [he]; simp only [List.map_append]
        · intro p hp
          rcases List.mem_append.1 hp with hp | hp
          · exact ⟨hex p hp, g, List.mem_cons_self, hm p hp⟩
          · obtain ⟨h1, x, hx, h2⟩ := hrest p hp
            exact ⟨h1, x, List.mem_cons_of_mem _ hx, h2⟩

/-- **C165** For groups of any kind, also with repeated or common baselines: if no group has two different baselines, the call raises. -/
theorem C165_no_pairs (w : World D W) (s : Source) (a : List GArg) (gs : List (List Bl)) (hs : Stands a gs) (rest : Call)
    (h : ∀ g ∈ gs, ∀ x ∈ g, ∀ y ∈ g, x = y) : ∃ e, fromData w s a rest = .error e := by
  cases hf : fromData w s a rest with
  | error e => exact ⟨e, rfl⟩
  | ok out =>
    exfalso
    obtain ⟨pol, ps, gs', b, h1, h2, h3, h4⟩ := fromData_iff.1 hf
    rw [groupsOf_iff.2 hs] at h2; cases h2
    obtain ⟨blps, rfl, hb⟩ := collect_any gs b h3
    rcases blps with _ | ⟨p, l⟩
    · obtain ⟨e, he⟩ := C145_ill_formed (worldOf w s) (callOf s pol ([], []) rest) (fun m hm => hm.nonempty rfl)
      rw [show (List.map (·.1) ([] : List Blp), List.map (·.2) ([] : List Blp)) = (([], []) : List Bl × List Bl) from rfl, he] at h4
      cases h4
    · obtain ⟨hne, g, hg, hx, hy⟩ := hb p List.mem_cons_self
      exact hne (h g hg _ hx _ hy)

/-- **C165** For groups of any kind: no pair of a baseline with itself, and no pair across groups, is in the result. -/
theorem C165_never (w : World D W) (s : Source) (a : List GArg) (gs : List (List Bl)) (hs : Stands a gs) (rest : Call) (pol : ℤ)
    (hpol : s.pols.head? = some pol) (hok : w.polOk (pol, pol) = true) (hr : ∀ n, ∀ blps : List Blp, (∀ p ∈ blps, ∃ g ∈ gs, p.1 ∈ g ∧ p.2 ∈ g) → Regular w n blps)
    (out : Out D W) (h : fromData w s a rest = .ok out) (k : ℤ) (hk : k ∈ out.u.blpairArray) :
    ∃ p : Blp, k = blCode p.1 * 1000000 + blCode p.2 ∧ p.1 ≠ p.2 ∧ ∃ g ∈ gs, p.1 ∈ g ∧ p.2 ∈ g := by
  obtain ⟨pol', ps, gs', b, h1, h2, h3, h4⟩ := fromData_iff.1 h
  rw [h1] at hpol; cases hpol
  rw [groupsOf_iff.2 hs] at h2; cases h2
  obtain ⟨blps, rfl, hb⟩ := collect_any gs b h3
  by_cases hA : ∃ m, Asks (worldOf w s) (callOf s pol (blps.map (·.1), blps.map (·.2)) rest) m
  · obtain ⟨m, hm⟩ := hA
    obtain ⟨e1, -, -, -⟩ := asks_conv hm
    obtain ⟨n, hno, q1, -, -, q4, q5⟩ := asks_iff.1 hm
    rw [e1] at q1 q5
    have hreg : Regular (worldOf w s) n.spws.length blps := by
      have := hr n.spws.length blps (fun p hp => (hb p hp).2)
      exact ⟨this.obs, this.len, this.dlys, this.freqs, this.ants⟩
    obtain ⟨-, hrep, -, -⟩ := pspec_content h4 hno (onlyPairs_iff.2 q1) (by rw [q5]; exact ⟨_, rfl, hok⟩) hreg
    rw [hrep.blpair] at hk
    simp only [content, List.map_map] at hk
    obtain ⟨x, hx, rfl⟩ := List.mem_map.1 hk
    exact ⟨x.1, rfl, hb _ (rowsOf_mem hx)⟩
  · obtain ⟨e, he⟩ := C145_ill_formed _ _ (fun m hm => hA ⟨m, hm⟩)
    rw [he] at h4; cases h4

/-- **C165** The labels of the result are "d1" and "d2", the first for the first dataset and the second for the second; and the covariance is kept exactly if standard
deviations are given (unless only its diagonal is asked for), whatever `store_cov` says; the diagonal is named after the covariance model. -/
theorem C165_labels_covariance (w : World D W) (s : Source) (a : List GArg) (rest : Call) (out : Out D W) (h : fromData w s a rest = .ok out) :
    out.labels = ["d1", "d2"] ∧ (∀ x ∈ out.label1, ∀ r ∈ x, ∀ k ∈ r, k = 0) ∧ (∀ x ∈ out.label2, ∀ r ∈ x, ∀ k ∈ r, k = 1) ∧
    (out.hasCov = true ↔ s.std = true ∧ rest.storeDiag = false) ∧
    (out.stats = if rest.storeDiag then some [if s.std then "dsets_diag" else "empirical_diag"] else none) := by
  obtain ⟨pol, ps, gs, b, h1, h2, h3, h4⟩ := fromData_iff.1 h
  obtain ⟨blps, rfl, -⟩ := collect_any gs b h3
  by_cases hA : ∃ m, Asks (worldOf w s) (callOf s pol (blps.map (·.1), blps.map (·.2)) rest) m
  · obtain ⟨m, hm⟩ := hA
    obtain ⟨e1, -, -, -⟩ := asks_conv hm
    have hl : out.labels = ["d1", "d2"] := by
      obtain ⟨n, hno, -, q2, q3, -⟩ := asks_iff.1 hm
      obtain ⟨n', b', r, data, e, -, -, -, -, -, rfl⟩ := pspec_iff.1 h4
      rw [hno] at e; cases e
      rw [e1] at q2 q3
      simp only [outOf, q2, q3, request]
      decide +kernel
    obtain ⟨-, -, -, k1, k2⟩ := C145_labels _ _ m hm out h4
    obtain ⟨o1, o2, -⟩ := C145_options _ _ out h4
    rw [e1, hl] at k1 k2
    refine ⟨hl, ?_, ?_, o1, ?_⟩
    · intro x hx r hr k hk
      have := k1 x hx r hr k hk
      match k, this with
      | 0, _ => rfl
      | 1, this => simp [request] at this
      | k + 2, this => simp at this
    · intro x hx r hr k hk
      have := k2 x hx r hr k hk
      match k, this with
      | 0, this => simp [request] at this
      | 1, _ => rfl
      | k + 2, this => simp at this
    · rw [o2]
      have e : (callOf s pol (blps.map (·.1), blps.map (·.2)) rest).storeDiag = rest.storeDiag := rfl
      have e' : (worldOf w s).covModel ++ "_diag" = if s.std then "dsets_diag" else "empirical_diag" := by
        unfold worldOf; split <;> rfl
      rw [e, e']
  · obtain ⟨e, he⟩ := C145_ill_formed _ _ (fun m hm => hA ⟨m, hm⟩)
    rw [he] at h4; cases h4

/-- **C165** A list of baselines means the same as the list of that one group. -/
theorem C165_one_group (w : World D W) (s : Source) (l : List Bl) (hl : l ≠ []) (rest : Call) :
    fromData w s (l.map .bl) rest = fromData w s [.grp l] rest := by
  have h1 := groupsOf_iff.2 (.inl ⟨l, hl, rfl, rfl⟩ : Stands (l.map .bl) [l])
  have h2 := groupsOf_iff.2 (.inr ⟨by simp, by simpa using hl, rfl⟩ : Stands [.grp l] [l])
  unfold fromData
  rw [h1, h2]

/-- **C165** (finding). Only the first polarization of the data is used: the others make no difference. -/
theorem C165_finding_first_pol (w : World D W) (p : ℤ) (ps ps' : List ℤ) (std : Bool) (a : List GArg) (rest : Call) :
    fromData w ⟨p :: ps, std⟩ a rest = fromData w ⟨p :: ps', std⟩ a rest := rfl

/-- **C165** The cosmology in effect is the one given; without one, that of the beam. (finding) Without a beam the cosmology given is ignored. -/
theorem C165_cosmology {κ : Type} (dflt c b : κ) :
    cosmoUsed dflt (.obj b) (some c) = some c ∧ cosmoUsed dflt .file (some c) = some c ∧ cosmoUsed dflt (.obj b) none = some b ∧
    cosmoUsed dflt .none (some c) = none := ⟨rfl, rfl, rfl, rfl⟩

/-! ### A concrete call -/

/-- Two groups of three and two baselines. -/
def exGs : List (List Bl) := [[(0, 1), (1, 2), (2, 3)], [(0, 2), (1, 3)]]

/-- Keyword arguments: two windows. -/
def exRest : Call := { exC with storeDiag := true }

theorem ex_mem {gs : List (List Bl)} {p : Blp} (h : Wanted gs p) : p.1 ∈ gs.flatten ∧ p.2 ∈ gs.flatten := by
  obtain ⟨g, hg, h⟩ := h
  exact ⟨List.mem_flatten.2 ⟨g, hg, (precedes_mem h).1⟩, List.mem_flatten.2 ⟨g, hg, (precedes_mem h).2⟩⟩

theorem ex_reg (n : ℕ) (blps : List Blp) (h : ∀ p ∈ blps, p.1 ∈ exGs.flatten ∧ p.2 ∈ exGs.flatten) : Regular exW n blps := by
  have hant : ∀ b ∈ exGs.flatten, GoodAnt b.1 ∧ GoodAnt b.2 := by
    unfold GoodAnt; decide +kernel
  refine ⟨by simp [exW], ?_, ?_, ?_, ?_⟩
  · intro i _ p b _ l hl
    simp only [exW, Except.ok.injEq] at hl
    subst hl
    refine ⟨rfl, ?_⟩
    intro e he
    simp only [List.mem_cons, List.not_mem_nil, or_false] at he
    rcases he with rfl | rfl <;> by_cases h : i = 0 <;> simp [exW, h]
  · intro i _; by_cases h : i = 0 <;> simp [exW, h]
  · intro i _; by_cases h : i = 0 <;> simp [exW, h]
  · intro b hb
    obtain ⟨h1, h2⟩ := h b hb
    exact ⟨(hant _ h1).1, (hant _ h1).2, (hant _ h2).1, (hant _ h2).2⟩

/-- Non-vacuity: the call is carried out, with four baseline-pairs, two integrations each. -/
example : ∃ out, fromData exW ⟨[-5, -6], true⟩ (exGs.map .grp) exRest = .ok out ∧ out.labels = ["d1", "d2"] ∧ out.stats = some ["dsets_diag"] ∧
    out.hasCov = false ∧ out.u.polpairArray = [1515] ∧ (blCode (0, 1) * 1000000 + blCode (2, 3)) ∈ out.u.blpairArray ∧
    (blCode (2, 3) * 1000000 + blCode (0, 1)) ∉ out.u.blpairArray ∧ (blCode (0, 1) * 1000000 + blCode (0, 2)) ∉ out.u.blpairArray := by
  have hs : Stands (exGs.map .grp) exGs := .inr ⟨by decide, by decide, rfl⟩
  have hn : exGs.flatten.Nodup := by decide +kernel
  have hk : Keywords exW exRest [(0, 2), (1, 2)] := ⟨.inr (.inr rfl), ⟨_, .inl ⟨rfl, rfl⟩, rfl⟩, ⟨_, .inl ⟨rfl, rfl⟩, rfl⟩⟩
  have hw : Wanted exGs ((0, 1), (2, 3)) := ⟨_, List.mem_cons_self, 0, 2, by decide, rfl, rfl⟩
  have hr : ∀ n, ∀ blps : List Blp, (∀ p ∈ blps, Wanted exGs p) → Regular exW n blps := fun n blps h => ex_reg n blps (fun p hp => ex_mem (h p hp))
  obtain ⟨out, h⟩ := (C165_accepted_iff exW ⟨[-5, -6], true⟩ _ _ hs hn exRest (-5) rfl rfl (fun _ _ => rfl) hr).2
    ⟨⟨_, hw⟩, _, hk, by decide, fun i _ p _ => ⟨_, rfl⟩⟩
  obtain ⟨h1, h2, h3, -⟩ := C165_pairs exW ⟨[-5, -6], true⟩ _ _ hs hn exRest (-5) rfl (by simp [Polpair.ValidPol]) rfl hr out h
  obtain ⟨l1, -, -, l4, l5⟩ := C165_labels_covariance exW _ _ _ out h
  have hno : ∀ x y : Bl, x ∈ exGs.flatten → y ∈ exGs.flatten → ¬ Wanted exGs (x, y) → (blCode x * 1000000 + blCode y) ∉ out.u.blpairArray := by
    intro x y hx hy hxy hmem
    obtain ⟨p, hp, he⟩ := (h1 _).1 hmem
    have hreg := (ex_reg 1 [(x, y), p] (by
      intro q hq
      rcases List.mem_cons.1 hq with rfl | hq
      · exact ⟨hx, hy⟩
      · rw [List.mem_singleton.1 hq]; exact ex_mem hp)).ants
    have := code_inj (a := (x, y)) (b := p) (hreg _ (by simp)) (hreg _ (by simp)) he
    exact hxy (this ▸ hp)
  have hdec : ∀ p : Blp, Wanted exGs p → p.1 ≠ p.2 → [p.1, p.2].Sublist [(0, 1), (1, 2), (2, 3)] ∨ [p.1, p.2].Sublist [(0, 2), (1, 3)] := by
    rintro p ⟨g, hg, hp⟩ -
    rw [Blpairs.precedes_iff] at hp
    simp only [exGs, List.mem_cons, List.not_mem_nil, or_false] at hg
    rcases hg with rfl | rfl
    · exact .inl hp
    · exact .inr hp
  refine ⟨out, h, l1, l5, ?_, h3, (h1 _).2 ⟨_, hw, rfl⟩, hno _ _ (by decide) (by decide) ?_, hno _ _ (by decide) (by decide) ?_⟩
  · cases hc : out.hasCov with
    | false => rfl
    | true => exact absurd (l4.1 hc).2 (by decide)
  · intro hx
    have := hdec _ hx (by decide)
    revert this; decide +kernel
  · intro hx
    have := hdec _ hx (by decide)
    revert this; decide +kernel

/-- Non-vacuity of `C165_ill_formed`: a mixture, an empty list, an empty group. -/
example : (∀ gs, ¬ Stands [.bl (0, 1), .grp [(1, 2)]] gs) ∧ (∀ gs, ¬ Stands [] gs) ∧ (∀ gs, ¬ Stands [.grp [(0, 1), (1, 2)], .grp []] gs) := by
  refine ⟨fun gs h => ?_, fun gs h => ?_, fun gs h => ?_⟩ <;> have h := groupsOf_iff.2 h <;> cases h

/-- Non-vacuity of `C165_no_pairs`: one baseline, given twice. -/
example : Stands [.bl (0, 1), .bl (0, 1)] [[(0, 1), (0, 1)]] ∧ ∀ g ∈ [[((0 : ℤ), (1 : ℤ)), (0, 1)]], ∀ x ∈ g, ∀ y ∈ g, x = y :=
  ⟨.inl ⟨[(0, 1), (0, 1)], by decide, rfl, rfl⟩, by decide⟩

end HeraPspec.FromData
