import Verif.Model.AutoNoise

/-!
C139: `auto_noise_run` adds error bars to every spectrum it is asked for and touches nothing else; where it stops, everything before is done and everything
after is as it was.
-/
namespace HeraPspec.AutoNoise
open HeraPspec.Container

variable {V : Type}

/-! ### Specification -/

/-- What the file has under a group and name. -/
def entry (f : File V) (g n : String) : Option (Entry V) := (f.get g).bind (fun d => d.get n)

/-- The spectra of a group: the names of its tagged entries. -/
def names (f : File V) (g : String) : List String := (((f.get g).getD []).filter (fun e => e.2.tagged)).map (·.1)

/-- The spectra to do, in order. -/
def work (f : File V) (gs : List String) : List (String × String) := gs.flatMap (fun g => (names f g).map (fun n => (g, n)))

/-- A well-formed file: names occur once in their group. -/
def WF (f : File V) : Prop := ∀ g d, f.get g = some d → d.keys.Nodup

/-- The spectrum has been replaced by the same with error bars. -/
def Done (noise : V → Option V) (f f' : File V) (p : String × String) : Prop :=
  ∃ v v', entry f p.1 p.2 = some ⟨true, some v⟩ ∧ noise v = some v' ∧ entry f' p.1 p.2 = some ⟨true, some v'⟩

/-! ### Proofs -/

theorem flatMap_congr' {α β : Type} {f g : α → List β} {l : List α} (h : ∀ a ∈ l, f a = g a) : l.flatMap f = l.flatMap g := by
  induction l with
  | nil => rfl
  | cons a l ih =>
    rw [List.flatMap_cons, List.flatMap_cons, h a List.mem_cons_self, ih (fun b hb => h b (List.mem_cons_of_mem _ hb))]


theorem getOne_iff (f : File V) (g n : String) (v : V) : getOne f g n = .ok v ↔ entry f g n = some ⟨true, some v⟩ := by
  unfold getOne entry
  cases hf : f.get g with
  | none => simp
  | some d =>
    simp only [Option.bind_some]
    cases hd : d.get n with
    | none => simp
    | some e =>
      obtain ⟨t, o⟩ := e
      cases t <;> cases o <;> simp

theorem runOne_cases (write : V → Bool) (noise : V → Option V) (f : File V) (g n : String) (hw : WF f) :
    ((∃ e, (runOne write noise f g n) = (f, .error e)) ∨
     (∃ v v' f', entry f g n = some ⟨true, some v⟩ ∧ noise v = some v' ∧ WF f' ∧
        (∀ g' n', entry f' g' n' = if (g', n') = (g, n) then some (if write v' then ⟨true, some v'⟩ else ⟨false, none⟩) else entry f g' n') ∧
        (∀ g', g' ≠ g → f'.get g' = f.get g') ∧
        runOne write noise f g n = (f', if write v' then .ok () else .error (.container .write)))) := by
  unfold runOne
  cases hg : getOne f g n with
  | error e => exact .inl ⟨_, rfl⟩
  | ok v =>
    have hv := (getOne_iff f g n v).1 hg
    cases hn : noise v with
    | none => exact .inl ⟨.noise, by simp only [hn]⟩
    | some v' =>
      right
      have hd : ∃ d, f.get g = some d ∧ d.get n = some ⟨true, some v⟩ := by
        unfold entry at hv
        cases hf : f.get g with
        | none => rw [hf] at hv; cases hv
        | some d => rw [hf] at hv; exact ⟨d, rfl, hv⟩
      obtain ⟨d, hfd, hdn⟩ := hd
      have hgo : groupOf f g = d := by unfold groupOf; rw [hfd]; rfl
      have hhas : (groupOf f g).has n = true := by
        rw [hgo]
        unfold Dict.has
        rw [List.any_eq_true]
        exact ⟨_, Dict.mem_of_get hdn, by simp⟩
      have hgo1 : groupOf (f.set g (d.del n)) g = d.del n := by
        unfold groupOf; rw [Dict.get_set, if_pos rfl]; rfl
      have hset : setOne write .rw false f g n (.uvp v') true =
          (if write v' then ((f.set g (d.del n)).set g ((d.del n).set n ⟨true, some v'⟩), .ok ())
           else ((f.set g (d.del n)).set g ((d.del n).set n ⟨false, none⟩), .error .write)) := by
        unfold setOne
        rw [if_neg (by decide)]
        simp only [Bool.false_and, Bool.false_eq_true, if_false]
        rw [if_pos hhas, if_pos trivial]
        unfold store
        rw [hgo, hgo1]
      have hent : ∀ (e : Entry V) g' n', entry ((f.set g (d.del n)).set g ((d.del n).set n e)) g' n' =
          if (g', n') = (g, n) then some e else entry f g' n' := by
        intro e g' n'
        unfold entry
        rw [Dict.get_set, Dict.get_set]
        by_cases h1 : g = g'
        · subst h1
          simp only [if_true, Option.bind_some, Dict.get_set, Dict.get_del, hfd, Prod.mk.injEq, true_and]
          by_cases h2 : n = n'
          · subst h2; simp
          · simp [h2, Ne.symm h2]
        · simp [h1, Ne.symm h1]
      have hwf : ∀ e : Entry V, WF ((f.set g (d.del n)).set g ((d.del n).set n e)) := by
        intro e g' d' h'
        rw [Dict.get_set, Dict.get_set] at h'
        by_cases h1 : g = g'
        · simp only [h1, if_true, Option.some.injEq] at h'
          subst h'
          apply Dict.keys_set_nodup
          have := hw g d hfd
          unfold Dict.keys at this ⊢
          exact (List.Sublist.map _ List.filter_sublist).nodup this
        · simp only [h1, if_false] at h'
          exact hw g' d' h'
      have hoth : ∀ (e : Entry V) g', g' ≠ g → Dict.get ((f.set g (d.del n)).set g ((d.del n).set n e)) g' = f.get g' := by
        intro e g' h
        rw [Dict.get_set, Dict.get_set, if_neg (Ne.symm h), if_neg (Ne.symm h)]
      by_cases hwr : write v' = true
      · refine ⟨v, v', _, hv, hn, hwf ⟨true, some v'⟩, ?_, hoth _, ?_⟩
        · intro g' n'
          rw [hent]; simp [hwr]
        · simp only [hn, hset, hwr, if_true, if_false, Bool.false_eq_true]
      · refine ⟨v, v', _, hv, hn, hwf ⟨false, none⟩, ?_, hoth _, ?_⟩
        · intro g' n'
          rw [hent]; simp [hwr]
        · simp only [hn, hset, hwr, if_true, if_false, Bool.false_eq_true]

/-- How far a run over a list of spectra got. -/
def Progress (noise : V → Option V) (f f' : File V) (w : List (String × String)) (r : Except Err Unit) : Prop :=
  ∃ done rest, w = done ++ rest ∧ (∀ p ∈ done, Done noise f f' p) ∧
    (∀ g n, (g, n) ∉ done → entry f' g n = entry f g n ∨ (rest.head? = some (g, n) ∧ r = .error (.container .write) ∧ entry f' g n = some ⟨false, none⟩)) ∧
    (r = .ok () → rest = [])

theorem runSpectra_progress (write : V → Bool) (noise : V → Option V) (g : String) : ∀ (l : List String) (f : File V), WF f → l.Nodup →
    WF (runSpectra write noise g f l).1 ∧ (∀ g', g' ≠ g → (runSpectra write noise g f l).1.get g' = f.get g') ∧
      Progress noise f (runSpectra write noise g f l).1 (l.map (fun n => (g, n))) (runSpectra write noise g f l).2 := by
  intro l
  induction l with
  | nil => intro f hw _; exact ⟨hw, fun _ _ => rfl, [], [], rfl, by simp, fun _ _ _ => .inl rfl, fun _ => rfl⟩
  | cons n l ih =>
    intro f hw hnd
    rw [List.nodup_cons] at hnd
    unfold runSpectra
    rcases runOne_cases write noise f g n hw with ⟨e, he⟩ | ⟨v, v', f1, hv, hn, hw1, hent, hoth, hrun⟩
    · rw [he]
      exact ⟨hw, fun _ _ => rfl, [], _, rfl, by simp, fun _ _ _ => .inl rfl, fun h => by cases h⟩
    · rw [hrun]
      by_cases hwr : write v' = true
      · simp only [hwr, if_true]
        obtain ⟨iw, io, done, rest, hdr, hdone, hrest, hok⟩ := ih f1 hw1 hnd.2
        have hndone : ∀ p ∈ done, p ≠ (g, n) := by
          intro p hp he
          have : p ∈ l.map (fun n => (g, n)) := by rw [hdr]; exact List.mem_append_left _ hp
          rw [he] at this
          obtain ⟨m, hm, hm2⟩ := List.mem_map.1 this
          injection hm2 with _ h2
          exact hnd.1 (h2 ▸ hm)
        have hgn : (g, n) ∉ l.map (fun n => (g, n)) := by
          intro hc
          obtain ⟨m, hm, hm2⟩ := List.mem_map.1 hc
          injection hm2 with _ h2
          exact hnd.1 (h2 ▸ hm)
        refine ⟨iw, fun g' h => (io g' h).trans (hoth g' h), (g, n) :: done, rest, by rw [List.map_cons, hdr]; rfl, ?_, ?_, hok⟩
        · intro p hp
          rcases List.mem_cons.1 hp with rfl | hp
          · refine ⟨v, v', hv, hn, ?_⟩
            rcases hrest g n (fun hc => hndone _ hc rfl) with h | ⟨h, _⟩
            · rw [h, hent]; simp [hwr]
            · exfalso
              apply hgn
              rw [hdr]
              exact List.mem_append_right _ (List.mem_of_mem_head? h)
          · obtain ⟨w, w', h1, h2, h3⟩ := hdone p hp
            refine ⟨w, w', ?_, h2, h3⟩
            rw [hent, if_neg (hndone p hp)] at h1
            exact h1
        · intro g' n' hnm
          simp only [List.mem_cons, not_or] at hnm
          rcases hrest g' n' hnm.2 with h | h
          · left; rw [h, hent, if_neg hnm.1]
          · exact .inr h
      · simp only [hwr, Bool.false_eq_true, if_false]
        refine ⟨hw1, hoth, [], _, rfl, by simp, fun g' n' _ => ?_, fun h => by cases h⟩
        rw [hent]
        by_cases he : (g', n') = (g, n)
        · right
          injection he with h1 h2
          subst h1 h2
          exact ⟨rfl, rfl, by simp [hwr]⟩
        · left; rw [if_neg he]

theorem entry_of_get {f f' : File V} {g : String} (h : f'.get g = f.get g) (n : String) : entry f' g n = entry f g n := by
  unfold entry; rw [h]

theorem names_nodup {f : File V} (hw : WF f) (g : String) : (names f g).Nodup := by
  unfold names
  cases h : f.get g with
  | none => simp
  | some d =>
    have := hw g d h
    unfold Dict.keys at this
    exact (List.Sublist.map _ List.filter_sublist).nodup this

theorem runGroups_progress (write : V → Bool) (noise : V → Option V) : ∀ (gs : List String) (f : File V), WF f → gs.Nodup →
      Progress noise f (runGroups write noise none f gs).1 (work f gs) (runGroups write noise none f gs).2 := by
  intro gs
  induction gs with
  | nil => intro f hw _; exact ⟨[], [], rfl, by simp, fun _ _ _ => .inl rfl, fun _ => rfl⟩
  | cons g gs ih =>
    intro f hw hnd
    rw [List.nodup_cons] at hnd
    unfold runGroups
    simp only
    have hwork : work f (g :: gs) = (names f g).map (fun n => (g, n)) ++ work f gs := rfl
    cases hs : spectra f g with
    | error e => exact ⟨[], _, rfl, by simp, fun _ _ _ => .inl rfl, fun h => by cases h⟩
    | ok l =>
      have hl : l = names f g := by
        unfold spectra at hs
        unfold names
        cases hf : f.get g with
        | none => rw [hf] at hs; cases hs
        | some d => rw [hf] at hs; exact (Except.ok.inj hs).symm
      obtain ⟨w1, o1, done, rest, hdr, hdone, hrest, hok⟩ := runSpectra_progress write noise g l f hw (hl ▸ names_nodup hw g)
      have hdg : ∀ p ∈ done ++ rest, p.1 = g := by
        intro p hp
        rw [← hdr] at hp
        obtain ⟨m, _, hm⟩ := List.mem_map.1 hp
        rw [← hm]
      cases hr : runSpectra write noise g f l with
      | mk f1 r1 =>
        rw [hr] at w1 o1 hdone hrest hok
        dsimp only at w1 o1 hdone hrest hok
        cases r1 with
        | error e =>
          simp only [hr]
          refine ⟨done, rest ++ work f gs, by rw [hwork, ← hl, hdr, List.append_assoc], hdone, fun g' n' h => ?_, fun h => by cases h⟩
          rcases hrest g' n' h with h | ⟨h1, h2, h3⟩
          · exact .inl h
          · refine .inr ⟨?_, h2, h3⟩
            cases rest with
            | nil => cases h1
            | cons a as => exact h1
        | ok u =>
          simp only [hr]
          have hrn := hok rfl
          subst hrn
          rw [List.append_nil] at hdr hdg
          have hwk : work f1 gs = work f gs := by
            unfold work
            apply flatMap_congr'
            intro g' hg'
            have : g' ≠ g := fun h => hnd.1 (h ▸ hg')
            unfold names
            rw [o1 g' this]
          obtain ⟨done2, rest2, hdr2, hdone2, hrest2, hok2⟩ := ih f1 w1 hnd.2
          rw [hwk] at hdr2
          have hg2 : ∀ p ∈ work f gs, p.1 ≠ g := by
            intro p hp h
            unfold work at hp
            obtain ⟨g', hg', hp⟩ := List.mem_flatMap.1 hp
            obtain ⟨m, _, hm⟩ := List.mem_map.1 hp
            rw [← hm] at h
            exact hnd.1 (h ▸ hg')
          have hg2' : ∀ p ∈ done2 ++ rest2, p.1 ≠ g := fun p hp => hg2 p (hdr2 ▸ hp)
          refine ⟨done ++ done2, rest2, by rw [hwork, ← hl, hdr, hdr2, List.append_assoc], ?_, ?_, hok2⟩
          · intro p hp
            rcases List.mem_append.1 hp with hp | hp
            · obtain ⟨v, v', h1, h2, h3⟩ := hdone p hp
              refine ⟨v, v', h1, h2, ?_⟩
              have hpg := hdg p hp
              rcases hrest2 p.1 p.2 (fun hc => hg2' _ (List.mem_append_left _ hc) hpg) with h | ⟨h, _⟩
              · rw [h, h3]
              · exfalso
                exact hg2' _ (List.mem_append_right _ (List.mem_of_mem_head? h)) hpg
            · obtain ⟨v, v', h1, h2, h3⟩ := hdone2 p hp
              refine ⟨v, v', ?_, h2, h3⟩
              rw [entry_of_get (o1 p.1 (hg2' p (List.mem_append_left _ hp)))] at h1
              exact h1
          · intro g' n' hnm
            simp only [List.mem_append, not_or] at hnm
            rcases hrest2 g' n' hnm.2 with h | h
            · rcases hrest g' n' hnm.1 with h1 | ⟨h1, _⟩
              · left; rw [h, h1]
              · cases h1
            · exact .inr h

/-- C139: however the script ends, there is a point in the list of requested spectra (the groups in order, each with its spectra in order) such that those before
have been replaced by themselves with error bars, and everything else in the file is as it was, except that the spectrum at that point is incomplete if writing it
failed. If it succeeds, that point is the end. Missing: a list of spectra is refused (`C139_finding_spectra`). -/
theorem C139_progress_partial (write : V → Bool) (noise : V → Option V) (groupsArg : Option (List String)) (f : File V) (hw : WF f)
    (hg : (groupsArg.getD (groups f)).Nodup) :
    ∃ done rest, work f (groupsArg.getD (groups f)) = done ++ rest ∧ (∀ p ∈ done, Done noise f (autoNoise write noise groupsArg none f).1 p) ∧
      (∀ g n, (g, n) ∉ done → entry (autoNoise write noise groupsArg none f).1 g n = entry f g n ∨
        (rest.head? = some (g, n) ∧ (autoNoise write noise groupsArg none f).2 = .error (.container .write) ∧
          entry (autoNoise write noise groupsArg none f).1 g n = some ⟨false, none⟩)) ∧
      ((autoNoise write noise groupsArg none f).2 = .ok () → rest = []) :=
  runGroups_progress write noise _ f hw hg

/-- C139: if it succeeds, every spectrum of the requested groups has error bars and everything else is as it was. Missing: the claim with `--spectra`, where the script always raises (`C139_finding_spectra`). -/
theorem C139_all_done_partial (write : V → Bool) (noise : V → Option V) (groupsArg : Option (List String)) (f f' : File V) (hw : WF f)
    (hg : (groupsArg.getD (groups f)).Nodup) (h : autoNoise write noise groupsArg none f = (f', .ok ())) (g n : String) :
    (g ∈ groupsArg.getD (groups f) → n ∈ names f g → Done noise f f' (g, n)) ∧
    (g ∉ groupsArg.getD (groups f) ∨ n ∉ names f g → entry f' g n = entry f g n) := by
  obtain ⟨done, rest, hdr, hdone, hrest, hok⟩ := C139_progress_partial write noise groupsArg f hw hg
  rw [h] at hdone hrest hok
  have := hok rfl
  subst this
  rw [List.append_nil] at hdr
  have hmem : (g, n) ∈ done ↔ g ∈ groupsArg.getD (groups f) ∧ n ∈ names f g := by
    rw [← hdr]
    unfold work
    simp only [List.mem_flatMap, List.mem_map, Prod.mk.injEq]
    constructor
    · rintro ⟨g', hg', m, hm, rfl, rfl⟩; exact ⟨hg', hm⟩
    · rintro ⟨h1, h2⟩; exact ⟨g, h1, n, h2, rfl, rfl⟩
  refine ⟨fun h1 h2 => hdone _ (hmem.2 ⟨h1, h2⟩), fun h1 => ?_⟩
  rcases hrest g n (fun hc => by have := hmem.1 hc; exact h1.elim (fun k => k this.1) (fun k => k this.2)) with h | ⟨h, _⟩
  · exact h
  · cases h

/-- C139: it succeeds if all requested groups exist, every spectrum in them is complete, and error bars can be computed and written for each. -/
theorem C139_succeeds (write : V → Bool) (noise : V → Option V) (groupsArg : Option (List String)) (f : File V) (hw : WF f)
    (hg : (groupsArg.getD (groups f)).Nodup) (hex : ∀ g ∈ groupsArg.getD (groups f), (f.get g).isSome)
    (hall : ∀ p ∈ work f (groupsArg.getD (groups f)), ∃ v v', entry f p.1 p.2 = some ⟨true, some v⟩ ∧ noise v = some v' ∧ write v' = true) :
    (autoNoise write noise groupsArg none f).2 = .ok () := by
  unfold autoNoise
  generalize groupsArg.getD (groups f) = gs at hg hex hall
  have hsp : ∀ (g : String) (l : List String) (f : File V), WF f → l.Nodup → (∀ n ∈ l, ∃ v v', entry f g n = some ⟨true, some v⟩ ∧ noise v = some v' ∧ write v' = true) →
      (runSpectra write noise g f l).2 = .ok () := by
    intro g l
    induction l with
    | nil => intro f _ _ _; rfl
    | cons n l ih =>
      intro f hw hnd hall
      rw [List.nodup_cons] at hnd
      obtain ⟨v, v', hv, hn, hwr⟩ := hall n List.mem_cons_self
      unfold runSpectra
      rcases runOne_cases write noise f g n hw with ⟨e, he⟩ | ⟨u, u', f1, hu, hun, hw1, hent, hoth, hrun⟩
      · exfalso
        unfold runOne at he
        rw [(getOne_iff f g n v).2 hv] at he
        simp only [hn] at he
        have hhas : (groupOf f g).has n = true := by
          unfold entry at hv
          unfold groupOf Dict.has
          cases hf : f.get g with
          | none => rw [hf] at hv; cases hv
          | some d => rw [hf] at hv; rw [List.any_eq_true]; exact ⟨_, Dict.mem_of_get hv, by simp⟩
        unfold setOne store at he
        simp [hhas, hwr] at he
      · rw [hv] at hu
        injection hu with hu; injection hu with _ hu; injection hu with hu; subst hu
        rw [hn] at hun; injection hun with hun; subst hun
        rw [hrun]
        simp only [hwr, if_true]
        apply ih f1 hw1 hnd.2
        intro m hm
        obtain ⟨w, w', h1, h2, h3⟩ := hall m (List.mem_cons_of_mem _ hm)
        refine ⟨w, w', ?_, h2, h3⟩
        rw [hent, if_neg, h1]
        intro hc; injection hc with _ hc; exact hnd.1 (hc ▸ hm)
  induction gs generalizing f with
  | nil => rfl
  | cons g gs ih =>
    rw [List.nodup_cons] at hg
    have hwork : work f (g :: gs) = (names f g).map (fun n => (g, n)) ++ work f gs := rfl
    unfold runGroups
    simp only
    obtain ⟨d, hd⟩ := Option.isSome_iff_exists.1 (hex g List.mem_cons_self)
    have hs : spectra f g = .ok (names f g) := by
      unfold spectra names; rw [hd]; rfl
    rw [hs]
    simp only
    have h1 := hsp g (names f g) f hw (names_nodup hw g) (fun n hn => hall (g, n) (by
      rw [hwork]; exact List.mem_append_left _ (List.mem_map.2 ⟨n, hn, rfl⟩)))
    obtain ⟨w1, o1, _⟩ := runSpectra_progress write noise g (names f g) f hw (names_nodup hw g)
    cases hr : runSpectra write noise g f (names f g) with
    | mk f1 r1 =>
      rw [hr] at h1 w1 o1
      simp only at h1 w1 o1
      subst h1
      simp only
      have hne : ∀ g' ∈ gs, g' ≠ g := fun g' h hc => hg.1 (hc ▸ h)
      have hwk : work f1 gs = work f gs := by
        unfold work
        apply flatMap_congr'
        intro g' hg'
        unfold names
        rw [o1 g' (hne g' hg')]
      apply ih f1 w1 hg.2
      · intro g' hg'
        rw [o1 g' (hne g' hg')]
        exact hex g' (List.mem_cons_of_mem _ hg')
      · intro p hp
        rw [hwk] at hp
        obtain ⟨v, v', h1, h2, h3⟩ := hall p (by rw [hwork]; exact List.mem_append_right _ hp)
        refine ⟨v, v', ?_, h2, h3⟩
        have : p.1 ∈ gs := by
          unfold work at hp
          obtain ⟨g', hg', hp⟩ := List.mem_flatMap.1 hp
          obtain ⟨m, _, rfl⟩ := List.mem_map.1 hp
          exact hg'
        rw [entry_of_get (o1 p.1 (hne _ this)), h1]

/-- C139 finding: with a list of spectra (`--spectra`) the script always stops with an `UnboundLocalError` before it has done anything. -/
theorem C139_finding_spectra (write : V → Bool) (noise : V → Option V) (groupsArg : Option (List String)) (l : List String) (f : File V)
    (h : groupsArg.getD (groups f) ≠ []) : autoNoise write noise groupsArg (some l) f = (f, .error .unbound) := by
  unfold autoNoise
  cases hg : groupsArg.getD (groups f) with
  | nil => exact absurd hg h
  | cons g gs => rfl

/-- The hypotheses are met by a file with a header and two groups. -/
example : WF ([("header", []), ("a", [("x", ⟨true, some 1⟩), ("y", ⟨true, some 2⟩)]), ("b", [("x", ⟨true, some 3⟩)])] : File Nat) ∧
    (groups ([("header", []), ("a", [("x", ⟨true, some 1⟩), ("y", ⟨true, some 2⟩)]), ("b", [("x", ⟨true, some 3⟩)])] : File Nat)).Nodup ∧
    (autoNoise (fun _ => true) (fun v => some (v + 10)) none none
      ([("header", []), ("a", [("x", ⟨true, some 1⟩), ("y", ⟨true, some 2⟩)]), ("b", [("x", ⟨true, some 3⟩)])] : File Nat)).2 = .ok () := by
  refine ⟨?_, by decide +kernel, rfl⟩
  intro g d h
  have := Dict.mem_of_get h
  simp only [List.mem_cons, List.not_mem_nil, or_false, Prod.mk.injEq] at this
  rcases this with ⟨_, rfl⟩ | ⟨_, rfl⟩ | ⟨_, rfl⟩ <;> simp [Dict.keys]

end HeraPspec.AutoNoise
