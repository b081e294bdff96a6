import Verif.Model.StokesRun
import Verif.Props.Cli
import Verif.Props.Pstokes

/-!
C140: `generate_pstokes_run.py` writes the requested pseudo-Stokes visibilities, and overwrites a file only when told to.
-/
namespace HeraPspec.StokesRun
open HeraPspec.Pstokes (UVD)
open HeraPspec.ArgParse (Str)

/-! ### Specification -/

/-- What is asked for on a command line. -/
structure Request where
  input : String
  out : String
  pstokes : List String
  keep : Bool
  clobber : Bool

/-- The command line asks for that: one positional argument, `--pstokes` with the list, `--outputdata` or the input, and two flags. -/
structure Asks (occs : List (String × List Str)) (chunks : List (List Str)) (r : Request) : Prop where
  input : chunks.flatten = [r.input.toList]
  pstokes : Cli.lastArgs occs "pstokes" = some (r.pstokes.map String.toList)
  out : Cli.lastArgs occs "outputdata" = some [r.out.toList] ∨ (Cli.lastArgs occs "outputdata" = none ∧ r.out = r.input)
  keep : r.keep = true ↔ "keep_vispols" ∈ occs.map (·.1)
  clobber : r.clobber = true ↔ "clobber" ∈ occs.map (·.1)

/-- The polarizations and arrays the output is to have: with `keep` those of the input, and the requested ones made by `construct_pstokes(uvd, uvd, p)`. -/
structure IsOutput (num : String → Option ℤ) (keep : Bool) (u : UVD) (ps : List String) (out : UVD) : Prop where
  pols : ∀ p, p ∈ out.pols ↔ (keep = true ∧ p ∈ u.pols) ∨ ∃ s ∈ ps, num s = some p
  once : u.pols.Nodup → out.pols.Nodup
  freqs : out.freqs = u.freqs
  times : out.times = u.times
  bls : out.bls = u.bls
  kept : keep = true → ∀ p ∈ u.pols, out.data p = u.data p ∧ out.flags p = u.flags p ∧ out.nsamp p = u.nsamp p
  made : ∀ p ∈ out.pols, ¬ (keep = true ∧ p ∈ u.pols) →
    Pstokes.construct u u p = .ok ⟨some (out.data p), some (out.flags p), some (out.nsamp p)⟩

/-! ### Proofs -/

theorem construct_some {u v : UVD} {s : ℤ} {o : Pstokes.Out} (h : Pstokes.construct u v s = .ok o) :
    o = ⟨some (o.data.getD []), some (o.flags.getD []), some (o.nsamp.getD [])⟩ := by
  unfold Pstokes.construct at h
  split at h
  · cases h
  split at h
  · split at h
    · cases h
    split at h
    · cases h
    unfold Pstokes.combineArrays at h
    split at h
    · cases h
    split at h
    · split at h
      · cases h
      split at h
      · cases h
      have := Except.ok.inj h
      subst this
      simp [Pstokes.combFlags]
    · cases h
  · cases h

theorem onePol_ok {num : String → Option ℤ} {u v : UVD} {p : String} (h : onePol num u p = .ok v) :
    ∃ s, num p = some s ∧ v.pols = [s] ∧ v.freqs = u.freqs ∧ v.times = u.times ∧ v.bls = u.bls ∧
      ∀ q, Pstokes.construct u u s = .ok ⟨some (v.data q), some (v.flags q), some (v.nsamp q)⟩ := by
  unfold onePol at h
  split at h
  · cases h
  rename_i s hs
  split at h
  · cases h
  rename_i o ho
  have := Except.ok.inj h
  subst this
  exact ⟨s, hs, rfl, rfl, rfl, rfl, fun q => ho.trans (congrArg Except.ok (construct_some ho))⟩

theorem addAll_ok {num : String → Option ℤ} {addOk : UVD → UVD → Bool} {keep : Bool} {u : UVD} : ∀ {ps done : List String} {out out' : UVD},
    IsOutput num keep u done out → addAll num addOk u out ps = .ok out' → IsOutput num keep u (done ++ ps) out' := by
  intro ps
  induction ps with
  | nil => intro done out out' hi h; have := Except.ok.inj h; subst this; rw [List.append_nil]; exact hi
  | cons p ps ih =>
    intro done out out' hi h
    unfold addAll at h
    split at h
    · cases h
    rename_i s hs
    rw [show done ++ p :: ps = (done ++ [p]) ++ ps by simp]
    split at h
    · rename_i hmem
      refine ih ?_ h
      refine ⟨fun q => ?_, hi.once, hi.freqs, hi.times, hi.bls, hi.kept, hi.made⟩
      rw [hi.pols q]
      constructor
      · rintro (h | ⟨x, hx, hn⟩)
        · exact .inl h
        · exact .inr ⟨x, List.mem_append_left _ hx, hn⟩
      · rintro (h | ⟨x, hx, hn⟩)
        · exact .inl h
        · rcases List.mem_append.1 hx with hx | hx
          · exact .inr ⟨x, hx, hn⟩
          · rw [List.mem_singleton] at hx
            subst hx
            rw [hs] at hn; injection hn with hn; subst hn
            exact (hi.pols s).1 hmem
    · rename_i hnm
      split at h
      · cases h
      rename_i v hv
      split at h
      · cases h
      rename_i o2 hadd
      refine ih ?_ h
      obtain ⟨s', hs', hvp, hvf, hvt, hvb, hvc⟩ := onePol_ok hv
      rw [hs] at hs'; injection hs' with hs'; subst hs'
      unfold addPol at hadd
      split at hadd
      · cases hadd
      have := Except.ok.inj hadd
      subst this
      refine ⟨fun q => ?_, fun hn => ?_, hi.freqs, hi.times, hi.bls, fun hk q hq => ?_, fun q hq hno => ?_⟩
      · simp only [hvp, List.mem_append, List.mem_singleton, hi.pols q]
        constructor
        · rintro ((h | ⟨x, hx, hn⟩) | rfl)
          · exact .inl h
          · exact .inr ⟨x, .inl hx, hn⟩
          · exact .inr ⟨p, .inr rfl, hs⟩
        · rintro (h | ⟨x, hx | rfl, hn⟩)
          · exact .inl (.inl h)
          · exact .inl (.inr ⟨x, hx, hn⟩)
          · rw [hs] at hn; injection hn with hn; exact .inr hn.symm
      · simp only [hvp]
        rw [List.nodup_append]
        refine ⟨hi.once hn, by simp, ?_⟩
        intro a ha b hb hab
        rw [List.mem_singleton] at hb
        subst hab; subst hb
        exact hnm ha
      · have hm : q ∈ out.pols := (hi.pols q).2 (.inl ⟨hk, hq⟩)
        simp only [hm, if_true]
        exact hi.kept hk q hq
      · simp only [hvp, List.mem_append, List.mem_singleton] at hq
        by_cases hm : q ∈ out.pols
        · simp only [hm, if_true]
          exact hi.made q hm hno
        · simp only [hm, if_false]
          rcases hq with hq | hq
          · exact absurd hq hm
          · subst hq; exact hvc q

theorem output_ok {num : String → Option ℤ} {addOk : UVD → UVD → Bool} {keep : Bool} {u out : UVD} {ps : List String}
    (h : output num addOk keep u ps = .ok out) : IsOutput num keep u ps out := by
  unfold output at h
  split at h
  · rename_i hk
    have : IsOutput num keep u [] u := ⟨fun p => by simp [hk], id, rfl, rfl, rfl, fun _ _ _ => ⟨rfl, rfl, rfl⟩, fun p hp hno => absurd ⟨hk, hp⟩ hno⟩
    exact addAll_ok this h
  · rename_i hk
    split at h
    · cases h
    rename_i p ps
    split at h
    · cases h
    rename_i v hv
    obtain ⟨s, hs, hvp, hvf, hvt, hvb, hvc⟩ := onePol_ok hv
    have hi : IsOutput num keep u [p] v := by
      refine ⟨fun q => ?_, fun _ => by rw [hvp]; simp, hvf, hvt, hvb, fun h => absurd h hk, fun q hq _ => ?_⟩
      · simp [hvp, hk, hs, eq_comm]
      · rw [hvp, List.mem_singleton] at hq; subst hq; exact hvc q
    have h2 := addAll_ok hi h
    refine ⟨fun q => ?_, h2.once, h2.freqs, h2.times, h2.bls, h2.kept, h2.made⟩
    rw [h2.pols q]
    simp

theorem stokes_names : (Cli.stokesOpts.map (·.name)).Nodup := by decide +kernel

theorem lastArgs_none {occs : List (String × List Str)} {n : String} : Cli.lastArgs occs n = none ↔ n ∉ occs.map (·.1) := by
  unfold Cli.lastArgs
  simp only [Option.map_eq_none_iff, List.getLast?_eq_none_iff, List.filter_eq_nil_iff, List.mem_map, not_exists, not_and, decide_eq_true_eq]

theorem flag_read {fl : Str → Option Rat} {occs : List (String × List Str)} {ns : Dict String Cli.Val} (h : Cli.parse fl Cli.stokesOpts occs = .ok ns) {n : String}
    (hn : (⟨n, .flag, .str, .bool false⟩ : Cli.Opt) ∈ Cli.stokesOpts) : isSet (ns.get n) = true ↔ n ∈ occs.map (·.1) := by
  obtain ⟨v, hv, hg⟩ := Cli.parse_given stokes_names h hn
  simp only at hv
  rw [hv]
  cases hl : Cli.lastArgs occs n with
  | none =>
    rw [hg.1 hl]
    simpa [isSet] using lastArgs_none.1 hl
  | some args =>
    have hm : n ∈ occs.map (·.1) := by
      by_contra hc
      rw [lastArgs_none.2 hc] at hl; cases hl
    rcases hg.2 args hl with ⟨_, _, rfl⟩ | ⟨h, _⟩ | ⟨h, _⟩
    · simpa [isSet] using hm
    · cases h
    · rcases h with h | ⟨h, _⟩ <;> cases h

theorem read_request {fl : Str → Option Rat} {occs : List (String × List Str)} {chunks : List (List Str)} {ns : Dict String Cli.Val} {inp : Str} {r : Request}
    (hr : Asks occs chunks r) (h : Cli.parse fl Cli.stokesOpts occs = .ok ns) (hi : Cli.oneArg chunks = .ok inp) :
    String.ofList inp = r.input ∧ isSet (ns.get "keep_vispols") = r.keep ∧ isSet (ns.get "clobber") = r.clobber ∧ elems (ns.get "pstokes") = r.pstokes ∧
      outPath r.input (ns.get "outputdata") = r.out := by
  refine ⟨?_, ?_, ?_, ?_, ?_⟩
  · unfold Cli.oneArg at hi
    rw [hr.input] at hi
    have := Except.ok.inj hi
    subst this
    simp
  · rw [Bool.eq_iff_iff, hr.keep]
    exact flag_read h (by simp [Cli.stokesOpts])
  · rw [Bool.eq_iff_iff, hr.clobber]
    exact flag_read h (by simp [Cli.stokesOpts])
  · obtain ⟨v, hv, hg⟩ := Cli.parse_given stokes_names h (o := ⟨"pstokes", .plus, .str, .str "pI"⟩) (by simp [Cli.stokesOpts])
    simp only at hv
    rw [hv]
    rcases hg.2 _ hr.pstokes with ⟨h, _⟩ | ⟨h, _⟩ | ⟨_, vs, hvs, rfl⟩
    · cases h
    · cases h
    · unfold elems
      simp only
      have : ∀ (l : List String) (vs : List Cli.Val), List.Forall₂ (Cli.Reads fl .str) (l.map String.toList) vs →
          vs.filterMap (fun v => match v with | .str s => some s | _ => none) = l := by
        intro l
        induction l with
        | nil => intro vs h; cases h; rfl
        | cons a l ih =>
          intro vs h
          cases h with
          | cons h1 h2 =>
            rcases h1 with ⟨_, rfl⟩ | ⟨h, _⟩ | ⟨h, _⟩ | ⟨h, _⟩ | ⟨h, _⟩ | ⟨h, _⟩ | ⟨h, _⟩ | ⟨h, _⟩
            · rw [List.filterMap_cons, ih _ h2]; simp
            all_goals cases h
      exact this _ _ hvs
  · obtain ⟨v, hv, hg⟩ := Cli.parse_given stokes_names h (o := ⟨"outputdata", .one, .str, .none⟩) (by simp [Cli.stokesOpts])
    simp only at hv
    rw [hv]
    rcases hr.out with ho | ⟨ho, he⟩
    · rcases hg.2 _ ho with ⟨h, _⟩ | ⟨_, a, ha, hra⟩ | ⟨h, _⟩
      · cases h
      · injection ha with ha; subst ha
        rcases hra with ⟨_, rfl⟩ | ⟨h, _⟩ | ⟨h, _⟩ | ⟨h, _⟩ | ⟨h, _⟩ | ⟨h, _⟩ | ⟨h, _⟩ | ⟨h, _⟩
        · simp [outPath]
        all_goals cases h
      · rcases h with h | ⟨h, _⟩ <;> cases h
    · rw [hg.1 ho, he]; rfl

/-- C140: whatever is on the command line, if the script stops with an exception no file has changed. -/
theorem C140_unchanged (fl : Str → Option Rat) (num : String → Option ℤ) (addOk : UVD → UVD → Bool) (occs : List (String × List Str)) (chunks : List (List Str)) (fs : FS)
    (h : (script fl num addOk occs chunks fs).2 ≠ .ok ()) : (script fl num addOk occs chunks fs).1 = fs := by
  unfold script at h ⊢
  split
  · rename_i ns inp h1 h2
    simp only [h1, h2] at h ⊢
    split
    · rfl
    · rename_i u hu
      simp only [hu] at h
      split
      · rfl
      · rename_i out ho
        simp only [ho] at h
        split
        · rfl
        · rename_i hc
          rw [if_neg hc] at h
          exact absurd rfl h
  · rfl

/-- C140: if it succeeds, the output file has the requested polarizations (and those of the input if they are to be kept), each once, made by
`construct_pstokes` from the input; no other file has changed, and the output file was not there unless `--clobber` was given. Missing: without `--pstokes` the
documented default 'pI' is not used (`C140_finding_default`). -/
theorem C140_output_partial {fl : Str → Option Rat} {num : String → Option ℤ} {addOk : UVD → UVD → Bool} {occs : List (String × List Str)} {chunks : List (List Str)}
    {r : Request} (hr : Asks occs chunks r) {fs fs' : FS} (h : script fl num addOk occs chunks fs = (fs', .ok ())) :
    ∃ u out, fs.get r.input = some u ∧ IsOutput num r.keep u r.pstokes out ∧ (∀ x, fs'.get x = if x = r.out then some out else fs.get x) ∧
      (r.clobber = false → fs.get r.out = none) := by
  unfold script at h
  split at h
  · rename_i ns inp h1 h2
    obtain ⟨e1, e2, e3, e4, e5⟩ := read_request hr h1 h2
    simp only [e1, e2, e3, e4, e5] at h
    split at h
    · cases h
    rename_i u hu
    split at h
    · cases h
    rename_i out ho
    split at h
    · cases h
    rename_i hc
    have := congrArg Prod.fst h
    simp only at this
    subst this
    refine ⟨u, out, hu, output_ok ho, fun x => ?_, fun hcl => ?_⟩
    · rw [Dict.get_set]
      by_cases hx : x = r.out
      · simp [hx]
      · simp [hx, Ne.symm hx]
    · rw [hcl] at hc
      rw [Dict.get_eq_none_iff]
      intro hm
      apply hc
      obtain ⟨e, he, hee⟩ := List.mem_map.1 hm
      simp only [Bool.not_false, Bool.and_true]
      unfold Dict.has
      rw [List.any_eq_true]
      exact ⟨e, he, by simp [hee]⟩
  · cases h

/-- C140: the arrays of a requested pseudo-Stokes parameter are the textbook combination of the input's. -/
theorem C140_textbook {num : String → Option ℤ} {keep : Bool} {u out : UVD} {ps : List String} (h : IsOutput num keep u ps out) (s : ℤ) (hs : s ∈ out.pols)
    (hno : ¬ (keep = true ∧ s ∈ u.pols)) : Pstokes.IsStokes s ∧ Pstokes.firstPol s ∈ u.pols ∧ Pstokes.secondPol s ∈ u.pols ∧
      ∀ (i : ℕ) (x y : ℂ), (u.data (Pstokes.firstPol s))[i]? = some x → (u.data (Pstokes.secondPol s))[i]? = some y →
        (out.data s)[i]? = some (Pstokes.stokes s (u.conv.getD .avg) x y) := by
  have hc := h.made s hs hno
  have hst : Pstokes.IsStokes s := by
    by_contra hn
    unfold Pstokes.construct at hc
    rw [Pstokes.weights_none s hn] at hc
    split at hc
    · cases hc
    · cases hc
  obtain ⟨w1, w2, hw⟩ := Pstokes.weights_pair s hst
  unfold Pstokes.construct at hc
  rw [if_neg (by simp), hw] at hc
  simp only at hc
  split at hc
  · cases hc
  rename_i hp
  push Not at hp
  rw [if_neg (by simp)] at hc
  refine ⟨hst, hp.1, hp.2, fun i x y hx hy => ?_⟩
  unfold Pstokes.combineArrays at hc
  rw [hw] at hc
  simp only at hc
  split at hc
  · rename_i v1 v2 g1 g2
    split at hc
    · cases hc
    rename_i hoth
    split at hc
    · cases hc
    rename_i hlen
    have hd := congrArg Pstokes.Out.data (Except.ok.inj hc)
    simp only [Option.map_some, Option.some.injEq] at hd
    have hl : (u.data (Pstokes.firstPol s)).length = (u.data (Pstokes.secondPol s)).length := by
      simp only [Bool.not_eq_true', Bool.not_eq_false, Bool.and_eq_true, Pstokes.sameLen, beq_iff_eq] at hlen
      exact hlen.1.1
    obtain ⟨o, ho, -, -, d, hdd, -, hget⟩ := Pstokes.C65_definition s hst (Pstokes.convOf u) hoth _ _ hl
    unfold Pstokes.combineArrays at ho
    rw [hw] at ho
    simp only [g1, g2, hoth, if_false] at ho
    simp only [Pstokes.sameLen, hl, beq_self_eq_true, Bool.and_self, Bool.not_true, Bool.false_eq_true, if_false] at ho
    have ho' := Except.ok.inj ho
    subst ho'
    simp only [Option.map_some, Option.some.injEq] at hdd
    rw [← hd, hdd]
    exact hget i x y hx hy
  · cases hc

/-- C140: a file that exists is not overwritten without `--clobber`; in particular nothing can be added to the input file without it. -/
theorem C140_refused {fl : Str → Option Rat} {num : String → Option ℤ} {addOk : UVD → UVD → Bool} {occs : List (String × List Str)} {chunks : List (List Str)}
    {r : Request} (hr : Asks occs chunks r) {fs : FS} (hc : r.clobber = false) (he : fs.get r.out ≠ none ∨ r.out = r.input) :
    (script fl num addOk occs chunks fs).1 = fs ∧ (script fl num addOk occs chunks fs).2 ≠ .ok () := by
  have hne : (script fl num addOk occs chunks fs).2 ≠ .ok () := by
    intro h
    obtain ⟨u, out, hu, _, _, h4⟩ := C140_output_partial hr (fs' := (script fl num addOk occs chunks fs).1) (by rw [← h])
    rcases he with he | he
    · exact he (h4 hc)
    · rw [he, hu] at h4; cases h4 hc
  exact ⟨C140_unchanged fl num addOk occs chunks fs hne, hne⟩

theorem construct_succeeds {u : UVD} {s : ℤ} (hs : Pstokes.IsStokes s) (h1 : Pstokes.firstPol s ∈ u.pols) (h2 : Pstokes.secondPol s ∈ u.pols)
    (hm : Pstokes.Matching u u s) : ∃ o, Pstokes.construct u u s = .ok o := by
  obtain ⟨w1, w2, hw⟩ := Pstokes.weights_pair s hs
  have hoth : Pstokes.convOf u ≠ .other := by
    unfold Pstokes.convOf
    rcases hm.conv with ⟨_, h⟩ | ⟨h, h'⟩ | ⟨h, h'⟩
    · cases hc : u.conv with
      | none => simp
      | some k => rw [hc] at h; simpa using h
    · simp [h]
    · simp [h]
  unfold Pstokes.construct
  rw [if_neg (by simp), hw]
  simp only
  rw [if_neg (by simp [h1, h2]), if_neg (by simp)]
  obtain ⟨o, ho, -⟩ := Pstokes.C65_definition s hs (Pstokes.convOf u) hoth _ _ hm.data
  unfold Pstokes.combineArrays at ho ⊢
  rw [hw] at ho ⊢
  simp only at ho ⊢
  split at ho
  · rename_i v1 v2 g1 g2
    simp only [g1, g2, hoth, if_false]
    simp only [Pstokes.sameLen, hm.data, hm.flags, hm.nsamp, beq_self_eq_true, Bool.and_self, Bool.not_true, Bool.false_eq_true, if_false]
    exact ⟨_, rfl⟩
  · cases ho

theorem addAll_succeeds {num : String → Option ℤ} {addOk : UVD → UVD → Bool} (hadd : ∀ a b, addOk a b = true) {u : UVD} :
    ∀ (ps : List String) (out : UVD), (∀ p ∈ ps, ∃ s v, num p = some s ∧ onePol num u p = .ok v) → ∃ out', addAll num addOk u out ps = .ok out' := by
  intro ps
  induction ps with
  | nil => intro out _; exact ⟨out, rfl⟩
  | cons p ps ih =>
    intro out h
    obtain ⟨s, v, hs, hv⟩ := h p List.mem_cons_self
    unfold addAll
    simp only [hs]
    by_cases hm : s ∈ out.pols
    · rw [if_pos hm]; exact ih out (fun q hq => h q (List.mem_cons_of_mem _ hq))
    · rw [if_neg hm]
      obtain ⟨s', hs', hvp, _⟩ := onePol_ok hv
      rw [hs] at hs'; injection hs' with hs'; subst hs'
      have : ∃ o, addPol addOk out v = .ok o := by
        unfold addPol
        rw [if_neg]
        · exact ⟨_, rfl⟩
        · simp only [hadd, Bool.not_true, Bool.or_false, List.any_eq_true, List.contains_iff_mem, not_exists, not_and, hvp, List.mem_singleton]
          rintro q hq rfl; exact hm hq
      obtain ⟨o, ho⟩ := this
      simp only [hv, ho]
      exact ih o (fun q hq => h q (List.mem_cons_of_mem _ hq))

/-- C140: it succeeds when the input exists, each requested name is a pseudo-Stokes parameter whose two polarizations are in the input with arrays of equal
shape, the output file is not there or may be overwritten, and only known options are given with acceptable arguments. -/
theorem C140_succeeds {fl : Str → Option Rat} {num : String → Option ℤ} {addOk : UVD → UVD → Bool} (hadd : ∀ a b, addOk a b = true)
    {occs : List (String × List Str)} {chunks : List (List Str)} {r : Request} (hr : Asks occs chunks r)
    (hopt : ∀ oc ∈ occs, ∃ o ∈ Cli.stokesOpts, o.name = oc.1 ∧ ∃ v, Cli.Means fl o oc.2 v)
    {fs : FS} {u : UVD} (hu : fs.get r.input = some u) (hp : ∀ p ∈ r.pstokes, ∃ s, num p = some s ∧ Pstokes.IsStokes s ∧ Pstokes.firstPol s ∈ u.pols ∧
      Pstokes.secondPol s ∈ u.pols ∧ Pstokes.Matching u u s) (hw : fs.get r.out = none ∨ r.clobber = true) :
    (script fl num addOk occs chunks fs).2 = .ok () := by
  obtain ⟨ns, hns⟩ := (Cli.parseAll_ok_iff (fl := fl) stokes_names (occs := occs)
    (ns := Cli.stokesOpts.map (fun o => (o.name, o.dflt)))).2 hopt
  have h1 : Cli.parse fl Cli.stokesOpts occs = .ok ns := hns
  have h2 : Cli.oneArg chunks = .ok r.input.toList := by unfold Cli.oneArg; rw [hr.input]
  obtain ⟨e1, e2, e3, e4, e5⟩ := read_request hr h1 h2
  have hone : ∀ p ∈ r.pstokes, ∃ s v, num p = some s ∧ onePol num u p = .ok v := by
    intro p hpm
    obtain ⟨s, hs, a, b, c, d⟩ := hp p hpm
    obtain ⟨o, ho⟩ := construct_succeeds a b c d
    have : ∃ v, onePol num u p = .ok v := by
      unfold onePol
      simp only [hs, ho]
      exact ⟨_, rfl⟩
    obtain ⟨v, hv⟩ := this
    exact ⟨s, v, hs, hv⟩
  have hout : ∃ out, output num addOk r.keep u r.pstokes = .ok out := by
    unfold output
    split
    · exact addAll_succeeds hadd _ _ hone
    · cases hps : r.pstokes with
      | nil =>
        exfalso
        obtain ⟨v, hv, hg⟩ := Cli.parse_given stokes_names h1 (o := ⟨"pstokes", .plus, .str, .str "pI"⟩) (by simp [Cli.stokesOpts])
        rcases hg.2 _ hr.pstokes with ⟨h, _⟩ | ⟨h, _⟩ | ⟨h, _⟩
        · cases h
        · cases h
        · rcases h with h | ⟨_, h⟩
          · cases h
          · rw [hps] at h; exact h rfl
      | cons p ps =>
        obtain ⟨s, v, hs, hv⟩ := hone p (by rw [hps]; exact List.mem_cons_self)
        simp only [hv]
        exact addAll_succeeds hadd _ _ (hps ▸ hone)
  obtain ⟨out, hout⟩ := hout
  unfold script
  simp only [h1, h2, e1, hu, e2, e3, e4, e5, hout]
  rw [if_neg]
  simp only [Bool.and_eq_true, Bool.not_eq_true', not_and, Bool.not_eq_false]
  intro hh
  rcases hw with hw | hw
  · exfalso
    unfold Dict.has at hh
    rw [List.any_eq_true] at hh
    obtain ⟨e, he, hee⟩ := hh
    rw [Dict.get_eq_none_iff] at hw
    exact hw (List.mem_map.2 ⟨e, he, by simpa using hee⟩)
  · exact hw

/-- C140 finding: without `--pstokes` the default is the string "pI", of which the loop sees the characters: as 'p' is not the name of a polarization, the
script always fails. -/
theorem C140_finding_default (fl : Str → Option Rat) (num : String → Option ℤ) (hnum : num "p" = none) (addOk : UVD → UVD → Bool) (occs : List (String × List Str))
    (chunks : List (List Str)) (fs : FS) (hd : "pstokes" ∉ occs.map (·.1)) : (script fl num addOk occs chunks fs).2 ≠ .ok () := by
  intro h
  unfold script at h
  split at h
  · rename_i ns inp h1 h2
    simp only at h
    split at h
    · cases h
    rename_i u hu
    have he : elems (ns.get "pstokes") = ["p", "I"] := by
      obtain ⟨v, hv, hg⟩ := Cli.parse_given stokes_names h1 (o := ⟨"pstokes", .plus, .str, .str "pI"⟩) (by simp [Cli.stokesOpts])
      simp only at hv
      rw [hv, hg.1 (lastArgs_none.2 hd)]
      rfl
    rw [he] at h
    have : output num addOk (isSet (ns.get "keep_vispols")) u ["p", "I"] = .error .key := by
      unfold output
      split
      · simp [addAll, hnum]
      · simp [onePol, hnum]
    rw [this] at h
    cases h
  · cases h

/-- An input with two polarizations. -/
def demoU : UVD := ⟨none, [1], [1], [1], [-5, -6], fun _ => [2, 4], fun _ => [false, false], fun _ => [1, 1]⟩

/-- The names pyuvdata knows. -/
def demoNum (s : String) : Option ℤ := if s = "pI" then some 1 else if s = "pQ" then some 2 else none

/-- The hypotheses are met: two parameters, one of them twice, into a new file. -/
example (fl : Str → Option Rat) : ∃ fs', script fl demoNum (fun _ _ => true) [("pstokes", ["pI".toList, "pQ".toList, "pI".toList]), ("outputdata", ["b".toList])]
    [["a".toList]] [("a", demoU)] = (fs', .ok ()) := by
  have hr : Asks [("pstokes", ["pI".toList, "pQ".toList, "pI".toList]), ("outputdata", ["b".toList])] [["a".toList]] ⟨"a", "b", ["pI", "pQ", "pI"], false, false⟩ :=
    ⟨rfl, by simp [Cli.lastArgs], .inl (by simp [Cli.lastArgs]), by simp, by simp⟩
  have hm : ∀ s, Pstokes.Matching demoU demoU s := fun s => ⟨rfl, rfl, rfl, .inl ⟨rfl, by simp [demoU]⟩, rfl, rfl, rfl⟩
  have := C140_succeeds (fl := fl) (num := demoNum) (addOk := fun _ _ => true) (fun _ _ => rfl) hr (fs := [("a", demoU)]) (u := demoU) ?_ rfl ?_ (.inl rfl)
  · exact ⟨_, Prod.ext rfl this⟩
  · intro oc hoc
    simp only [List.mem_cons, List.not_mem_nil, or_false] at hoc
    rcases hoc with rfl | rfl
    · refine ⟨⟨"pstokes", .plus, .str, .str "pI"⟩, by simp [Cli.stokesOpts], rfl, .list [.str "pI", .str "pQ", .str "pI"], .inr (.inr ⟨.inr ⟨rfl, by simp⟩, _, ?_, rfl⟩)⟩
      exact .cons (.inl ⟨rfl, rfl⟩) (.cons (.inl ⟨rfl, rfl⟩) (.cons (.inl ⟨rfl, rfl⟩) .nil))
    · exact ⟨⟨"outputdata", .one, .str, .none⟩, by simp [Cli.stokesOpts], rfl, .str "b", .inr (.inl ⟨rfl, _, rfl, .inl ⟨rfl, rfl⟩⟩)⟩
  · intro p hp
    simp only [List.mem_cons, List.not_mem_nil, or_false] at hp
    rcases hp with rfl | rfl | rfl
    · exact ⟨1, rfl, .inl rfl, by simp [Pstokes.firstPol, demoU], by simp [Pstokes.secondPol, demoU], hm 1⟩
    · exact ⟨2, rfl, .inr (.inl rfl), by simp [Pstokes.firstPol, demoU], by simp [Pstokes.secondPol, demoU], hm 2⟩
    · exact ⟨1, rfl, .inl rfl, by simp [Pstokes.firstPol, demoU], by simp [Pstokes.secondPol, demoU], hm 1⟩

end HeraPspec.StokesRun
