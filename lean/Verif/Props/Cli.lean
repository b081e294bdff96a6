import Verif.Model.Cli
import Verif.Lemmas.MapE

/-!
C138: what is given on the command line of the pipeline scripts is what the function is called with.
-/
namespace HeraPspec.Cli
open HeraPspec.ArgParse (Str)
open HeraPspec.UVP (mapE)

/-! ### Specification -/

/-- What an argument of an option means: text, a number, a list of tuples (C78); any text but the empty one is true. -/
def Reads (fl : Str → Option Rat) (c : Conv) (a : Str) (v : Val) : Prop :=
  (c = .str ∧ v = .str (String.ofList a)) ∨
  (c = .int ∧ ∃ n, ArgParse.pyInt a = .ok n ∧ v = .int n) ∨
  (c = .float ∧ ∃ q, fl a = some q ∧ v = .num q) ∨
  (c = .bool ∧ v = .bool (!a.isEmpty)) ∨
  (c = .intTuples ∧ ∃ l, ArgParse.listOfIntTuples a = .ok l ∧ v = .list (l.map (fun t => .tup (t.map .int)))) ∨
  (c = .strTuples ∧ v = .list ((ArgParse.listOfStrTuples a).map (fun t => .tup (t.map (fun s => .str (String.ofList s)))))) ∨
  (c = .blTuples ∧ ∃ l, ArgParse.listOfTupleTuples a = .ok l ∧ v = .list (l.map (fun t => .tup [.tup (t.1.map .int), .tup (t.2.map .int)]))) ∨
  (c = .intLists ∧ ∃ l, intLists a = .ok l ∧ v = .list (l.map (fun t => .list (t.map .int))))

/-- What one occurrence of an option with its arguments means. -/
def Means (fl : Str → Option Rat) (o : Opt) (args : List Str) (v : Val) : Prop :=
  (o.kind = .flag ∧ args = [] ∧ v = .bool true) ∨
  (o.kind = .one ∧ ∃ a, args = [a] ∧ Reads fl o.conv a v) ∨
  ((o.kind = .star ∨ o.kind = .plus ∧ args ≠ []) ∧ ∃ vs, List.Forall₂ (Reads fl o.conv) args vs ∧ v = .list vs)

/-- The arguments of the last occurrence of an option. -/
def lastArgs (occs : List (String × List Str)) (n : String) : Option (List Str) := ((occs.filter (fun oc => oc.1 = n)).getLast?).map (·.2)

/-- The value of an option on a command line: what its last occurrence means, or its default. -/
def Given (fl : Str → Option Rat) (occs : List (String × List Str)) (o : Opt) (v : Val) : Prop :=
  (lastArgs occs o.name = Option.none → v = o.dflt) ∧ ∀ args, lastArgs occs o.name = some args → Means fl o args v

/-- Options that a library adds to the parser do not clash with each other or the parser's own. -/
def Fresh (opts extra : List Opt) : Prop := ((opts ++ extra).map (·.name)).Nodup

/-! ### Proofs -/

theorem convert_iff (fl : Str → Option Rat) (c : Conv) (a : Str) (v : Val) : convert fl c a = .ok v ↔ Reads fl c a v := by
  cases c
  · simp [convert, Reads, eq_comm]
  · simp only [convert, Reads, usage]
    cases h : ArgParse.pyInt a <;> simp [Except.map, eq_comm]
  · simp only [convert, Reads]
    cases h : fl a <;> simp [eq_comm]
  · simp only [convert, Reads]
    cases a <;> simp [eq_comm]
  · simp only [convert, Reads, usage]
    cases h : ArgParse.listOfIntTuples a <;> simp [Except.map, eq_comm]
  · simp [convert, Reads, eq_comm]
  · simp only [convert, Reads, usage]
    cases h : ArgParse.listOfTupleTuples a <;> simp [Except.map, eq_comm]
  · simp only [convert, Reads, usage]
    cases h : intLists a <;> simp [Except.map, eq_comm]

theorem map_list_iff (fl : Str → Option Rat) (c : Conv) (args : List Str) (v : Val) :
    (mapE (convert fl c) args).map Val.list = .ok v ↔ ∃ vs, List.Forall₂ (Reads fl c) args vs ∧ v = .list vs := by
  have key : ∀ vs, mapE (convert fl c) args = .ok vs ↔ List.Forall₂ (Reads fl c) args vs := by
    intro vs
    rw [UVP.mapE_ok_iff]
    simp only [convert_iff]
  cases h : mapE (convert fl c) args with
  | error e =>
    simp only [Except.map]
    constructor
    · intro h; cases h
    · rintro ⟨vs, hvs, _⟩
      rw [(key vs).2 hvs] at h; cases h
  | ok vs =>
    simp only [Except.map]
    constructor
    · intro h2; injection h2 with h2; exact ⟨vs, (key vs).1 h, h2.symm⟩
    · rintro ⟨ws, hws, rfl⟩
      rw [(key ws).2 hws] at h; injection h with h; rw [h]

theorem optValue_iff (fl : Str → Option Rat) (o : Opt) (args : List Str) (v : Val) : optValue fl o args = .ok v ↔ Means fl o args v := by
  unfold optValue Means
  cases hk : o.kind
  · cases args <;> simp [eq_comm]
  · match args with
    | [] => simp
    | [a] => simp [convert_iff]
    | a :: b :: as => simp
  · cases args with
    | nil => simp
    | cons a as => simp only [map_list_iff]; simp
  · simp only [map_list_iff]; simp

theorem lastArgs_cons (oc : String × List Str) (occs : List (String × List Str)) (n : String) :
    lastArgs (oc :: occs) n = (lastArgs occs n).or (if oc.1 = n then some oc.2 else Option.none) := by
  unfold lastArgs
  by_cases h : oc.1 = n
  · rw [List.filter_cons_of_pos (by simpa using h)]
    simp only [h, if_true]
    generalize occs.filter (fun oc => oc.1 = n) = l
    cases h : l.getLast? with
    | none => rw [List.getLast?_eq_none_iff] at h; subst h; simp
    | some a => simp [List.getLast?_cons, h]
  · rw [List.filter_cons_of_neg (by simpa using h)]
    simp [h]

theorem find_name {opts : List Opt} (hn : (opts.map (·.name)).Nodup) {o : Opt} (ho : o ∈ opts) : opts.find? (fun p => p.name = o.name) = some o := by
  induction opts with
  | nil => cases ho
  | cons p l ih =>
    rw [List.map_cons, List.nodup_cons] at hn
    rcases List.mem_cons.1 ho with rfl | ho
    · simp
    · have : p.name ≠ o.name := fun h => hn.1 (h ▸ List.mem_map.2 ⟨o, ho, rfl⟩)
      rw [List.find?_cons_of_neg (by simpa using this)]
      exact ih hn.2 ho

theorem parseOne_ok {fl : Str → Option Rat} {opts : List Opt} {ns ns' : Dict String Val} {oc : String × List Str} (h : parseOne fl opts ns oc = .ok ns') :
    ∃ o ∈ opts, o.name = oc.1 ∧ ∃ v, optValue fl o oc.2 = .ok v ∧ ns' = ns.set o.name v := by
  unfold parseOne at h
  split at h
  · cases h
  · rename_i o hf
    cases hv : optValue fl o oc.2 with
    | error e => rw [hv] at h; cases h
    | ok v =>
      rw [hv] at h
      refine ⟨o, List.mem_of_find?_eq_some hf, by simpa using List.find?_some hf, v, hv, (Except.ok.inj h).symm⟩

theorem parseAll_get {fl : Str → Option Rat} {opts : List Opt} (hn : (opts.map (·.name)).Nodup) {occs : List (String × List Str)} :
    ∀ {ns ns' : Dict String Val}, parseAll fl opts ns occs = .ok ns' → ∀ o ∈ opts,
      (lastArgs occs o.name = Option.none → ns'.get o.name = ns.get o.name) ∧
      ∀ args, lastArgs occs o.name = some args → ∃ v, optValue fl o args = .ok v ∧ ns'.get o.name = some v := by
  induction occs with
  | nil =>
    intro ns ns' h o _
    have := Except.ok.inj h; subst this
    exact ⟨fun _ => rfl, fun args h => by simp [lastArgs] at h⟩
  | cons oc occs ih =>
    intro ns ns' h o ho
    unfold parseAll at h
    split at h
    · cases h
    rename_i ns1 h1
    obtain ⟨o1, ho1, hn1, v1, hv1, rfl⟩ := parseOne_ok h1
    obtain ⟨ia, ib⟩ := ih h o ho
    rw [lastArgs_cons]
    cases hl : lastArgs occs o.name with
    | some args =>
      simp only [Option.some_or, Option.some.injEq]
      exact ⟨fun h => (by cases h), fun a ha => (by subst ha; exact ib args hl)⟩
    | none =>
      simp only [Option.none_or]
      have hg := ia hl
      by_cases he : oc.1 = o.name
      · simp only [he, if_true, Option.some.injEq]
        have : o1 = o := by
          have e1 := find_name hn ho1
          have e2 := find_name hn ho
          rw [hn1, he] at e1
          exact Option.some.inj (e1.symm.trans e2)
        subst this
        refine ⟨fun h => (by cases h), fun a ha => ⟨v1, (by subst ha; exact hv1), ?_⟩⟩
        rw [hg, Dict.get_set]; simp
      · simp only [he, if_false]
        refine ⟨fun _ => ?_, fun a ha => (by cases ha)⟩
        rw [hg, Dict.get_set, if_neg]
        rw [hn1]; exact he

theorem parseAll_keys {fl : Str → Option Rat} {opts : List Opt} {occs : List (String × List Str)} :
    ∀ {ns ns' : Dict String Val}, parseAll fl opts ns occs = .ok ns' → (∀ o ∈ opts, o.name ∈ ns.keys) → ∀ k, k ∈ ns'.keys ↔ k ∈ ns.keys := by
  induction occs with
  | nil => intro ns ns' h _ k; have := Except.ok.inj h; subst this; rfl
  | cons oc occs ih =>
    intro ns ns' h hk k
    unfold parseAll at h
    split at h
    · cases h
    rename_i ns1 h1
    obtain ⟨o1, ho1, hn1, v1, hv1, rfl⟩ := parseOne_ok h1
    rw [ih h (fun o ho => (Dict.keys_set_mem _ _ _ _).2 (.inr (hk o ho))) k, Dict.keys_set_mem]
    constructor
    · rintro (rfl | h); exacts [hk o1 ho1, h]
    · exact .inr

theorem parseAll_ok_iff {fl : Str → Option Rat} {opts : List Opt} (hn : (opts.map (·.name)).Nodup) {occs : List (String × List Str)} :
    ∀ {ns : Dict String Val}, (∃ ns', parseAll fl opts ns occs = .ok ns') ↔ ∀ oc ∈ occs, ∃ o ∈ opts, o.name = oc.1 ∧ ∃ v, Means fl o oc.2 v := by
  induction occs with
  | nil => intro ns; simp [parseAll]
  | cons oc occs ih =>
    intro ns
    constructor
    · rintro ⟨ns', h⟩
      unfold parseAll at h
      split at h
      · cases h
      rename_i ns1 h1
      obtain ⟨o1, ho1, hn1, v1, hv1, rfl⟩ := parseOne_ok h1
      intro x hx
      rcases List.mem_cons.1 hx with rfl | hx
      · exact ⟨o1, ho1, hn1, v1, (optValue_iff _ _ _ _).1 hv1⟩
      · exact ih.1 ⟨ns', h⟩ x hx
    · intro h
      obtain ⟨o, ho, hon, v, hv⟩ := h oc List.mem_cons_self
      have h1 : parseOne fl opts ns oc = .ok (ns.set o.name v) := by
        unfold parseOne
        rw [← hon, find_name hn ho]
        simp only
        rw [(optValue_iff _ _ _ _).2 hv]
        rfl
      unfold parseAll
      rw [h1]
      exact ih.2 (fun x hx => h x (List.mem_cons_of_mem _ hx))

theorem dflt_get {opts : List Opt} (hn : (opts.map (·.name)).Nodup) {o : Opt} (ho : o ∈ opts) :
    Dict.get (opts.map (fun o => (o.name, o.dflt)) : Dict String Val) o.name = some o.dflt := by
  apply Dict.get_of_mem
  · simpa [Dict.keys, Function.comp_def] using hn
  · exact List.mem_map.2 ⟨o, ho, rfl⟩

theorem parse_given {fl : Str → Option Rat} {opts : List Opt} (hn : (opts.map (·.name)).Nodup) {occs : List (String × List Str)} {ns : Dict String Val}
    (h : parse fl opts occs = .ok ns) {o : Opt} (ho : o ∈ opts) : ∃ v, ns.get o.name = some v ∧ Given fl occs o v := by
  obtain ⟨ha, hb⟩ := parseAll_get hn h o ho
  cases hl : lastArgs occs o.name with
  | none =>
    refine ⟨o.dflt, (ha hl).trans (dflt_get hn ho), fun _ => rfl, fun args h => ?_⟩
    rw [hl] at h; cases h
  | some args =>
    obtain ⟨v, hv, hg⟩ := hb args hl
    refine ⟨v, hg, fun h => ?_, fun a ha => ?_⟩
    · rw [hl] at h; cases h
    · rw [hl] at ha; injection ha with ha; subst ha; exact (optValue_iff _ _ _ _).1 hv

theorem parse_keys {fl : Str → Option Rat} {opts : List Opt} {occs : List (String × List Str)} {ns : Dict String Val}
    (h : parse fl opts occs = .ok ns) (k : String) : k ∈ ns.keys ↔ ∃ o ∈ opts, o.name = k := by
  rw [parseAll_keys h (fun o ho => by simp only [Dict.keys, List.map_map, List.mem_map]; exact ⟨o, ho, rfl⟩)]
  simp [Dict.keys]

theorem bind_get {sig : List (String × Option Val)} (hs : (sig.map (·.1)).Nodup) {kw call : Dict String Val} (h : bind sig kw = .ok call) :
    (∀ k ∈ kw.keys, k ∈ sig.map (·.1)) ∧ ∀ p ∈ sig, call.get p.1 = (kw.get p.1).or p.2 := by
  unfold bind at h
  split at h
  · cases h
  rename_i hk
  refine ⟨fun k hkk => ?_, fun p hp => ?_⟩
  · simp only [List.any_eq_true, Bool.not_eq_true', not_exists, not_and, Bool.not_eq_false] at hk
    simpa using hk k hkk
  · rw [UVP.mapE_ok_iff] at h
    have key : ∀ {l : List (String × Option Val)} {c : Dict String Val}, (l.map (·.1)).Nodup → List.Forall₂ (fun (p : String × Option Val) (b : String × Val) =>
        (match kw.get p.1, p.2 with
          | some v, _ => (.ok (p.1, v) : Except Err (String × Val))
          | Option.none, some d => .ok (p.1, d)
          | Option.none, Option.none => .error .type) = .ok b) l c → p ∈ l → Dict.get c p.1 = (kw.get p.1).or p.2 := by
      intro l c hn hf hp
      induction hf with
      | nil => cases hp
      | @cons a b l r h1 _ ih =>
        rw [List.map_cons, List.nodup_cons] at hn
        have hb : b.1 = a.1 ∧ some b.2 = (kw.get a.1).or a.2 := by
          cases hk : kw.get a.1 with
          | some v => rw [hk] at h1; have := Except.ok.inj h1; subst this; exact ⟨rfl, rfl⟩
          | none =>
            rw [hk] at h1
            cases ha : a.2 with
            | some d => rw [ha] at h1; have := Except.ok.inj h1; subst this; exact ⟨rfl, rfl⟩
            | none => rw [ha] at h1; cases h1
        rw [Dict.get_cons]
        rcases List.mem_cons.1 hp with rfl | hp
        · rw [if_pos hb.1, hb.2]
        · have : b.1 ≠ p.1 := fun e => hn.1 (by rw [← hb.1, e]; exact List.mem_map.2 ⟨p, hp, rfl⟩)
          rw [if_neg this]
          exact ih hn.2 hp
    exact key hs h hp

theorem bind_ok {sig : List (String × Option Val)} {kw : Dict String Val} (h1 : ∀ k ∈ kw.keys, k ∈ sig.map (·.1))
    (h2 : ∀ p ∈ sig, p.2 = Option.none → p.1 ∈ kw.keys) : ∃ call, bind sig kw = .ok call := by
  unfold bind
  rw [if_neg]
  · have : ∀ l : List (String × Option Val), (∀ p ∈ l, p.2 = Option.none → p.1 ∈ kw.keys) → ∃ c, mapE (fun p : String × Option Val => match kw.get p.1, p.2 with
        | some v, _ => (.ok (p.1, v) : Except Err (String × Val))
        | Option.none, some d => .ok (p.1, d)
        | Option.none, Option.none => .error .type) l = .ok c := by
      intro l hl
      refine ⟨l.map (fun p => (p.1, ((kw.get p.1).or p.2).getD .none)), ?_⟩
      rw [UVP.mapE_ok_iff]
      induction l with
      | nil => exact .nil
      | cons a l ih =>
        refine .cons ?_ (ih (fun p hp => hl p (List.mem_cons_of_mem _ hp)))
        cases hk : kw.get a.1 with
        | some v => simp [hk]
        | none =>
          cases ha : a.2 with
          | some d => simp [hk, ha]
          | none =>
            have := hl a List.mem_cons_self ha
            rw [← Dict.get_isSome_iff, hk] at this; cases this
    exact this sig h2
  · simp only [List.any_eq_true, Bool.not_eq_true', not_exists, not_and, Bool.not_eq_false]
    intro k hk
    simpa using h1 k hk

theorem get_filter_name {extra : List Opt} (d : Dict String Val) (k : String) (hk : k ∉ extra.map (·.name)) :
    Dict.get (d.filter (fun e => !(extra.map (·.name)).contains e.1) : Dict String Val) k = d.get k := by
  induction d with
  | nil => rfl
  | cons e d ih =>
    by_cases h : e.1 ∈ extra.map (·.name)
    · rw [List.filter_cons_of_neg (by simpa using h), ih, Dict.get_cons, if_neg]
      intro he; exact hk (he ▸ h)
    · rw [List.filter_cons_of_pos (by simpa using h), Dict.get_cons, Dict.get_cons, ih]

theorem pspec_names : (pspecOpts.map (·.name)).Nodup ∧ (pspecSig.map (·.1)).Nodup ∧ (∀ o ∈ pspecOpts, o.name ≠ "exclude_crosscorrs" → o.name ∈ pspecSig.map (·.1)) ∧
    (∀ o ∈ pspecOpts, o.name ∉ ["dsets", "filename", "history", "include_crosscorrs"]) ∧
    (∀ p ∈ pspecSig, p.2 = Option.none ↔ p.1 ∈ ["dsets", "filename"]) := by
  refine ⟨by decide +kernel, by decide +kernel, by simp [pspecOpts, pspecSig], by simp [pspecOpts], by simp [pspecSig]⟩

theorem starThenOne_iff (chunks : List (List Str)) (ds : List Str) (f : Str) :
    starThenOne chunks = .ok (ds, f) ↔ chunks.filter (fun c => c ≠ []) = [ds ++ [f]] := by
  unfold starThenOne
  constructor
  · intro h
    split at h
    · rename_i c hc
      rw [hc]
      split at h
      · cases h
      · rename_i g hg
        have h1 := Except.ok.inj h
        injection h1 with h1 h2
        subst h1 h2
        have hne : c ≠ [] := by rintro rfl; simp at hg
        rw [List.getLast?_eq_some_getLast hne, Option.some.injEq] at hg
        rw [← hg, List.dropLast_append_getLast]
    · cases h
  · intro h
    rw [h]
    simp

/-- C138: what `pspec_run` is called with by its script, on any command line that is accepted. Every option has the value of its last occurrence, or its
default; `exclude_crosscorrs` is passed on as its negation; the positional arguments are the datasets and, last, the file name; the history is the command
line; parameters without an option keep their own defaults. Missing: options of `type=bool` cannot be switched off (`C138_finding_bool`). -/
theorem C138_pspec_run_partial {fl : Str → Option Rat} {extra : List Opt} {argv : List Str} {occs : List (String × List Str)} {chunks : List (List Str)} {call : Dict String Val}
    (hx : Fresh pspecOpts extra)
    (h : pspecScript fl extra argv occs chunks = .ok call) :
    (∀ o ∈ pspecOpts, o.name ≠ "exclude_crosscorrs" → ∃ v, call.get o.name = some v ∧ Given fl occs o v) ∧
    call.get "include_crosscorrs" = some (.bool (decide ("exclude_crosscorrs" ∉ occs.map (·.1)))) ∧
    (∃ ds f, chunks.filter (fun c => c ≠ []) = [ds ++ [f]] ∧ call.get "dsets" = some (.list (ds.map (fun s => .str (String.ofList s)))) ∧
      call.get "filename" = some (.str (String.ofList f))) ∧
    call.get "history" = some (.str (String.ofList (List.intercalate [' '] argv))) ∧
    (∀ p ∈ pspecSig, p.1 ∉ pspecOpts.map (·.name) → p.1 ∉ ["dsets", "filename", "history", "include_crosscorrs"] → call.get p.1 = p.2) := by
  obtain ⟨hnp, hns, hin, hsp, hreq⟩ := pspec_names
  unfold pspecScript at h
  split at h
  · cases h
  rename_i ns hns'
  split at h
  · cases h
  rename_i ds f hpos
  simp only at h
  set kw : Dict String Val := ns.filter (fun e => !(extra.map (·.name)).contains e.1) with hkw
  obtain ⟨hb1, hb2⟩ := bind_get hns h
  have hget : ∀ o ∈ pspecOpts, ∃ v, kw.get o.name = some v ∧ Given fl occs o v := by
    intro o ho
    obtain ⟨v, hv, hg⟩ := parse_given hx hns' (List.mem_append_left _ ho)
    refine ⟨v, ?_, hg⟩
    rw [hkw, get_filter_name, hv]
    intro hc
    unfold Fresh at hx
    rw [List.map_append, List.nodup_append] at hx
    exact hx.2.2 _ (List.mem_map.2 ⟨o, ho, rfl⟩) _ hc rfl
  have hfull : ∀ k : String, k ∈ pspecSig.map (·.1) → k ∉ ["dsets", "filename", "history"] → ∀ p ∈ pspecSig, p.1 = k →
      call.get k = ((Dict.get (Dict.set (Dict.del kw "exclude_crosscorrs") "include_crosscorrs" (vnot (Dict.get kw "exclude_crosscorrs"))) k).or p.2) := by
    intro k _ hk p hp hpk
    simp only [List.mem_cons, List.not_mem_nil, or_false, not_or] at hk
    have := hb2 p hp
    rw [hpk] at this
    rw [this, Dict.get_cons, if_neg (Ne.symm hk.1), Dict.get_cons, if_neg (Ne.symm hk.2.1), Dict.get_cons, if_neg (Ne.symm hk.2.2)]
  refine ⟨fun o ho hne => ?_, ?_, ⟨ds, f, (starThenOne_iff _ _ _).1 hpos, ?_, ?_⟩, ?_, fun p hp hno hsp' => ?_⟩
  · obtain ⟨v, hv, hg⟩ := hget o ho
    refine ⟨v, ?_, hg⟩
    have hos := hsp o ho
    have hm := hin o ho hne
    obtain ⟨p, hp, hpn⟩ := List.mem_map.1 hm
    rw [hfull o.name hm (fun h => hos (by simp only [List.mem_cons, List.not_mem_nil, or_false] at h ⊢; tauto)) p hp hpn, Dict.get_set, if_neg, Dict.get_del, if_neg hne, hv]
    · rfl
    · intro h; exact hos (by simp [← h])
  · have hmem : ("include_crosscorrs", some (Val.bool true)) ∈ pspecSig := by simp [pspecSig]
    rw [hfull "include_crosscorrs" (List.mem_map.2 ⟨_, hmem, rfl⟩) (by simp) _ hmem rfl, Dict.get_set, if_pos rfl]
    have ho : (⟨"exclude_crosscorrs", .flag, .str, .bool false⟩ : Opt) ∈ pspecOpts := by simp [pspecOpts]
    obtain ⟨v, hv, hg⟩ := hget _ ho
    simp only at hv
    rw [hv]
    have hlast : lastArgs occs "exclude_crosscorrs" = Option.none ↔ "exclude_crosscorrs" ∉ occs.map (·.1) := by
      unfold lastArgs
      simp only [Option.map_eq_none_iff, List.getLast?_eq_none_iff, List.filter_eq_nil_iff, List.mem_map, not_exists, not_and, decide_eq_true_eq]
    by_cases hin : "exclude_crosscorrs" ∈ occs.map (·.1)
    · cases hl : lastArgs occs "exclude_crosscorrs" with
      | none => exact absurd hin (hlast.1 hl)
      | some args =>
        rcases hg.2 args hl with ⟨_, _, rfl⟩ | ⟨h, _⟩ | ⟨h, _⟩
        · simp [vnot, hin]
        · cases h
        · rcases h with h | ⟨h, _⟩ <;> cases h
    · rw [hg.1 (hlast.2 hin)]
      simp [vnot, hin]
  · have hmem : ("dsets", (Option.none : Option Val)) ∈ pspecSig := by simp [pspecSig]
    rw [hb2 _ hmem, Dict.get_cons, if_pos rfl]; rfl
  · have hmem : ("filename", (Option.none : Option Val)) ∈ pspecSig := by simp [pspecSig]
    rw [hb2 _ hmem, Dict.get_cons, if_neg (by simp), Dict.get_cons, if_pos rfl]; rfl
  · have hmem : ("history", some (Val.str "")) ∈ pspecSig := by simp [pspecSig]
    rw [hb2 _ hmem, Dict.get_cons, if_neg (by simp), Dict.get_cons, if_neg (by simp), Dict.get_cons, if_pos rfl]; rfl
  · simp only [List.mem_cons, List.not_mem_nil, or_false, not_or] at hsp'
    rw [hfull p.1 (List.mem_map.2 ⟨p, hp, rfl⟩) (by simp only [List.mem_cons, List.not_mem_nil, or_false, not_or]; tauto) p hp rfl, Dict.get_set,
      if_neg (Ne.symm hsp'.2.2.2), Dict.get_del]
    have hk : kw.get p.1 = Option.none := by
      rw [Dict.get_eq_none_iff]
      intro hc
      simp only [hkw, Dict.keys, List.mem_map, List.mem_filter] at hc
      obtain ⟨e, ⟨he, hne⟩, hee⟩ := hc
      have : e.1 ∈ ns.keys := List.mem_map.2 ⟨e, he, rfl⟩
      rw [parse_keys hns'] at this
      obtain ⟨o, ho, hon⟩ := this
      rcases List.mem_append.1 ho with ho | ho
      · exact hno (List.mem_map.2 ⟨o, ho, by rw [hon, hee]⟩)
      · simp only [Bool.not_eq_true', List.contains_eq_mem, List.mem_map, decide_eq_false_iff_not, not_exists, not_and] at hne
        exact hne o ho hon
    rw [hk]
    split <;> simp

/-- C138: a command line of the `pspec_run` script is accepted exactly if its options exist with arguments that mean something, and its positional arguments
stand together, at least one. In particular all options are parameters of `pspec_run`: no call fails. -/
theorem C138_pspec_run_accepted {fl : Str → Option Rat} {extra : List Opt} {argv : List Str} {occs : List (String × List Str)} {chunks : List (List Str)}
    (hx : Fresh pspecOpts extra) :
    (∃ call, pspecScript fl extra argv occs chunks = .ok call) ↔
      (∀ oc ∈ occs, ∃ o ∈ pspecOpts ++ extra, o.name = oc.1 ∧ ∃ v, Means fl o oc.2 v) ∧ ∃ c, chunks.filter (fun c => c ≠ []) = [c] := by
  obtain ⟨hnp, hns, hin, hsp, hreq⟩ := pspec_names
  rw [← parseAll_ok_iff hx (ns := (pspecOpts ++ extra).map (fun o => (o.name, o.dflt)))]
  constructor
  · rintro ⟨call, h⟩
    unfold pspecScript at h
    split at h
    · cases h
    rename_i ns hns'
    split at h
    · cases h
    rename_i ds f hpos
    exact ⟨⟨ns, hns'⟩, _, (starThenOne_iff _ _ _).1 hpos⟩
  · rintro ⟨⟨ns, hns'⟩, c, hc⟩
    have hcne : c ≠ [] := by
      have : c ∈ chunks.filter (fun c => c ≠ []) := by rw [hc]; simp
      simpa using (List.mem_filter.1 this).2
    obtain ⟨ds, f, rfl⟩ : ∃ ds f, c = ds ++ [f] := ⟨c.dropLast, c.getLast hcne, (List.dropLast_append_getLast hcne).symm⟩
    unfold pspecScript
    have hp : parse fl (pspecOpts ++ extra) occs = .ok ns := hns'
    rw [hp, (starThenOne_iff _ _ _).2 hc]
    simp only
    apply bind_ok
    · intro k hk
      simp only [Dict.keys, List.map_cons, List.mem_cons] at hk
      rcases hk with rfl | rfl | rfl | hk
      · simp [pspecSig]
      · simp [pspecSig]
      · simp [pspecSig]
      · change k ∈ Dict.keys _ at hk
        rw [Dict.keys_set_mem] at hk
        rcases hk with rfl | hk
        · simp [pspecSig]
        · simp only [Dict.del, Dict.keys, List.mem_map, List.mem_filter, decide_eq_true_eq] at hk
          obtain ⟨e, ⟨⟨he, hne⟩, hex⟩, rfl⟩ := hk
          have hkk : e.1 ∈ ns.keys := List.mem_map.2 ⟨e, he, rfl⟩
          rw [parse_keys hp] at hkk
          obtain ⟨o, ho, hon⟩ := hkk
          rcases List.mem_append.1 ho with ho | ho
          · rw [← hon]; exact hin o ho (by rw [hon]; exact hex)
          · simp only [Bool.not_eq_true', List.contains_eq_mem, List.mem_map, decide_eq_false_iff_not, not_exists, not_and] at hne
            exact absurd hon (hne o ho)
    · intro p hp2 hpn
      have := (hreq p hp2).1 hpn
      simp only [List.mem_cons, List.not_mem_nil, or_false] at this
      rcases this with h | h
      · rw [h]; simp [Dict.keys]
      · rw [h]; simp [Dict.keys]

theorem boot_names : (bootOpts.map (·.name)).Nodup ∧ (bootSig.map (·.1)).Nodup ∧ (∀ o ∈ bootOpts, o.name ∈ bootSig.map (·.1)) ∧
    (∀ o ∈ bootOpts, o.name ≠ "filename") ∧ (∀ p ∈ bootSig, p.2 = Option.none ↔ p.1 = "filename") := by
  refine ⟨by decide +kernel, by decide +kernel, by simp [bootOpts, bootSig], by simp [bootOpts], by simp [bootSig]⟩

/-- C138: what `bootstrap_run` is called with by its script. Missing: options of `type=bool` cannot be switched off (`C138_finding_bool`), and nothing is
called if the parser has options added to it (`C138_finding_bootstrap_unfiltered`). -/
theorem C138_bootstrap_run_partial {fl : Str → Option Rat} {occs : List (String × List Str)} {chunks : List (List Str)} :
    (∀ call, bootScript fl [] occs chunks = .ok call →
      (∀ o ∈ bootOpts, ∃ v, call.get o.name = some v ∧ Given fl occs o v) ∧
      (∃ f, chunks.flatten = [f] ∧ call.get "filename" = some (.str (String.ofList f))) ∧
      (∀ p ∈ bootSig, p.1 ∉ bootOpts.map (·.name) → p.1 ≠ "filename" → call.get p.1 = p.2)) ∧
    ((∃ call, bootScript fl [] occs chunks = .ok call) ↔
      (∀ oc ∈ occs, ∃ o ∈ bootOpts, o.name = oc.1 ∧ ∃ v, Means fl o oc.2 v) ∧ ∃ f, chunks.flatten = [f]) := by
  obtain ⟨hnp, hns, hin, hsp, hreq⟩ := boot_names
  have hone : ∀ f, oneArg chunks = .ok f ↔ chunks.flatten = [f] := by
    intro f
    unfold oneArg
    constructor
    · intro h
      split at h
      · rename_i g hg; have := Except.ok.inj h; subst this; exact hg
      · cases h
    · intro h; rw [h]
  unfold bootScript
  rw [List.append_nil]
  constructor
  · intro call h
    split at h
    · cases h
    rename_i ns hns'
    split at h
    · cases h
    rename_i f hpos
    obtain ⟨hb1, hb2⟩ := bind_get hns h
    refine ⟨fun o ho => ?_, ⟨f, (hone f).1 hpos, ?_⟩, fun p hp hno hf => ?_⟩
    · obtain ⟨v, hv, hg⟩ := parse_given hnp hns' ho
      refine ⟨v, ?_, hg⟩
      obtain ⟨p, hp, hpn⟩ := List.mem_map.1 (hin o ho)
      have := hb2 p hp
      rw [hpn] at this
      rw [this, Dict.get_cons, if_neg (Ne.symm (hsp o ho)), hv]; rfl
    · have hmem : ("filename", (Option.none : Option Val)) ∈ bootSig := by simp [bootSig]
      rw [hb2 _ hmem, Dict.get_cons, if_pos rfl]; rfl
    · rw [hb2 p hp, Dict.get_cons, if_neg (Ne.symm hf)]
      have hk : ns.get p.1 = Option.none := by
        rw [Dict.get_eq_none_iff, parse_keys hns']
        rintro ⟨o, ho, hon⟩
        exact hno (List.mem_map.2 ⟨o, ho, hon⟩)
      rw [hk]; rfl
  · rw [← parseAll_ok_iff hnp (ns := bootOpts.map (fun o => (o.name, o.dflt)))]
    constructor
    · rintro ⟨call, h⟩
      split at h
      · cases h
      rename_i ns hns'
      split at h
      · cases h
      rename_i f hpos
      exact ⟨⟨ns, hns'⟩, f, (hone f).1 hpos⟩
    · rintro ⟨⟨ns, hns'⟩, f, hf⟩
      have hp : parse fl bootOpts occs = .ok ns := hns'
      rw [hp, (hone f).2 hf]
      apply bind_ok
      · intro k hk
        simp only [Dict.keys, List.map_cons, List.mem_cons] at hk
        rcases hk with rfl | hk
        · simp [bootSig]
        · change k ∈ ns.keys at hk
          rw [parse_keys hp] at hk
          obtain ⟨o, ho, rfl⟩ := hk
          exact hin o ho
      · intro p hp2 hpn
        rw [(hreq p hp2).1 hpn]; simp [Dict.keys]

/-- C138 finding: an option of `type=bool` means true for every non-empty text, so `--normal_std False`, `--time_avg False` and `--symmetric_taper False` all
switch the feature on. -/
theorem C138_finding_bool (fl : Str → Option Rat) (a : Str) (ha : a ≠ []) (v : Val) (o : Opt)
    (ho : o ∈ [(⟨"normal_std", .one, .bool, .bool true⟩ : Opt), ⟨"time_avg", .one, .bool, .bool false⟩, ⟨"robust_std", .one, .bool, .bool false⟩,
      ⟨"symmetric_taper", .one, .bool, .bool true⟩]) :
    o ∈ bootOpts ++ pspecOpts ∧ (Means fl o [a] v → v = .bool true) := by
  have hk : o.kind = .one ∧ o.conv = .bool ∧ o ∈ bootOpts ++ pspecOpts := by
    simp only [List.mem_cons, List.not_mem_nil, or_false] at ho
    rcases ho with rfl | rfl | rfl | rfl <;> simp [bootOpts, pspecOpts]
  refine ⟨hk.2.2, fun h => ?_⟩
  rw [← optValue_iff] at h
  unfold optValue at h
  rw [hk.1] at h
  simp only [hk.2.1, convert, ha, ne_eq, not_false_eq_true, decide_true] at h
  exact (Except.ok.inj h).symm

/-- C138 finding: an option that the library adds to the parser is passed on to `bootstrap_run`, so that every command line fails. -/
theorem C138_finding_bootstrap_unfiltered (fl : Str → Option Rat) (extra : List Opt) (o : Opt) (ho : o ∈ extra) (hn : o.name ∉ bootSig.map (·.1))
    (occs : List (String × List Str)) (chunks : List (List Str)) : ∃ e, bootScript fl extra occs chunks = .error e := by
  unfold bootScript
  split
  · exact ⟨_, rfl⟩
  rename_i ns hns'
  split
  · exact ⟨_, rfl⟩
  rename_i f hpos
  refine ⟨.type, ?_⟩
  unfold bind
  rw [if_pos]
  simp only [List.any_eq_true, Bool.not_eq_true']
  refine ⟨o.name, ?_, by simpa using hn⟩
  have : o.name ∈ ns.keys := (parse_keys hns' _).2 ⟨o, List.mem_append_right _ ho, rfl⟩
  simp only [Dict.keys, List.map_cons, List.mem_cons]
  exact .inr this

/-- C138 finding: without any option, the script does not do what the function does without any argument: it keeps permutations, does not store window
functions, broadcast flags, or overwrite, is silent and expects another file type. All other options have the defaults of the function (an empty
name extension stands for none). -/
theorem C138_finding_defaults :
    (∀ t ∈ ["exclude_permutations", "store_window", "broadcast_dset_flags", "overwrite", "verbose"],
      (⟨t, .flag, .str, .bool false⟩ : Opt) ∈ pspecOpts ∧ (t, some (Val.bool true)) ∈ pspecSig) ∧
    (⟨"file_type", .one, .str, .str "uvh5"⟩ : Opt) ∈ pspecOpts ∧ ("file_type", some (Val.str "miriad")) ∈ pspecSig ∧
    (∀ o ∈ pspecOpts, o.name ∉ ["exclude_permutations", "store_window", "broadcast_dset_flags", "overwrite", "verbose", "file_type", "psname_ext", "exclude_crosscorrs"] →
      (o.name, some o.dflt) ∈ pspecSig) := by
  refine ⟨?_, by simp [pspecOpts], by simp [pspecSig], ?_⟩
  · simp [pspecOpts, pspecSig]
  · simp [pspecOpts, pspecSig]

/-- C138: the same for the bootstrap: fewer resamples, no robust estimate, silent. -/
theorem C138_finding_bootstrap_defaults :
    (⟨"Nsamples", .one, .int, .int 100⟩ : Opt) ∈ bootOpts ∧ ("Nsamples", some (Val.int 1000)) ∈ bootSig ∧
    (⟨"robust_std", .one, .bool, .bool false⟩ : Opt) ∈ bootOpts ∧ ("robust_std", some (Val.bool true)) ∈ bootSig ∧
    (∀ o ∈ bootOpts, o.name ∉ ["Nsamples", "robust_std", "verbose"] → (o.name, some o.dflt) ∈ bootSig) := by
  refine ⟨by simp [bootOpts], by simp [bootSig], by simp [bootOpts], by simp [bootSig], ?_⟩
  simp [bootOpts, bootSig]

/-- C138 finding: psc_merge_spectra.py fails on every command line, as the parser it asks for does not exist. -/
theorem C138_finding_merge (fl : Str → Option Rat) (extra : List Opt) (occs : List (String × List Str)) (chunks : List (List Str)) :
    mergeScript fl extra occs chunks = .error .attr := by
  unfold mergeScript
  rw [if_neg (by decide +kernel)]

/-- C138 finding: nor would it work with the parser that does exist: the option is called otherwise. -/
theorem C138_finding_merge_option (fl : Str → Option Rat) (extra : List Opt) (hx : "uvp_split_str" ∉ extra.map (·.name)) (occs : List (String × List Str))
    (chunks : List (List Str)) : ∃ e, mergeWith "uvp_split_str" fl extra occs chunks = .error e := by
  unfold mergeWith
  split
  · exact ⟨_, rfl⟩
  rename_i ns hns
  split
  · exact ⟨_, rfl⟩
  have : ns.get "uvp_split_str" = Option.none := by
    rw [Dict.get_eq_none_iff, parse_keys hns]
    rintro ⟨o, ho, hn⟩
    rcases List.mem_append.1 ho with ho | ho
    · simp only [combineOpts, List.mem_cons, List.not_mem_nil, or_false] at ho
      rcases ho with rfl | rfl | rfl <;> simp at hn
    · exact hx (List.mem_map.2 ⟨o, ho, hn⟩)
  have h2 : attrOf ns "uvp_split_str" = .error .attr := by unfold attrOf; rw [this]
  rw [h2]
  exact ⟨.attr, rfl⟩

/-- C138: with both names corrected the call is accepted and has the values of the command line. -/
theorem C138_merge_corrected {fl : Str → Option Rat} {extra : List Opt} (hx : Fresh combineOpts extra) {occs : List (String × List Str)} {chunks : List (List Str)} {f : Str}
    (hc : chunks.flatten = [f]) (hopt : ∀ oc ∈ occs, ∃ o ∈ combineOpts ++ extra, o.name = oc.1 ∧ ∃ v, Means fl o oc.2 v) :
    ∃ call, mergeWith "dset_split_str" fl extra occs chunks = .ok call ∧ call.get "psc" = some (.str (String.ofList f)) ∧
      ∀ o ∈ combineOpts, ∃ v, call.get o.name = some v ∧ Given fl occs o v := by
  obtain ⟨ns, hns⟩ := (parseAll_ok_iff (fl := fl) hx (occs := occs) (ns := (combineOpts ++ extra).map (fun o => (o.name, o.dflt)))).2 hopt
  have h1 : parse fl (combineOpts ++ extra) occs = .ok ns := hns
  have h2 : oneArg chunks = .ok f := by unfold oneArg; rw [hc]
  have hg : ∀ o ∈ combineOpts, ∃ v, ns.get o.name = some v ∧ Given fl occs o v := fun o ho => parse_given hx h1 (List.mem_append_left _ ho)
  obtain ⟨a, ha, ga⟩ := hg ⟨"dset_split_str", .one, .str, .str "_x_"⟩ (by simp [combineOpts])
  obtain ⟨b, hb, gb⟩ := hg ⟨"ext_split_str", .one, .str, .str "_"⟩ (by simp [combineOpts])
  obtain ⟨c, hcc, gc⟩ := hg ⟨"verbose", .flag, .str, .bool false⟩ (by simp [combineOpts])
  simp only at ha hb hcc
  have hm : mergeWith "dset_split_str" fl extra occs chunks =
      bind combineSig [("psc", vstr f), ("dset_split_str", a), ("ext_split_str", b), ("verbose", c)] := by
    unfold mergeWith attrOf
    simp only [h1, h2, ha, hb, hcc]
  obtain ⟨call, hcall⟩ := bind_ok (sig := combineSig) (kw := [("psc", vstr f), ("dset_split_str", a), ("ext_split_str", b), ("verbose", c)])
    (by simp [Dict.keys, combineSig]) (by simp [Dict.keys, combineSig])
  obtain ⟨_, hget⟩ := bind_get (by decide +kernel) hcall
  refine ⟨call, hm.trans hcall, ?_, ?_⟩
  · rw [hget ("psc", Option.none) (by simp [combineSig])]; rfl
  · intro o ho
    simp only [combineOpts, List.mem_cons, List.not_mem_nil, or_false] at ho
    rcases ho with rfl | rfl | rfl
    · exact ⟨a, by rw [hget ("dset_split_str", some (.str "_x_")) (by simp [combineSig])]; rfl, ga⟩
    · exact ⟨b, by rw [hget ("ext_split_str", some (.str "_")) (by simp [combineSig])]; rfl, gb⟩
    · exact ⟨c, by rw [hget ("verbose", some (.bool true)) (by simp [combineSig])]; rfl, gc⟩

/-- C138 finding: the call of `pspec` in pspec_red.py is a `TypeError` for all inputs: three of its keywords are not parameters. -/
theorem C138_finding_red (bls : Val) (i j : Int) (weight norm taper avg auto perm little : Val) : redCall bls i j weight norm taper avg auto perm little = .error .type := by
  unfold redCall bind
  rw [if_pos]
  simp only [Dict.keys, List.map_cons, List.map_nil, List.any_cons, List.any_nil]
  decide +kernel

/-- A command line that is accepted: two data sets, an output file, and options, one of them given twice. -/
example : ∃ call, pspecScript (fun _ => Option.none) [⟨"log_level", .one, .str, .str "INFO"⟩] ["pspec_run.py".toList, "a".toList]
    [("taper", ["bh".toList]), ("overwrite", []), ("spw_ranges", ["1~5".toList]), ("taper", ["none".toList])] [["a".toList, "b".toList, "out.h5".toList], []] = .ok call := by
  rw [C138_pspec_run_accepted (by unfold Fresh; decide +kernel)]
  refine ⟨?_, ["a".toList, "b".toList, "out.h5".toList], by decide +kernel⟩
  intro oc hoc
  simp only [List.mem_cons, List.not_mem_nil, or_false] at hoc
  rcases hoc with rfl | rfl | rfl | rfl
  · exact ⟨⟨"taper", .one, .str, .str "none"⟩, by simp [pspecOpts], rfl, _, .inr (.inl ⟨rfl, _, rfl, .inl ⟨rfl, rfl⟩⟩)⟩
  · exact ⟨⟨"overwrite", .flag, .str, .bool false⟩, by simp [pspecOpts], rfl, _, .inl ⟨rfl, rfl, rfl⟩⟩
  · exact ⟨⟨"spw_ranges", .one, .intTuples, .none⟩, by simp [pspecOpts], rfl, _, .inr (.inl ⟨rfl, _, rfl, .inr (.inr (.inr (.inr (.inl ⟨rfl, [[1, 5]], by decide +kernel, rfl⟩))))⟩)⟩
  · exact ⟨⟨"taper", .one, .str, .str "none"⟩, by simp [pspecOpts], rfl, _, .inr (.inl ⟨rfl, _, rfl, .inl ⟨rfl, rfl⟩⟩)⟩

end HeraPspec.Cli
