import Verif.Model.Hdf5
import Verif.Lemmas.Labels
import Verif.Lemmas.MapE
import Mathlib.Data.List.Nodup
import Mathlib.Data.List.Dedup

namespace HeraPspec.Hdf5
open HeraPspec.ArgParse (Str)
open HeraPspec.UVP (mapE mapE_ok_iff)
open HeraPspec.Params

theorem bindE {ε α β : Type} {x : Except ε α} {f : α → Except ε β} {b : β} (h : (x >>= f) = .ok b) :
    ∃ a, x = .ok a ∧ f a = .ok b := by
  cases x with
  | error e => cases h
  | ok a => exact ⟨a, rfl, h⟩

/-! ### Names -/

theorem dig (i : ℕ) : ∀ c ∈ Nat.toDigits 10 i, c.isDigit = true :=
  fun _ hc => Nat.isDigit_of_mem_toDigits (by decide) (by decide) hc

theorem split_digits {q q' : Str} {c c' : Char} {ds ds' : Str} (hc : c.isDigit = false) (hc' : c'.isDigit = false)
    (hd : ∀ x ∈ ds, x.isDigit = true) (hd' : ∀ x ∈ ds', x.isDigit = true) (h : q ++ c :: ds = q' ++ c' :: ds') :
    q = q' ∧ c = c' ∧ ds = ds' := by
  have hr := congrArg List.reverse h
  simp only [List.reverse_append, List.reverse_cons, List.append_assoc, List.singleton_append] at hr
  have t1 : (ds.reverse ++ c :: q.reverse).takeWhile Char.isDigit = ds.reverse := by
    rw [List.takeWhile_append_of_pos (by simpa using hd)]; simp [hc]
  have t2 : (ds'.reverse ++ c' :: q'.reverse).takeWhile Char.isDigit = ds'.reverse := by
    rw [List.takeWhile_append_of_pos (by simpa using hd')]; simp [hc']
  have e : ds.reverse = ds'.reverse := by rw [← t1, ← t2, hr]
  rw [e] at hr
  have h2 := List.append_cancel_left hr
  simp only [List.cons.injEq, List.reverse_inj] at h2 e
  exact ⟨h2.2, h2.1, e⟩

/-- The prefixes of dataset names. -/
def prefixes : List Str := [pData, pWgt, pInt, pNsmp, pWin, pKperp, pKpara, pCovR, pCovI]

theorem prefix_split {p : Str} (h : p ∈ prefixes) : p = p.dropLast ++ ['w'] := by
  revert p; decide +kernel

theorem dsName_inj {p q : Str} {i j : ℕ} (hp : p ∈ prefixes) (hq : q ∈ prefixes) (h : dsName p i = dsName q j) :
    p = q ∧ i = j := by
  unfold dsName at h
  rw [prefix_split hp, prefix_split hq, List.append_assoc, List.append_assoc] at h
  obtain ⟨h1, -, h3⟩ := split_digits (by decide) (by decide) (dig i) (dig j) h
  exact ⟨by rw [prefix_split hp, prefix_split hq, h1], Labels.toDigits_inj h3⟩

theorem statName_inj {s t : Str} {i j : ℕ} (h : statName s i = statName t j) : s = t ∧ i = j := by
  unfold statName at h
  obtain ⟨h1, -, h3⟩ := split_digits (by decide) (by decide) (dig i) (dig j) (List.append_cancel_left h)
  exact ⟨h1, Labels.toDigits_inj h3⟩

theorem dsName_head {p : Str} (hp : p ∈ prefixes) (i : ℕ) : ∃ c r, dsName p i = c :: r ∧ c ≠ 's' := by
  have : ∃ c r, p = c :: r ∧ c ≠ 's' := by
    simp only [prefixes, List.mem_cons, List.not_mem_nil, or_false] at hp
    rcases hp with rfl | rfl | rfl | rfl | rfl | rfl | rfl | rfl | rfl <;> exact ⟨_, _, rfl, by decide⟩
  obtain ⟨c, r, rfl, h⟩ := this
  exact ⟨c, r ++ Nat.toDigits 10 i, rfl, h⟩

theorem dsName_ne_statName {p : Str} (hp : p ∈ prefixes) (i j : ℕ) (s : Str) : dsName p i ≠ statName s j := by
  obtain ⟨c, r, h, hc⟩ := dsName_head hp i
  rw [h]
  intro he
  exact hc (List.cons.inj he).1

theorem meta_last : ∀ k ∈ metaDsets, ∀ c ∈ k.getLast?, c.isDigit = false := by decide +kernel

theorem last_digits (q : Str) (i : ℕ) : ∃ c ∈ (q ++ Nat.toDigits 10 i).getLast?, c.isDigit = true := by
  have h : Nat.toDigits 10 i ≠ [] := Nat.toDigits_ne_nil
  refine ⟨(Nat.toDigits 10 i).getLast h, ?_, dig i _ (List.getLast_mem h)⟩
  rw [List.getLast?_append_of_ne_nil _ h, List.getLast?_eq_some_getLast h]
  rfl

theorem not_meta_of_digits {q : Str} {i : ℕ} : q ++ Nat.toDigits 10 i ∉ metaDsets := by
  intro h
  obtain ⟨c, hc, hd⟩ := last_digits q i
  rw [meta_last _ h c hc] at hd
  cases hd

theorem dsName_not_meta (p : Str) (i : ℕ) : dsName p i ∉ metaDsets := not_meta_of_digits

theorem statName_not_meta (s : Str) (i : ℕ) : statName s i ∉ metaDsets := by
  have : statName s i = (pStats ++ (s ++ ['_'])) ++ Nat.toDigits 10 i := by simp [statName]
  rw [this]; exact not_meta_of_digits

theorem idxOf_append_cons {l r : Str} {c : Char} (h : c ∉ l) : (l ++ c :: r).idxOf c = l.length := by
  rw [List.idxOf_append_of_notMem h]; simp

theorem statOf_statName (s : Str) (i : ℕ) : statOf (statName s i) = s := by
  have hmem : '_' ∈ statName s i := by simp [statName]
  have hu : '_' ∉ (Nat.toDigits 10 i).reverse := by
    intro h
    have := dig i _ (List.mem_reverse.1 h)
    revert this; decide
  have hr : (statName s i).reverse = (Nat.toDigits 10 i).reverse ++ '_' :: (s.reverse ++ pStats.reverse) := by
    simp [statName]
  have h1 : (statName s i).reverse.idxOf '_' = (Nat.toDigits 10 i).length := by
    rw [hr, idxOf_append_cons hu, List.length_reverse]
  have h2 : (statName s i).idxOf '_' = 5 := by
    have : statName s i = ['s', 't', 'a', 't', 's'] ++ '_' :: (s ++ '_' :: Nat.toDigits 10 i) := rfl
    rw [this, idxOf_append_cons (by decide)]; rfl
  have hl : (statName s i).length - 1 - (Nat.toDigits 10 i).length = 6 + s.length := by
    simp [statName, pStats]; omega
  unfold statOf
  rw [if_pos hmem, h1, h2, hl]
  have : statName s i = (pStats ++ s) ++ '_' :: Nat.toDigits 10 i := by simp [statName]
  rw [this, List.take_left' (by simp [pStats]; omega)]
  exact List.drop_left' rfl

/-! ### Creating datasets -/
variable {V : Type}

theorem createAll_eq : ∀ (l : List (Str × V)) (g r : Dict Str V), createAll g l = .ok r →
    r = g ++ l ∧ (g.keys.Nodup → r.keys.Nodup) := by
  intro l
  induction l with
  | nil => intro g r h; simp only [createAll, Except.ok.injEq] at h; subst h; simp
  | cons e l ih =>
    intro g r h
    unfold createAll at h
    split at h
    · cases h
    · rename_i hh
      obtain ⟨h1, h2⟩ := ih _ _ h
      refine ⟨by rw [h1]; simp, fun hn => h2 ?_⟩
      have : e.1 ∉ g.keys := by
        intro hm
        apply hh
        rw [Dict.has, List.any_eq_true]
        obtain ⟨x, hx, hx2⟩ := List.mem_map.1 hm
        exact ⟨x, hx, by simpa using hx2⟩
      unfold Dict.keys at this hn ⊢
      rw [List.map_append, List.nodup_append]
      refine ⟨hn, by simp, ?_⟩
      intro a ha b hb
      simp only [List.map_cons, List.map_nil, List.mem_singleton] at hb
      subst hb
      exact fun h => this (h ▸ ha)

theorem has_iff (d : Dict Str V) (k : Str) : Dict.has d k = true ↔ (Dict.get d k).isSome := by
  rw [Dict.get_isSome_iff, Dict.has, List.any_eq_true, Dict.keys, List.mem_map]
  simp

/-! ### What a written file contains -/

/-- The arrays an object has, as the writer sees it. -/
def uNames (u : Obj V) (ex : Bool) : List (Str × Str) :=
  names (Dict.has u.dicts n_window_function_array) ex (Dict.has u.dicts n_cov_array_real)

theorem names_prefixes (w e c : Bool) : ∀ n ∈ names w e c, n.2 ∈ prefixes := by
  revert w e c; decide +kernel

theorem names_fst_inj (w e c : Bool) : ∀ n ∈ names w e c, ∀ m ∈ names w e c, n.2 = m.2 → n = m := by
  revert w e c; decide +kernel

theorem mapE_mem {α β ε : Type} {f : α → Except ε β} {l : List α} {r : List β} (h : mapE f l = .ok r) (b : β) :
    b ∈ r ↔ ∃ a ∈ l, f a = .ok b := by
  rw [mapE_ok_iff] at h
  induction h with
  | nil => simp
  | cons h1 h2 ih =>
    rename_i x y xs ys
    simp only [List.mem_cons, ih]
    constructor
    · rintro (rfl | ⟨a, ha, hb⟩)
      · exact ⟨_, Or.inl rfl, h1⟩
      · exact ⟨a, Or.inr ha, hb⟩
    · rintro ⟨a, rfl | ha, hb⟩
      · rw [h1] at hb; cases hb; exact Or.inl rfl
      · exact Or.inr ⟨a, ha, hb⟩

theorem mapE_total {α β ε : Type} {f : α → Except ε β} {l : List α} {r : List β} (h : mapE f l = .ok r) :
    ∀ a ∈ l, ∃ b, f a = .ok b := by
  rw [mapE_ok_iff] at h
  induction h with
  | nil => simp
  | cons h1 _ ih =>
    intro a ha
    rcases List.mem_cons.1 ha with rfl | ha
    · exact ⟨_, h1⟩
    · exact ih a ha

theorem map_ok {α β ε : Type} {x : Except ε α} {f : α → β} {b : β} : x.map f = .ok b ↔ ∃ a, x = .ok a ∧ f a = b := by
  cases x <;> simp [Except.map]

/-- What `write_to_group` leaves in the file. -/
structure Written (c : Codec V) (u : Obj V) (f : File V) (sp : V) (ex : Bool) : Prop where
  hsp : attr u.attrs n_spw_array = .ok sp
  hex : exactFlag c u = .ok ex
  nodup : f.dsets.keys.Nodup
  mem : ∀ k v, (k, v) ∈ f.dsets ↔ (k ∈ metaDsets ∧ Dict.get u.attrs k = some v) ∨
    (∃ n ∈ uNames u ex, ∃ i ∈ c.spws sp, k = dsName n.2 i ∧ fetchMem u.dicts n.1 i = .ok v) ∨
    (∃ s ∈ (u.stats.getD []).keys, ∃ i ∈ c.spws sp, k = statName s i ∧ fetchMem (u.stats.getD []) s i = .ok v)
  arr : ∀ n ∈ uNames u ex, ∀ i ∈ c.spws sp, ∃ v, fetchMem u.dicts n.1 i = .ok v
  st : ∀ s ∈ (u.stats.getD []).keys, ∀ i ∈ c.spws sp, ∃ v, fetchMem (u.stats.getD []) s i = .ok v
  attrs : f.attrs = Dict.set (metaAttrs.filterMap (fun k => (Dict.get u.attrs k).map (fun v => (k, c.enc k v)))) n_pspec_type c.tag

theorem written_of_write {c : Codec V} {u : Obj V} {f : File V} {rc : Bool} (h : writeGroup c u rc = .ok f) :
    (rc = true → check c u false = .ok ()) ∧ ∃ sp ex, Written c u f sp ex := by
  have hck : (rc = true → check c u false = .ok ()) ∧ writeBody c u = .ok f := by
    cases rc with
    | false => exact ⟨by simp, h⟩
    | true =>
      obtain ⟨x, hx, hb⟩ := bindE (x := check c u false) (f := fun _ => writeBody c u) h
      exact ⟨fun _ => hx, hb⟩
  refine ⟨hck.1, ?_⟩
  replace h := hck.2
  unfold writeBody at h
  obtain ⟨sp, hsp, h⟩ := bindE h
  obtain ⟨ex, hex, h⟩ := bindE h
  obtain ⟨hs, hhs, h⟩ := bindE h
  obtain ⟨ss, hss, h⟩ := bindE h
  obtain ⟨ds, hds, h⟩ := bindE h
  simp only [pure, Except.pure, Except.ok.injEq] at h
  subst h
  obtain ⟨he, hn⟩ := createAll_eq _ _ _ hds
  refine ⟨sp, ex, ?_⟩
  constructor
  · exact hsp
  · exact hex
  · exact hn (by simp [Dict.keys])
  · intro k v
    show (k, v) ∈ ds ↔ _
    rw [he, List.nil_append, List.mem_append, List.mem_append, or_assoc]
    refine or_congr ?_ (or_congr ?_ ?_)
    · rw [List.mem_filterMap]
      constructor
      · rintro ⟨a, ha, hb⟩
        rw [Option.map_eq_some_iff] at hb
        obtain ⟨w, hw, hb⟩ := hb
        cases hb
        exact ⟨ha, hw⟩
      · rintro ⟨ha, hb⟩
        exact ⟨k, ha, by rw [hb]; rfl⟩
    · rw [List.mem_flatten]
      constructor
      · rintro ⟨l, hl, hk⟩
        obtain ⟨i, hi, hl⟩ := (mapE_mem hhs l).1 hl
        obtain ⟨n, hn, hb⟩ := (mapE_mem hl _).1 hk
        obtain ⟨w, hw, hb⟩ := map_ok.1 hb
        cases hb
        exact ⟨n, hn, i, List.mem_dedup.1 hi, rfl, hw⟩
      · rintro ⟨n, hn, i, hi, rfl, hv⟩
        obtain ⟨l, hl⟩ := mapE_total hhs i (List.mem_dedup.2 hi)
        refine ⟨l, (mapE_mem hhs l).2 ⟨i, List.mem_dedup.2 hi, hl⟩, (mapE_mem hl _).2 ⟨n, hn, map_ok.2 ⟨v, hv, rfl⟩⟩⟩
    · rw [List.mem_flatten]
      constructor
      · rintro ⟨l, hl, hk⟩
        obtain ⟨s, hs', hl⟩ := (mapE_mem hss l).1 hl
        obtain ⟨i, hi, hb⟩ := (mapE_mem hl _).1 hk
        obtain ⟨w, hw, hb⟩ := map_ok.1 hb
        cases hb
        exact ⟨s, hs', i, List.mem_dedup.1 hi, rfl, hw⟩
      · rintro ⟨s, hs', i, hi, rfl, hv⟩
        obtain ⟨l, hl⟩ := mapE_total hss s hs'
        refine ⟨l, (mapE_mem hss l).2 ⟨s, hs', hl⟩, (mapE_mem hl _).2 ⟨i, List.mem_dedup.2 hi, map_ok.2 ⟨v, hv, rfl⟩⟩⟩
  · intro n hn i hi
    obtain ⟨l, hl⟩ := mapE_total hhs i (List.mem_dedup.2 hi)
    obtain ⟨b, hb⟩ := mapE_total hl n hn
    obtain ⟨v, hv, -⟩ := map_ok.1 hb
    exact ⟨v, hv⟩
  · intro s hs' i hi
    obtain ⟨l, hl⟩ := mapE_total hss s hs'
    obtain ⟨b, hb⟩ := mapE_total hl i (List.mem_dedup.2 hi)
    obtain ⟨v, hv, -⟩ := map_ok.1 hb
    exact ⟨v, hv⟩
  · rfl

namespace Written
variable {c : Codec V} {u : Obj V} {f : File V} {sp : V} {ex : Bool}

theorem get_iff (w : Written c u f sp ex) (k : Str) (v : V) : Dict.get f.dsets k = some v ↔ (k, v) ∈ f.dsets :=
  ⟨Dict.mem_of_get, Dict.get_of_mem w.nodup⟩

theorem get_ds (w : Written c u f sp ex) {p : Str} (hp : p ∈ prefixes) (i : ℕ) (v : V) :
    Dict.get f.dsets (dsName p i) = some v ↔ i ∈ c.spws sp ∧ ∃ a, (a, p) ∈ uNames u ex ∧ fetchMem u.dicts a i = .ok v := by
  rw [w.get_iff, w.mem]
  constructor
  · rintro (⟨h, -⟩ | ⟨n, hn, j, hj, he, hv⟩ | ⟨s, -, j, -, he, -⟩)
    · exact absurd h (dsName_not_meta p i)
    · obtain ⟨h1, h2⟩ := dsName_inj hp (names_prefixes _ _ _ n hn) he
      subst h1 h2
      exact ⟨hj, n.1, hn, hv⟩
    · exact absurd he (dsName_ne_statName hp i j s)
  · rintro ⟨hi, a, ha, hv⟩
    exact Or.inr (Or.inl ⟨_, ha, i, hi, rfl, hv⟩)

theorem get_stat (w : Written c u f sp ex) (s : Str) (i : ℕ) (v : V) :
    Dict.get f.dsets (statName s i) = some v ↔
      s ∈ (u.stats.getD []).keys ∧ i ∈ c.spws sp ∧ fetchMem (u.stats.getD []) s i = .ok v := by
  rw [w.get_iff, w.mem]
  constructor
  · rintro (⟨h, -⟩ | ⟨n, hn, j, hj, he, hv⟩ | ⟨t, ht, j, hj, he, hv⟩)
    · exact absurd h (statName_not_meta s i)
    · exact absurd he.symm (dsName_ne_statName (names_prefixes _ _ _ n hn) j i s)
    · obtain ⟨rfl, rfl⟩ := statName_inj he
      exact ⟨ht, hj, hv⟩
  · rintro ⟨h1, h2, h3⟩
    exact Or.inr (Or.inr ⟨s, h1, i, h2, rfl, h3⟩)

theorem get_meta (w : Written c u f sp ex) {k : Str} (hk : k ∈ metaDsets) : Dict.get f.dsets k = Dict.get u.attrs k := by
  apply Option.ext
  intro v
  rw [w.get_iff, w.mem]
  constructor
  · rintro (⟨-, h⟩ | ⟨n, hn, j, hj, he, hv⟩ | ⟨t, ht, j, hj, he, hv⟩)
    · exact h
    · exact absurd (he ▸ hk) (dsName_not_meta n.2 j)
    · exact absurd (he ▸ hk) (statName_not_meta t j)
  · intro h; exact Or.inl ⟨hk, h⟩

theorem mem_statNames (w : Written c u f sp ex) (s : Str) :
    s ∈ statNames f ↔ s ∈ (u.stats.getD []).keys ∧ c.spws sp ≠ [] := by
  unfold statNames
  rw [List.mem_dedup, List.mem_map]
  constructor
  · rintro ⟨k, hk, rfl⟩
    rw [List.mem_filter] at hk
    obtain ⟨e, he, hek⟩ := List.mem_map.1 hk.1
    obtain ⟨k', v⟩ := e
    simp only at hek
    subst hek
    rcases (w.mem k' v).1 he with ⟨h, -⟩ | ⟨n, hn, j, hj, he, hv⟩ | ⟨t, ht, j, hj, he, hv⟩
    · exfalso
      have : ∀ k ∈ metaDsets, ['s', 't', 'a', 't', 's'].isPrefixOf k = false := by decide +kernel
      rw [this k' h] at hk
      exact absurd hk.2 (by decide)
    · exfalso
      obtain ⟨ch, r, hr, hne⟩ := dsName_head (names_prefixes _ _ _ n hn) j
      rw [he, hr] at hk
      have h2 := hk.2
      simp [List.isPrefixOf] at h2
      exact hne h2.1.symm
    · rw [he, statOf_statName]
      exact ⟨ht, fun h => by rw [h] at hj; cases hj⟩
  · rintro ⟨hs, hn⟩
    obtain ⟨i, hi⟩ := List.exists_mem_of_ne_nil _ hn
    obtain ⟨v, hv⟩ := w.st s hs i hi
    refine ⟨statName s i, List.mem_filter.2 ⟨?_, by simp [statName, pStats, List.isPrefixOf]⟩, statOf_statName s i⟩
    exact List.mem_map.2 ⟨(statName s i, v), (w.mem _ _).2 (Or.inr (Or.inr ⟨s, hs, i, hi, rfl, hv⟩)), rfl⟩

end Written

/-! ### Dictionaries -/

theorem get_append {W : Type} (d e : Dict Str W) (k : Str) : Dict.get (d ++ e) k = (Dict.get d k).or (Dict.get e k) := by
  induction d with
  | nil => simp
  | cons x d ih =>
    rw [List.cons_append, Dict.get_cons, Dict.get_cons, ih]
    split <;> simp

theorem get_filter {W : Type} (d : Dict Str W) (q : Str → Bool) (k : Str) :
    Dict.get (d.filter (fun e => q e.1)) k = if q k then Dict.get d k else none := by
  induction d with
  | nil => simp
  | cons x d ih =>
    rw [List.filter_cons]
    split
    · rw [Dict.get_cons, Dict.get_cons, ih]
      by_cases h : x.1 = k
      · subst h; simp_all
      · simp [h]
    · rw [ih, Dict.get_cons]
      by_cases h : x.1 = k
      · subst h; simp_all
      · simp [h]

theorem get_map {W W' : Type} (d : Dict Str W) (g : Str → W → W') (k : Str) :
    Dict.get (d.map (fun e => (e.1, g e.1 e.2))) k = (Dict.get d k).map (g k) := by
  induction d with
  | nil => simp
  | cons x d ih =>
    rw [List.map_cons, Dict.get_cons, Dict.get_cons, ih]
    by_cases h : x.1 = k
    · subst h; simp
    · simp [h]

theorem get_filterMap {W : Type} (g : Str → Option W) (l : List Str) (k : Str) :
    Dict.get (l.filterMap (fun k => (g k).map (fun v => (k, v)))) k = if k ∈ l then g k else none := by
  induction l with
  | nil => simp
  | cons x l ih =>
    rw [List.filterMap_cons]
    cases hg : g x with
    | none =>
      simp only [Option.map_none, ih]
      by_cases h : k = x
      · subst h; simp [hg]
      · simp [h]
    | some v =>
      simp only [Option.map_some, Dict.get_cons, ih]
      by_cases h : x = k
      · subst h; simp [hg]
      · simp [h, Ne.symm h]

theorem get_foldl_set {W : Type} : ∀ (l : List (Str × W)) (d : Dict Str W) (k : Str), (l.map (·.1)).Nodup →
    Dict.get (l.foldl (fun d e => Dict.set d e.1 e.2) d) k = (Dict.get l k).or (Dict.get d k) := by
  intro l
  induction l with
  | nil => intro d k _; simp
  | cons x l ih =>
    intro d k hn
    rw [List.map_cons, List.nodup_cons] at hn
    rw [List.foldl_cons, ih _ _ hn.2, Dict.get_set, Dict.get_cons]
    by_cases h : x.1 = k
    · subst h
      have : Dict.get l x.1 = none := (Dict.get_eq_none_iff _ _).2 hn.1
      simp [this]
    · simp [h]

theorem foldl_set_append {W : Type} : ∀ (l : List (Str × W)) (d : Dict Str W), (l.map (·.1)).Nodup →
    (∀ k ∈ l.map (·.1), k ∉ d.map (·.1)) → l.foldl (fun d e => Dict.set d e.1 e.2) d = d ++ l := by
  intro l
  induction l with
  | nil => intro d _ _; simp
  | cons x l ih =>
    intro d hn hd
    have hs : ∀ (d : Dict Str W) (k : Str) (v : W), k ∉ d.map (·.1) → Dict.set d k v = d ++ [(k, v)] := by
      intro d k v
      induction d with
      | nil => intro _; rfl
      | cons y d ihd =>
        intro h
        obtain ⟨a, b⟩ := y
        simp only [List.map_cons, List.mem_cons, not_or] at h
        unfold Dict.set
        rw [if_neg (Ne.symm h.1), ihd h.2]; rfl
    rw [List.map_cons, List.nodup_cons] at hn
    rw [List.foldl_cons, hs d x.1 x.2 (hd _ (by simp)), ih _ hn.2 ?_]
    · simp
    · intro k hk
      rw [List.map_append, List.mem_append, not_or]
      refine ⟨hd k (by simp only [List.map_cons]; exact List.mem_cons_of_mem _ hk), ?_⟩
      simp only [List.map_cons, List.map_nil, List.mem_singleton]
      rintro rfl
      exact hn.1 hk

theorem foldl_set_same {W : Type} : ∀ (l d pre : List (Str × W)), ((pre ++ d).map (·.1)).Nodup → l.map (·.1) = d.map (·.1) →
    l.foldl (fun d e => Dict.set d e.1 e.2) (pre ++ d) = pre ++ l := by
  intro l
  induction l with
  | nil => intro d pre _ h; simp at h; subst h; rfl
  | cons x l ih =>
    intro d pre hn h
    cases d with
    | nil => simp at h
    | cons y d =>
      simp only [List.map_cons, List.cons.injEq] at h
      have hs : ∀ (pre : Dict Str W), ((pre ++ y :: d).map (·.1)).Nodup →
          Dict.set (pre ++ y :: d) x.1 x.2 = pre ++ x :: d := by
        intro pre
        induction pre with
        | nil => intro _; obtain ⟨a, b⟩ := y; simp only at h; simp only [List.nil_append, Dict.set, ← h.1, if_true]
        | cons z pre ihp =>
          intro hn
          obtain ⟨a, b⟩ := z
          rw [List.cons_append, List.map_cons, List.nodup_cons] at hn
          rw [List.cons_append]
          unfold Dict.set
          rw [if_neg ?_, ihp hn.2]
          · rfl
          · intro hax
            apply hn.1
            show a ∈ _
            rw [hax, h.1]
            simp
      rw [List.foldl_cons, hs pre hn]
      have e : pre ++ x :: d = (pre ++ [x]) ++ d := by simp
      rw [e, ih d (pre ++ [x]) ?_ h.2]
      · simp
      · rw [← e]
        have : (pre ++ x :: d).map (·.1) = (pre ++ y :: d).map (·.1) := by simp [h.1]
        rw [this]; exact hn

/-! ### Reading -/

theorem loadOne_get {fetch : ℕ → Except Err V} {d : Dict ℕ V} : ∀ (l : List ℕ),
    loadOne fetch (fun v => v) (l.zip l) = .ok d → ∀ s v, Dict.get d s = some v ↔ s ∈ l ∧ fetch s = .ok v := by
  intro l
  induction l generalizing d with
  | nil =>
    intro h s v
    simp only [loadOne, List.zip_nil_left, mapE, Except.ok.injEq] at h
    subst h; simp
  | cons x l ih =>
    intro h s v
    simp only [loadOne, List.zip_cons_cons, mapE_ok_iff] at h
    cases h with
    | cons h1 h2 =>
      rename_i b r
      obtain ⟨w, hw, rfl⟩ := map_ok.1 h1
      rw [Dict.get_cons]
      by_cases hs : x = s
      · subst hs
        simp only [if_true, Option.some.injEq, List.mem_cons, true_or, true_and]
        rw [hw]; simp
      · simp only [hs, if_false, List.mem_cons, Ne.symm hs, false_or]
        exact ih (mapE_ok_iff.2 h2) s v

theorem names_fst_nodup (w e c : Bool) : ((names w e c).map (·.1)).Nodup := by
  revert w e c; decide +kernel

theorem mapE_keys {W : Type} {l : List (Str × Str)} {g : Str × Str → Except Err W} {r : List (Str × W)}
    (h : mapE (fun n => (g n).map (fun d => (n.1, d))) l = .ok r) : r.map (·.1) = l.map (·.1) := by
  rw [mapE_ok_iff] at h
  induction h with
  | nil => rfl
  | cons h1 _ ih =>
    obtain ⟨w, -, rfl⟩ := map_ok.1 h1
    simp [ih]

theorem mapE_keys' {W : Type} {l : List Str} {g : Str → Except Err W} {r : List (Str × W)}
    (h : mapE (fun n => (g n).map (fun d => (n, d))) l = .ok r) : r.map (·.1) = l := by
  rw [mapE_ok_iff] at h
  induction h with
  | nil => rfl
  | cons h1 _ ih =>
    obtain ⟨w, -, rfl⟩ := map_ok.1 h1
    simp [ih]

theorem mapE_congr {α β ε : Type} {f g : α → Except ε β} {l : List α} (h : ∀ a ∈ l, f a = g a) : mapE f l = mapE g l := by
  induction l with
  | nil => rfl
  | cons x l ih =>
    unfold mapE
    rw [h x List.mem_cons_self, ih (fun a ha => h a (List.mem_cons_of_mem _ ha))]

theorem attr_ok {d : Dict Str V} {k : Str} {v : V} : attr d k = .ok v ↔ Dict.get d k = some v := by
  unfold attr
  cases Dict.get d k <;> simp

theorem fetchMem_ok {d : Dict Str (Dict ℕ V)} {a : Str} {i : ℕ} {v : V} :
    fetchMem d a i = .ok v ↔ ∃ e, Dict.get d a = some e ∧ Dict.get e i = some v := by
  unfold fetchMem
  cases h : Dict.get d a with
  | none => simp
  | some e => cases h2 : Dict.get e i <;> simp [h2]

theorem fetchDs_ok {f : File V} {k : Str} {v : V} : fetchDs f k = .ok v ↔ Dict.get f.dsets k = some v := by
  unfold fetchDs
  cases Dict.get f.dsets k <;> simp

theorem metaAttrs_nodup : metaAttrs.Nodup := by decide +kernel

theorem keys_filterMap_sub {W : Type} (g : Str → Option W) (l : List Str) (hn : l.Nodup) :
    ((l.filterMap (fun k => (g k).map (fun v => (k, v)))).map (·.1)).Nodup := by
  have : (l.filterMap (fun k => (g k).map (fun v => (k, v)))).map (·.1) = l.filter (fun k => (g k).isSome) := by
    induction l with
    | nil => rfl
    | cons x l ih =>
      have := ih (List.nodup_cons.1 hn).2
      rw [List.filterMap_cons]
      cases hg : g x <;> simp [hg, this]
  rw [this]
  exact hn.filter _

theorem get_clear (u : Obj V) (k : Str) : Dict.get (clear u) k = if k ∈ allParams then none else Dict.get u.attrs k := by
  unfold clear
  rw [get_filter u.attrs (fun k => !(allParams.contains k))]
  by_cases h : k ∈ allParams <;> simp [h]

theorem metaAttrs_not_dsets : ∀ k ∈ metaAttrs, k ∉ metaDsets := by decide +kernel
theorem metaAttrs_all : ∀ k ∈ metaAttrs, k ∈ allParams := by decide +kernel
theorem exact_meta : n_exact_windows ∈ metaAttrs := by decide +kernel
theorem tag_not_meta : n_pspec_type ∉ metaAttrs := by decide +kernel

variable {c : Codec V} {u : Obj V} {f : File V} {sp : V} {ex : Bool}

theorem Written.get_attr (w : Written c u f sp ex) {k : Str} (hk : k ∈ metaAttrs) :
    Dict.get f.attrs k = (Dict.get u.attrs k).map (c.enc k) := by
  rw [w.attrs, Dict.get_set, if_neg (fun h : n_pspec_type = k => tag_not_meta (h ▸ hk))]
  have e : (fun k => (Dict.get u.attrs k).map (fun v => (k, c.enc k v))) =
      (fun k => ((Dict.get u.attrs k).map (c.enc k)).map (fun v => (k, v))) := by
    funext k; simp [Function.comp_def]
  rw [e, get_filterMap, if_pos hk]

theorem Written.attrs_nodup (w : Written c u f sp ex) : f.attrs.keys.Nodup := by
  rw [w.attrs]
  apply Dict.keys_set_nodup
  have e : (fun k => (Dict.get u.attrs k).map (fun v => (k, c.enc k v))) =
      (fun k => ((Dict.get u.attrs k).map (c.enc k)).map (fun v => (k, v))) := by
    funext k; simp [Function.comp_def]
  rw [e]
  exact keys_filterMap_sub _ _ metaAttrs_nodup

theorem Written.get_readMeta (w : Written c u f sp ex) (hc : ∀ k v, c.dec k (c.enc k v) = v)
    (hx : (Dict.get u.attrs n_exact_windows).isSome) (old : Obj V) (k : Str) :
    Dict.get (readMeta c old f) k =
      if k ∈ metaAttrs then Dict.get u.attrs k
      else if k ∈ metaDsets then (Dict.get u.attrs k).or (Dict.get (clear old) k)
      else Dict.get (clear old) k := by
  unfold readMeta
  have hxf : Dict.has f.attrs n_exact_windows = true := by
    rw [has_iff, w.get_attr exact_meta]; simpa using hx
  simp only [hxf, if_true]
  have hf : Dict.get ((f.attrs.filter (fun e => metaAttrs.contains e.1)).map (fun e => (e.1, c.dec e.1 e.2))) k =
      if k ∈ metaAttrs then Dict.get u.attrs k else none := by
    rw [get_map _ c.dec, get_filter f.attrs (fun k => metaAttrs.contains k)]
    by_cases hk : k ∈ metaAttrs
    · rw [w.get_attr hk]
      simp only [List.contains_eq_mem, hk, decide_true, if_true, Option.map_map]
      have : c.dec k ∘ c.enc k = id := by funext v; exact hc k v
      rw [this]; simp
    · simp [hk]
  unfold setAll
  rw [get_foldl_set, get_foldl_set, hf, get_filter f.dsets (fun k => metaDsets.contains k)]
  · by_cases hk : k ∈ metaAttrs
    · have h2 := metaAttrs_not_dsets k hk
      have h3 : Dict.get (clear old) k = none := by rw [get_clear, if_pos (metaAttrs_all k hk)]
      simp [hk, h2, h3]
    · by_cases h2 : k ∈ metaDsets
      · simp [hk, h2, w.get_meta h2]
      · simp [hk, h2]
  · have h1 : ((f.attrs.filter (fun e => metaAttrs.contains e.1)).map (·.1)).Nodup :=
      w.attrs_nodup.sublist (List.Sublist.map _ List.filter_sublist)
    simpa [List.map_map, Function.comp_def] using h1
  · exact w.nodup.sublist (List.Sublist.map _ List.filter_sublist)

theorem flag_names (w e c : Bool) :
    (decide (pWin ∈ (names w e c).map (·.2)) = w) ∧ (decide (pKperp ∈ (names w e c).map (·.2)) = (w && e)) ∧
      (decide (pCovR ∈ (names w e c).map (·.2)) = c) ∧ names w (w && e) c = names w e c := by
  revert w e c; decide +kernel

theorem Written.has_ds (w : Written c u f sp ex) (h0 : 0 ∈ c.spws sp) {p : Str} (hp : p ∈ prefixes) :
    Dict.has f.dsets (dsName p 0) = decide (p ∈ (uNames u ex).map (·.2)) := by
  rw [Bool.eq_iff_iff, has_iff, decide_eq_true_eq, Option.isSome_iff_exists, List.mem_map]
  constructor
  · rintro ⟨v, hv⟩
    obtain ⟨-, a, ha, -⟩ := (w.get_ds hp 0 v).1 hv
    exact ⟨_, ha, rfl⟩
  · rintro ⟨⟨a, q⟩, hn, rfl⟩
    obtain ⟨v, hv⟩ := w.arr _ hn 0 h0
    exact ⟨v, (w.get_ds hp 0 v).2 ⟨h0, a, hn, hv⟩⟩

theorem Written.flags (w : Written c u f sp ex) (h0 : 0 ∈ c.spws sp) :
    Dict.has f.dsets (dsName pWin 0) = Dict.has u.dicts n_window_function_array ∧
    Dict.has f.dsets (dsName pKperp 0) = (Dict.has u.dicts n_window_function_array && ex) ∧
    Dict.has f.dsets (dsName pCovR 0) = Dict.has u.dicts n_cov_array_real := by
  have h := flag_names (Dict.has u.dicts n_window_function_array) ex (Dict.has u.dicts n_cov_array_real)
  refine ⟨?_, ?_, ?_⟩
  · rw [w.has_ds h0 (by simp [prefixes])]; exact h.1
  · rw [w.has_ds h0 (by simp [prefixes])]; exact h.2.1
  · rw [w.has_ds h0 (by simp [prefixes])]; exact h.2.2.1

theorem get_of_mem_nodup {W : Type} {d : Dict Str W} (hn : (d.map (·.1)).Nodup) {k : Str} {v : W} (h : (k, v) ∈ d) :
    Dict.get d k = some v := Dict.get_of_mem hn h

theorem mapE_get {W : Type} {l : List (Str × Str)} {g : Str × Str → Except Err W} {r : List (Str × W)}
    (hn : (l.map (·.1)).Nodup) (h : mapE (fun n => (g n).map (fun d => (n.1, d))) l = .ok r) (a : Str) (d : W) :
    Dict.get r a = some d ↔ ∃ p, (a, p) ∈ l ∧ g (a, p) = .ok d := by
  have hk := mapE_keys h
  constructor
  · intro hg
    obtain ⟨⟨a', p⟩, hn', hb⟩ := (mapE_mem h _).1 (Dict.mem_of_get hg)
    obtain ⟨x, hx, he⟩ := map_ok.1 hb
    cases he
    exact ⟨p, hn', hx⟩
  · rintro ⟨p, hp, hg⟩
    apply get_of_mem_nodup (by rw [hk]; exact hn)
    exact (mapE_mem h _).2 ⟨_, hp, map_ok.2 ⟨d, hg, rfl⟩⟩

theorem mapE_get' {W : Type} {l : List Str} {g : Str → Except Err W} {r : List (Str × W)}
    (hn : l.Nodup) (h : mapE (fun n => (g n).map (fun d => (n, d))) l = .ok r) (a : Str) (d : W) :
    Dict.get r a = some d ↔ a ∈ l ∧ g a = .ok d := by
  have hk := mapE_keys' h
  constructor
  · intro hg
    obtain ⟨a', hn', hb⟩ := (mapE_mem h _).1 (Dict.mem_of_get hg)
    obtain ⟨x, hx, he⟩ := map_ok.1 hb
    cases he
    exact ⟨hn', hx⟩
  · rintro ⟨hp, hg⟩
    apply get_of_mem_nodup (by rw [hk]; exact hn)
    exact (mapE_mem h _).2 ⟨_, hp, map_ok.2 ⟨d, hg, rfl⟩⟩

/-- What a complete read of the arrays gives. -/
structure Loaded (c : Codec V) (u : Obj V) (f : File V) (sp : V) (ex : Bool) (at' : Dict Str V) (r : Obj V) : Prop where
  attrs : r.attrs = at'
  keys : r.dicts.map (·.1) = (uNames u ex).map (·.1)
  arr : ∀ a s v, (∃ e, Dict.get r.dicts a = some e ∧ Dict.get e s = some v) ↔
    (∃ p, (a, p) ∈ uNames u ex) ∧ s ∈ c.spws sp ∧ fetchMem u.dicts a s = .ok v
  stats : r.stats = none ∧ statNames f = [] ∨ ∃ ss, r.stats = some ss ∧ ss.map (·.1) = statNames f ∧ statNames f ≠ []
  stat : ∀ n s v, (∃ e, Dict.get (r.stats.getD []) n = some e ∧ Dict.get e s = some v) ↔
    n ∈ (u.stats.getD []).keys ∧ s ∈ c.spws sp ∧ fetchMem (u.stats.getD []) n s = .ok v

theorem Written.load (w : Written c u f sp ex) (h0 : 0 ∈ c.spws sp) (at' : Dict Str V) :
    ∃ r, arrays ⟨[], [], none⟩ ⟨at', (c.spws sp).zip (c.spws sp), fun _ v => v, fun v => v⟩
        (Dict.has f.dsets (dsName pWin 0)) (Dict.has f.dsets (dsName pKperp 0)) (Dict.has f.dsets (dsName pCovR 0)) (statNames f)
        (fun n i => fetchDs f (dsName n.2 i)) (fun s i => fetchDs f (statName s i)) = .ok r ∧ Loaded c u f sp ex at' r := by
  have hne : ((c.spws sp).zip (c.spws sp)).isEmpty = false := by
    cases h : c.spws sp with
    | nil => rw [h] at h0; cases h0
    | cons x l => rfl
  have hns : names (Dict.has f.dsets (dsName pWin 0)) (Dict.has f.dsets (dsName pKperp 0))
      (Dict.has f.dsets (dsName pCovR 0) && !((c.spws sp).zip (c.spws sp)).isEmpty) = uNames u ex := by
    rw [hne, (w.flags h0).1, (w.flags h0).2.1, (w.flags h0).2.2, Bool.not_false, Bool.and_true]
    exact (flag_names _ _ _).2.2.2
  have hzip : ∀ p ∈ (c.spws sp).zip (c.spws sp), p.2 ∈ c.spws sp := fun p hp => (List.of_mem_zip hp).2
  have hd : ∀ n ∈ uNames u ex, ∃ d, loadOne (fun i => fetchDs f (dsName n.2 i)) (fun v => v) ((c.spws sp).zip (c.spws sp)) = .ok d := by
    intro n hn
    apply UVP.mapE_exists
    intro p hp
    obtain ⟨v, hv⟩ := w.arr n hn p.2 (hzip p hp)
    exact ⟨(p.1, v), map_ok.2 ⟨v, fetchDs_ok.2 ((w.get_ds (names_prefixes _ _ _ n hn) p.2 v).2 ⟨hzip p hp, n.1, hn, hv⟩), rfl⟩⟩
  have hs : ∀ s ∈ statNames f, ∃ d, loadOne (fun i => fetchDs f (statName s i)) (fun v => v) ((c.spws sp).zip (c.spws sp)) = .ok d := by
    intro s hs
    apply UVP.mapE_exists
    intro p hp
    obtain ⟨hk, -⟩ := (w.mem_statNames s).1 hs
    obtain ⟨v, hv⟩ := w.st s hk p.2 (hzip p hp)
    exact ⟨(p.1, v), map_ok.2 ⟨v, fetchDs_ok.2 ((w.get_stat s p.2 v).2 ⟨hk, hzip p hp, hv⟩), rfl⟩⟩
  obtain ⟨ds, hds⟩ : ∃ ds, mapE (fun n : Str × Str => (loadOne (fun i => fetchDs f (dsName n.2 i)) (fun v => v)
      ((c.spws sp).zip (c.spws sp))).map (fun d => (n.1, d))) (uNames u ex) = .ok ds := by
    apply UVP.mapE_exists
    intro n hn
    obtain ⟨d, hd⟩ := hd n hn
    exact ⟨(n.1, d), map_ok.2 ⟨d, hd, rfl⟩⟩
  obtain ⟨ss, hss⟩ : ∃ ss, mapE (fun s : Str => (loadOne (fun i => fetchDs f (statName s i)) (fun v => v)
      ((c.spws sp).zip (c.spws sp))).map (fun d => (s, d))) (statNames f) = .ok ss := by
    apply UVP.mapE_exists
    intro n hn
    obtain ⟨d, hd⟩ := hs n hn
    exact ⟨(n, d), map_ok.2 ⟨d, hd, rfl⟩⟩
  have hkeys := mapE_keys hds
  have hnod : (ds.map (·.1)).Nodup := by rw [hkeys]; exact names_fst_nodup _ _ _
  have hasg : assign [] ds = ds := by
    unfold assign
    rw [foldl_set_append ds [] hnod (by simp)]; rfl
  refine ⟨⟨at', ds, if (statNames f).isEmpty || ((c.spws sp).zip (c.spws sp)).isEmpty then none else some ss⟩, ?_, ?_⟩
  · unfold arrays
    simp only [hns]
    rw [show (mapE (fun n : Str × Str => (loadOne (fun i => fetchDs f (dsName n.2 i)) (fun v => v)
      ((c.spws sp).zip (c.spws sp))).map (fun d => (n.1, d))) (uNames u ex)) = .ok ds from hds]
    show (mapE (fun s : Str => (loadOne (fun i => fetchDs f (statName s i)) (fun v => v)
      ((c.spws sp).zip (c.spws sp))).map (fun d => (s, d))) (statNames f) >>= _) = _
    rw [hss]
    show Except.ok _ = _
    rw [hasg]
  · constructor
    · rfl
    · exact hkeys
    · intro a s v
      show (∃ e, Dict.get ds a = some e ∧ _) ↔ _
      constructor
      · rintro ⟨e, he, hv⟩
        obtain ⟨p, hp, hl⟩ := (mapE_get (names_fst_nodup _ _ _) hds a e).1 he
        obtain ⟨h1, h2⟩ := (loadOne_get _ hl s v).1 hv
        obtain ⟨-, a', ha', hv'⟩ := (w.get_ds (names_prefixes _ _ _ _ hp) s v).1 (fetchDs_ok.1 h2)
        have := names_fst_inj _ _ _ _ hp _ ha' rfl
        cases this
        exact ⟨⟨p, hp⟩, h1, hv'⟩
      · rintro ⟨⟨p, hp⟩, h1, h2⟩
        obtain ⟨d, hd⟩ := hd _ hp
        refine ⟨d, (mapE_get (names_fst_nodup _ _ _) hds a d).2 ⟨p, hp, hd⟩, ?_⟩
        exact (loadOne_get _ hd s v).2 ⟨h1, fetchDs_ok.2 ((w.get_ds (names_prefixes _ _ _ _ hp) s v).2 ⟨h1, a, hp, h2⟩)⟩
    · by_cases he : statNames f = []
      · left; simp [he]
      · right
        refine ⟨ss, ?_, mapE_keys' hss, he⟩
        simp [hne, he]
    · intro n s v
      have hgd : (if (statNames f).isEmpty || ((c.spws sp).zip (c.spws sp)).isEmpty then none else some ss).getD [] = ss := by
        by_cases he : statNames f = []
        · rw [he, mapE] at hss
          cases hss
          simp [he]
        · simp [hne, he]
      show (∃ e, Dict.get ((if (statNames f).isEmpty || ((c.spws sp).zip (c.spws sp)).isEmpty then none else some ss).getD []) n = some e ∧ _) ↔ _
      rw [hgd]
      have hnd : (statNames f).Nodup := List.nodup_dedup _
      constructor
      · rintro ⟨e, he, hv⟩
        obtain ⟨hn, hl⟩ := (mapE_get' hnd hss n e).1 he
        obtain ⟨h1, h2⟩ := (loadOne_get _ hl s v).1 hv
        exact (w.get_stat n s v).1 (fetchDs_ok.1 h2)
      · intro h
        have hn : n ∈ statNames f := (w.mem_statNames n).2 ⟨h.1, fun h2 => by have := h.2.1; rw [h2] at this; cases this⟩
        obtain ⟨d, hd⟩ := hs n hn
        exact ⟨d, (mapE_get' hnd hss n d).2 ⟨hn, hd⟩, (loadOne_get _ hd s v).2 ⟨h.2.1, fetchDs_ok.2 ((w.get_stat n s v).2 h)⟩⟩

end HeraPspec.Hdf5
