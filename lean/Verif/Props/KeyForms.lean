import Verif.Lemmas.KeyForms
import Verif.Props.UVP
import Verif.Props.Polpair

/-!
C163: keys, baseline-pairs and polarization pairs mean the same in every spelling.
-/
namespace HeraPspec.KeyForms
open UVP (Represents Valid Obj Meas)

variable {num : Option String → String → Option Int} {D W : Type}

/-- **C163** (polarization pairs) A list of polarization pairs in any mixture of integers, strings and tuples, each standing
for an integer, finds the same indices as the integers (in `polpair_to_indices`), and makes `select` choose the same. -/
theorem C163_polpairs (u : UVP.UVP D W) (l : List PolArg) (ns : List Int) (h : List.Forall₂ (PolDen num) l ns) :
    polpairToIndicesV num u l = lift (UVP.polpairToIndices u ns) ∧
    polSelV num u (some l) = lift (UVP.polSel u (some ns)) := by
  have hi := (polInts_ok l ns).2 h
  constructor
  · simp only [polpairToIndicesV, hi]
  · cases h with
    | nil => rfl
    | cons h1 h2 => simp only [polSelV, hi]

/-- **C163** (polarization pairs) A list with an entry that stands for no integer (an unknown string, a tuple that is not a
pair) is refused by both. -/
theorem C163_polpairs_refused (u : UVP.UVP D W) (l : List PolArg) (h : ∃ a ∈ l, ∀ n, ¬ PolDen num a n) :
    (∃ e, polpairToIndicesV num u l = .error e) ∧ ∃ e, polSelV num u (some l) = .error e := by
  obtain ⟨a, ha, hn⟩ := h
  have hi : ∃ e, polInts num l = .error e := by
    cases hp : polInts num l with
    | error e => exact ⟨e, rfl⟩
    | ok ns =>
      exfalso
      have h2 := (polInts_ok l ns).1 hp
      clear hp
      induction h2 with
      | nil => cases ha
      | cons h3 _ ih =>
        rcases List.mem_cons.1 ha with rfl | ha
        · exact hn _ h3
        · exact ih ha
  obtain ⟨e, he⟩ := hi
  constructor
  · exact ⟨e, by simp only [polpairToIndicesV, he]⟩
  · cases l with
    | nil => cases ha
    | cons b l => exact ⟨e, by simp only [polSelV, he]⟩

/-- **C163** (baseline-pairs) A non-empty list of nested tuples finds the rows of the integers they stand for; a list of
integers is used as it is; an empty list or a mixture of both is refused. -/
theorem C163_blpairs (u : UVP.UVP D W) :
    (∀ l : List Antnums.Blp, l ≠ [] → blpairToIndicesV u (l.map .tup) = lift (UVP.blpairToIndices u (l.map blpCode))) ∧
    (∀ l : List Int, l ≠ [] → blpairToIndicesV u (l.map .num) = lift (UVP.blpairToIndices u l)) ∧
    (blpairToIndicesV u [] = .error (.uvp .index)) ∧
    ∀ l : List BlpArg, (∃ p, BlpArg.tup p ∈ l) → (∃ n, BlpArg.num n ∈ l) → ∃ e, blpairToIndicesV u l = .error e := by
  refine ⟨?_, ?_, rfl, ?_⟩
  · intro l hl; simp only [blpairToIndicesV, blpInts_tups l hl]
  · intro l hl; simp only [blpairToIndicesV, blpInts_nums l hl]
  · rintro l ⟨p, hp⟩ ⟨n, hn⟩
    have bad : ∀ (f : BlpArg → Except Err Int) (m : List BlpArg) (a : BlpArg), a ∈ m → (∀ b, f a ≠ .ok b) →
        ∃ e, mapE f m = .error e := by
      intro f m a ha hf
      cases hm : mapE f m with
      | error e => exact ⟨e, rfl⟩
      | ok bs =>
        exfalso
        have h2 := (mapE_ok _ _ _).1 hm
        clear hm
        induction h2 with
        | nil => cases ha
        | cons h3 _ ih =>
          rcases List.mem_cons.1 ha with rfl | ha
          · exact hf _ h3
          · exact ih ha
    have : ∃ e, blpInts l = .error e := by
      match l, hp, hn with
      | .tup q :: l, _, hn => exact bad asTup _ _ hn (by intro b h; cases h)
      | .num q :: l, hp, _ => exact bad asNum _ _ hp (by intro b h; cases h)
    obtain ⟨e, he⟩ := this
    exact ⟨e, by simp only [blpairToIndicesV, he]⟩

/-- **C163** (keys) A key, written as a tuple or as a dictionary, with any spelling of its baseline-pair and polarization pair,
finds what the three integers it stands for find, and `get_data` returns the same array. -/
theorem C163_keys (u : UVP.UVP D W) (k : Key) (s : Nat) (b p : Int) (h : KeyDen num k ((s : Int), b, p)) :
    keyToIndicesV num u k = lift (UVP.keyToIndices u s b p) ∧ getDataV num u k = lift (UVP.getData u s b p) := by
  have hi := (keyInts_ok k _).2 h
  constructor
  · simp only [keyToIndicesV, hi, Int.toNat_natCast, if_neg (show ¬ ((s : Int) < 0) by omega)]
  · simp only [getDataV, hi, Int.toNat_natCast, if_neg (show ¬ ((s : Int) < 0) by omega)]

/-- **C163** (keys) A key that stands for no integer key, or for a negative window, is refused. -/
theorem C163_keys_refused (u : UVP.UVP D W) (k : Key) (h : ∀ (s : Nat) (b p : Int), ¬ KeyDen num k ((s : Int), b, p)) :
    (∃ e, keyToIndicesV num u k = .error e) ∧ ∃ e, getDataV num u k = .error e := by
  cases hk : keyInts num k with
  | error e => exact ⟨⟨e, by simp only [keyToIndicesV, hk]⟩, ⟨e, by simp only [getDataV, hk]⟩⟩
  | ok t =>
    obtain ⟨s, b, p⟩ := t
    have hs : s < 0 := by
      by_contra hs
      refine h s.toNat b p ?_
      have := (keyInts_ok k _).1 hk
      rwa [Int.toNat_of_nonneg (by omega)]
    exact ⟨⟨_, by simp only [keyToIndicesV, hk, if_pos hs]; rfl⟩, ⟨_, by simp only [getDataV, hk, if_pos hs]; rfl⟩⟩

/-- **C163** (the data of a key) On a well-formed unfolded object every spelling of an existing key returns exactly the rows of
its baseline-pair, in order, with the entries of its polarization pair; every spelling of a key that does not exist is refused. -/
theorem C163_get_data {u : UVP.UVP D W} {o : Obj D W} (hr : Represents u o) (hv : Valid o) (hn : o.pols.Nodup)
    (k : Key) (s : Nat) (b p : Int) (h : KeyDen num k ((s : Int), b, p)) :
    ((o.folded = false ∧ s < o.nspw ∧ (∃ m ∈ o.rows, m.blpair = b) ∧ p ∈ o.pols) →
      getDataV num u k = .ok ((o.rows.filter (fun m => decide (m.blpair = b))).map
        (fun m => (m.dat s).filterMap (fun d => (o.pols.zip d).lookup p)))) ∧
    (¬ (s < o.nspw ∧ (∃ m ∈ o.rows, m.blpair = b) ∧ p ∈ o.pols) → ∃ e, getDataV num u k = .error e) := by
  rw [(C163_keys u k s b p h).2]
  constructor
  · rintro ⟨hf, hs, hb, hp⟩
    rw [UVP.C17_get_data_exact hr hv hn hf s b p hs hb hp]; rfl
  · intro hne
    obtain ⟨e, he⟩ := UVP.C17_unknown_key_rejected hr hv s b p hne
    exact ⟨.uvp e, by rw [he]; rfl⟩

/-- **C163** (the listed keys) If every stored polarization number has a name that reads back as that number, `get_all_keys`
succeeds; the keys it returns, with tuples and strings, stand one by one for the existing integer keys, in order; every one can be
read back with `get_data`, and gives what the integer key gives. -/
theorem C163_all_keys {u : UVP.UVP D W} {o : Obj D W} (hr : Represents u o) (hv : Valid o) (hn : o.pols.Nodup)
    (name : Int → Option String) (hnum : ∀ p s, name p = some s → num none s = some p)
    (hp : ∀ p ∈ o.pols, ∃ a b, -8 ≤ a ∧ a ≤ 4 ∧ -8 ≤ b ∧ b ≤ 4 ∧ p = (a + 20) * 100 + (b + 20) ∧
      (name a).isSome ∧ (name b).isSome) :
    ∃ ks, allKeysV name u = .ok ks ∧
      List.Forall₂ (fun k t => KeyDen num k ((t.1 : Int), t.2.1, t.2.2)) ks (UVP.getAllKeys u) ∧
      ∀ k ∈ ks, (∃ (s : Nat) (bp : Antnums.Blp) (x y : String), k = .tup [.num s, .blp bp, .pol [.str x, .str y]]) ∧
        ∃ (s : Nat) (b p : Int) (x : List (List D)), KeyDen num k ((s : Int), b, p) ∧ s < o.nspw ∧ (∃ m ∈ o.rows, m.blpair = b) ∧ p ∈ o.pols ∧
        getDataV num u k = .ok x ∧ UVP.getData u s b p = .ok x := by
  have hnames : ∀ p ∈ u.polpairArray, ∃ l, polNames name p = .ok l := by
    intro p hpm
    rw [hr.pols] at hpm
    obtain ⟨a, b, h1, h2, h3, h4, h5, h6, h7⟩ := hp p hpm
    have hi : Polpair.int2tuple p = .ok (a, b) := by
      have := Polpair.C04_roundtrip a b ⟨h1, h2⟩ ⟨h3, h4⟩
      rw [← this, h5, Polpair.tuple2int]
      simp only [add_comm]
    obtain ⟨x, hx⟩ := Option.isSome_iff_exists.1 h6
    obtain ⟨y, hy⟩ := Option.isSome_iff_exists.1 h7
    exact ⟨_, by simp only [polNames, hi, hx, hy]; rfl⟩
  obtain ⟨ks, hks⟩ := allKeysV_total hnames
  have hf := allKeysV_ok hnum Polpair.C04_reencode ks hks
  refine ⟨ks, hks, hf, ?_⟩
  intro k hk
  have : ∃ t ∈ UVP.getAllKeys u, KeyDen num k ((t.1 : Int), t.2.1, t.2.2) := by
    clear hks hnames
    generalize UVP.getAllKeys u = ts at hf
    induction hf with
    | nil => cases hk
    | cons h1 _ ih =>
      rcases List.mem_cons.1 hk with rfl | hk
      · exact ⟨_, by simp, h1⟩
      · obtain ⟨t, ht, hd⟩ := ih hk
        exact ⟨t, by simp [ht], hd⟩
  obtain ⟨t, ht, hd⟩ := this
  obtain ⟨s, b, p⟩ := t
  obtain ⟨x, hx⟩ := UVP.C17_all_keys_readable hr hv hn _ ht
  obtain ⟨h1, h2, h3⟩ := ((UVP.C17_all_keys_once hr hn).2 s b p).1 ht
  refine ⟨allKeysV_shape ks hks k hk, s, b, p, x, hd, h1, h2, h3, ?_, hx⟩
  rw [(C163_keys u k s b p hd).2]
  show lift (UVP.getData u s b p) = _
  rw [show UVP.getData u s b p = .ok x from hx]; rfl

/-- **C163** (errors) In a list the strings are all converted before the tuples: an unknown string raises `KeyError` even after
a malformed tuple, which by itself raises `AssertionError`. -/
theorem C163_error_order (u : UVP.UVP D W) (s : String) (hs : num none s = none) (a : PolEl) :
    polpairToIndicesV num u [.tup [a], .str s] = .error .polStr ∧
    polpairToIndicesV num u [.tup [a]] = .error (.uvp .assertion) := by
  constructor
  · simp only [polpairToIndicesV, polInts, mapE, passStr, tuple2int, elNum, hs]
  · rfl

/-- **C163** (a finding) The tuple spelling does not check antenna numbers: a pair with an antenna of 900 or more stands for the
integer of another pair, and `get_data` returns the data of that other pair. Here ((1, 2), (1, 1003)) reads ((1, 2), (2, 3)). -/
theorem C163_finding_other_pair :
    getDataV num (UVP.store UVP.exObj) (.tup [.num 1, .blp ((1, 2), (1, 1003)), .num 1414]) =
      getDataV num (UVP.store UVP.exObj) (.tup [.num 1, .blp ((1, 2), (2, 3)), .num 1414]) ∧
    getDataV num (UVP.store UVP.exObj) (.tup [.num 1, .blp ((1, 2), (1, 1003)), .num 1414]) = .ok [[6, 8], [16, 18]] := by
  have h1 : KeyDen num (.tup [.num 1, .blp ((1, 2), (1, 1003)), .num 1414]) (((1 : Nat) : Int), 101102102103, 1414) :=
    .tup _ _ _ _ _ (.tup ((1, 2), (1, 1003))) (.num _)
  have h2 : KeyDen num (.tup [.num 1, .blp ((1, 2), (2, 3)), .num 1414]) (((1 : Nat) : Int), 101102102103, 1414) :=
    .tup _ _ _ _ _ (.tup ((1, 2), (2, 3))) (.num _)
  rw [(C163_keys _ _ _ _ _ h1).2, (C163_keys _ _ _ _ _ h2).2]
  exact ⟨rfl, rfl⟩

/-- **C163** (a finding) `polpair_tuple2int` of a list forgets the orientation: a pair of strings that have a number only in the
given orientation is converted alone but the list of it raises `KeyError`. -/
theorem C163_finding_orientation (o s : String) (n : Int) (h : num (some o) s = some n) (hn : num none s = none) :
    tuple2intArg num (some o) (.tup [.str s, .str s]) = .ok ((n + 20) * 100 + (n + 20)) ∧
    tuple2intList num (some o) [.tup [.str s, .str s]] = .error .polStr := by
  constructor
  · simp only [tuple2intArg, tuple2int, elNum, h, Polpair.tuple2int]; rw [add_comm 20 n]
  · simp only [tuple2intList, mapE, tuple2intArg, tuple2int, elNum, hn]

/-- **C163** (orientation) Without an orientation the list and the single tuple agree, and pairs of integers do not depend on
it at all. -/
theorem C163_orientation (l : List PolArg) (ns : List Int) (o : Option String) (x y : Int) :
    (tuple2intList num none l = .ok ns ↔ List.Forall₂ (fun a n => tuple2intArg num none a = .ok n) l ns) ∧
    tuple2intArg num o (.tup [.num x, .num y]) = .ok ((x + 20) * 100 + (y + 20)) := by
  refine ⟨mapE_ok _ _ _, ?_⟩
  simp only [tuple2intArg, tuple2int, elNum, Polpair.tuple2int]
  rw [add_comm 20 x, add_comm 20 y]

/-- Names used in the examples: xx is -5, yy is -6, ee is -5 only with an orientation. -/
private def exNum : Option String → String → Option Int
  | none, "xx" => some (-5)
  | none, "yy" => some (-6)
  | some _, "ee" => some (-5)
  | _, _ => none

example : List.Forall₂ (PolDen exNum) [.str "xx", .tup [.str "yy", .num (-6)], .num 1415] [1515, 1414, 1415] :=
  .cons (.str "xx" (-5) rfl) (.cons (.tup _ _ (-6) (-6) (.str _ _ rfl) (.num _)) (.cons (.num _) .nil))

example : KeyDen exNum (.dict [("polpair", .str "xx"), ("spw", .num 1), ("blpair", .blp ((1, 2), (2, 3)))])
    (1, 101102102103, 1515) := .dict _ _ _ _ _ _ rfl rfl rfl rfl (.tup ((1, 2), (2, 3))) (.str _ (-5) rfl)

/-- The names -5 and -6 have. -/
private def exName (n : Int) : Option String := if n = -5 then some "xx" else if n = -6 then some "yy" else none

example : (∀ p s, exName p = some s → exNum none s = some p) ∧ (∀ p ∈ UVP.exObj.pols, ∃ a b, -8 ≤ a ∧ a ≤ 4 ∧ -8 ≤ b ∧ b ≤ 4 ∧
    p = (a + 20) * 100 + (b + 20) ∧ (exName a).isSome ∧ (exName b).isSome) := by
  constructor
  · intro p s h
    unfold exName at h
    split at h
    · cases h; subst p; rfl
    · split at h
      · cases h; subst p; rfl
      · cases h
  · intro p hp
    simp only [UVP.exObj, List.mem_cons, List.not_mem_nil, or_false] at hp
    rcases hp with rfl | rfl
    · exact ⟨-5, -5, by decide⟩
    · exact ⟨-6, -6, by decide⟩

/-- Concrete keys of every spelling. -/
example : getDataV exNum (UVP.store UVP.exObj) (.dict [("polpair", .str "yy"), ("spw", .num 1), ("blpair", .blp ((1, 2), (2, 3)))]) =
    .ok [[6, 8], [16, 18]] ∧ exNum none "ee" = none ∧ exNum (some "east") "ee" = some (-5) := by
  refine ⟨?_, rfl, rfl⟩
  have h : KeyDen exNum (.dict [("polpair", .str "yy"), ("spw", .num 1), ("blpair", .blp ((1, 2), (2, 3)))])
    (((1 : Nat) : Int), 101102102103, 1414) := .dict _ _ _ _ _ _ rfl rfl rfl rfl (.tup ((1, 2), (2, 3))) (.str _ (-6) rfl)
  rw [(C163_keys _ _ _ _ _ h).2]
  rfl

end HeraPspec.KeyForms
