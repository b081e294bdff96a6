import Verif.Model.Tsys
import Mathlib.Tactic.Push
import Mathlib.Tactic.NormNum
import Mathlib.Data.Real.Basic

/-! C119: `uvd_to_Tsys`. -/
namespace HeraPspec.Tsys
open HeraPspec.JyMk (upper)

/-! ### Specification -/

/-- The polarizations that are kept: those of one feed (`xx`, `yy`, `ee`, `nn`) and pseudo-Stokes I. -/
def Kept (p : Str) : Prop := upper p ∈ autoVisPols ∨ p = "pI".toList

instance (p : Str) : Decidable (Kept p) := by unfold Kept; infer_instance

/-- `ρ` lists, in increasing order, the positions of the elements that satisfy a condition. -/
def Enumerates {α : Type} (ρ : List ℕ) (l : List α) (f : α → Prop) : Prop :=
  ρ.Pairwise (· < ·) ∧ ∀ i : ℕ, i ∈ ρ ↔ ∃ x, l[i]? = some x ∧ f x

/-- Inputs for which there is something to convert: distinct polarizations, an autocorrelation, a polarization that is kept, and `pI`
among the pseudo-Stokes polarizations if there are any. -/
structure Convertible (u : UV) : Prop where
  nodup : u.pols.Nodup
  auto : ∃ b ∈ u.rows, b.1 = b.2
  kept : ∃ p ∈ u.pols, Kept p
  stokes : (∃ p ∈ u.pols, upper p ∈ stokPols) → "pI".toList ∈ u.pols

/-! ### Order of strings -/

theorem strLe_trans : ∀ a b c : Str, strLe a b → strLe b c → strLe a c
  | [], _, _, _, _ => by unfold strLe; rfl
  | _ :: _, [], _, h, _ => by simp [strLe] at h
  | _ :: _, _ :: _, [], _, h => by simp [strLe] at h
  | a :: s, b :: t, c :: r, h1, h2 => by
    unfold strLe at h1 h2 ⊢
    split_ifs at h1 h2 ⊢ <;> first | rfl | omega | exact strLe_trans s t r h1 h2 | (exact absurd h1 (by simp)) | (exact absurd h2 (by simp))

theorem strLe_total : ∀ a b : Str, strLe a b || strLe b a
  | [], _ => by simp [strLe]
  | _ :: _, [] => by simp [strLe]
  | a :: s, b :: t => by
    unfold strLe
    split_ifs <;> first | rfl | omega | exact strLe_total s t

theorem strLe_antisymm : ∀ a b : Str, strLe a b → strLe b a → a = b
  | [], [], _, _ => rfl
  | [], _ :: _, _, h => by simp [strLe] at h
  | _ :: _, [], h, _ => by simp [strLe] at h
  | a :: s, b :: t, h1, h2 => by
    unfold strLe at h1 h2
    by_cases h3 : a.toNat < b.toNat
    · rw [if_neg (by omega), if_pos h3] at h2; simp at h2
    · by_cases h4 : b.toNat < a.toNat
      · rw [if_neg h3, if_pos h4] at h1; simp at h1
      · rw [if_neg h3, if_neg h4] at h1
        rw [if_neg h4, if_neg h3] at h2
        have hab : a = b := Char.toNat_inj.1 (by omega)
        rw [hab, strLe_antisymm s t h1 h2]

/-! ### Lemmas -/

theorem upper_pI : upper "pI".toList = "PI".toList := by decide +kernel

theorem disjoint_pols (p : Str) : upper p ∈ autoVisPols → upper p ∉ stokPols := by
  intro h h'
  generalize upper p = q at *
  simp only [autoVisPols, stokPols, List.mem_cons, List.not_mem_nil, or_false] at h h'
  rcases h with rfl | rfl | rfl | rfl <;> revert h' <;> decide +kernel

theorem lookup_kept {p : Str} (h : Kept p) : lookupName p = p := by
  unfold lookupName
  rcases h with h | rfl
  · rw [if_neg (disjoint_pols p h)]
  · rw [if_pos (by rw [upper_pI]; simp [stokPols])]

theorem mem_polNames {u : UV} (hc : Convertible u) (p : Str) : p ∈ polNames u ↔ p ∈ u.pols ∧ Kept p := by
  unfold polNames
  rw [mem_pySorted, List.mem_dedup, List.mem_map]
  constructor
  · rintro ⟨q, hq, rfl⟩
    rw [List.mem_filter] at hq
    simp only [decide_eq_true_eq, List.mem_append] at hq
    unfold nameOf
    split_ifs with h
    · exact ⟨hq.1, Or.inl h⟩
    · exact ⟨hc.stokes ⟨q, hq.1, hq.2.resolve_left h⟩, Or.inr rfl⟩
  · rintro ⟨h1, h2⟩
    refine ⟨p, ?_, ?_⟩
    · rw [List.mem_filter]
      refine ⟨h1, ?_⟩
      simp only [decide_eq_true_eq, List.mem_append]
      rcases h2 with h2 | rfl
      · exact Or.inl h2
      · right; rw [upper_pI]; simp [stokPols]
    · unfold nameOf
      rcases h2 with h2 | rfl
      · rw [if_pos h2]
      · rw [ite_id_or]
where
  ite_id_or : (if upper "pI".toList ∈ autoVisPols then "pI".toList else "pI".toList) = "pI".toList := by split <;> rfl

theorem polNames_nodup (u : UV) : (polNames u).Nodup := by
  unfold polNames
  rw [(pySorted_perm _ _).nodup_iff]
  exact List.nodup_dedup _

theorem polNames_sorted (u : UV) : (polNames u).Pairwise (fun a b => strLe a b = true) := pySorted_pairwise strLe_trans strLe_total _

theorem enumerates_positions {α : Type} (f : α → Bool) (l : List α) : Enumerates (positions f l) l (fun x => f x = true) := by
  refine ⟨List.Pairwise.filter _ List.pairwise_lt_range, fun i => ?_⟩
  unfold positions
  rw [List.mem_filter, List.mem_range]
  constructor
  · rintro ⟨h1, h2⟩
    rw [List.getElem?_eq_getElem h1] at h2 ⊢
    exact ⟨_, rfl, h2⟩
  · rintro ⟨x, hx, hf⟩
    rw [hx]
    exact ⟨(List.getElem?_eq_some_iff.1 hx).1, hf⟩

theorem positions_get {α : Type} (f : α → Bool) (l : List α) :
    (positions f l).map (fun i => l[i]?) = (l.filter f).map some := by
  unfold positions
  induction l with
  | nil => rfl
  | cons a l ih =>
    rw [List.length_cons, List.range_succ_eq_map, List.filter_cons, List.filter_cons]
    have hshift : (List.filter (fun i => ((a :: l)[i]?).any f) ((List.range l.length).map Nat.succ)).map
        (fun i => (a :: l)[i]?) = (l.filter f).map some := by
      rw [← ih, List.filter_map, List.map_map]
      rfl
    by_cases h : f a = true
    · rw [if_pos h, if_pos (by simpa using h), List.map_cons, List.map_cons, hshift]; rfl
    · rw [if_neg h, if_neg (by simpa using h), hshift]

theorem fold_no_match (rows : List (ℤ × ℤ)) (pols : List Str) (j : Str → ℕ → ℝ) (r c i : ℕ) (L : List ((ℤ × ℤ) × Str)) :
    (∀ e ∈ L, ¬ (rows[r]? = some e.1 ∧ i = pols.idxOf (lookupName e.2))) → ∀ d, (L.foldl (scaleStep rows pols j) d) r c i = d r c i := by
  induction L with
  | nil => intro _ d; rfl
  | cons e L ih =>
    intro h d
    rw [List.foldl_cons, ih (fun e' he' => h e' (List.mem_cons_of_mem _ he'))]
    unfold scaleStep
    rw [if_neg (h e (by simp))]

theorem fold_one_match (rows : List (ℤ × ℤ)) (pols : List Str) (j : Str → ℕ → ℝ) (r c i : ℕ) (L : List ((ℤ × ℤ) × Str)) (hn : L.Nodup)
    (e0 : (ℤ × ℤ) × Str) (he : e0 ∈ L) (hm : rows[r]? = some e0.1 ∧ i = pols.idxOf (lookupName e0.2))
    (hu : ∀ e ∈ L, (rows[r]? = some e.1 ∧ i = pols.idxOf (lookupName e.2)) → e = e0) (d : ℕ → ℕ → ℕ → ℂ) :
    (L.foldl (scaleStep rows pols j) d) r c i = d r c i * (j (lookupName e0.2) c : ℂ) := by
  obtain ⟨s, t, rfl⟩ := List.append_of_mem he
  rw [List.nodup_append, List.nodup_cons] at hn
  obtain ⟨-, ⟨ht, -⟩, hst⟩ := hn
  rw [List.foldl_append, List.foldl_cons, fold_no_match, scaleStep, if_pos hm, fold_no_match]
  · intro e hes hme
    have := hu e (by simp [hes]) hme
    exact hst e hes e0 (by simp) this
  · intro e het hme
    have := hu e (by simp [het]) hme
    exact ht (this ▸ het)

/-- The value of every element: the factor is that of the alphabetically `i`-th polarization kept. -/
theorem value (jyToMk : Str → ℕ → ℝ) (u : UV) (hc : Convertible u) :
    ∃ v, uvdToTsys jyToMk u = .ok v ∧ v.rows = u.rows.filter (fun b => decide (b.1 = b.2)) ∧ v.pols = u.pols.filter (fun p => decide (Kept p)) ∧
      v.pols.Perm (polNames u) ∧
      ∀ r c i : ℕ, r < v.rows.length → ∀ p, (polNames u)[i]? = some p →
        v.data r c i = u.data ((positions (fun b : ℤ × ℤ => decide (b.1 = b.2)) u.rows).getD r 0) c
          ((positions (fun p => decide (p ∈ polNames u)) u.pols).getD i 0) * (((jyToMk p c / 1000 : ℝ)) : ℂ) := by
  have hrs : (positions (fun b : ℤ × ℤ => decide (b.1 = b.2)) u.rows).length ≠ 0 := by
    have h1 := congrArg List.length (positions_get (fun b : ℤ × ℤ => decide (b.1 = b.2)) u.rows)
    rw [List.length_map, List.length_map] at h1
    rw [h1]
    obtain ⟨b, hb, hbb⟩ := hc.auto
    exact List.length_pos_of_mem (List.mem_filter.2 ⟨hb, by simpa using hbb⟩) |>.ne'
  have hpn : (polNames u).length ≠ 0 := by
    obtain ⟨p, hp, hk⟩ := hc.kept
    exact (List.length_pos_of_mem ((mem_polNames hc p).2 ⟨hp, hk⟩)).ne'
  have hall : (polNames u).all (fun p => decide (p ∈ u.pols)) = true := by
    rw [List.all_eq_true]
    intro p hp
    exact decide_eq_true ((mem_polNames hc p).1 hp).1
  have hfil : u.pols.filter (fun p => decide (p ∈ polNames u)) = u.pols.filter (fun p => decide (Kept p)) := by
    apply List.filter_congr
    intro p hp
    rw [decide_eq_decide, mem_polNames hc]
    exact ⟨fun h => h.2, fun h => ⟨hp, h⟩⟩
  have hperm : (u.pols.filter (fun p => decide (Kept p))).Perm (polNames u) := by
    rw [List.perm_ext_iff_of_nodup (hc.nodup.filter _) (polNames_nodup u)]
    intro p
    rw [List.mem_filter, mem_polNames hc, decide_eq_true_eq]
  refine ⟨_, by
    unfold uvdToTsys select
    simp only
    rw [if_neg (by rw [hall]; simp [hrs, hpn])], rfl, hfil, by simp only [hfil]; exact hperm, ?_⟩
  intro r c i hr p hp
  simp only at hr ⊢
  rw [hfil]
  set rows := u.rows.filter (fun b => decide (b.1 = b.2)) with hrows
  set ax := u.pols.filter (fun p => decide (Kept p)) with hax
  have hpk : p ∈ ax := hperm.mem_iff.2 (List.mem_of_getElem? hp)
  have hkept : ∀ q ∈ ax, Kept q := by
    intro q hq
    rw [hax, List.mem_filter, decide_eq_true_eq] at hq
    exact hq.2
  have hb : rows[r]? = some rows[r] := List.getElem?_eq_getElem hr
  have hnd : (polNames u).idxOf p = i := by
    obtain ⟨hi, he⟩ := List.getElem?_eq_some_iff.1 hp
    rw [← he]
    exact (polNames_nodup u).idxOf_getElem i hi
  have hmem : ∀ (D : ℕ → ℕ → ℕ → ℂ) (e : (ℤ × ℤ) × Str), e ∈ antpairpols ⟨ax, rows, D⟩ ↔ e.1 ∈ rows ∧ e.2 ∈ ax := by
    intro D e
    unfold antpairpols
    simp only [List.mem_flatMap, List.mem_map, List.mem_dedup]
    constructor
    · rintro ⟨b, hb, q, hq, rfl⟩; exact ⟨hb, hq⟩
    · rintro ⟨h1, h2⟩; exact ⟨e.1, h1, e.2, h2, rfl⟩
  rw [fold_one_match rows (polNames u) _ r c i _ ?_ (rows[r], p) ((hmem _ _).2 ⟨List.getElem_mem hr, hpk⟩) ?_ ?_]
  · rw [lookup_kept (hkept p hpk)]
  · unfold antpairpols
    simp only
    rw [List.nodup_flatMap]
    refine ⟨fun b _ => List.Nodup.map (fun a b h => by simpa using h) (hc.nodup.filter _), ?_⟩
    refine (List.nodup_dedup rows).imp ?_
    intro a b hab
    simp only [Function.onFun]
    intro e h1 h2
    rw [List.mem_map] at h1 h2
    obtain ⟨q, -, rfl⟩ := h1
    obtain ⟨q', -, h⟩ := h2
    simp only [Prod.mk.injEq] at h
    exact hab h.1.symm
  · exact ⟨hb, by rw [lookup_kept (hkept p hpk), hnd]⟩
  · rintro ⟨b, q⟩ he ⟨h1, h2⟩
    obtain ⟨-, hq⟩ := (hmem _ _).1 he
    simp only at h1 h2 hq
    rw [lookup_kept (hkept q hq)] at h2
    have hqn : q ∈ polNames u := hperm.mem_iff.1 hq
    have h3 : (polNames u)[i]? = some q := by
      rw [h2, List.getElem?_eq_getElem (List.idxOf_lt_length_of_mem hqn), List.getElem_idxOf]
    rw [hp] at h3
    rw [hb] at h1
    rw [Option.some.inj h3, Option.some.inj h1]

/-! ### Theorems -/

theorem getD_of_map {α : Type} {l : List ℕ} {m : List α} {x : List α} (h : l.map (fun i => m[i]?) = x.map some) (k : ℕ) (hk : k < x.length) :
    ∃ a, x[k]? = some a ∧ m[l.getD k 0]? = some a := by
  refine ⟨x[k], List.getElem?_eq_getElem hk, ?_⟩
  have h1 := congrArg (fun y => y[k]?) h
  simp only [List.getElem?_map] at h1
  have hl : k < l.length := by have := congrArg List.length h; simp at this; omega
  rw [List.getElem?_eq_getElem hl, List.getElem?_eq_getElem hk] at h1
  simp only [Option.map_some, Option.some.injEq] at h1
  rw [List.getD, List.getElem?_eq_getElem hl]
  exact h1

/-- **C119** (polarizations stored in alphabetical order) The result has exactly the autocorrelation rows and the polarizations kept, in
the order of the data, and every value is that of the same row, channel and polarization of the data times the factor of that
polarization and channel (in K per Jy), once. Missing: other orders of the polarization axis, see `C119_finding_order`. -/
theorem C119_conversion_partial (jyToMk : Str → ℕ → ℝ) (u : UV) (hc : Convertible u)
    (ho : (u.pols.filter (fun p => decide (Kept p))).Pairwise (fun a b => strLe a b = true)) :
    ∃ v ρ π, uvdToTsys jyToMk u = .ok v ∧ Enumerates ρ u.rows (fun b => b.1 = b.2) ∧ Enumerates π u.pols Kept ∧
      v.rows.map some = ρ.map (fun i => u.rows[i]?) ∧ v.pols.map some = π.map (fun i => u.pols[i]?) ∧
      ∀ r c i : ℕ, r < v.rows.length → ∀ p, v.pols[i]? = some p → u.pols[π.getD i 0]? = some p ∧
        v.data r c i = u.data (ρ.getD r 0) c (π.getD i 0) * (((jyToMk p c / 1000 : ℝ)) : ℂ) := by
  obtain ⟨v, hv, h1, h2, h3, h4⟩ := value jyToMk u hc
  have heq : polNames u = v.pols := by
    apply h3.symm.eq_of_pairwise (fun a b _ _ h1 h2 => strLe_antisymm a b h1 h2) (polNames_sorted u)
    rw [h2]; exact ho
  have hpos : positions (fun p => decide (p ∈ polNames u)) u.pols = positions (fun p => decide (Kept p)) u.pols := by
    unfold positions
    apply List.filter_congr
    intro i hi
    rw [List.mem_range] at hi
    rw [List.getElem?_eq_getElem hi, Option.any_some, Option.any_some, decide_eq_decide, mem_polNames hc]
    exact ⟨fun h => h.2, fun h => ⟨List.getElem_mem hi, h⟩⟩
  refine ⟨v, positions (fun b : ℤ × ℤ => decide (b.1 = b.2)) u.rows, positions (fun p => decide (Kept p)) u.pols, hv, ?_, ?_, ?_, ?_, ?_⟩
  · simpa using enumerates_positions (fun b : ℤ × ℤ => decide (b.1 = b.2)) u.rows
  · simpa using enumerates_positions (fun p => decide (Kept p)) u.pols
  · rw [positions_get, h1]
  · rw [positions_get, h2]
  · intro r c i hr p hp
    refine ⟨?_, ?_⟩
    · have hlt : i < (u.pols.filter (fun p => decide (Kept p))).length := by
        rw [← h2]; exact (List.getElem?_eq_some_iff.1 hp).1
      obtain ⟨a, ha1, ha2⟩ := getD_of_map (positions_get (fun p => decide (Kept p)) u.pols) i hlt
      rw [← h2, hp, Option.some.injEq] at ha1
      rw [ha2, ha1]
    · rw [h4 r c i hr p (by rw [heq]; exact hp), hpos]

/-- **C119** finding: the factor is looked up by the position in the alphabetical list but applied at that position of the data's own
polarization axis. For data with the axis `nn, ee` (a conventional order when x is North) the `nn` autocorrelations are multiplied by
the factor of `ee` and vice versa, whatever the beam. -/
theorem C119_finding_order (jyToMk : Str → ℕ → ℝ) (u : UV) (hp : u.pols = ["nn".toList, "ee".toList]) (hr : u.rows = [(1, 1)]) :
    ∃ v, uvdToTsys jyToMk u = .ok v ∧ v.pols = ["nn".toList, "ee".toList] ∧
      ∀ c, v.data 0 c 0 = u.data 0 c 0 * (((jyToMk "ee".toList c / 1000 : ℝ)) : ℂ) ∧
        v.data 0 c 1 = u.data 0 c 1 * (((jyToMk "nn".toList c / 1000 : ℝ)) : ℂ) := by
  obtain ⟨pols, rows, data⟩ := u
  simp only at hp hr
  subst hp hr
  have hc : Convertible ⟨["nn".toList, "ee".toList], [(1, 1)], data⟩ :=
    ⟨by show ["nn".toList, "ee".toList].Nodup; decide +kernel, ⟨(1, 1), by simp, rfl⟩, ⟨"nn".toList, by simp, Or.inl (by decide +kernel)⟩, by
      rintro ⟨p, hp, h⟩
      simp only [List.mem_cons, List.not_mem_nil, or_false] at hp
      rcases hp with rfl | rfl <;> exact absurd h (by decide +kernel)⟩
  obtain ⟨v, hv, h1, h2, -, h4⟩ := value jyToMk _ hc
  have hn : polNames ⟨["nn".toList, "ee".toList], [(1, 1)], data⟩ = ["ee".toList, "nn".toList] := by
    show pySorted strLe (((["nn".toList, "ee".toList] : List Str).filter (fun p => decide (upper p ∈ autoVisPols ++ stokPols))).map nameOf).dedup = _
    decide +kernel
  have hlen : 0 < v.rows.length := by rw [h1]; simp
  have e1 : (positions (fun b : ℤ × ℤ => decide (b.1 = b.2)) [((1 : ℤ), (1 : ℤ))]) = [0] := by decide +kernel
  have e2 : positions (fun p => decide (p ∈ (["ee".toList, "nn".toList] : List Str))) ["nn".toList, "ee".toList] = [0, 1] := by decide +kernel
  refine ⟨v, hv, ?_, fun c => ⟨?_, ?_⟩⟩
  · rw [h2]
    show (["nn".toList, "ee".toList] : List Str).filter (fun p => decide (Kept p)) = _
    decide +kernel
  · rw [h4 0 c 0 hlen "ee".toList (by rw [hn]; rfl)]
    simp only [hn, e1, e2]; rfl
  · rw [h4 0 c 1 hlen "nn".toList (by rw [hn]; rfl)]
    simp only [hn, e1, e2]; rfl

/-- **C119** Without an autocorrelation, or with pseudo-Stokes polarizations but not `pI`, the call is refused. -/
theorem C119_refused (jyToMk : Str → ℕ → ℝ) (u : UV)
    (h : (∀ b ∈ u.rows, b.1 ≠ b.2) ∨ ((∃ p ∈ u.pols, upper p ∈ stokPols) ∧ "pI".toList ∉ u.pols)) :
    uvdToTsys jyToMk u = .error .value := by
  unfold uvdToTsys select
  simp only
  rw [if_pos]
  rcases h with h | ⟨⟨p, hp, hs⟩, hn⟩
  · left
    rw [List.length_eq_zero_iff]
    unfold positions
    rw [List.filter_eq_nil_iff]
    intro i hi
    rw [List.mem_range] at hi
    rw [List.getElem?_eq_getElem hi]
    simpa using h _ (List.getElem_mem hi)
  · right; right
    rw [List.all_eq_true]
    push Not
    refine ⟨"pI".toList, ?_, by simpa using hn⟩
    unfold polNames
    rw [mem_pySorted, List.mem_dedup, List.mem_map]
    refine ⟨p, List.mem_filter.2 ⟨hp, by simp [hs]⟩, ?_⟩
    unfold nameOf
    rw [if_neg (fun h => disjoint_pols p h hs)]

/-- The entry of a dictionary filled in order is that of the last matching element. -/
theorem fold_get {V : Type} (omega : ℕ → V) (L : List (ℕ × Str)) (d : Dict Str V) (k : Str) :
    Dict.get (L.foldl (fun d e => Dict.set d (lookupName e.2) (omega e.1)) d) k =
      match (L.reverse.find? (fun e => decide (lookupName e.2 = k))) with
      | some e => some (omega e.1)
      | none => Dict.get d k := by
  induction L generalizing d with
  | nil => rfl
  | cons e L ih =>
    rw [List.foldl_cons, ih, List.reverse_cons, List.find?_append]
    cases hf : L.reverse.find? (fun e => decide (lookupName e.2 = k)) with
    | some x => rfl
    | none =>
      simp only [Option.none_or, Dict.get_set, List.find?_singleton]
      by_cases h : lookupName e.2 = k
      · simp [h]
      · simp [h]

/-- **C119** The beam made from a `UVPSpec` object has, for every polarization of one feed and for `pI`, the solid angle of the pair that
starts with it, if no two pairs start with the same polarization and at most one starts with a pseudo-Stokes polarization. -/
theorem C119_beam {V : Type} (firstPols : List Str) (omega : ℕ → V) (hn : (firstPols.map lookupName).Nodup) (i : ℕ) (p : Str)
    (hi : firstPols[i]? = some p) (hk : Kept p) : Dict.get (beamDict firstPols omega) p = some (omega i) := by
  unfold beamDict
  rw [fold_get]
  have hmem : (i, p) ∈ (List.range firstPols.length).zip firstPols := by
    apply List.mem_of_getElem? (i := i)
    have hlt := (List.getElem?_eq_some_iff.1 hi).1
    exact List.getElem?_zip_eq_some.2 ⟨by rw [List.getElem?_range hlt], hi⟩
  have huniq : ∀ e ∈ (List.range firstPols.length).zip firstPols, lookupName e.2 = p → e.1 = i := by
    rintro ⟨j, q⟩ he hq
    obtain ⟨k, hk'⟩ := List.getElem?_of_mem he
    obtain ⟨h1, h2⟩ := List.getElem?_zip_eq_some.1 hk'
    simp only at h1 h2
    have hjk : k = j := by
      have hlt := (List.getElem?_eq_some_iff.1 h1).1
      rw [List.length_range] at hlt
      rw [List.getElem?_range hlt] at h1
      exact Option.some.inj h1
    subst hjk
    have e1 : (firstPols.map lookupName)[k]? = some p := by rw [List.getElem?_map, h2, Option.map_some]; exact congrArg some hq
    have e2 : (firstPols.map lookupName)[i]? = some p := by rw [List.getElem?_map, hi, Option.map_some, lookup_kept hk]
    exact (List.getElem?_inj (List.getElem?_eq_some_iff.1 e1).1 hn).1 (e1.trans e2.symm)
  cases hf : (((List.range firstPols.length).zip firstPols).reverse.find? (fun e => decide (lookupName e.2 = p))) with
  | none =>
    rw [List.find?_eq_none] at hf
    have := hf (i, p) (by simpa using hmem)
    simp [lookup_kept hk] at this
  | some e =>
    have h1 := List.mem_of_find?_eq_some hf
    have h2 := List.find?_some hf
    simp only [decide_eq_true_eq] at h2
    simp only
    rw [huniq e (by simpa using h1) h2]

/-- **C119** finding: with several pseudo-Stokes pairs, say `pI` and `pQ`, the solid angle used for `pI` is that of the LAST of them. -/
theorem C119_finding_stokes {V : Type} (omega : ℕ → V) :
    Dict.get (beamDict ["pI".toList, "pQ".toList] omega) "pI".toList = some (omega 1) := by
  have : ["pI".toList, "pQ".toList].map lookupName = ["pI".toList, "pI".toList] := by decide +kernel
  unfold beamDict
  rw [fold_get]
  have e : (List.find? (fun e : ℕ × Str => decide (lookupName e.2 = "pI".toList))
      ((List.range ["pI".toList, "pQ".toList].length).zip ["pI".toList, "pQ".toList]).reverse) = some (1, "pQ".toList) := by decide +kernel
  rw [e]

/-! ### Non-vacuity -/

/-- Two antennas with auto- and cross-correlations in `xx`, `xy`, `yy`. -/
def exUV : UV := ⟨["xx".toList, "xy".toList, "yy".toList], [(1, 1), (1, 2), (2, 2)], fun r c i => (100 * r + 10 * c + i : ℕ)⟩

example : Convertible exUV ∧ (exUV.pols.filter (fun p => decide (Kept p))).Pairwise (fun a b => strLe a b = true) :=
  ⟨⟨by decide +kernel, ⟨(1, 1), by simp [exUV], rfl⟩, ⟨"xx".toList, by simp [exUV], Or.inl (by decide +kernel)⟩, by
      rintro ⟨p, hp, h⟩
      simp only [exUV, List.mem_cons, List.not_mem_nil, or_false] at hp
      rcases hp with rfl | rfl | rfl <;> exact absurd h (by decide +kernel)⟩, by decide +kernel⟩

end HeraPspec.Tsys
