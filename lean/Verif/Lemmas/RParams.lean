import Verif.Model.RParams

namespace HeraPspec.RParams
open Dict

variable {K V : Type} [DecidableEq K] [DecidableEq V]

/-- Loop invariant of `compress`: every recorded key has, in the processed part of the dictionary, parameters equal
to those of its entry; every processed key is recorded. -/
structure Inv (done : Dict K (Dict String V)) (u : Uniq K V) : Prop where
  sound : ∀ x ∈ u, ∀ k ∈ x.2, ∃ p, (k, p) ∈ done ∧ ∀ f, get x.1 f = get p f
  complete : ∀ e ∈ done, ∃ x ∈ u, e.1 ∈ x.2
  wf : ∀ x ∈ u, ∃ e ∈ done, x.1 = e.2

theorem inv_step (done : Dict K (Dict String V)) (u : Uniq K V) (e : K × Dict String V) (h : Inv done u) :
    Inv (done ++ [e]) (compressStep u e) := by
  have hmap : ∀ x' ∈ u.map (fun x => if beq x.1 e.2 then (x.1, x.2 ++ [e.1]) else x),
      (∀ k ∈ x'.2, ∃ p, (k, p) ∈ done ++ [e] ∧ ∀ f, get x'.1 f = get p f) ∧ ∃ e' ∈ done ++ [e], x'.1 = e'.2 := by
    intro x' hx'
    obtain ⟨x, hx, rfl⟩ := List.mem_map.1 hx'
    obtain ⟨e', he', hw⟩ := h.wf x hx
    have hold : ∀ k ∈ x.2, ∃ p, (k, p) ∈ done ++ [e] ∧ ∀ f, get x.1 f = get p f := by
      intro k hk
      obtain ⟨p, hp, hf⟩ := h.sound x hx k hk
      exact ⟨p, List.mem_append_left _ hp, hf⟩
    by_cases hb : beq x.1 e.2 = true
    · rw [if_pos hb]
      refine ⟨?_, e', List.mem_append_left _ he', hw⟩
      intro k hk
      rcases List.mem_append.1 hk with hk | hk
      · exact hold k hk
      · rw [List.mem_singleton] at hk; subst hk
        exact ⟨e.2, by simp, (beq_iff _ _).1 hb⟩
    · rw [if_neg hb]
      exact ⟨hold, e', List.mem_append_left _ he', hw⟩
  have hcomp : ∀ e' ∈ done, ∃ x ∈ u.map (fun x => if beq x.1 e.2 then (x.1, x.2 ++ [e.1]) else x), e'.1 ∈ x.2 := by
    intro e' he'
    obtain ⟨x, hx, hk⟩ := h.complete e' he'
    refine ⟨_, List.mem_map.2 ⟨x, hx, rfl⟩, ?_⟩
    split
    · exact List.mem_append_left _ hk
    · exact hk
  unfold compressStep
  simp only []
  split
  · rename_i hany
    obtain ⟨x, hx, hb⟩ := List.any_eq_true.1 hany
    refine ⟨fun x' hx' => (hmap x' hx').1, ?_, fun x' hx' => (hmap x' hx').2⟩
    intro e' he'
    rcases List.mem_append.1 he' with he' | he'
    · exact hcomp e' he'
    · rw [List.mem_singleton] at he'; subst he'
      refine ⟨_, List.mem_map.2 ⟨x, hx, rfl⟩, ?_⟩
      rw [if_pos hb]; simp
  · refine ⟨?_, ?_, ?_⟩
    · intro x' hx'
      rcases List.mem_append.1 hx' with hx' | hx'
      · exact (hmap x' hx').1
      · rw [List.mem_singleton] at hx'; subst hx'
        intro k hk
        simp only [List.mem_singleton] at hk; subst hk
        exact ⟨e.2, by simp, fun _ => rfl⟩
    · intro e' he'
      rcases List.mem_append.1 he' with he' | he'
      · obtain ⟨x, hx, hk⟩ := hcomp e' he'
        exact ⟨x, List.mem_append_left _ hx, hk⟩
      · rw [List.mem_singleton] at he'; subst he'
        exact ⟨(e'.2, [e'.1]), by simp, by simp⟩
    · intro x' hx'
      rcases List.mem_append.1 hx' with hx' | hx'
      · exact (hmap x' hx').2
      · rw [List.mem_singleton] at hx'; subst hx'
        exact ⟨e, by simp, rfl⟩

theorem inv_fold (d done : Dict K (Dict String V)) (u : Uniq K V) (h : Inv done u) :
    Inv (done ++ d) (d.foldl compressStep u) := by
  induction d generalizing done u with
  | nil => simpa using h
  | cons e d ih =>
    have := ih (done ++ [e]) (compressStep u e) (inv_step done u e h)
    simpa using this

/-- `rp_dict` of the decompression: the object without its "baselines" field. -/
def strip (o : Dict String (Field K V)) : Dict String (Field K V) :=
  o.foldl (fun r f => if f.1 ≠ "baselines" then Dict.set r f.1 f.2 else r) []

theorem get_strip_aux (o r : Dict String (Field K V)) (hn : o.keys.Nodup) (f : String) :
    get (o.foldl (fun r f => if f.1 ≠ "baselines" then Dict.set r f.1 f.2 else r) r) f =
      if f = "baselines" then get r f else (get o f).or (get r f) := by
  induction o generalizing r with
  | nil => simp
  | cons e o ih =>
    simp only [keys, List.map_cons, List.nodup_cons] at hn
    rw [List.foldl_cons, ih _ hn.2, get_cons]
    by_cases hf : f = "baselines"
    · simp only [hf, if_true]
      split
      · rename_i h; rw [get_set, if_neg h]
      · rfl
    · simp only [hf, if_false]
      by_cases he : e.1 = f
      · have : get o f = none := by rw [get_eq_none_iff, ← he]; exact hn.1
        rw [this, he]; simp [hf, get_set]
      · rw [if_neg he]
        congr 1
        split
        · rw [get_set, if_neg he]
        · rfl

theorem get_strip (o : Dict String (Field K V)) (hn : o.keys.Nodup) (f : String) :
    get (strip o) f = if f = "baselines" then none else get o f := by
  unfold strip
  rw [get_strip_aux o [] hn f]
  split <;> simp

theorem get_foldl_set (ks : List K) (a : Dict K (Dict String (Field K V))) (rp : Dict String (Field K V)) (k : K) :
    get (ks.foldl (fun a k => Dict.set a k rp) a) k = if k ∈ ks then some rp else get a k := by
  induction ks generalizing a with
  | nil => simp
  | cons x ks ih =>
    rw [List.foldl_cons, ih, get_set]
    by_cases h : k ∈ ks
    · simp [h]
    · by_cases h2 : x = k
      · subst h2; simp [h]
      · simp [h, h2, Ne.symm h2]

/-- The encoded form of an entry. -/
def enc (x : Dict String V × List K) : Dict String (Field K V) :=
  Dict.set (x.1.map (fun f => (f.1, Field.par f.2))) "baselines" (Field.keys x.2)

theorem get_map_par (p : Dict String V) (f : String) :
    get (p.map (fun f => (f.1, (Field.par f.2 : Field K V)))) f = (get p f).map Field.par := by
  induction p with
  | nil => simp
  | cons e p ih => simp only [List.map_cons, get_cons, ih]; split <;> simp

theorem get_enc (x : Dict String V × List K) (f : String) :
    get (enc x) f = if f = "baselines" then some (Field.keys x.2) else (get x.1 f).map Field.par := by
  unfold enc
  rw [get_set, get_map_par]
  by_cases h : f = "baselines"
  · simp [h]
  · simp [h, Ne.symm h]

theorem keys_enc_nodup (x : Dict String V × List K) (h : x.1.keys.Nodup) : (enc x).keys.Nodup := by
  unfold enc
  apply keys_set_nodup
  unfold keys at h ⊢
  simpa [List.map_map, Function.comp_def] using h

theorem get_decompress_fold (u : Uniq K V) (acc : Dict K (Dict String (Field K V))) (k : K) :
    (∀ x ∈ u, k ∈ x.2 → ∃ y ∈ u, k ∈ y.2 ∧ get ((u.map enc).foldl decompressStep acc) k = some (strip (enc y))) ∧
    ((∀ x ∈ u, k ∉ x.2) → get ((u.map enc).foldl decompressStep acc) k = get acc k) := by
  induction u generalizing acc with
  | nil => simp
  | cons x u ih =>
    simp only [List.map_cons, List.foldl_cons]
    have hstep : get (decompressStep acc (enc x)) k = if k ∈ x.2 then some (strip (enc x)) else get acc k := by
      unfold decompressStep
      rw [get_enc]
      simp only [if_true]
      exact get_foldl_set _ _ _ _
    obtain ⟨i1, i2⟩ := ih (decompressStep acc (enc x))
    constructor
    · intro y hy hk
      by_cases hex : ∃ z ∈ u, k ∈ z.2
      · obtain ⟨z, hz, hkz⟩ := hex
        obtain ⟨w, hw, h1, h2⟩ := i1 z hz hkz
        exact ⟨w, List.mem_cons_of_mem _ hw, h1, h2⟩
      · have hno : ∀ z ∈ u, k ∉ z.2 := fun z hz hk => hex ⟨z, hz, hk⟩
        have hyx : y = x := by
          rcases List.mem_cons.1 hy with h | h
          · exact h
          · exact absurd hk (hno y h)
        subst hyx
        refine ⟨y, List.mem_cons_self, hk, ?_⟩
        rw [i2 hno, hstep, if_pos hk]
    · intro hno
      rw [i2 (fun z hz => hno z (List.mem_cons_of_mem _ hz)), hstep, if_neg (hno x List.mem_cons_self)]

end HeraPspec.RParams
