import Verif.Lemmas.RParams

/-! Property C05: `decompress_r_params (compress_r_params d)` gives `d` back. -/
namespace HeraPspec.RParams
open Dict

variable {K V : Type} [DecidableEq K] [DecidableEq V]

/-- A Python dictionary of dictionaries: no repeated keys at either level. -/
def WF (d : Dict K (Dict String V)) : Prop := d.keys.Nodup ∧ ∀ e ∈ d, e.2.keys.Nodup

/-- C05 in general: for every dictionary the round trip has exactly the same keys, and each key has exactly its
original parameters except that a field called "baselines" (reserved by the format) is dropped. -/
theorem C05_roundtrip_general (d : Dict K (Dict String V)) (h : WF d) (k : K) :
    (get d k = none → get (decompress (compress d)) k = none) ∧
    (∀ p, get d k = some p → ∃ p', get (decompress (compress d)) k = some p' ∧
      ∀ f, get p' f = if f = "baselines" then none else (get p f).map Field.par) := by
  by_cases hd : d = []
  · subst hd; simp [compress, decompress]
  have hinv : Inv d (d.foldl compressStep []) := by
    have := inv_fold d [] ([] : Uniq K V) ⟨by simp, by simp, by simp⟩
    simpa using this
  have hc : decompress (compress d) = ((d.foldl compressStep []).map enc).foldl decompressStep [] := by
    unfold compress; rw [if_neg hd]; rfl
  rw [hc]
  obtain ⟨g1, g2⟩ := get_decompress_fold (d.foldl compressStep []) [] k
  constructor
  · intro hk
    rw [g2, get_nil]
    intro x hx hkx
    obtain ⟨p, hp, -⟩ := hinv.sound x hx k hkx
    rw [get_of_mem h.1 hp] at hk; cases hk
  · intro p hp
    obtain ⟨x, hx, hkx⟩ := hinv.complete (k, p) (mem_of_get hp)
    obtain ⟨y, hy, hky, hg⟩ := g1 x hx hkx
    refine ⟨_, hg, fun f => ?_⟩
    obtain ⟨e, he, hye⟩ := hinv.wf y hy
    have hyn : y.1.keys.Nodup := hye ▸ h.2 e he
    rw [get_strip _ (keys_enc_nodup y hyn), get_enc]
    obtain ⟨q, hq, hqf⟩ := hinv.sound y hy k hky
    rw [get_of_mem h.1 hq] at hp; cases hp
    split
    · rfl
    · rw [hqf]

/-- C05: if no parameter dictionary uses the reserved field name "baselines", the round trip returns exactly the
original dictionary: same keys, and for each key the same parameters. -/
theorem C05_roundtrip (d : Dict K (Dict String V)) (h : WF d) (hr : ∀ e ∈ d, "baselines" ∉ e.2.keys) (k : K) :
    (get d k = none ↔ get (decompress (compress d)) k = none) ∧
    (∀ p, get d k = some p → ∃ p', get (decompress (compress d)) k = some p' ∧
      ∀ f, get p' f = (get p f).map Field.par) := by
  obtain ⟨g1, g2⟩ := C05_roundtrip_general d h k
  constructor
  · constructor
    · exact g1
    · intro hn
      cases hd : get d k with
      | none => rfl
      | some p => obtain ⟨p', h1, -⟩ := g2 p hd; rw [h1] at hn; cases hn
  · intro p hp
    obtain ⟨p', h1, h2⟩ := g2 p hp
    refine ⟨p', h1, fun f => ?_⟩
    rw [h2]
    split
    · rename_i hf
      have := hr _ (mem_of_get hp)
      rw [← get_eq_none_iff] at this
      rw [hf, this]; rfl
    · rfl

/-- The reserved field really is lost: a parameter dictionary with a field "baselines" does not survive. -/
theorem C05_counterexample_reserved_field :
    get ((get (decompress (compress [(0, [("baselines", 7), ("x", 1)])])) 0).getD []) "baselines"
      = (none : Option (Field Nat Nat)) := by decide

/-- Three keys, two of which share parameters. -/
example : WF [(0, [("a", 1), ("b", 2)]), (1, [("a", 3)]), (2, [("b", 2), ("a", 1)])] ∧
    compress [(0, [("a", 1), ("b", 2)]), (1, [("a", 3)]), (2, [("b", 2), ("a", 1)])] =
      some [[("a", Field.par 1), ("b", Field.par 2), ("baselines", Field.keys [0, 2])],
            [("a", Field.par 3), ("baselines", Field.keys [1])]] := by
  constructor
  · simp [WF, keys]
  · decide

end HeraPspec.RParams
