import Verif.Model.ContainerIO
import Verif.Props.Container
import Verif.Spec.ContainerIO

/-!
C158: what is stored in a container comes back.
-/
namespace HeraPspec.ContainerIO
open HeraPspec.Container HeraPspec.Hdf5 HeraPspec.Params

variable {V : Type}

/-- `set_pspec` can write the object: it passes its check and nothing it needs is missing. -/
def writable (c : Codec V) (u : Hdf5.Obj V) : Bool := (writeGroup c u true).isOk

/-! ### Histories of objects and of contents -/

/-- The contents of a place with an object. -/
def lowerSlot (c : Codec V) : Slot (Hdf5.Obj V) → Slot (Content V)
  | .absent => .absent
  | .broken => .broken
  | .stored u => .stored (content c u)

theorem content_isSome (c : Codec V) (u : Hdf5.Obj V) : (content c u).isSome = writable c u := by
  unfold content writable
  cases writeGroup c u true <;> rfl

theorem lower_put (c : Codec V) (m : Store (Hdf5.Obj V)) (g n : String) (s : Slot (Hdf5.Obj V)) :
    (fun a b => lowerSlot c (m.put g n s a b)) = Store.put (fun a b => lowerSlot c (m a b)) g n (lowerSlot c s) := by
  funext a b
  unfold Store.put
  split <;> rfl

theorem lower_free (c : Codec V) (s : Slot (Hdf5.Obj V)) : (lowerSlot c s).free = s.free := by cases s <;> rfl

theorem lower_write (c : Codec V) (m : Store (Hdf5.Obj V)) (g n : String) (u : Hdf5.Obj V) (ow : Bool) :
    Store.write Option.isSome (fun a b => lowerSlot c (m a b)) g n (content c u) ow =
      ((fun a b => lowerSlot c ((m.write (writable c) g n u ow).1 a b)), (m.write (writable c) g n u ow).2) := by
  unfold Store.write
  simp only [lower_free, content_isSome]
  split
  · rw [lower_put]
    cases writable c u <;> rfl
  · rfl

theorem lower_writeAll (c : Codec V) (g : String) (ow : Bool) (l : List (String × Hdf5.Obj V)) : ∀ m : Store (Hdf5.Obj V),
    Store.writeAll Option.isSome g ow (fun a b => lowerSlot c (m a b)) (l.map (fun e => (e.1, content c e.2))) =
      fun a b => lowerSlot c (Store.writeAll (writable c) g ow m l a b) := by
  induction l with
  | nil => intro m; rfl
  | cons e l ih =>
    intro m
    obtain ⟨n, u⟩ := e
    simp only [List.map_cons, Store.writeAll, lower_write]
    split
    · exact ih _
    · rfl

theorem uvps_lower (c : Codec V) (l : List (String × Arg (Hdf5.Obj V))) :
    uvps (l.map (fun e => (e.1, lowerArg c e.2))) = (uvps l).map (fun e => (e.1, content c e.2)) := by
  induction l with
  | nil => rfl
  | cons e l ih =>
    obtain ⟨n, a⟩ := e
    cases a with
    | uvp u =>
      show (n, content c u) :: uvps (l.map _) = (n, content c u) :: (uvps l).map _
      rw [ih]
    | other => rfl

theorem specRun_lower (c : Codec V) (calls : List (Op (Hdf5.Obj V))) : ∀ m : Store (Hdf5.Obj V),
    specRun Option.isSome (fun a b => lowerSlot c (m a b)) (calls.map (lowerOp c)) = fun a b => lowerSlot c (specRun (writable c) m calls a b) := by
  induction calls with
  | nil => intro m; rfl
  | cons op calls ih =>
    intro m
    have h1 : (lowerOp c op).group = op.group ∧ (lowerOp c op).overwrite = op.overwrite ∧
        uvps (lowerOp c op).items = (uvps op.items).map (fun e => (e.1, content c e.2)) := by
      cases op with
      | set g n a ow => exact ⟨rfl, rfl, uvps_lower c [(n, a)]⟩
      | setList g items ow => exact ⟨rfl, rfl, uvps_lower c items⟩
    show specRun _ (Store.writeAll _ _ _ _ (uvps (lowerOp c op).items)) (calls.map (lowerOp c)) = _
    rw [h1.1, h1.2.1, h1.2.2, lower_writeAll, ih]
    rfl

theorem history_slot (c : Codec V) (calls : List (Op (Hdf5.Obj V))) (g n : String) :
    slot (history c calls) g n = lowerSlot c (specRun (writable c) (fun _ _ => .absent) calls g n) := by
  obtain ⟨_, h⟩ := run_spec Option.isSome (calls.map (lowerOp c)) (wf_newFile (V := Content V))
  unfold history
  rw [h, slot_newFile]
  exact congrFun (congrFun (specRun_lower c calls (fun _ _ => .absent)) g) n

/-- What is stored was writable. -/
theorem stored_writable (c : Codec V) (calls : List (Op (Hdf5.Obj V))) : ∀ (m : Store (Hdf5.Obj V)), (∀ g n u, m g n = .stored u → writable c u = true) →
    ∀ g n u, specRun (writable c) m calls g n = .stored u → writable c u = true := by
  have hw : ∀ (m : Store (Hdf5.Obj V)) g n v ow, (∀ g n u, m g n = .stored u → writable c u = true) →
      ∀ g' n' u, (m.write (writable c) g n v ow).1 g' n' = .stored u → writable c u = true := by
    intro m g n v ow hm g' n' u h
    unfold Store.write at h
    split at h
    · simp only [Store.put] at h
      split at h
      · split at h
        · rename_i hv
          injection h with h
          rw [← h]; exact hv
        · cases h
      · exact hm _ _ _ h
    · exact hm _ _ _ h
  have hwa : ∀ (g : String) (ow : Bool) (l : List (String × Hdf5.Obj V)) (m : Store (Hdf5.Obj V)), (∀ g n u, m g n = .stored u → writable c u = true) →
      ∀ g' n' u, Store.writeAll (writable c) g ow m l g' n' = .stored u → writable c u = true := by
    intro g ow l
    induction l with
    | nil => intro m hm; exact hm
    | cons e l ih =>
      intro m hm
      obtain ⟨n, v⟩ := e
      simp only [Store.writeAll]
      split
      · exact ih _ (hw m g n v ow hm)
      · exact hw m g n v ow hm
  induction calls with
  | nil => intro m hm; exact hm
  | cons op calls ih =>
    intro m hm
    exact ih _ (hwa _ _ _ m hm)

/-! ### C158 -/

theorem getPspec_stored {c : Codec V} {calls : List (Op (Hdf5.Obj V))} {g n : String} {u : Hdf5.Obj V}
    (h : specRun (writable c) (fun _ _ => .absent) calls g n = .stored u) :
    ∃ f, writeGroup c u true = .ok f ∧ ∀ sel, getPspec c (history c calls) g n sel = (readGroup c (fresh c) f sel).mapError .read := by
  have hs := history_slot c calls g n
  rw [h] at hs
  have hg := ((getOne_slot g n).1 _).2 hs
  have hw := stored_writable c calls (fun _ _ => .absent) (by intro _ _ _ h; cases h) g n u h
  unfold writable at hw
  cases hf : writeGroup c u true with
  | error e => rw [hf] at hw; cases hw
  | ok f =>
    refine ⟨f, rfl, fun sel => ?_⟩
    unfold getPspec
    rw [hg]
    simp only [content, hf]
    rfl

/-- C158: for every history of `set_pspec` calls on a new container (single or lists, with or without `overwrite`, with objects that can be written or not, and arguments of
the wrong type), the object that was last stored under a group and name comes back from `get_pspec` with all its metadata, arrays, window functions, covariances and statistics;
and reading a part of it is the same as reading it whole and selecting that part in memory. (`hc`: the conversions of h5py are undone by the reader.)

Missing: `symmetric_taper` (never comes back, `C158_finding_symmetric_taper`), `r_params` (normalised by the reader), and an empty `stats_array`. -/
theorem C158_stored_object_partial {c : Codec V} (hc : ∀ k v, c.dec k (c.enc k v) = v) (htag : c.isTag c.tag = true)
    (calls : List (Op (Hdf5.Obj V))) (g n : String) (u : Hdf5.Obj V) (h : specRun (writable c) (fun _ _ => .absent) calls g n = .stored u) (hne : spwsOf c u ≠ []) :
    ∃ r, getPspec c (history c calls) g n (full c) = .ok r ∧ Same c u r ∧
      ∀ sel : Selection V, (∀ a, sel (Dict.set a n_r_params (c.rp a)) = sel a) → (∀ a p, sel a = .ok p → p.pairs ≠ []) →
        getPspec c (history c calls) g n sel = (select c r sel).mapError .read := by
  obtain ⟨f, hw, hg⟩ := getPspec_stored h
  obtain ⟨r, hr, h1, h2, h3, h4, h5, h6, h7, h8, h9, h10⟩ := C92_round_trip_partial (old := fresh c) hw hc htag hne
  refine ⟨r, by rw [hg, hr]; rfl, ?_, ?_⟩
  · refine ⟨h1, ?_, ?_, ?_, h8, ?_, h9, h10⟩
    · intro k hk
      by_cases ht : k = n_time_2_array
      · subst ht
        cases hu : Dict.get u.attrs n_time_2_array with
        | some v => exact h3 v hu
        | none =>
          rw [C92_finding_time_2_stale hw hc htag hne hr hu]
          rfl
      · exact h2 k hk ht
    · intro s hs a ha
      simp only [List.mem_cons, List.not_mem_nil, or_false] at ha
      rcases ha with rfl | rfl | rfl | rfl | rfl | rfl
      · exact (h4 s hs _ (by decide)).2
      · exact (h4 s hs _ (by decide)).2
      · exact (h4 s hs _ (by decide)).2
      · exact (h4 s hs _ (by decide)).2
      · exact h5 s hs
      · exact h7 s hs
    · intro s hs a ha
      have := h4 s hs a (by simpa [required] using ha)
      rw [this.2]; exact this.1
    · intro hx
      exact h6 (by simp [exactOf, hx])
  · intro sel hsel hp
    rw [hg, C92_read_selection hw hc htag hne hr sel hsel hp]

/-- C158: under a name where nothing was stored `get_pspec` raises KeyError, and where the last attempt to store failed while writing, TypeError. -/
theorem C158_not_stored (c : Codec V) (calls : List (Op (Hdf5.Obj V))) (g n : String) (sel : Selection V) :
    (specRun (writable c) (fun _ _ => .absent) calls g n = .absent → getPspec c (history c calls) g n sel = .error (.container .key)) ∧
    (specRun (writable c) (fun _ _ => .absent) calls g n = .broken → getPspec c (history c calls) g n sel = .error (.container .type)) := by
  have hs := history_slot c calls g n
  constructor <;> intro h <;> rw [h] at hs
  · have := (getOne_slot g n).2.1.2 hs
    unfold getPspec; rw [this]
  · have := (getOne_slot g n).2.2.2 hs
    unfold getPspec; rw [this]

/-- C158: what `get_pspec` returns for a stored object is not changed by later calls, failed or not, that use other names or do not say `overwrite`. -/
theorem C158_later_calls (c : Codec V) (calls later : List (Op (Hdf5.Obj V))) (g n : String) (u : Hdf5.Obj V)
    (h : specRun (writable c) (fun _ _ => .absent) calls g n = .stored u)
    (hl : ∀ op ∈ later, op.group = g → (∀ a, (n, a) ∉ op.items) ∨ op.overwrite = false) (sel : Selection V) :
    getPspec c (history c (calls ++ later)) g n sel = getPspec c (history c calls) g n sel := by
  have hkeep : ∀ (g' : String) (ow : Bool) (l : List (String × Hdf5.Obj V)) (m : Store (Hdf5.Obj V)), m g n = .stored u →
      (g' = g → (∀ v, (n, v) ∉ l) ∨ ow = false) → Store.writeAll (writable c) g' ow m l g n = .stored u := by
    intro g' ow l
    induction l with
    | nil => intro m hm _; exact hm
    | cons e l ih =>
      intro m hm hx
      obtain ⟨n', v⟩ := e
      have h1 : (m.write (writable c) g' n' v ow).1 g n = .stored u := by
        unfold Store.write
        split
        · rename_i hfree
          simp only [Store.put]
          rw [if_neg]
          · exact hm
          · rintro ⟨rfl, rfl⟩
            rcases hx rfl with h2 | h2
            · exact h2 v List.mem_cons_self
            · rw [hm, h2] at hfree
              cases hfree
        · exact hm
      simp only [Store.writeAll]
      split
      · exact ih _ h1 (fun hg => (hx hg).imp_left (fun h2 v hv => h2 v (List.mem_cons_of_mem _ hv)))
      · exact h1
  have huv : ∀ (l : List (String × Arg (Hdf5.Obj V))) v, (n, v) ∈ uvps l → (n, Arg.uvp v) ∈ l := by
    intro l v
    induction l with
    | nil => intro h; cases h
    | cons e l ih =>
      obtain ⟨n', a⟩ := e
      cases a with
      | other => intro h; cases h
      | uvp w =>
        intro h
        simp only [uvps] at h
        rcases List.mem_cons.1 h with h | h
        · injection h with h1 h2
          subst h1; subst h2
          exact List.mem_cons_self
        · exact List.mem_cons_of_mem _ (ih h)
  have hrun : specRun (writable c) (fun _ _ => .absent) (calls ++ later) g n = .stored u := by
    unfold specRun at h ⊢
    rw [List.foldl_append]
    generalize calls.foldl _ _ = m at h
    clear calls
    induction later generalizing m with
    | nil => exact h
    | cons op later ih =>
      refine ih (fun o ho => hl o (List.mem_cons_of_mem _ ho)) _ ?_
      refine hkeep _ _ _ _ h (fun hg => ?_)
      exact (hl op List.mem_cons_self hg).imp_left (fun h2 v hv => h2 _ (huv _ v hv))
  obtain ⟨f1, hf1, h1⟩ := getPspec_stored h
  obtain ⟨f2, hf2, h2⟩ := getPspec_stored hrun
  rw [hf1] at hf2
  injection hf2 with hf2
  rw [h1, h2, hf2]

/-- C158: `get_pspec(group)` returns, in the order of `spectra(group)`, what `get_pspec(group, name)` returns for each name, if each of them can be read. -/
theorem C158_whole_group (c : Codec V) (calls : List (Op (Hdf5.Obj V))) (g : String) (sel : Selection V) (l : List String)
    (hl : spectra (history c calls) g = .ok l) (hr : ∀ n ∈ l, ∃ r, getPspec c (history c calls) g n sel = .ok r) :
    ∃ rs, getPspecs c (history c calls) g sel = .ok rs ∧ List.Forall₂ (fun n r => getPspec c (history c calls) g n sel = .ok r) l rs := by
  obtain ⟨h1, h2, vs, hvs, hf⟩ := C37_spectra Option.isSome (calls.map (lowerOp c)) g l hl
  have hvs' : getAll (history c calls) g = .ok vs := hvs
  unfold getPspecs
  rw [hvs']
  clear hvs hvs' hl h1 h2
  induction hf with
  | nil => exact ⟨[], rfl, .nil⟩
  | @cons n v l vs h1 _ ih =>
    obtain ⟨rs, i1, i2⟩ := ih (fun n hn => hr n (List.mem_cons_of_mem _ hn))
    obtain ⟨r, hr1⟩ := hr n List.mem_cons_self
    have hld : load c sel v = .ok r := by
      have h1' : getOne (history c calls) g n = .ok v := h1
      unfold getPspec at hr1
      rw [h1'] at hr1
      exact hr1
    refine ⟨r :: rs, ?_, .cons hr1 i2⟩
    simp only at i1
    simp only [HeraPspec.UVP.mapE, hld, i1]

/-- C158 finding: an object read from a container has no `symmetric_taper`, whatever the stored object had. -/
theorem C158_finding_symmetric_taper {c : Codec V} (hc : ∀ k v, c.dec k (c.enc k v) = v) (htag : c.isTag c.tag = true)
    (calls : List (Op (Hdf5.Obj V))) (g n : String) (u r : Hdf5.Obj V) (h : specRun (writable c) (fun _ _ => .absent) calls g n = .stored u) (hne : spwsOf c u ≠ [])
    (hr : getPspec c (history c calls) g n (full c) = .ok r) : Dict.get r.attrs n_symmetric_taper = none := by
  obtain ⟨f, hw, hg⟩ := getPspec_stored h
  rw [hg] at hr
  cases hrd : readGroup c (fresh c) f (full c) with
  | error e => rw [hrd] at hr; cases hr
  | ok r' =>
    rw [hrd] at hr
    injection hr with hr
    subst hr
    rw [C92_finding_symmetric_taper hw hc htag hne hrd]
    have : n_folded ≠ n_symmetric_taper := by decide
    simp [fresh, Dict.get, this]

/-- C158 at work: the object of C92 is stored, a write without `overwrite`, a failing write elsewhere and a wrong argument follow; it comes back. -/
example : ∃ r, getPspec cex (history cex [.set "g" "a" (.uvp uex) false, .set "g" "a" (.uvp ⟨[], [], none⟩) false, .setList "g" [("b", .uvp ⟨[], [], none⟩)] true,
    .set "h" "a" .other true]) "g" "a" (full cex) = .ok r ∧ Same cex uex r := by
  have hw : writable cex uex = true := by decide +kernel
  have hn : writable cex (⟨[], [], none⟩ : Hdf5.Obj (List ℕ)) = false := by decide +kernel
  obtain ⟨r, h1, h2, _⟩ := C158_stored_object_partial (c := cex) (by
      intro k v
      show (if k = n_labels then (if k = n_labels then 9 :: v else v).tail else (if k = n_labels then 9 :: v else v)) = v
      by_cases h : k = n_labels <;> simp [h]) (by decide)
    [.set "g" "a" (.uvp uex) false, .set "g" "a" (.uvp ⟨[], [], none⟩) false, .setList "g" [("b", .uvp ⟨[], [], none⟩)] true, .set "h" "a" .other true]
    "g" "a" uex (by simp [specRun, Store.writeAll, Store.write, uvps, Op.items, Op.group, Op.overwrite, Store.put, Slot.free, hw, hn]) (by decide +kernel)
  exact ⟨r, h1, h2⟩

end HeraPspec.ContainerIO
