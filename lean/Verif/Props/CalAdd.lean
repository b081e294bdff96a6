import Verif.Model.CalAdd
import Verif.Spec.CalAdd
import Verif.Props.Labels

/-!
C160: how often the calibration given to `PSpecData.add` or `pspec_run` is applied to each `UVData` object.

The specification (`calibrated`, `requested`, `inOrder`) is in `Verif/Spec/CalAdd.lean`.
-/
namespace HeraPspec.Labels
open HeraPspec.ArgParse (Str)
open HeraPspec.UVP (mapE mapE_ok_iff)
variable {D C F G : Type}

theorem calRefs_ok {cal : C → D → Option D} {calls : List (ℕ × C)} {m m' : Mem D} (h : calRefs cal m calls = (m', false))
    (a : ℕ) : calibrated cal (m a) ((calls.filter (fun x => decide (x.1 = a))).map (·.2)) = some (m' a) := by
  induction calls generalizing m with
  | nil =>
    simp only [calRefs, Prod.mk.injEq, and_true] at h
    subst h
    rfl
  | cons x rest ih =>
    obtain ⟨b, c⟩ := x
    simp only [calRefs] at h
    cases hc : cal c (m b) with
    | none => rw [hc] at h; simp at h
    | some d =>
      rw [hc] at h
      have := ih h
      by_cases hb : b = a
      · subst hb
        simp only [Function.update_self] at this
        simp only [List.filter_cons, decide_true, ↓reduceIte, List.map_cons, calibrated, hc, Option.bind_some]
        exact this
      · rw [Function.update_of_ne (fun e => hb e.symm)] at this
        simpa [hb] using this

theorem calRefs_error {cal : C → D → Option D} {calls : List (ℕ × C)} {m m' : Mem D} (h : calRefs cal m calls = (m', true)) :
    ∃ pre a c post, calls = pre ++ (a, c) :: post ∧ calRefs cal m pre = (m', false) ∧ cal c (m' a) = none := by
  induction calls generalizing m with
  | nil => simp [calRefs] at h
  | cons x rest ih =>
    obtain ⟨b, c⟩ := x
    simp only [calRefs] at h
    cases hc : cal c (m b) with
    | none =>
      rw [hc] at h
      simp only [Prod.mk.injEq, and_true] at h
      subst h
      exact ⟨[], b, c, rest, rfl, rfl, hc⟩
    | some d =>
      rw [hc] at h
      obtain ⟨pre, a, c', post, e1, e2, e3⟩ := ih h
      refine ⟨(b, c) :: pre, a, c', post, by rw [e1]; rfl, ?_, e3⟩
      simp only [calRefs, hc]
      exact e2

theorem calCalls_requested (a : ℕ) (ds : List ℕ) (ss : List (Option ℕ)) (cs : List (Option C)) :
    ((calCalls ((ds.zip ss).zip cs)).filter (fun x => decide (x.1 = a))).map (·.2) = requested a ds ss cs := by
  induction ds generalizing ss cs with
  | nil => simp [calCalls, requested]
  | cons d ds ih =>
    cases ss with
    | nil => simp [calCalls, requested]
    | cons s ss =>
      cases cs with
      | nil => simp [calCalls, requested]
      | cons c cs =>
        have ih' := ih ss cs
        unfold requested at ih' ⊢
        cases c with
        | none => simpa [calCalls] using ih'
        | some c =>
          cases s with
          | none =>
            by_cases h : d = a <;> simp [calCalls, h, ih']
          | some s =>
            by_cases h : d = a <;> by_cases h2 : s = a <;> simp [calCalls, h, h2, ih']

theorem calCalls_inOrder (ds : List ℕ) (ss : List (Option ℕ)) (cs : List (Option C)) :
    calCalls ((ds.zip ss).zip cs) = inOrder ds ss cs := by
  induction ds generalizing ss cs with
  | nil => simp [calCalls, inOrder]
  | cons d ds ih =>
    cases ss with
    | nil => simp [calCalls, inOrder]
    | cons s ss =>
      cases cs with
      | nil => simp [calCalls, inOrder]
      | cons c cs =>
        have ih' := ih ss cs
        unfold inOrder at ih' ⊢
        cases c <;> cases s <;> simp [calCalls, ih']

/-- What `add` does with lists of objects. -/
theorem addRef_lists (nf : D → ℕ) (cal : C → D → Option D) (m : Mem D) (s : St ℕ) (ds : List ℕ) (ws ss : List (Option ℕ))
    (cs : List (Option C)) (ls : LArg) (hw : ws.length = ds.length) (hs : ss.length = ds.length)
    (hc : cs.length = ds.length) (hl : ∀ l, ls.toList = some l → l.length = ds.length) :
    addRef nf cal m s (.list (ds.map .obj)) (.list (ws.map .ofOption)) (.list (ss.map .ofOption)) (.list (cs.map .ofOption)) ls =
      (let r := calRefs cal m (calCalls ((ds.zip ss).zip cs))
       if r.2 then (r.1, .error .calib)
       else match (s.dsets ++ ds).head? with
        | none => (r.1, .error .index)
        | some d0 => (r.1, .ok ⟨s.dsets ++ ds, s.wgts ++ ws, s.stds ++ ss,
            relabel [] (s.labels ++ ls.toList.getD (defaultLabels s.dsets.length ds.length)),
            some (nf (r.1 d0)), some (0, nf (r.1 d0))⟩)) := by
  have h1 : mapE mustObj (ds.map Obj.obj) = .ok ds := mapE_map_ok mustObj Obj.obj (fun _ => rfl) ds
  have h2 : mapE optObj (ws.map Obj.ofOption) = .ok ws := mapE_map_ok _ _ optObj_ofOption ws
  have h3 : mapE optObj (ss.map Obj.ofOption) = .ok ss := mapE_map_ok _ _ optObj_ofOption ss
  have h4 : mapE optObj (cs.map Obj.ofOption) = .ok cs := mapE_map_ok _ _ optObj_ofOption cs
  have hl' : lengthsOk (⟨ds.map Obj.obj, ws.map Obj.ofOption, ss.map Obj.ofOption,
      cs.map Obj.ofOption, ls.toList⟩ : Lists ℕ C) = true := by
    unfold lengthsOk
    cases hls : ls.toList with
    | none => simp [hw, hs, hc]
    | some l => simp [hw, hs, hc, hl l hls]
  have ht : toLists (D := ℕ) (C := C) (.list (ds.map Obj.obj)) (.list (ws.map .ofOption)) (.list (ss.map .ofOption))
      (.list (cs.map .ofOption)) ls =
        .ok ⟨ds.map Obj.obj, ws.map Obj.ofOption, ss.map Obj.ofOption, cs.map Obj.ofOption, ls.toList⟩ := by
      simp only [toLists, dsetsList, wgtsList, restList, bind, Except.bind, pure, Except.pure]
  unfold addRef
  simp only [ht, hl', if_true, h1, h2, h3, h4]
  rfl

/-- **C160** After a successful `add` every object in memory - whether it was passed or not, as data set, as error set, as
both or several times - holds its old content calibrated once for every position at which it was passed with a
calibration, and the collection has grown by the data sets in the given order. -/
theorem C160_every_object (nf : D → ℕ) (cal : C → D → Option D) (m m' : Mem D) (s s' : St ℕ) (ds : List ℕ)
    (ws ss : List (Option ℕ)) (cs : List (Option C)) (ls : LArg) (hw : ws.length = ds.length) (hs : ss.length = ds.length)
    (hc : cs.length = ds.length) (hl : ∀ l, ls.toList = some l → l.length = ds.length)
    (h : addRef nf cal m s (.list (ds.map .obj)) (.list (ws.map .ofOption)) (.list (ss.map .ofOption))
      (.list (cs.map .ofOption)) ls = (m', .ok s')) :
    (∀ a, calibrated cal (m a) (requested a ds ss cs) = some (m' a)) ∧
    s'.dsets = s.dsets ++ ds ∧ s'.wgts = s.wgts ++ ws ∧ s'.stds = s.stds ++ ss := by
  rw [addRef_lists nf cal m s ds ws ss cs ls hw hs hc hl] at h
  simp only at h
  rcases hr : calRefs cal m (calCalls ((ds.zip ss).zip cs)) with ⟨r1, r2⟩
  rw [hr] at h
  cases r2 with
  | true => simp at h
  | false =>
    simp only [Bool.false_eq_true, ↓reduceIte] at h
    split at h
    · cases h
    · cases h
      refine ⟨fun a => ?_, rfl, rfl, rfl⟩
      rw [← calCalls_requested]
      exact calRefs_ok hr a

/-- **C160** A call of `add` that fails in the calibration adds nothing to the collection, but the calibrations that came
before the failing one - in the order of positions, the data set before the error set - have been applied and stay. -/
theorem C160_failure (nf : D → ℕ) (cal : C → D → Option D) (m m' : Mem D) (s : St ℕ) (ds : List ℕ)
    (ws ss : List (Option ℕ)) (cs : List (Option C)) (ls : LArg) (hw : ws.length = ds.length) (hs : ss.length = ds.length)
    (hc : cs.length = ds.length) (hl : ∀ l, ls.toList = some l → l.length = ds.length)
    (h : addRef nf cal m s (.list (ds.map .obj)) (.list (ws.map .ofOption)) (.list (ss.map .ofOption))
      (.list (cs.map .ofOption)) ls = (m', .error .calib)) :
    ∃ pre b c post, inOrder ds ss cs = pre ++ (b, c) :: post ∧ cal c (m' b) = none ∧
      ∀ a, calibrated cal (m a) ((pre.filter (fun x => decide (x.1 = a))).map (·.2)) = some (m' a) := by
  rw [addRef_lists nf cal m s ds ws ss cs ls hw hs hc hl] at h
  simp only at h
  rcases hr : calRefs cal m (calCalls ((ds.zip ss).zip cs)) with ⟨r1, r2⟩
  rw [hr] at h
  cases r2 with
  | false =>
    simp only [Bool.false_eq_true, ↓reduceIte] at h
    split at h <;> cases h
  | true =>
    simp only [↓reduceIte, Prod.mk.injEq, and_true] at h
    subst h
    obtain ⟨pre, b, c, post, e1, e2, e3⟩ := calRefs_error hr
    exact ⟨pre, b, c, post, by rw [← calCalls_inOrder]; exact e1, e3, fun a => calRefs_ok e2 a⟩

/-- **C160** Every other failure of `add` (types, lengths, labels) leaves all objects as they were. -/
theorem C160_other_failures (nf : D → ℕ) (cal : C → D → Option D) (m : Mem D) (s : St ℕ) (dsets wgts stds : Arg ℕ)
    (cals : Arg C) (labels : LArg) (e : Err) (he : e ≠ .calib)
    (h : (addRef nf cal m s dsets wgts stds cals labels).2 = .error e) :
    (addRef nf cal m s dsets wgts stds cals labels).1 = m := by
  unfold addRef at h ⊢
  split
  · rfl
  · rename_i a ha
    rw [ha] at h
    simp only at h
    split
    · rename_i hl
      rw [if_pos hl] at h
      split
      · rfl
      · rename_i ds hds
        rw [hds] at h
        simp only at h
        split
        · rfl
        · rename_i ws hws
          rw [hws] at h
          simp only at h
          split
          · rfl
          · rename_i ss hss
            rw [hss] at h
            simp only at h
            split
            · rfl
            · rename_i cs hcs
              rw [hcs] at h
              simp only at h ⊢
              cases hr : (calRefs cal m (calCalls ((ds.zip ss).zip cs))).2 with
              | true =>
                rw [hr] at h
                simp only [↓reduceIte, Except.error.injEq] at h
                exact absurd h.symm he
              | false =>
                rw [hr] at h
                simp only [Bool.false_eq_true, ↓reduceIte] at h ⊢
                split
                · rename_i hh
                  have hd : ds = [] := by
                    rw [List.head?_eq_none_iff, List.append_eq_nil_iff] at hh
                    exact hh.2
                  subst hd
                  simp [calCalls, calRefs]
                · rename_i d0 hh
                  rw [hh] at h
                  cases h
    · rfl

theorem requested_once {a : ℕ} : ∀ {ds : List ℕ} {ss : List (Option ℕ)} {cs : List (Option C)},
    ss.length = ds.length → cs.length = ds.length → a ∉ ds → some a ∉ ss → requested a ds ss cs = [] := by
  intro ds ss cs h1 h2 h3 h4
  unfold requested
  rw [List.flatMap_eq_nil_iff]
  rintro ⟨d, s, c⟩ hx
  have hd := (List.of_mem_zip hx).1
  have hs := (List.of_mem_zip (List.of_mem_zip hx).2).1
  have hd' : d ≠ a := fun e => h3 (e ▸ hd)
  have hs' : s ≠ some a := fun e => h4 (e ▸ hs)
  simp [hd', hs']

theorem requested_cons {C : Type} (a d : ℕ) (s : Option ℕ) (c : Option C) (ds : List ℕ) (ss : List (Option ℕ)) (cs : List (Option C)) :
    requested a (d :: ds) (s :: ss) (c :: cs) =
      (if d = a then c.toList else []) ++ (if s = some a then c.toList else []) ++ requested a ds ss cs := by
  simp [requested]

theorem requested_nodup : ∀ {ds : List ℕ} {ss : List (Option ℕ)} {cs : List (Option C)} {i : ℕ},
    ss.length = ds.length → (h2 : cs.length = ds.length) → (ds ++ ss.filterMap id).Nodup → (hi : i < ds.length) →
    requested ds[i] ds ss cs = (cs[i]'(by omega)).toList := by
  intro ds
  induction ds with
  | nil => intro ss cs i _ _ _ hi; simp at hi
  | cons d ds ih =>
    intro ss cs i h1 h2 hn hi
    cases ss with
    | nil => simp at h1
    | cons s ss =>
      cases cs with
      | nil => simp at h2
      | cons c cs =>
        have l1 : ss.length = ds.length := by simpa using h1
        have l2 : cs.length = ds.length := by simpa using h2
        rw [requested_cons]
        rw [List.nodup_append] at hn
        obtain ⟨n1, n2, n3⟩ := hn
        rw [List.nodup_cons] at n1
        have hsub : ∀ x, x ∈ ss.filterMap id → x ∈ (s :: ss).filterMap id := by
          intro x hx
          rw [List.mem_filterMap] at hx ⊢
          obtain ⟨y, hy, e⟩ := hx
          exact ⟨y, List.mem_cons_of_mem _ hy, e⟩
        have hmem : ∀ x, some x ∈ (s :: ss) → x ∈ (s :: ss).filterMap id := by
          intro x hx
          rw [List.mem_filterMap]
          exact ⟨some x, hx, rfl⟩
        cases i with
        | zero =>
          have hs : s ≠ some d := by
            rintro rfl
            exact n3 d List.mem_cons_self d (hmem d List.mem_cons_self) rfl
          have hss : some d ∉ ss := by
            intro hx
            exact n3 d List.mem_cons_self d (hmem d (List.mem_cons_of_mem _ hx)) rfl
          have := requested_once (C := C) l1 l2 n1.1 hss
          simp [hs, this]
        | succ i =>
          have hi' : i < ds.length := by simpa using hi
          simp only [List.getElem_cons_succ]
          have hd : d ≠ ds[i] := fun e => n1.1 (e ▸ List.getElem_mem hi')
          have hs : s ≠ some ds[i] := by
            rintro rfl
            exact n3 ds[i] (List.mem_cons_of_mem _ (List.getElem_mem hi')) ds[i] (hmem _ List.mem_cons_self) rfl
          have hnn : (ds ++ ss.filterMap id).Nodup := by
            rw [List.nodup_append]
            refine ⟨n1.2, ?_, fun x hx y hy e => n3 x (List.mem_cons_of_mem _ hx) y (hsub y hy) e⟩
            cases s with
            | none => simpa using n2
            | some s => simp only [List.filterMap_cons, id] at n2; exact (List.nodup_cons.1 n2).2
          rw [if_neg hd, if_neg hs, ih l1 l2 hnn hi']
          simp

theorem requested_nodup_std : ∀ {ds : List ℕ} {ss : List (Option ℕ)} {cs : List (Option C)} {i : ℕ} {x : ℕ},
    (h1 : ss.length = ds.length) → (h2 : cs.length = ds.length) → (ds ++ ss.filterMap id).Nodup → (hi : i < ds.length) →
    ss[i]'(by omega) = some x → requested x ds ss cs = (cs[i]'(by omega)).toList := by
  intro ds
  induction ds with
  | nil => intro ss cs i x _ _ _ hi; simp at hi
  | cons d ds ih =>
    intro ss cs i x h1 h2 hn hi hx
    cases ss with
    | nil => simp at h1
    | cons s ss =>
      cases cs with
      | nil => simp at h2
      | cons c cs =>
        have l1 : ss.length = ds.length := by simpa using h1
        have l2 : cs.length = ds.length := by simpa using h2
        rw [requested_cons]
        rw [List.nodup_append] at hn
        obtain ⟨n1, n2, n3⟩ := hn
        rw [List.nodup_cons] at n1
        have hxs : x ∈ (s :: ss).filterMap id := by
          rw [List.mem_filterMap]
          exact ⟨some x, hx ▸ List.getElem_mem _, rfl⟩
        have hd : d ≠ x := fun e => n3 d List.mem_cons_self x hxs e
        have hxd : x ∉ ds := fun e => n3 x (List.mem_cons_of_mem _ e) x hxs rfl
        rw [if_neg hd]
        cases i with
        | zero =>
          simp only [List.getElem_cons_zero] at hx
          subst hx
          simp only [List.filterMap_cons, id, List.nodup_cons] at n2
          have hss : some x ∉ ss := by
            intro hx
            exact n2.1 (List.mem_filterMap.2 ⟨some x, hx, rfl⟩)
          have := requested_once (C := C) l1 l2 hxd hss
          simp [this]
        | succ i =>
          have hi' : i < ds.length := by simpa using hi
          simp only [List.getElem_cons_succ] at hx ⊢
          have hxs' : x ∈ ss.filterMap id := List.mem_filterMap.2 ⟨some x, hx ▸ List.getElem_mem _, rfl⟩
          have hs : s ≠ some x := by
            rintro rfl
            simp only [List.filterMap_cons, id, List.nodup_cons] at n2
            exact n2.1 hxs'
          have hnn : (ds ++ ss.filterMap id).Nodup := by
            rw [List.nodup_append]
            refine ⟨n1.2, ?_, fun y hy z hz e => n3 y (List.mem_cons_of_mem _ hy) z (by
              rw [List.mem_filterMap] at hz ⊢
              obtain ⟨w, hw, e⟩ := hz
              exact ⟨w, List.mem_cons_of_mem _ hw, e⟩) e⟩
            cases s with
            | none => simpa using n2
            | some s => simp only [List.filterMap_cons, id] at n2; exact (List.nodup_cons.1 n2).2
          rw [if_neg hs, ih l1 l2 hnn hi' hx]
          simp

/-- **C160** (full claim: the calibration is applied exactly once to each data set and error set that has one.) Proved when no
`UVData` object is passed at two places: then after a successful call the `i`-th data set and the `i`-th error set are
calibrated once with the `i`-th calibration, untouched if there is none, and no other object has changed.
Missing: objects passed at two places, which are calibrated twice (`C160_finding_twice`). -/
theorem C160_once_partial (nf : D → ℕ) (cal : C → D → Option D) (m m' : Mem D) (s s' : St ℕ) (ds : List ℕ)
    (ws ss : List (Option ℕ)) (cs : List (Option C)) (ls : LArg) (hw : ws.length = ds.length) (hs : ss.length = ds.length)
    (hc : cs.length = ds.length) (hl : ∀ l, ls.toList = some l → l.length = ds.length)
    (hn : (ds ++ ss.filterMap id).Nodup)
    (h : addRef nf cal m s (.list (ds.map .obj)) (.list (ws.map .ofOption)) (.list (ss.map .ofOption))
      (.list (cs.map .ofOption)) ls = (m', .ok s')) :
    (∀ i (hi : i < ds.length),
      (∀ c, cs[i] = some c → cal c (m ds[i]) = some (m' ds[i])) ∧
      (cs[i] = none → m' ds[i] = m ds[i]) ∧
      (∀ x, ss[i] = some x → (∀ c, cs[i] = some c → cal c (m x) = some (m' x)) ∧ (cs[i] = none → m' x = m x))) ∧
    (∀ a, a ∉ ds → some a ∉ ss → m' a = m a) := by
  have hall := (C160_every_object nf cal m m' s s' ds ws ss cs ls hw hs hc hl h).1
  have conv : ∀ (x : ℕ) (c : Option C), requested x ds ss cs = c.toList →
      (∀ c', c = some c' → cal c' (m x) = some (m' x)) ∧ (c = none → m' x = m x) := by
    intro x c hr
    have hx := hall x
    rw [hr] at hx
    constructor
    · rintro c' rfl
      simp only [Option.toList, calibrated] at hx
      cases hcx : cal c' (m x) with
      | none => rw [hcx] at hx; simp at hx
      | some d => rw [hcx] at hx; simpa using hx
    · rintro rfl
      simp only [Option.toList, calibrated, Option.some.injEq] at hx
      exact hx.symm
  refine ⟨fun i hi => ?_, fun a h1 h2 => ?_⟩
  · obtain ⟨p1, p2⟩ := conv ds[i] _ (requested_nodup hs hc hn hi)
    refine ⟨p1, p2, fun x hx => ?_⟩
    exact conv x _ (requested_nodup_std hs hc hn hi hx)
  · have hx := hall a
    rw [requested_once hs hc h1 h2] at hx
    simp only [calibrated, Option.some.injEq] at hx
    exact hx.symm

/-! ### `pspec_run` -/

theorem loadDsets_ok {read : F → Option D} {fs : List F} {m m' : Mem D} {next next' : ℕ} {l : List ℕ}
    (h : loadDsets read m next fs = some (m', next', l)) :
    l = List.range' next fs.length ∧ next' = next + fs.length ∧
    (∀ i (hi : i < fs.length), read fs[i] = some (m' (next + i))) ∧ (∀ a, a < next → m' a = m a) := by
  induction fs generalizing m next l with
  | nil =>
    simp only [loadDsets, Option.some.injEq, Prod.mk.injEq] at h
    obtain ⟨rfl, rfl, rfl⟩ := h
    simp
  | cons f fs ih =>
    simp only [loadDsets] at h
    cases hf : read f with
    | none => rw [hf] at h; simp at h
    | some d =>
      rw [hf] at h
      simp only at h
      cases hl : loadDsets read (Function.update m next d) (next + 1) fs with
      | none => rw [hl] at h; simp at h
      | some r =>
        obtain ⟨m1, n1, l1⟩ := r
        rw [hl] at h
        simp only [Option.some.injEq, Prod.mk.injEq] at h
        obtain ⟨rfl, rfl, rfl⟩ := h
        obtain ⟨e1, e2, e3, e4⟩ := ih hl
        refine ⟨?_, ?_, ?_, ?_⟩
        · rw [e1]; simp [List.range'_succ]
        · rw [e2]; simp; omega
        · intro i hi
          cases i with
          | zero =>
            have := e4 next (by omega)
            simp only [Function.update_self] at this
            simp [this, hf]
          | succ i =>
            have := e3 i (by simpa using hi)
            simp only [List.getElem_cons_succ]
            rw [this]
            congr 2
            omega
        · intro a ha
          rw [e4 a (by omega), Function.update_of_ne (by omega)]

/-- The calibrations as a list, one per data set. -/
def calList (readCal : G → C) (n : ℕ) : RunCals G → List C
  | .one g => List.replicate n (readCal g)
  | .many l => l.map readCal

theorem addRef_short (nf : D → ℕ) (cal : C → D → Option D) (m : Mem D) (s : St ℕ) (ds : List ℕ) (ws ss : List (Option ℕ))
    (cs : List (Option C)) (ls : LArg)
    (h : ¬ (ss.length = ds.length ∧ cs.length = ds.length ∧ ∀ l, ls.toList = some l → l.length = ds.length)) :
    addRef nf cal m s (.list (ds.map .obj)) (.list (ws.map .ofOption)) (.list (ss.map .ofOption)) (.list (cs.map .ofOption)) ls =
      (m, .error .assertion) := by
  have ht : toLists (D := ℕ) (C := C) (.list (ds.map Obj.obj)) (.list (ws.map .ofOption)) (.list (ss.map .ofOption))
      (.list (cs.map .ofOption)) ls =
        .ok ⟨ds.map Obj.obj, ws.map Obj.ofOption, ss.map Obj.ofOption, cs.map Obj.ofOption, ls.toList⟩ := by
      simp only [toLists, dsetsList, wgtsList, restList, bind, Except.bind, pure, Except.pure]
  have hl' : lengthsOk (⟨ds.map Obj.obj, ws.map Obj.ofOption, ss.map Obj.ofOption,
      cs.map Obj.ofOption, ls.toList⟩ : Lists ℕ C) = false := by
    unfold lengthsOk
    by_contra hc
    rw [Bool.not_eq_false] at hc
    simp only [Bool.and_eq_true, beq_iff_eq, List.length_map] at hc
    apply h
    refine ⟨hc.1.1.2, hc.1.2, ?_⟩
    intro l hl
    have := hc.2
    rw [hl] at this
    exact (by simpa using this : ds.length = l.length).symm
  unfold addRef
  simp only [ht, hl']
  rfl

/-- The call of `add` in `pspec_run`, with everything as lists. -/
theorem run_addRef (nf : D → ℕ) (cal : C → D → Option D) (readCal : G → C) (m : Mem D) (ds ss : List ℕ) (g : RunCals G) (ls : LArg) :
    addRef nf cal m St.empty (.list (ds.map .obj)) (.list (ds.map (fun _ => .none))) (.list (ss.map .obj))
      (runCals readCal ds.length (some g)) ls =
    addRef nf cal m St.empty (.list (ds.map .obj)) (.list ((ds.map (fun _ => none)).map .ofOption))
      (.list ((ss.map some).map .ofOption)) (.list (((calList readCal ds.length g).map some).map .ofOption)) ls ∧
    addRef nf cal m St.empty (.list (ds.map .obj)) (.list (ds.map (fun _ => .none))) .none
      (runCals readCal ds.length (some g)) ls =
    addRef nf cal m St.empty (.list (ds.map .obj)) (.list ((ds.map (fun _ => none)).map .ofOption))
      (.list ((List.replicate ds.length none).map .ofOption)) (.list (((calList readCal ds.length g).map some).map .ofOption)) ls := by
  have hg : runCals readCal ds.length (some g) = .list (((calList readCal ds.length g).map some).map .ofOption) := by
    cases g with
    | one g => simp [runCals, calList, Obj.ofOption]
    | many l => simp [runCals, calList, Obj.ofOption, Function.comp_def]
  have hw : ds.map (fun _ => (Obj.none : Obj ℕ)) = (ds.map (fun _ => none)).map .ofOption := by simp [Obj.ofOption, Function.comp_def]
  have hs : ss.map (Obj.obj : ℕ → Obj ℕ) = (ss.map some).map .ofOption := by simp [Obj.ofOption, Function.comp_def]
  rw [hg, hw, hs]
  refine ⟨rfl, ?_⟩
  have h1 : toLists (D := ℕ) (C := C) (.list (ds.map .obj)) (.list ((ds.map (fun _ => none)).map .ofOption)) .none
      (.list (((calList readCal ds.length g).map some).map .ofOption)) ls =
      toLists (.list (ds.map .obj)) (.list ((ds.map (fun _ => none)).map .ofOption))
      (.list ((List.replicate ds.length none).map .ofOption)) (.list (((calList readCal ds.length g).map some).map .ofOption)) ls := by
    simp [toLists, dsetsList, wgtsList, restList, Obj.ofOption, bind, Except.bind]
  unfold addRef
  rw [h1]

/-- **C160** With file names, `pspec_run` applies each calibration exactly once: the `i`-th data set (and the `i`-th error
set) is the content of its file calibrated once with the `i`-th calibration, or with the only one if a single calibration
is given, and no object of the caller is touched. A number of calibrations other than one per data set is refused. -/
theorem C160_pspec_run_files (nf : D → ℕ) (cal : C → D → Option D) (read : F → Option D) (readCal : G → C)
    (m m' : Mem D) (next : ℕ) (fs : List F) (es : Option (List F)) (g : RunCals G) (ls : LArg) (s' : St ℕ)
    (h : runAdd nf cal read readCal m next (.files fs) (es.map .files) (some g) ls = (m', some (.ok s'))) :
    s'.dsets.length = fs.length ∧ (calList readCal fs.length g).length = fs.length ∧
    (∀ i (hi : i < fs.length), ∃ c d x, (calList readCal fs.length g)[i]? = some c ∧ read fs[i] = some d ∧
      s'.dsets[i]? = some x ∧ cal c d = some (m' x)) ∧
    (∀ el, es = some el → el.length = fs.length ∧ ∀ i (hi : i < el.length), ∃ c d x,
      (calList readCal fs.length g)[i]? = some c ∧ read el[i] = some d ∧ s'.stds[i]? = some (some x) ∧
      cal c d = some (m' x)) ∧
    (∀ a, a < next → m' a = m a) := by
  simp only [runAdd, runObjs] at h
  cases hd : loadDsets read m next fs with
  | none => rw [hd] at h; simp at h
  | some r =>
    obtain ⟨m1, n1, ds⟩ := r
    obtain ⟨e1, e2, e3, e4⟩ := loadDsets_ok hd
    rw [hd] at h
    simp only at h
    have hlen : ds.length = fs.length := by rw [e1]; simp
    cases es with
    | none =>
      simp only [Option.map_none, Prod.mk.injEq, Option.some.injEq] at h
      rw [(run_addRef nf cal readCal m1 ds [] g ls).2] at h
      have h' := Prod.ext (x := addRef _ _ _ _ _ _ _ _ _) (y := (m', .ok s')) h.1 h.2
      have hok : (calList readCal ds.length g).length = ds.length ∧ ∀ l, ls.toList = some l → l.length = ds.length := by
        by_contra hc
        rw [addRef_short nf cal m1 St.empty ds _ _ _ ls (by
          intro hcc; apply hc; refine ⟨by simpa using hcc.2.1, hcc.2.2⟩)] at h'
        have h2 := congrArg Prod.snd h'
        cases h2
      have hall := C160_once_partial nf cal m1 m' St.empty s' ds _ (List.replicate ds.length none) _ ls (by simp) (by simp)
        (by simpa using hok.1) hok.2 (by rw [e1]; simp [List.nodup_range']) h'
      have hadd := (C160_every_object nf cal m1 m' St.empty s' ds _ (List.replicate ds.length none) _ ls (by simp) (by simp)
        (by simpa using hok.1) hok.2 h').2
      have hds : s'.dsets = ds := by rw [hadd.1]; rfl
      refine ⟨by rw [hds, hlen], by rw [← hlen]; exact hok.1, ?_, by simp, ?_⟩
      · intro i hi
        have hi' : i < ds.length := by omega
        have hx : ds[i] = next + i := by simp [e1]
        have hcl : i < (calList readCal fs.length g).length := by rw [← hlen]; omega
        refine ⟨(calList readCal fs.length g)[i], m1 (next + i), next + i, List.getElem?_eq_getElem hcl, e3 i hi, ?_, ?_⟩
        · rw [hds, List.getElem?_eq_getElem hi', hx]
        · have := (hall.1 i hi').1 ((calList readCal fs.length g)[i]) (by simp [hlen])
          rw [hx] at this
          exact this
      · intro a ha
        rw [hall.2 a (by rw [e1]; simp; omega) (by simp), e4 a ha]
    | some el =>
      simp only [Option.map_some] at h
      cases hd2 : loadDsets read m1 n1 el with
      | none => rw [hd2] at h; simp at h
      | some r2 =>
        obtain ⟨m2, n2, ss⟩ := r2
        obtain ⟨f1, f2, f3, f4⟩ := loadDsets_ok hd2
        rw [hd2] at h
        simp only at h
        have hlen2 : ss.length = el.length := by rw [f1]; simp
        split at h
        · rename_i hsl
          simp only [Prod.mk.injEq, Option.some.injEq] at h
          rw [(run_addRef nf cal readCal m2 ds ss g ls).1] at h
          have h' := Prod.ext (x := addRef _ _ _ _ _ _ _ _ _) (y := (m', .ok s')) h.1 h.2
          have hok : (calList readCal ds.length g).length = ds.length ∧ ∀ l, ls.toList = some l → l.length = ds.length := by
            by_contra hc
            rw [addRef_short nf cal m2 St.empty ds _ _ _ ls (by
              intro hcc; apply hc; refine ⟨by simpa using hcc.2.1, hcc.2.2⟩)] at h'
            have h2 := congrArg Prod.snd h'
            cases h2
          have hnd : (ds ++ (ss.map some).filterMap id).Nodup := by
            have : (ss.map some).filterMap id = ss := by simp
            rw [this, e1, f1, List.nodup_append]
            refine ⟨List.nodup_range', List.nodup_range', ?_⟩
            intro x hx y hy
            simp only [List.mem_range'_1] at hx hy
            omega
          have hall := C160_once_partial nf cal m2 m' St.empty s' ds _ (ss.map some) _ ls (by simp) (by simpa using hsl)
            (by simpa using hok.1) hok.2 hnd h'
          have hadd := (C160_every_object nf cal m2 m' St.empty s' ds _ (ss.map some) _ ls (by simp) (by simpa using hsl)
            (by simpa using hok.1) hok.2 h').2
          have hds : s'.dsets = ds := by rw [hadd.1]; rfl
          have hss : s'.stds = ss.map some := by rw [hadd.2.2]; rfl
          refine ⟨by rw [hds, hlen], by rw [← hlen]; exact hok.1, ?_, ?_, ?_⟩
          · intro i hi
            have hi' : i < ds.length := by omega
            have hx : ds[i] = next + i := by simp [e1]
            have hcl : i < (calList readCal fs.length g).length := by rw [← hlen]; omega
            refine ⟨(calList readCal fs.length g)[i], m1 (next + i), next + i, List.getElem?_eq_getElem hcl, e3 i hi, ?_, ?_⟩
            · rw [hds, List.getElem?_eq_getElem hi', hx]
            · have := (hall.1 i hi').1 ((calList readCal fs.length g)[i]) (by simp [hlen])
              rw [hx, f4 (next + i) (by omega)] at this
              exact this
          · rintro el' hel
            cases hel
            refine ⟨by omega, fun i hi => ?_⟩
            have hi' : i < ds.length := by omega
            have his : i < ss.length := by omega
            have hx : ss[i] = n1 + i := by simp [f1]
            have hcl : i < (calList readCal fs.length g).length := by rw [← hlen]; omega
            refine ⟨(calList readCal fs.length g)[i], m2 (n1 + i), n1 + i, List.getElem?_eq_getElem hcl, f3 i hi, ?_, ?_⟩
            · rw [hss, List.getElem?_map, List.getElem?_eq_getElem his, hx]; rfl
            · exact ((hall.1 i hi').2.2 (n1 + i) (by simp [hx])).1 ((calList readCal fs.length g)[i]) (by simp [hlen])
          · intro a ha
            rw [hall.2 a (by rw [e1]; simp; omega) (by rw [f1]; simp; omega), f4 a (by omega), e4 a ha]
        · simp at h

/-- The error sets of a run, one slot per data set. -/
def errSlots (n : ℕ) : Option (List ℕ) → List (Option ℕ)
  | none => List.replicate n none
  | some l => l.map some

/-- **C160** With objects of the caller, `pspec_run` calibrates those very objects, once for every position at which an
object is passed as data set or error set. -/
theorem C160_pspec_run_objects (nf : D → ℕ) (cal : C → D → Option D) (read : F → Option D) (readCal : G → C)
    (m m' : Mem D) (next : ℕ) (ds : List ℕ) (es : Option (List ℕ)) (g : RunCals G) (ls : LArg) (s' : St ℕ)
    (h : runAdd nf cal read readCal m next (.objs ds) (es.map .objs) (some g) ls = (m', some (.ok s'))) :
    s'.dsets = ds ∧ s'.stds = errSlots ds.length es ∧
    ∀ a, calibrated cal (m a) (requested a ds (errSlots ds.length es) ((calList readCal ds.length g).map some)) =
      some (m' a) := by
  have key : ∀ ss : List (Option ℕ), addRef nf cal m St.empty (.list (ds.map .obj)) (.list ((ds.map (fun _ => none)).map .ofOption))
      (.list (ss.map .ofOption)) (.list (((calList readCal ds.length g).map some).map .ofOption)) ls = (m', .ok s') →
      s'.dsets = ds ∧ s'.stds = ss ∧
      ∀ a, calibrated cal (m a) (requested a ds ss ((calList readCal ds.length g).map some)) = some (m' a) := by
    intro ss h'
    have hok : ss.length = ds.length ∧ ((calList readCal ds.length g).map some).length = ds.length ∧
        ∀ l, ls.toList = some l → l.length = ds.length := by
      by_contra hc
      rw [addRef_short nf cal m St.empty ds _ _ _ ls hc] at h'
      have h2 := congrArg Prod.snd h'
      cases h2
    have hall := C160_every_object nf cal m m' St.empty s' ds _ ss _ ls (by simp) hok.1 hok.2.1 hok.2.2 h'
    exact ⟨by rw [hall.2.1]; rfl, by rw [hall.2.2.2]; rfl, hall.1⟩
  simp only [runAdd, runObjs] at h
  cases es with
  | none =>
    simp only [Option.map_none, Prod.mk.injEq, Option.some.injEq] at h
    rw [(run_addRef nf cal readCal m ds [] g ls).2] at h
    exact key _ (Prod.ext h.1 h.2)
  | some el =>
    simp only [Option.map_some] at h
    split at h
    · simp only [Prod.mk.injEq, Option.some.injEq] at h
      rw [(run_addRef nf cal readCal m ds el g ls).1] at h
      exact key _ (Prod.ext h.1 h.2)
    · simp at h

/-! ### Findings -/

/-- **C160** (finding) An object given as two data sets (or as data set and as error set) is calibrated twice, the second
time on top of the first. -/
theorem C160_finding_twice (nf : D → ℕ) (cal : C → D → Option D) (m : Mem D) (a : ℕ) (c : C) (d d' : D)
    (h1 : cal c (m a) = some d) (h2 : cal c d = some d') :
    (addRef nf cal m St.empty (.list [.obj a, .obj a]) (.list [.none, .none]) .none (.list [.obj c, .obj c]) .none).1 a = d' ∧
    (addRef nf cal m St.empty (.list [.obj a]) (.list [.none]) (.list [.obj a]) (.list [.obj c]) .none).1 a = d' := by
  constructor <;>
    simp [addRef, toLists, dsetsList, wgtsList, restList, bind, Except.bind, pure, Except.pure, lengthsOk, mapE, mustObj,
      optObj, calCalls, calRefs, LArg.toList, h1, h2, St.empty]

/-- **C160** (finding) With objects instead of file names, `pspec_run` calibrates the objects of the caller: running it a
second time on the same objects calibrates them a second time. -/
theorem C160_finding_rerun (nf : D → ℕ) (cal : C → D → Option D) (read : F → Option D) (readCal : G → C) (m : Mem D)
    (next a : ℕ) (g : G) (d d' : D) (h1 : cal (readCal g) (m a) = some d) (h2 : cal (readCal g) d = some d') :
    let first := runAdd nf cal read readCal m next (.objs [a]) none (some (.one g)) .none
    first.1 a = d ∧
    (runAdd nf cal read readCal first.1 next (.objs [a]) none (some (.one g)) .none).1 a = d' := by
  simp [runAdd, runObjs, runCals, addRef, toLists, dsetsList, wgtsList, restList, bind, Except.bind, pure, Except.pure,
    lengthsOk, mapE, mustObj, optObj, calCalls, calRefs, LArg.toList, h1, h2, St.empty]

/-- Data are rational numbers, calibrations divide, and a zero gain is refused. -/
def exCal (c d : ℚ) : Option ℚ := if c = 0 then none else some (d / c)

/-- Two data sets with content 8 and 6. -/
def exMem : Mem ℚ := fun a => if a = 0 then 8 else 6

/-- **C160** (counterexample) A call fails at the second data set; repeating it with a corrected calibration divides the
first data set by its gain twice: 8 / 2 / 2 = 2. -/
theorem C160_counterexample_retry :
    let first := addRef (fun _ => 1) exCal exMem St.empty (.list [.obj 0, .obj 1]) (.list [.none, .none]) .none
      (.list [.obj 2, .obj 0]) .none
    let second := addRef (fun _ => 1) exCal first.1 St.empty (.list [.obj 0, .obj 1]) (.list [.none, .none]) .none
      (.list [.obj 2, .obj 3]) .none
    first.2 = .error .calib ∧ first.1 0 = 4 ∧ second.1 0 = 2 ∧ second.1 1 = 2 := by
  refine ⟨?_, ?_, ?_, ?_⟩ <;> decide +kernel

/-- A call that meets the hypotheses of `C160_once_partial`: distinct objects, one with a calibration. -/
example : ∃ m' s', addRef (fun _ => 1) exCal exMem St.empty (.list ([0, 1].map .obj)) (.list ([none, none].map .ofOption))
    (.list ([none, some 2].map .ofOption)) (.list ([some 2, none].map .ofOption)) .none = (m', .ok s') ∧
    m' 0 = 4 ∧ m' 1 = 6 ∧ m' 2 = 6 := by
  refine ⟨_, _, rfl, ?_, ?_, ?_⟩ <;> decide +kernel

/-- A run of `pspec_run` on an object given twice. -/
example : ∃ m' s', runAdd (fun _ => 1) exCal (fun f : ℚ => some f) (fun g : ℚ => g) exMem 5
    (.objs [0, 0]) none (some (.one 2)) .none = (m', some (.ok s')) ∧ m' 0 = 2 := by
  refine ⟨_, _, rfl, ?_⟩
  decide +kernel

/-- A run of `pspec_run` on two files with one calibration for both. -/
example : ∃ m' s', runAdd (fun _ => 1) exCal (fun f : ℚ => if f = 0 then none else some f) (fun g : ℚ => g) exMem 5
    (.files [10, 12]) (some (.files [14, 16])) (some (.one 2)) .none = (m', some (.ok s')) ∧
    s'.dsets = [5, 6] ∧ m' 5 = 5 ∧ m' 6 = 6 ∧ m' 7 = 7 ∧ m' 8 = 8 := by
  refine ⟨_, _, rfl, ?_, ?_, ?_, ?_, ?_⟩ <;> decide +kernel

end HeraPspec.Labels
