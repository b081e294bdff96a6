import Verif.Props.Settings

/-!
C55: the matrix caches of `PSpecData`, over all histories of calls.
-/
namespace HeraPspec.Settings
variable {κ T P M V : Type} [DecidableEq κ] [DecidableEq T] (K : Kern κ T P M V)

/-! ### Specification -/

/-- What one call leaves on record: a matrix query records the settings in force, and an R query with dayenu weighting also the
filter parameters of its key; `clear_cache` erases the record. -/
def observe (s : PS κ T P M V) (tr : List (Geom V × Option (κ × Option P))) : Op κ T P V → List (Geom V × Option (κ × Option P))
  | .clearCache => []
  | .getI _ => (s.g, none) :: tr
  | .getY _ => (s.g, none) :: tr
  | .getIC _ => (s.g, none) :: tr
  | .getR k => (s.g, if s.wt = .dayenu then some (k, s.rparams.get (.dayenu, k)) else none) :: tr
  | _ => tr

/-- The queries made since the last `clear_cache` of a history, with the settings they were made under. -/
def record : PS κ T P M V → List (Geom V × Option (κ × Option P)) → List (Op κ T P V) → List (Geom V × Option (κ × Option P))
  | _, tr, [] => tr
  | s, tr, op :: ops => record (step K s op) (observe s tr op) ops

/-- All recorded queries were made under the settings `g` and the dayenu parameters `rp`. -/
def SameSettings (g : Geom V) (rp : κ → Option P) (tr : List (Geom V × Option (κ × Option P))) : Prop :=
  ∀ o ∈ tr, o.1 = g ∧ ∀ k p, o.2 = some (k, p) → p = rp k

/-! ### Proof -/

/-- Y from scratch. -/
def fY (g : Geom V) (k : κ) : M := K.yOf g.data k (getSpw g)

/-- The inverse covariance from scratch. -/
def fiC (g : Geom V) (k : κ) : M := K.inv (K.covOf g.data k (getSpw g))

/-- R from scratch, given binary weights. -/
def fR (g : Geom V) (wt : Wt) (t : T) (p : Option P) (k : κ) : Except Err M :=
  match wt with
  | .identity => .ok (K.form t g.spwN g.fext g.symm (fY K g k) (newI K g))
  | .iC => .ok (K.form t g.spwN g.fext g.symm (fY K g k) (fiC K g k))
  | .dayenu =>
    match p with
    | none => .error .value
    | some p =>
      match K.formDayenu t g.spwN g.fext g.symm (g.spw.1 - g.fext.1, g.spw.2 + g.fext.2) g.data (fY K g k) p with
      | none => .error .value
      | some m => .ok m
  | .other => .error .key

/-- Every cached matrix is the one computed from scratch. -/
structure Coh (g : Geom V) (rp : κ → Option P) (s : PS κ T P M V) : Prop where
  cI : ∀ k m, s.cI.get k = some m → m = newI K g
  cY : ∀ k m, s.cY.get k = some m → m = fY K g k
  cC : ∀ k m, s.cC.get k = some m → m = K.covOf g.data k (getSpw g)
  ciC : ∀ k m, s.ciC.get k = some m → m = fiC K g k
  cR : ∀ rk m, s.cR.get rk = some m → fR K g rk.wt rk.taper (rp rk.key) rk.key = .ok m

theorem coh_clear (g : Geom V) (rp : κ → Option P) (s : PS κ T P M V) : Coh K g rp (clearCache s) := by
  constructor <;> intro k m h <;> simp [clearCache] at h

theorem coh_congr {g : Geom V} {rp : κ → Option P} {s s' : PS κ T P M V} (h : Coh K g rp s) (h1 : s'.cI = s.cI) (h2 : s'.cY = s.cY)
    (h3 : s'.cC = s.cC) (h4 : s'.ciC = s.ciC) (h5 : s'.cR = s.cR) : Coh K g rp s' :=
  ⟨fun k m => h1 ▸ h.cI k m, fun k m => h2 ▸ h.cY k m, fun k m => h3 ▸ h.cC k m, fun k m => h4 ▸ h.ciC k m, fun k m => h5 ▸ h.cR k m⟩

theorem qI_spec {g : Geom V} {rp : κ → Option P} {s : PS κ T P M V} (h : Coh K g rp s) (hg : s.g = g) (k : κ) :
    (qI K s k).2 = newI K g ∧ Coh K g rp (qI K s k).1 ∧ (qI K s k).1.wt = s.wt ∧ (qI K s k).1.taper = s.taper ∧
      (qI K s k).1.rparams = s.rparams := by
  unfold qI
  cases hc : s.cI.get k with
  | some m => exact ⟨h.cI k m hc, h, rfl, rfl, rfl⟩
  | none =>
    refine ⟨by rw [hg], ⟨?_, h.cY, h.cC, h.ciC, h.cR⟩, rfl, rfl, rfl⟩
    intro k' m hm
    dsimp only at hm
    rw [Dict.get_set] at hm
    split at hm
    · cases hm; rw [hg]
    · exact h.cI k' m hm

theorem qY_spec (hb : ∀ v k w, K.binary (K.yOf v k w) = true) {g : Geom V} {rp : κ → Option P} {s : PS κ T P M V}
    (h : Coh K g rp s) (hg : s.g = g) (k : κ) :
    (qY K s k).2 = .ok (fY K g k) ∧ Coh K g rp (qY K s k).1 ∧ (qY K s k).1.wt = s.wt ∧ (qY K s k).1.taper = s.taper ∧
      (qY K s k).1.rparams = s.rparams ∧ (qY K s k).1.cR = s.cR := by
  unfold qY
  cases hc : s.cY.get k with
  | some m => exact ⟨congrArg _ (h.cY k m hc), h, rfl, rfl, rfl, rfl⟩
  | none =>
    refine ⟨by rw [hg]; simp only [hb, if_true]; rfl, ⟨h.cI, ?_, h.cC, h.ciC, h.cR⟩, rfl, rfl, rfl, rfl⟩
    intro k' m hm
    dsimp only at hm
    rw [Dict.get_set] at hm
    split at hm
    · rename_i hk; cases hm; rw [hg, ← hk]; rfl
    · exact h.cY k' m hm

theorem qC_spec {g : Geom V} {rp : κ → Option P} {s : PS κ T P M V} (h : Coh K g rp s) (hg : s.g = g) (k : κ) :
    (qC K s k).2 = K.covOf g.data k (getSpw g) ∧ Coh K g rp (qC K s k).1 ∧ (qC K s k).1.wt = s.wt ∧
      (qC K s k).1.taper = s.taper ∧ (qC K s k).1.rparams = s.rparams := by
  unfold qC
  cases hc : s.cC.get k with
  | some m => exact ⟨h.cC k m hc, h, rfl, rfl, rfl⟩
  | none =>
    refine ⟨by rw [hg], ⟨h.cI, h.cY, ?_, ?_, h.cR⟩, rfl, rfl, rfl⟩
    · intro k' m hm
      dsimp only at hm
      rw [Dict.get_set] at hm
      split at hm
      · rename_i hk; cases hm; rw [hg, ← hk]
      · exact h.cC k' m hm
    · intro k' m hm
      dsimp only at hm
      rw [Dict.get_del] at hm
      split at hm
      · cases hm
      · exact h.ciC k' m hm

theorem qiC_spec {g : Geom V} {rp : κ → Option P} {s : PS κ T P M V} (h : Coh K g rp s) (hg : s.g = g) (k : κ) :
    (qiC K s k).2 = fiC K g k ∧ Coh K g rp (qiC K s k).1 ∧ (qiC K s k).1.wt = s.wt ∧
      (qiC K s k).1.taper = s.taper ∧ (qiC K s k).1.rparams = s.rparams := by
  unfold qiC
  cases hc : s.ciC.get k with
  | some m => exact ⟨h.ciC k m hc, h, rfl, rfl, rfl⟩
  | none =>
    obtain ⟨a1, a2, a3, a4, a5⟩ := qC_spec K h hg k
    refine ⟨by dsimp only; rw [a1]; rfl, ⟨a2.cI, a2.cY, a2.cC, ?_, a2.cR⟩, a3, a4, a5⟩
    intro k' m hm
    dsimp only at hm
    rw [Dict.get_set] at hm
    split at hm
    · rename_i hk; cases hm; rw [a1, ← hk]; rfl
    · exact a2.ciC k' m hm

theorem coh_storeR {g : Geom V} {rp : κ → Option P} {s : PS κ T P M V} (h : Coh K g rp s) (k : κ) (m : M)
    (hm : fR K g s.wt s.taper (rp k) k = .ok m) : Coh K g rp (storeR s k m) := by
  refine ⟨h.cI, h.cY, h.cC, h.ciC, ?_⟩
  intro rk m' hm'
  unfold storeR at hm'
  dsimp only at hm'
  rw [Dict.get_set] at hm'
  split at hm'
  · rename_i hk
    cases hm'
    rw [← hk]
    exact hm
  · exact h.cR rk m' hm'

theorem qR_spec (hb : ∀ v k w, K.binary (K.yOf v k w) = true) {g : Geom V} {rp : κ → Option P} {s : PS κ T P M V}
    (h : Coh K g rp s) (hg : s.g = g) (k : κ) (hrp : s.wt = .dayenu → s.rparams.get (.dayenu, k) = rp k) :
    (qR K s k).2 = fR K g s.wt s.taper (rp k) k ∧ Coh K g rp (qR K s k).1 := by
  unfold qR
  cases hc : s.cR.get (rKey s.g s.wt s.taper k) with
  | some m => exact ⟨(h.cR _ m hc).symm, h⟩
  | none =>
    obtain ⟨b1, b2, b3, b4, b5, -⟩ := qY_spec K hb h hg k
    dsimp only
    rw [b1]
    dsimp only
    have hg' : (qY K s k).1.g = g := (qY_g K s k).trans hg
    generalize (qY K s k).1 = s1 at *
    rw [← b3, ← b4]
    rw [← b3, ← b5] at hrp
    unfold buildR
    cases hw : s1.wt with
    | identity =>
      obtain ⟨c1, c2, c3, c4, -⟩ := qI_spec K b2 hg' k
      dsimp only
      have hfr : fR K g .identity s1.taper (rp k) k =
          .ok (K.form s1.taper s1.g.spwN s1.g.fext s1.g.symm (fY K g k) (qI K s1 k).2) := by rw [c1, hg']; rfl
      exact ⟨hfr.symm, coh_storeR K c2 k _ (by rw [c3, c4, hw]; exact hfr)⟩
    | iC =>
      obtain ⟨c1, c2, c3, c4, -⟩ := qiC_spec K b2 hg' k
      dsimp only
      have hfr : fR K g .iC s1.taper (rp k) k =
          .ok (K.form s1.taper s1.g.spwN s1.g.fext s1.g.symm (fY K g k) (qiC K s1 k).2) := by rw [c1, hg']; rfl
      exact ⟨hfr.symm, coh_storeR K c2 k _ (by rw [c3, c4, hw]; exact hfr)⟩
    | dayenu =>
      dsimp only
      rw [hrp hw, hg']
      cases hp : rp k with
      | none => exact ⟨by simp [fR], b2⟩
      | some p =>
        dsimp only
        cases hf : K.formDayenu s1.taper g.spwN g.fext g.symm (g.spw.1 - g.fext.1, g.spw.2 + g.fext.2) g.data (fY K g k) p with
        | none => exact ⟨by simp [fR, hf], b2⟩
        | some m =>
          have hfr : fR K g .dayenu s1.taper (rp k) k = .ok m := by simp [fR, hp, hf]
          exact ⟨by simp [fR, hf], coh_storeR K b2 k m (by rw [hw]; exact hfr)⟩
    | other => exact ⟨rfl, b2⟩

theorem inv_step (hb : ∀ v k w, K.binary (K.yOf v k w) = true) (s : PS κ T P M V) (tr : List (Geom V × Option (κ × Option P)))
    (op : Op κ T P V) (h : ∀ g rp, SameSettings g rp tr → Coh K g rp s) (g : Geom V) (rp : κ → Option P)
    (hs : SameSettings g rp (observe s tr op)) : Coh K g rp (step K s op) := by
  cases op with
  | clearCache => exact coh_clear K g rp s
  | getI k =>
    have := (hs _ List.mem_cons_self).1
    exact (qI_spec K (h g rp (fun o ho => hs o (List.mem_cons_of_mem _ ho))) this k).2.1
  | getY k =>
    have := (hs _ List.mem_cons_self).1
    exact (qY_spec K hb (h g rp (fun o ho => hs o (List.mem_cons_of_mem _ ho))) this k).2.1
  | getIC k =>
    have := (hs _ List.mem_cons_self).1
    exact (qiC_spec K (h g rp (fun o ho => hs o (List.mem_cons_of_mem _ ho))) this k).2.1
  | getR k =>
    have h1 := hs _ List.mem_cons_self
    refine (qR_spec K hb (h g rp (fun o ho => hs o (List.mem_cons_of_mem _ ho))) h1.1 k ?_).2
    intro hw
    exact h1.2 k _ (by dsimp only; rw [if_pos hw])
  | setSpw lo hi nd =>
    refine coh_congr K (h g rp hs) ?_ ?_ ?_ ?_ ?_ <;>
    · simp only [step, setSpw, setNdlys]
      split
      · rfl
      · split <;> rfl
  | setExt a b => refine coh_congr K (h g rp hs) ?_ ?_ ?_ ?_ ?_ <;> (simp only [step, setExt]; split <;> rfl)
  | setSymm b => refine coh_congr K (h g rp hs) ?_ ?_ ?_ ?_ ?_ <;> (simp only [step, setSymm]; split <;> rfl)
  | setTaper t => exact coh_congr K (h g rp hs) rfl rfl rfl rfl rfl
  | setWeighting w => exact coh_congr K (h g rp hs) rfl rfl rfl rfl rfl
  | setRParam k p => exact coh_congr K (h g rp hs) rfl rfl rfl rfl rfl
  | addData v n => exact coh_congr K (h g rp hs) rfl rfl rfl rfl rfl
  | modData v => exact coh_congr K (h g rp hs) rfl rfl rfl rfl rfl

theorem inv_run (hb : ∀ v k w, K.binary (K.yOf v k w) = true) (ops : List (Op κ T P V)) :
    ∀ (s : PS κ T P M V) (tr : List (Geom V × Option (κ × Option P))), (∀ g rp, SameSettings g rp tr → Coh K g rp s) →
      ∀ g rp, SameSettings g rp (record K s tr ops) → Coh K g rp (run K s ops) := by
  induction ops with
  | nil => intro s tr h; exact h
  | cons op ops ih =>
    intro s tr h
    exact ih (step K s op) (observe s tr op) (fun g rp => inv_step K hb s tr op h g rp)

theorem fresh_spec (hb : ∀ v k w, K.binary (K.yOf v k w) = true) (s : PS κ T P M V) (k : κ) :
    (qR K (clearCache s) k).2 = fR K s.g s.wt s.taper (s.rparams.get (.dayenu, k)) k ∧
    (qY K (clearCache s) k).2 = .ok (fY K s.g k) ∧ (qI K (clearCache s) k).2 = newI K s.g ∧
    (qiC K (clearCache s) k).2 = fiC K s.g k := by
  have hc := coh_clear K s.g (fun k => s.rparams.get (.dayenu, k)) s
  exact ⟨(qR_spec K hb hc rfl k (fun _ => rfl)).1, (qY_spec K hb hc rfl k).1, (qI_spec K hc rfl k).1, (qiC_spec K hc rfl k).1⟩

/-- C55 (partial). After any history of calls, if every matrix query made since the last `clear_cache` was made under the present
window, extension, kind of taper and data (and, for dayenu, the present filter parameters of its key), then `R`, `Y`, `I` and `iC`
return what they would return right after a `clear_cache`, i.e. computed from scratch from the current settings. Tapers and
weightings may be changed freely in between: they are part of the keys. Missing: without `clear_cache` after a change of the
window, extension, kind of taper, filter parameters or data, stale matrices are returned (see the counterexamples). -/
theorem C55_no_stale_partial (hb : ∀ v k w, K.binary (K.yOf v k w) = true) (v : V) (n : ℤ) (t : T) (ops : List (Op κ T P V)) (k : κ)
    (h : SameSettings (run K (init v n t) ops).g (fun k => (run K (init v n t) ops).rparams.get (.dayenu, k))
      (record K (init v n t) [] ops)) :
    (qR K (run K (init v n t) ops) k).2 = (qR K (clearCache (run K (init v n t) ops)) k).2 ∧
    (qY K (run K (init v n t) ops) k).2 = (qY K (clearCache (run K (init v n t) ops)) k).2 ∧
    (qI K (run K (init v n t) ops) k).2 = (qI K (clearCache (run K (init v n t) ops)) k).2 ∧
    (qiC K (run K (init v n t) ops) k).2 = (qiC K (clearCache (run K (init v n t) ops)) k).2 := by
  have hc := inv_run K hb ops (init v n t) [] (fun g rp _ => coh_clear K g rp (init v n t)) _ _ h
  obtain ⟨f1, f2, f3, f4⟩ := fresh_spec K hb (run K (init v n t) ops) k
  rw [f1, f2, f3, f4]
  exact ⟨(qR_spec K hb hc rfl k (fun _ => rfl)).1, (qY_spec K hb hc rfl k).1, (qI_spec K hc rfl k).1, (qiC_spec K hc rfl k).1⟩

/-- The calls `pspec` makes for one baseline-pair (pspecdata.py L3800-3830 and L3871 ff.): the flag weights, the filter parameters
when the weighting is dayenu, and the R matrices. -/
def blockOps (wt : Wt) (rp : κ → P) (x : κ × κ) : List (Op κ T P V) :=
  [.getY x.1, .getY x.2] ++ (if wt = .dayenu then [.setRParam x.1 (rp x.1), .setRParam x.2 (rp x.2)] else []) ++
    [.getR x.1, .getR x.2]

/-- The calls up to the first R query of a baseline-pair. -/
def blockStart (wt : Wt) (rp : κ → P) (x : κ × κ) : List (Op κ T P V) :=
  [.getY x.1, .getY x.2] ++ (if wt = .dayenu then [.setRParam x.1 (rp x.1), .setRParam x.2 (rp x.2)] else [])

theorem qI_rest (s : PS κ T P M V) (k : κ) :
    (qI K s k).1.wt = s.wt ∧ (qI K s k).1.taper = s.taper ∧ (qI K s k).1.rparams = s.rparams := by
  unfold qI; split <;> exact ⟨rfl, rfl, rfl⟩
theorem qY_rest (s : PS κ T P M V) (k : κ) :
    (qY K s k).1.wt = s.wt ∧ (qY K s k).1.taper = s.taper ∧ (qY K s k).1.rparams = s.rparams := by
  unfold qY; split <;> exact ⟨rfl, rfl, rfl⟩
theorem qC_rest (s : PS κ T P M V) (k : κ) :
    (qC K s k).1.wt = s.wt ∧ (qC K s k).1.taper = s.taper ∧ (qC K s k).1.rparams = s.rparams := by
  unfold qC; split <;> exact ⟨rfl, rfl, rfl⟩
theorem qiC_rest (s : PS κ T P M V) (k : κ) :
    (qiC K s k).1.wt = s.wt ∧ (qiC K s k).1.taper = s.taper ∧ (qiC K s k).1.rparams = s.rparams := by
  unfold qiC; split
  · exact ⟨rfl, rfl, rfl⟩
  · exact qC_rest K s k
theorem buildR_rest (s : PS κ T P M V) (k : κ) (y : M) :
    (buildR K s k y).1.wt = s.wt ∧ (buildR K s k y).1.taper = s.taper ∧ (buildR K s k y).1.rparams = s.rparams := by
  unfold buildR
  split
  · exact qI_rest K s k
  · exact qiC_rest K s k
  · split
    · exact ⟨rfl, rfl, rfl⟩
    · split <;> exact ⟨rfl, rfl, rfl⟩
  · exact ⟨rfl, rfl, rfl⟩
theorem qR_rest (s : PS κ T P M V) (k : κ) :
    (qR K s k).1.wt = s.wt ∧ (qR K s k).1.taper = s.taper ∧ (qR K s k).1.rparams = s.rparams := by
  unfold qR
  split
  · exact ⟨rfl, rfl, rfl⟩
  · dsimp only
    split
    · exact qY_rest K s k
    · have h1 := buildR_rest K (qY K s k).1 k
      have h2 := qY_rest K s k
      exact ⟨(h1 _).1.trans h2.1, (h1 _).2.1.trans h2.2.1, (h1 _).2.2.trans h2.2.2⟩

/-- The situation inside the loops of `pspec`. -/
structure InLoop (g : Geom V) (rp : κ → P) (wt : Wt) (t : T) (s : PS κ T P M V) : Prop where
  coh : Coh K g (fun k => some (rp k)) s
  geom : s.g = g
  wt : s.wt = wt
  taper : s.taper = t

theorem inLoop_Y (hb : ∀ v k w, K.binary (K.yOf v k w) = true) {g : Geom V} {rp : κ → P} {wt : Wt} {t : T} {s : PS κ T P M V}
    (h : InLoop K g rp wt t s) (k : κ) : InLoop K g rp wt t (qY K s k).1 := by
  obtain ⟨-, a2, a3, a4, -⟩ := qY_spec K hb h.coh h.geom k
  exact ⟨a2, (qY_g K s k).trans h.geom, a3.trans h.wt, a4.trans h.taper⟩

theorem inLoop_R (hb : ∀ v k w, K.binary (K.yOf v k w) = true) {g : Geom V} {rp : κ → P} {wt : Wt} {t : T} {s : PS κ T P M V}
    (h : InLoop K g rp wt t s) (k : κ) (hk : wt = .dayenu → s.rparams.get (.dayenu, k) = some (rp k)) :
    InLoop K g rp wt t (qR K s k).1 ∧ (qR K s k).2 = fR K g wt t (some (rp k)) k := by
  obtain ⟨a1, a2⟩ := qR_spec K hb h.coh h.geom k (fun hw => hk (h.wt.symm.trans hw))
  obtain ⟨b1, b2, -⟩ := qR_rest K s k
  refine ⟨⟨a2, (qR_g K s k).trans h.geom, b1.trans h.wt, b2.trans h.taper⟩, ?_⟩
  rw [a1, h.wt, h.taper]

theorem inLoop_start (hb : ∀ v k w, K.binary (K.yOf v k w) = true) {g : Geom V} {rp : κ → P} {wt : Wt} {t : T} {s : PS κ T P M V}
    (h : InLoop K g rp wt t s) (x : κ × κ) :
    InLoop K g rp wt t (run K s (blockStart wt rp x)) ∧
    (wt = .dayenu → (run K s (blockStart wt rp x)).rparams.get (.dayenu, x.1) = some (rp x.1) ∧
      (run K s (blockStart wt rp x)).rparams.get (.dayenu, x.2) = some (rp x.2)) := by
  have h2 := inLoop_Y K hb (inLoop_Y K hb h x.1) x.2
  unfold blockStart
  by_cases hw : wt = .dayenu
  · rw [if_pos hw]
    show InLoop K g rp wt t (setRParam (setRParam (qY K (qY K s x.1).1 x.2).1 x.1 (rp x.1)) x.2 (rp x.2)) ∧ _
    generalize hs2 : (qY K (qY K s x.1).1 x.2).1 = s2 at h2
    refine ⟨⟨coh_congr K h2.coh rfl rfl rfl rfl rfl, h2.geom, h2.wt, h2.taper⟩, ?_⟩
    intro _
    have hr : (run K s ([.getY x.1, .getY x.2] ++ [.setRParam x.1 (rp x.1), .setRParam x.2 (rp x.2)])) =
        setRParam (setRParam s2 x.1 (rp x.1)) x.2 (rp x.2) := by rw [← hs2]; rfl
    rw [hr]
    have hwt : s2.wt = .dayenu := h2.wt.trans hw
    simp only [setRParam, hwt, Dict.get_set, Prod.mk.injEq, true_and]
    constructor
    · split
      · rename_i he; rw [he]
      · simp
    · simp
  · rw [if_neg hw]
    exact ⟨h2, fun hc => absurd hc hw⟩

theorem run_append (s : PS κ T P M V) (a b : List (Op κ T P V)) : run K s (a ++ b) = run K (run K s a) b := by
  simp [run, List.foldl_append]

theorem inLoop_block (hb : ∀ v k w, K.binary (K.yOf v k w) = true) {g : Geom V} {rp : κ → P} {wt : Wt} {t : T} {s : PS κ T P M V}
    (h : InLoop K g rp wt t s) (x : κ × κ) : InLoop K g rp wt t (run K s (blockOps wt rp x)) := by
  obtain ⟨h1, h2⟩ := inLoop_start K hb h x
  have he : run K s (blockOps wt rp x) = (qR K (qR K (run K s (blockStart wt rp x)) x.1).1 x.2).1 := by
    unfold blockOps
    rw [run_append]
    rfl
  rw [he]
  obtain ⟨h3, -⟩ := inLoop_R K hb h1 x.1 (fun hw => (h2 hw).1)
  exact (inLoop_R K hb h3 x.2 (fun hw => by rw [(qR_rest K _ _).2.2]; exact (h2 hw).2)).1

/-- C55 in `pspec`. Whatever the state of the object (including stale caches), once `pspec` has set the window and extension and
cleared the cache, both R matrices it asks for, for each baseline-pair in turn, equal the ones computed from scratch. -/
theorem C55_pspec_fresh (hb : ∀ v k w, K.binary (K.yOf v k w) = true) (s : PS κ T P M V) (lo hi : ℤ) (nd : Option ℤ) (a b : ℤ)
    (rp : κ → P) (done : List (κ × κ)) (x : κ × κ) :
    ∀ s1 s2, s1 = run K s ([.setSpw lo hi nd, .setExt a b, .clearCache] ++ done.flatMap (blockOps s.wt rp) ++ blockStart s.wt rp x) →
      s2 = (qR K s1 x.1).1 →
      (qR K s1 x.1).2 = (qR K (clearCache s1) x.1).2 ∧ (qR K s2 x.2).2 = (qR K (clearCache s2) x.2).2 := by
  intro s1 s2 h1 h2
  have hp : ∃ g, InLoop K g rp s.wt s.taper (run K s [.setSpw lo hi nd, .setExt a b, .clearCache]) := by
    refine ⟨_, coh_clear K _ _ _, rfl, ?_, ?_⟩
    · show (setExt (setSpw s lo hi nd).1 a b).1.wt = s.wt
      simp only [setExt, setSpw, setNdlys]
      split <;> (split <;> try rfl) <;> (split <;> rfl)
    · show (setExt (setSpw s lo hi nd).1 a b).1.taper = s.taper
      simp only [setExt, setSpw, setNdlys]
      split <;> (split <;> try rfl) <;> (split <;> rfl)
  obtain ⟨g, hp⟩ := hp
  have hd : InLoop K g rp s.wt s.taper
      (run K (run K s [.setSpw lo hi nd, .setExt a b, .clearCache]) (done.flatMap (blockOps s.wt rp))) := by
    clear h1 h2
    generalize run K s [.setSpw lo hi nd, .setExt a b, .clearCache] = s0 at hp
    induction done generalizing s0 with
    | nil => exact hp
    | cons y done ih =>
      rw [List.flatMap_cons, run_append]
      exact ih _ (inLoop_block K hb hp y)
  rw [run_append, run_append] at h1
  obtain ⟨h3, h4⟩ := inLoop_start K hb hd x
  rw [← h1] at h3 h4
  obtain ⟨h5, h6⟩ := inLoop_R K hb h3 x.1 (fun hw => (h4 hw).1)
  rw [← h2] at h5
  have hk2 : s.wt = .dayenu → s2.rparams.get (.dayenu, x.2) = some (rp x.2) := by
    intro hw; rw [h2, (qR_rest K _ _).2.2]; exact (h4 hw).2
  obtain ⟨-, h7⟩ := inLoop_R K hb h5 x.2 hk2
  have e1 : ∀ p, s.wt ≠ .dayenu → fR K g s.wt s.taper (some (rp x.1)) x.1 = fR K g s.wt s.taper p x.1 := by
    intro p hw; unfold fR; cases hq : s.wt <;> first | rfl | exact absurd hq hw
  have e2 : ∀ p, s.wt ≠ .dayenu → fR K g s.wt s.taper (some (rp x.2)) x.2 = fR K g s.wt s.taper p x.2 := by
    intro p hw; unfold fR; cases hq : s.wt <;> first | rfl | exact absurd hq hw
  constructor
  · rw [h6, (fresh_spec K hb s1 x.1).1, h3.geom, h3.wt, h3.taper]
    by_cases hw : s.wt = .dayenu
    · rw [(h4 hw).1]
    · exact e1 _ hw
  · rw [h7, (fresh_spec K hb s2 x.2).1, h5.geom, h5.wt, h5.taper]
    by_cases hw : s.wt = .dayenu
    · rw [hk2 hw]
    · exact e2 _ hw

/-- C55. `clear_cache` changes no setting. -/
theorem C55_clear_keeps_settings (s : PS κ T P M V) :
    (clearCache s).g = s.g ∧ (clearCache s).wt = s.wt ∧ (clearCache s).taper = s.taper ∧ (clearCache s).rparams = s.rparams ∧
    (clearCache s).ndlys = s.ndlys := ⟨rfl, rfl, rfl, rfl, rfl⟩

/-- C55 (counterexample). R, Y and I are stale after `set_spw`: the second result is for the first window. -/
theorem C55_counterexample_set_spw :
    (qR unitKern (run unitKern (init () 100 0) [.getR 3, .setSpw 20 40 none]) 3).2 = .ok (100, 200) ∧
    (qR unitKern (clearCache (run unitKern (init () 100 0) [.getR 3, .setSpw 20 40 none])) 3).2 = .ok (40, 60) ∧
    (qI unitKern (run unitKern (init () 100 0) [.getR 3, .setSpw 20 40 none]) 3).2 = (100, 100) ∧
    (qI unitKern (clearCache (run unitKern (init () 100 0) [.getR 3, .setSpw 20 40 none])) 3).2 = (20, 20) := by
  refine ⟨rfl, rfl, rfl, rfl⟩

/-- C55 (counterexample). R is stale after `set_r_param`. -/
theorem C55_counterexample_r_param :
    (qR unitKern (run unitKern (init () 100 0) [.setWeighting .dayenu, .setRParam 3 1, .getR 3, .setRParam 3 5]) 3).2 =
      .ok (1, 100) ∧
    (qR unitKern (clearCache (run unitKern (init () 100 0) [.setWeighting .dayenu, .setRParam 3 1, .getR 3, .setRParam 3 5])) 3).2 =
      .ok (5, 100) := by
  refine ⟨rfl, rfl⟩

/-- C55 (finding). Non-binary weights are rejected only once: the rejected Y stays in the cache and the second call returns it. -/
theorem C55_finding_nonbinary :
    (qY { unitKern with binary := fun _ => false } (init () 100 0) 3).2 = .error .notImplemented ∧
    (qY { unitKern with binary := fun _ => false } (qY { unitKern with binary := fun _ => false } (init () 100 0) 3).1 3).2 =
      .ok (0, 100) := by
  refine ⟨rfl, rfl⟩

/-- C55_no_stale_partial is not vacuous: a history with a change of window followed by `clear_cache`, and changes of taper and
weighting between queries. -/
example :
    record unitKern (init () 100 0) [] [.getR 3, .setSpw 20 40 none, .clearCache, .getR 3, .setTaper 1, .getR 3,
        .setWeighting .iC, .getR 4] =
      [(⟨(), 100, (20, 40), 20, (0, 0), true⟩, none), (⟨(), 100, (20, 40), 20, (0, 0), true⟩, none),
       (⟨(), 100, (20, 40), 20, (0, 0), true⟩, none)] ∧
    (run unitKern (init () 100 0) [.getR 3, .setSpw 20 40 none, .clearCache, .getR 3, .setTaper 1, .getR 3,
        .setWeighting .iC, .getR 4]).g = ⟨(), 100, (20, 40), 20, (0, 0), true⟩ := ⟨rfl, rfl⟩

end HeraPspec.Settings
