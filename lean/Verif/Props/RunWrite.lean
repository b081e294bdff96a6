import Verif.Model.RunWrite
import Verif.Props.Window

/-! C107: `UVWindow.run_and_write`. -/
namespace HeraPspec.RunWrite

open Window

/-! Specification. -/

/-- The content is what was asked for: the object's attributes, the bins, lengths and weights used, and for every baseline its
cylindrical window times its weight. -/
def Faithful (o : Obj) (blLens : List ℝ) (w kp kl : List ℝ) (c : Content) : Prop :=
  c.info = o.info ∧ c.kperp = kp ∧ c.kpara = kl ∧ c.blLens = blLens ∧ c.blWeights = w ∧ w.length = blLens.length ∧
    c.cylWf.length = blLens.length ∧
    ∀ (i : ℕ) (b x : ℝ), blLens[i]? = some b → w[i]? = some x → ∃ W, o.cyl b kp kl = some W ∧
      ∃ C, c.cylWf[i]? = some C ∧ C.length = W.length ∧ ∀ (d : ℕ) (P : List (List ℝ)), W[d]? = some P → ∃ Q, C[d]? = some Q ∧ Q.length = P.length ∧
        ∀ (m : ℕ) (r : List ℝ), P[m]? = some r → ∃ s, Q[m]? = some s ∧ s.length = r.length ∧ ∀ (n : ℕ) (v : ℝ), r[n]? = some v → s[n]? = some (x * v)

theorem cyls_ok {o : Obj} {kp kl : List ℝ} {l : List (ℝ × ℝ)} {cs : List Cyl} (h : cyls o kp kl l = .ok cs) :
    cs.length = l.length ∧ ∀ (i : ℕ) (b x : ℝ), l[i]? = some (b, x) → ∃ W, o.cyl b kp kl = some W ∧ cs[i]? = some (scale x W) := by
  induction l generalizing cs with
  | nil => simp only [cyls, Except.ok.injEq] at h; subst h; simp
  | cons p l ih =>
    obtain ⟨b0, x0⟩ := p
    unfold cyls at h
    cases hw : o.cyl b0 kp kl with
    | none => rw [hw] at h; cases h
    | some W =>
      rw [hw] at h
      simp only at h
      cases hc : cyls o kp kl l with
      | error e => rw [hc] at h; cases h
      | ok cs' =>
        rw [hc] at h
        injection h with h
        subst h
        obtain ⟨i1, i2⟩ := ih hc
        refine ⟨by simp [i1], fun i b x hi => ?_⟩
        cases i with
        | zero =>
          simp only [List.getElem?_cons_zero, Option.some.injEq, Prod.mk.injEq] at hi
          obtain ⟨rfl, rfl⟩ := hi
          exact ⟨W, hw, rfl⟩
        | succ i => simpa using i2 i b x (by simpa using hi)

theorem compute_ok {o : Obj} {bl : List ℝ} {bw : Option (List ℝ)} {kperp kpara : BinArg} {c : Content}
    (h : compute o bl bw kperp kpara = .ok c) :
    ∃ w kp kl cs, weights bl bw = .ok w ∧ bins (o.kperpBins bl) kperp = .ok kp ∧ bins o.kparaBins kpara = .ok kl ∧
      cyls o kp kl (bl.zip w) = .ok cs ∧ c = ⟨o.info, kp, kl, bl, w, cs⟩ := by
  unfold compute at h
  simp only [bind, Except.bind] at h
  cases h1 : weights bl bw with
  | error e => rw [h1] at h; cases h
  | ok w =>
    rw [h1] at h
    simp only at h
    cases h2 : bins (o.kperpBins bl) kperp with
    | error e => rw [h2] at h; cases h
    | ok kp =>
      rw [h2] at h
      simp only at h
      cases h3 : bins o.kparaBins kpara with
      | error e => rw [h3] at h; cases h
      | ok kl =>
        rw [h3] at h
        simp only at h
        cases h4 : cyls o kp kl (bl.zip w) with
        | error e => rw [h4] at h; cases h
        | ok cs =>
          rw [h4] at h
          injection h with h
          exact ⟨w, kp, kl, cs, rfl, rfl, rfl, h4, h.symm⟩

/-- The weights used: one per baseline if none are given, otherwise those given. -/
def UsedWeights (bl : List ℝ) (bw : Option (List ℝ)) (w : List ℝ) : Prop :=
  (bw = none ∧ w.length = bl.length ∧ ∀ x ∈ w, x = 1) ∨ bw = some w

/-- The bins used: those given, unless none (or an empty array) are. -/
def UsedBins (dflt : Option (List ℝ)) (arg : BinArg) (l : List ℝ) : Prop :=
  (((arg = none) ∨ ∃ u, arg = some (u, [])) ∧ dflt = some l) ∨ (arg = some (true, l) ∧ l ≠ [])

theorem bins_ok {dflt : Option (List ℝ)} {arg : BinArg} {l : List ℝ} (h : bins dflt arg = .ok l) : UsedBins dflt arg l := by
  unfold UsedBins
  match arg with
  | none =>
    unfold bins at h
    cases dflt with
    | none => cases h
    | some d => simp only [Except.ok.injEq] at h; subst h; simp
  | some (u, a) =>
    unfold bins at h
    simp only at h
    cases a with
    | nil =>
      cases dflt with
      | none => cases h
      | some d => simp only [List.isEmpty_nil, if_true, Except.ok.injEq] at h; subst h; simp
    | cons x a =>
      simp only [List.isEmpty_cons, Bool.false_eq_true, if_false] at h
      cases u with
      | false => cases h
      | true => simp only [if_true, Except.ok.injEq] at h; subst h; simp

/-- An existing file is never touched without `clobber`: OSError, and no file changes. -/
theorem C107_refuses (o : Obj) (fs : FS) (path : String) (bl : List ℝ) (bw : Option (List ℝ)) (kperp kpara : BinArg)
    (c : Content) (h : fs path = some c) : run o fs path bl bw kperp kpara false = (some .os, fs) := by
  unfold run
  rw [h]
  rfl

/-- Other files never change, whatever happens. -/
theorem C107_other_files (o : Obj) (fs : FS) (path : String) (bl : List ℝ) (bw : Option (List ℝ)) (kperp kpara : BinArg) (clobber : Bool)
    (p : String) (hp : p ≠ path) : (run o fs path bl bw kperp kpara clobber).2 p = fs p := by
  unfold run
  split
  · rfl
  · split <;> simp [setFile, hp]

/-- **C107** (partial). A call that returns has written a faithful file, from the weights and bins asked for.

Missing: a failing call with `clobber` destroys the old file (`C107_finding_clobber_loses_file`), and the stored windows are already
multiplied by the stored weights (`C107_finding_weights_twice`). -/
theorem C107_writes_partial (o : Obj) (fs : FS) (path : String) (bl : List ℝ) (bw : Option (List ℝ)) (kperp kpara : BinArg) (clobber : Bool)
    (h : (run o fs path bl bw kperp kpara clobber).1 = none) :
    ∃ c w kp kl, (run o fs path bl bw kperp kpara clobber).2 path = some c ∧ UsedWeights bl bw w ∧ UsedBins (o.kperpBins bl) kperp kp ∧
      UsedBins o.kparaBins kpara kl ∧ Faithful o bl w kp kl c := by
  unfold run at h ⊢
  split at h
  · cases h
  · rename_i hex
    rw [if_neg hex]
    cases hc : compute o bl bw kperp kpara with
    | error e => rw [hc] at h; cases h
    | ok c =>
      obtain ⟨w, kp, kl, cs, h1, h2, h3, h4, rfl⟩ := compute_ok hc
      obtain ⟨l1, l2⟩ := cyls_ok h4
      have hw : UsedWeights bl bw w ∧ w.length = bl.length := by
        unfold weights at h1
        unfold UsedWeights
        cases bw with
        | none =>
          simp only [Except.ok.injEq] at h1
          subst h1
          exact ⟨.inl ⟨rfl, by simp, fun x hx => (List.mem_replicate.1 hx).2⟩, by simp⟩
        | some v =>
          simp only at h1
          split_ifs at h1 with hl
          injection h1 with h1
          subst h1
          exact ⟨.inr rfl, not_not.1 hl⟩
      refine ⟨⟨o.info, kp, kl, bl, w, cs⟩, w, kp, kl, by simp [setFile, hc], hw.1, bins_ok h2, bins_ok h3, rfl, rfl, rfl, rfl, rfl, hw.2, ?_, ?_⟩
      · simp only [l1, List.length_zip, hw.2, Nat.min_self]
      · intro i b x hb hx
        obtain ⟨W, w1, w2⟩ := l2 i b x (by rw [List.getElem?_zip_eq_some]; exact ⟨hb, hx⟩)
        refine ⟨W, w1, _, w2, by simp [scale], fun d P hP => ⟨_, by unfold scale; rw [List.getElem?_map, hP]; rfl, by simp, ?_⟩⟩
        intro m r hr
        refine ⟨_, by rw [List.getElem?_map, hr]; rfl, by simp, ?_⟩
        intro n v hv
        rw [List.getElem?_map, hv, mul_comm]
        rfl

/-- If nothing is there or `clobber` is set, the call succeeds exactly when the weights match, the bins can be used and every window can
be computed; weights of another length are refused. -/
theorem C107_succeeds (o : Obj) (fs : FS) (path : String) (bl : List ℝ) (bw : Option (List ℝ)) (kperp kpara : BinArg) (clobber : Bool)
    (hex : fs path = none ∨ clobber = true) :
    (∀ w, bw = some w → w.length ≠ bl.length → (run o fs path bl bw kperp kpara clobber).1 = some .value) ∧
    (∀ kp kl, (bw = none ∨ ∃ w, bw = some w ∧ w.length = bl.length) → UsedBins (o.kperpBins bl) kperp kp → UsedBins o.kparaBins kpara kl →
      (∀ b ∈ bl, (o.cyl b kp kl).isSome) → (run o fs path bl bw kperp kpara clobber).1 = none) := by
  have hcond : ((fs path).isSome && !clobber) = false := by
    rcases hex with h | h <;> simp [h]
  constructor
  · intro w hw hne
    unfold run
    simp only [hcond, Bool.false_eq_true, if_false]
    have : compute o bl bw kperp kpara = .error .value := by
      unfold compute weights
      subst hw
      simp only [bind, Except.bind]
      rw [if_pos hne]
    rw [this]
  · intro kp kl hw hkp hkl hcyl
    have hb : ∀ (d : Option (List ℝ)) (a : BinArg) (l : List ℝ), UsedBins d a l → bins d a = .ok l := by
      intro d a l h
      rcases h with ⟨h | ⟨u, h⟩, hd⟩ | ⟨h, hne⟩ <;> subst h
      · subst hd; rfl
      · subst hd; rfl
      · cases l with
        | nil => exact absurd rfl hne
        | cons x l => rfl
    obtain ⟨w, hw'⟩ : ∃ w, weights bl bw = .ok w := by
      rcases hw with rfl | ⟨w, rfl, hl⟩
      · exact ⟨_, rfl⟩
      · exact ⟨w, by simp [weights, hl]⟩
    have hc : ∀ l : List (ℝ × ℝ), (∀ x ∈ l, x.1 ∈ bl) → ∃ cs, cyls o kp kl l = .ok cs := by
      intro l
      induction l with
      | nil => intro _; exact ⟨[], rfl⟩
      | cons x l ih =>
        intro h
        obtain ⟨cs, hcs⟩ := ih (fun y hy => h y (by simp [hy]))
        obtain ⟨W, hW⟩ := Option.isSome_iff_exists.1 (hcyl x.1 (h x (by simp)))
        refine ⟨scale x.2 W :: cs, ?_⟩
        obtain ⟨b, v⟩ := x
        unfold cyls
        simp only [hW, hcs]
    obtain ⟨cs, hcs⟩ := hc (bl.zip w) (fun x hx => (List.of_mem_zip hx).1)
    unfold run
    simp only [hcond, Bool.false_eq_true, if_false]
    have : compute o bl bw kperp kpara = .ok ⟨o.info, kp, kl, bl, w, cs⟩ := by
      unfold compute
      simp only [bind, Except.bind, hw', hb _ _ _ hkp, hb _ _ _ hkl, hcs]
    rw [this]

/-- Finding: with `clobber`, any exception (for instance weights of the wrong length) leaves no file at all: the old one has been removed
before anything was checked. -/
theorem C107_finding_clobber_loses_file (o : Obj) (fs : FS) (path : String) (bl : List ℝ) (bw : Option (List ℝ)) (kperp kpara : BinArg)
    (e : Err) (h : (run o fs path bl bw kperp kpara true).1 = some e) : (run o fs path bl bw kperp kpara true).2 path = none := by
  unfold run at h ⊢
  simp only [Bool.not_true, Bool.and_false, Bool.false_eq_true, if_false] at h ⊢
  cases hc : compute o bl bw kperp kpara with
  | error e => simp [setFile]
  | ok c => rw [hc] at h; cases h

private theorem binMean_smul (kmin dk : ℝ) (m : ℕ) (l : List (ℝ × ℝ)) (s : ℝ) :
    binMean kmin dk m (l.map (fun p => (p.1, s * p.2))) = s * binMean kmin dk m l := by
  classical
  unfold binMean
  rw [List.filter_map]
  have e : ((fun p : ℝ × ℝ => decide (edge kmin dk m ≤ p.1 ∧ p.1 < edge kmin dk (m + 1))) ∘ fun p : ℝ × ℝ => (p.1, s * p.2))
      = fun p : ℝ × ℝ => decide (edge kmin dk m ≤ p.1 ∧ p.1 < edge kmin dk (m + 1)) := rfl
  rw [e]
  generalize l.filter (fun p : ℝ × ℝ => decide (edge kmin dk m ≤ p.1 ∧ p.1 < edge kmin dk (m + 1))) = q
  cases q with
  | nil => simp
  | cons a q =>
    rw [if_neg (by simp), if_neg (by simp)]
    unfold mean
    rw [List.map_map]
    simp only [List.length_map]
    have : ((a :: q).map ((fun p : ℝ × ℝ => p.2) ∘ fun p : ℝ × ℝ => (p.1, s * p.2))).sum = s * ((a :: q).map (fun p => p.2)).sum := by
      generalize a :: q = q
      induction q with
      | nil => simp
      | cons b q ih => simp only [List.map_cons, List.sum_cons, ih]; simp only [Function.comp]; ring
    rw [this]
    ring

/-- The windows of the file, as they are stored: multiplied by the weight. -/
def stored (p : Mode) : Mode := { p with wf := fun c => p.wf c * p.wgt }

/-- The stored windows averaged without weights give the spherical window of the baselines averaged with their weights (positive
weights and windows without negative values). -/
theorem C107_stored_windows_unweighted (kmin dk : ℝ) (nb : ℕ) (ktot : List ℝ) (l : List Mode) (hl : ∀ p ∈ l, 0 < p.wgt)
    (hw : ∀ p ∈ l, ∀ c, 0 ≤ p.wf c) :
    sphWf kmin dk nb ktot (l.map (fun p => { stored p with wgt := 1 })) = sphWf kmin dk nb ktot l := by
  have hin : ∀ m1, inRow kmin dk m1 (l.map (fun p => { stored p with wgt := 1 })) = (inRow kmin dk m1 l).map (fun p => { stored p with wgt := 1 }) := by
    intro m1; unfold inRow; rw [List.filter_map]; rfl
  unfold sphWf
  refine List.map_congr_left (fun m1 _ => ?_)
  unfold sphRow
  rw [hin]
  have hpos : ∀ p ∈ inRow kmin dk m1 l, 0 < p.wgt := fun p hp => hl p (List.mem_filter.1 hp).1
  have hwf : ∀ p ∈ inRow kmin dk m1 l, ∀ c, 0 ≤ p.wf c := fun p hp => hw p (List.mem_filter.1 hp).1
  generalize inRow kmin dk m1 l = q at hpos hwf
  by_cases hq : q = []
  · subst hq; simp
  · have hS : 0 < (q.map (fun p => p.wgt)).sum := by
      cases q with
      | nil => exact absurd rfl hq
      | cons a q =>
        simp only [List.map_cons, List.sum_cons]
        have h1 := hpos a (by simp)
        have h2 : 0 ≤ (q.map (fun p => p.wgt)).sum := List.sum_nonneg (by
          intro y hy
          obtain ⟨p, hp, rfl⟩ := List.mem_map.1 hy
          exact (hpos p (by simp [hp])).le)
        linarith
    have hN : 0 < (q.length : ℝ) := by
      have : 0 < q.length := List.length_pos_of_ne_nil hq
      exact_mod_cast this
    have hs : 0 < (q.map (fun p => p.wgt)).sum / q.length := div_pos hS hN
    have ht : wfTemp (q.map (fun p => { stored p with wgt := 1 })) = fun c => (q.map (fun p => p.wgt)).sum / q.length * wfTemp q c := by
      funext c
      unfold wfTemp
      rw [List.map_map, List.map_map]
      have e1 : ((fun p : Mode => p.wf c * p.wgt) ∘ fun p : Mode => { stored p with wgt := 1 }) = fun p => p.wf c * p.wgt := by
        funext p; simp [stored]
      have e2 : (q.map ((fun p : Mode => p.wgt) ∘ fun p : Mode => { stored p with wgt := 1 })).sum = q.length := by
        have : ((fun p : Mode => p.wgt) ∘ fun p : Mode => { stored p with wgt := 1 }) = fun _ => (1 : ℝ) := rfl
        rw [this]; simp
      rw [e1, e2]
      field_simp
    generalize (q.map (fun p => p.wgt)).sum / q.length = s at hs ht
    rw [ht]
    have hraw : rawRow kmin dk nb ktot (fun c => s * wfTemp q c) = (rawRow kmin dk nb ktot (wfTemp q)).map (fun x => s * x) := by
      unfold rawRow
      rw [List.map_map]
      refine List.map_congr_left (fun m _ => ?_)
      simp only [Function.comp]
      rw [← binMean_smul, List.map_map]
      rfl
    have hmul : ∀ r : List ℝ, (r.map (fun x => s * x)).sum = s * r.sum := by
      intro r
      induction r with
      | nil => simp
      | cons a r ih => simp [ih, mul_add]
    have hnorm : ∀ r : List ℝ, normRow (r.map (fun x => s * x)) = if r.sum ≠ 0 then normRow r else r.map (fun x => s * x) := by
      intro r
      unfold normRow
      rw [hmul]
      by_cases h0 : r.sum = 0
      · simp [h0]
      · rw [if_pos (mul_ne_zero hs.ne' h0), if_pos h0, if_pos h0, List.map_map]
        refine List.map_congr_left (fun x _ => ?_)
        simp only [Function.comp]
        rw [mul_div_mul_left _ _ hs.ne']
    have hsum : ((List.range ktot.length).map (fun c => s * wfTemp q c)).sum = s * ((List.range ktot.length).map (wfTemp q)).sum := by
      rw [← hmul, List.map_map]; rfl
    rw [hraw, hnorm, hsum]
    simp only [ne_eq, List.map_eq_nil_iff, hq, not_false_eq_true, true_and, mul_pos_iff_of_pos_left hs]
    split
    · rename_i hp
      split
      · rfl
      · rename_i h0
        rw [not_not] at h0
        have hnn : ∀ x ∈ rawRow kmin dk nb ktot (wfTemp q), 0 ≤ x := by
          intro x hx
          obtain ⟨m, _, rfl⟩ := List.mem_map.1 hx
          refine binMean_nonneg _ _ _ _ (fun p hp => ?_)
          obtain ⟨c, _, rfl⟩ := List.mem_map.1 hp
          refine div_nonneg (List.sum_nonneg (fun y hy => ?_)) (List.sum_nonneg (fun y hy => ?_))
          · obtain ⟨p, hp, rfl⟩ := List.mem_map.1 hy
            exact mul_nonneg (hwf p hp c) (hpos p hp).le
          · obtain ⟨p, hp, rfl⟩ := List.mem_map.1 hy
            exact (hpos p hp).le
        have hz : ∀ x ∈ rawRow kmin dk nb ktot (wfTemp q), x = 0 := fun x hx =>
          le_antisymm (h0 ▸ List.single_le_sum hnn x hx) (hnn x hx)
        have hnr : normRow (rawRow kmin dk nb ktot (wfTemp q)) = rawRow kmin dk nb ktot (wfTemp q) := by
          unfold normRow; rw [if_neg (by rw [h0]; simp)]
        rw [hnr]
        calc (rawRow kmin dk nb ktot (wfTemp q)).map (fun x => s * x) = (rawRow kmin dk nb ktot (wfTemp q)).map id :=
              List.map_congr_left (fun x hx => by rw [hz x hx]; simp)
          _ = _ := List.map_id _
    · rfl

private theorem two_cells (l : List Mode) (hk : ∀ p ∈ l, p.kmag = 1) (hl : l ≠ []) (h0 : 0 < wfTemp l 0 + wfTemp l 1) :
    sphRow 1 1 2 [1, 2] l 0 = [wfTemp l 0 / (wfTemp l 0 + wfTemp l 1), wfTemp l 1 / (wfTemp l 0 + wfTemp l 1)] := by
  have hin : inRow 1 1 0 l = l := by
    unfold inRow
    rw [List.filter_eq_self]
    intro p hp
    rw [hk p hp]
    unfold edge
    norm_num
  have hraw : rawRow 1 1 2 [1, 2] (wfTemp l) = [wfTemp l 0, wfTemp l 1] := by
    unfold rawRow
    have e : (List.range ([1, 2] : List ℝ).length).map (fun c : ℕ => (([1, 2] : List ℝ).getD c 0, wfTemp l c)) = [(1, wfTemp l 0), (2, wfTemp l 1)] := rfl
    rw [e]
    show [binMean 1 1 0 _, binMean 1 1 1 _] = _
    have b0 : binMean 1 1 0 [((1 : ℝ), wfTemp l 0), (2, wfTemp l 1)] = wfTemp l 0 := by
      have : ([((1 : ℝ), wfTemp l 0), (2, wfTemp l 1)]).filter (fun p => decide (edge 1 1 0 ≤ p.1 ∧ p.1 < edge 1 1 (0 + 1))) = [((1 : ℝ), wfTemp l 0)] := by
        unfold edge; norm_num [List.filter_cons]
      unfold binMean
      rw [this]
      simp [mean]
    have b1 : binMean 1 1 1 [((1 : ℝ), wfTemp l 0), (2, wfTemp l 1)] = wfTemp l 1 := by
      have : ([((1 : ℝ), wfTemp l 0), (2, wfTemp l 1)]).filter (fun p => decide (edge 1 1 1 ≤ p.1 ∧ p.1 < edge 1 1 (1 + 1))) = [((2 : ℝ), wfTemp l 1)] := by
        unfold edge; norm_num [List.filter_cons]
      unfold binMean
      rw [this]
      simp [mean]
    rw [b0, b1]
  unfold sphRow
  rw [hin, if_pos, hraw]
  · unfold normRow
    have : ([wfTemp l 0, wfTemp l 1] : List ℝ).sum = wfTemp l 0 + wfTemp l 1 := by simp
    rw [this, if_pos h0.ne']
    rfl
  · refine ⟨hl, ?_⟩
    have : ((List.range ([1, 2] : List ℝ).length).map (wfTemp l)).sum = wfTemp l 0 + wfTemp l 1 := by
      show ([wfTemp l 0, wfTemp l 1] : List ℝ).sum = _
      simp
    rw [this]
    exact h0

/-- Finding: giving the stored windows and the stored weights to `cylindrical_to_spherical` applies the weights twice. Two baselines of
weights 1 and 3 with windows on different cells: (1/4, 3/4) becomes (1/10, 9/10). -/
theorem C107_finding_weights_twice : ∃ l : List Mode, sphRow 1 1 2 [1, 2] l 0 = [1 / 4, 3 / 4] ∧
    sphRow 1 1 2 [1, 2] (l.map stored) 0 = [1 / 10, 9 / 10] ∧ ∀ p ∈ l, 0 < p.wgt ∧ ∀ c, 0 ≤ p.wf c := by
  refine ⟨[⟨1, 1, fun c => if c = 0 then 1 else 0⟩, ⟨1, 3, fun c => if c = 1 then 1 else 0⟩], ?_, ?_, ?_⟩
  · rw [two_cells _ (by simp) (by simp) (by norm_num [wfTemp])]
    norm_num [wfTemp]
  · rw [two_cells _ (by simp [stored]) (by simp) (by norm_num [wfTemp, stored])]
    norm_num [wfTemp, stored]
  · intro p hp
    simp only [List.mem_cons, List.not_mem_nil, or_false] at hp
    rcases hp with rfl | rfl
    · exact ⟨by norm_num, fun c => by show (0 : ℝ) ≤ if c = 0 then 1 else 0; split <;> norm_num⟩
    · exact ⟨by norm_num, fun c => by show (0 : ℝ) ≤ if c = 1 then 1 else 0; split <;> norm_num⟩

private def exMeta : Meta := ⟨1, 2, 2, true, 1515, "none", [0, 1]⟩
private noncomputable def exObj : Obj := ⟨exMeta, fun b _ _ => some [[[b]], [[b + 1]]], fun _ => some [1, 2], some [3, 4]⟩

example : (run exObj (fun _ => none) "f" [14, 28] (some [1, 3]) none none false).1 = none :=
  (C107_succeeds exObj (fun _ => none) "f" [14, 28] (some [1, 3]) none none false (.inl rfl)).2 [1, 2] [3, 4]
    (.inr ⟨_, rfl, rfl⟩) (.inl ⟨.inl rfl, rfl⟩) (.inl ⟨.inl rfl, rfl⟩) (by intro b _; rfl)

example (fs : FS) : (run exObj fs "f" [14, 28] (some [1]) none none true).1 = some .value :=
  (C107_succeeds exObj fs "f" [14, 28] (some [1]) none none true (.inr rfl)).1 [1] rfl (by simp)

end HeraPspec.RunWrite
