import Verif.Model.AutoVar
import Verif.Props.KBins
import Mathlib.Tactic.Positivity

/-! C117: variances from autocorrelations and the diagonal covariance models. -/
namespace HeraPspec.AutoVar

variable {P : Type}

/-! ### Specification -/

/-- The median: the mean of the two middle entries of the values in increasing order (the same entry for an odd number). -/
def IsMedian (l : List ℝ) (x : ℝ) : Prop :=
  ∃ (s : List ℝ) (a b : ℝ), s.Perm l ∧ s.Pairwise (· ≤ ·) ∧ s[(s.length - 1) / 2]? = some a ∧ s[s.length / 2]? = some b ∧ x = (a + b) / 2

/-- A waterfall of `nt` times and `nf` channels with entries `f t ν`. -/
def Waterfall {α : Type} (x : Option (List (List α))) (nt nf : ℕ) (f : ℕ → ℕ → α) : Prop :=
  ∃ rows : List (List α), x = some rows ∧ rows.length = nt ∧
    ∀ (t : ℕ) (r : List α), rows[t]? = some r → r.length = nf ∧ ∀ ν : ℕ, ν < nf → r[ν]? = some (f t ν)

/-- The number of samples used for channel `ν`: its own if positive, else the median of the positive ones in the window `[lo, hi)`. -/
def Samples (n : ℕ → ℝ) (lo hi ν : ℕ) (x : ℝ) : Prop :=
  (0 < n ν → x = n ν) ∧
  (n ν ≤ 0 → IsMedian (((List.range' lo (hi - lo)).map n).filter (fun y => open Classical in decide (0 < y))) x)

/-! ### Lemmas -/

theorem range_get (lo n i : ℕ) : (List.range' lo n)[i]? = if i < n then some (lo + i) else none := by
  split_ifs with h
  · rw [List.getElem?_range' h]; simp
  · exact List.getElem?_eq_none (by simpa using not_lt.1 h)

theorem median_isMedian (l : List ℝ) (hl : l ≠ []) : ∃ x, KBins.median l = some x ∧ IsMedian l x := by
  have hperm := pySorted_perm (fun a b => open Classical in decide (a ≤ b)) l
  have hpw : (pySorted (fun a b => open Classical in decide (a ≤ b)) l).Pairwise (fun a b : ℝ => a ≤ b) := by
    have := pySorted_pairwise (le := fun a b : ℝ => open Classical in decide (a ≤ b))
      (fun a b c h1 h2 => by simp only [decide_eq_true_eq] at *; exact h1.trans h2)
      (fun a b => by simp only [Bool.or_eq_true, decide_eq_true_eq]; exact le_total a b) l
    exact this.imp (fun h => by simpa using h)
  unfold KBins.median
  generalize pySorted (fun a b => open Classical in decide (a ≤ b)) l = s at *
  have hlen := hperm.length_eq
  have hpos : 0 < l.length := List.length_pos_iff.2 hl
  simp only
  rw [if_neg (by omega)]
  split_ifs with ho
  · have hk : l.length / 2 < s.length := by omega
    have hg : s[l.length / 2]? = some s[l.length / 2] := List.getElem?_eq_getElem hk
    exact ⟨s[l.length / 2], hg, s, s[l.length / 2], s[l.length / 2], hperm, hpw,
      by rw [show (s.length - 1) / 2 = l.length / 2 by omega]; exact hg, by rw [hlen]; exact hg, by ring⟩
  · refine ⟨_, rfl, s, s[l.length / 2 - 1]'(by omega), s[l.length / 2]'(by omega), hperm, hpw, ?_, ?_, ?_⟩
    · rw [show (s.length - 1) / 2 = l.length / 2 - 1 by omega]; exact List.getElem?_eq_getElem _
    · rw [show s.length / 2 = l.length / 2 by rw [hlen]]; exact List.getElem?_eq_getElem _
    · simp only [List.getD]
      rw [List.getElem?_eq_getElem (by omega), List.getElem?_eq_getElem (by omega)]; rfl

theorem isMedian_pos {l : List ℝ} (h : ∀ x ∈ l, 0 < x) {x : ℝ} (hx : IsMedian l x) : 0 < x := by
  obtain ⟨s, a, b, hp, -, ha, hb, rfl⟩ := hx
  have h1 := h a (hp.mem_iff.1 (List.mem_of_getElem? ha))
  have h2 := h b (hp.mem_iff.1 (List.mem_of_getElem? hb))
  linarith

theorem rowOf_spec {α : Type} {x : Option (List (List α))} {nt nf : ℕ} {f : ℕ → ℕ → α} (h : Waterfall x nt nf f) (t lo hi : ℕ) (ht : t < nt)
    (hhi : hi ≤ nf) : rowOf x t lo hi = .ok ((List.range' lo (hi - lo)).map (f t)) := by
  obtain ⟨rows, rfl, hl, hr⟩ := h
  unfold rowOf
  have hx : rows[t]? = some rows[t] := List.getElem?_eq_getElem (by omega)
  simp only [hx]
  congr 1
  obtain ⟨h1, h2⟩ := hr t _ hx
  apply List.ext_getElem?
  intro i
  unfold slice
  rw [List.getElem?_drop, List.getElem?_take, List.getElem?_map, range_get]
  by_cases hi' : lo + i < hi
  · rw [if_pos hi', h2 _ (by omega), if_pos (by omega)]; rfl
  · rw [if_neg hi', if_neg (by omega)]; rfl

theorem zip_get {α β : Type} {l : List α} {m : List β} {k : ℕ} {a : α} {b : β} (h1 : l[k]? = some a) (h2 : m[k]? = some b) :
    (l.zip m)[k]? = some (a, b) := List.getElem?_zip_eq_some.2 ⟨h1, h2⟩

/-! ### Theorems -/

/-- **C117** For a window and a time of the data, the variance from autocorrelations has one value per channel of the window: infinite in
all channels if the baseline has no samples anywhere in the window at that time, otherwise the product of the amplitudes of the
autocorrelations of its two antennas at that time and channel, divided by the median integration time, the width of that channel and
the number of samples used for that channel, which is always positive. -/
theorem C117_variance (u : UVD P) (a1 a2 : ℕ) (p : P) (nt nf lo hi t : ℕ) (V1 V2 : ℕ → ℕ → ℂ) (n : ℕ → ℕ → ℝ) (width : ℕ → ℝ) (dt : ℝ)
    (h1 : Waterfall (u.data (a1, a1, p)) nt nf V1) (h2 : Waterfall (u.data (a2, a2, p)) nt nf V2) (hn : Waterfall (u.nsamples (a1, a2, p)) nt nf n)
    (hw : u.width = (List.range nf).map width) (ht : t < nt) (hhi : hi ≤ nf) (hdt : IsMedian u.intTime dt) :
    ∃ r, autoVar u (a1, a2, p) lo hi t = .ok r ∧ r.length = hi - lo ∧ ∀ k : ℕ, k < hi - lo →
      ((∀ ν, lo ≤ ν → ν < hi → n t ν ≤ 0) → r[k]? = some ⊤) ∧
      ((∃ ν, lo ≤ ν ∧ ν < hi ∧ 0 < n t ν) → ∃ x, Samples (n t) lo hi (lo + k) x ∧ 0 < x ∧
        r[k]? = some (((‖V1 t (lo + k)‖ * ‖V2 t (lo + k)‖ / (x * dt * width (lo + k)) : ℝ)) : WithTop ℝ)) := by
  have hne : u.intTime ≠ [] := by
    rintro h0
    obtain ⟨s, a, b, hp, -, ha, -⟩ := hdt
    rw [h0, List.perm_nil] at hp
    rw [hp] at ha; simp at ha
  obtain ⟨dt', hmed, hdt'⟩ := median_isMedian _ hne
  have hdd : dt' = dt := by
    obtain ⟨s, a, b, hp, hs, ha, hb, rfl⟩ := hdt
    obtain ⟨s', a', b', hp', hs', ha', hb', rfl⟩ := hdt'
    have : s = s' := (hp.trans hp'.symm).eq_of_pairwise (fun a b _ _ h1 h2 => le_antisymm h1 h2) hs hs'
    subst this
    rw [ha] at ha'; rw [hb] at hb'
    rw [Option.some.inj ha', Option.some.inj hb']
  subst hdd
  have hwid : slice lo hi u.width = (List.range' lo (hi - lo)).map width := by
    rw [hw]
    apply List.ext_getElem?
    intro i
    unfold slice
    rw [List.getElem?_drop, List.getElem?_take, List.getElem?_map, List.getElem?_map, range_get]
    by_cases hi' : lo + i < hi
    · rw [if_pos hi', List.getElem?_range (by omega), if_pos (by omega)]
    · rw [if_neg hi', if_neg (by omega)]; rfl
  refine ⟨_, by
    unfold autoVar
    rw [hmed]
    simp only [rowOf_spec h1 t lo hi ht hhi, rowOf_spec h2 t lo hi ht hhi, rowOf_spec hn t lo hi ht hhi, hwid]; rfl, ?_, ?_⟩
  · simp [fillSamples]
  intro k hk
  have hget : ∀ {β : Type} (f : ℕ → β), ((List.range' lo (hi - lo)).map f)[k]? = some (f (lo + k)) := by
    intro β f
    rw [List.getElem?_map, range_get, if_pos hk]; rfl
  set ns := (List.range' lo (hi - lo)).map (n t) with hns
  have hfill : (fillSamples ns)[k]? = some (if 0 < n t (lo + k) then n t (lo + k) else (KBins.median (positives ns)).getD 0) := by
    unfold fillSamples
    rw [List.getElem?_map, hget]; rfl
  have hr : ∀ x, (fillSamples ns)[k]? = some x → (List.zipWith (fun (p : ℝ × ℝ) (x : ℂ × ℂ) => channelVar dt' p.1 p.2 x.1 x.2)
      (((List.range' lo (hi - lo)).map width).zip (fillSamples ns)) (((List.range' lo (hi - lo)).map (V1 t)).zip ((List.range' lo (hi - lo)).map (V2 t))))[k]? =
      some (channelVar dt' (width (lo + k)) x (V1 t (lo + k)) (V2 t (lo + k))) := by
    intro x hx
    rw [List.getElem?_zipWith, zip_get (hget width) (hx), zip_get (hget (V1 t)) (hget (V2 t))]
  have hmem : ∀ x, x ∈ positives ns ↔ 0 < x ∧ ∃ ν, lo ≤ ν ∧ ν < hi ∧ n t ν = x := by
    intro x
    unfold positives
    rw [List.mem_filter, hns, List.mem_map]
    simp only [List.mem_range'_1, decide_eq_true_eq]
    constructor
    · rintro ⟨⟨ν, h1, h2⟩, h3⟩; exact ⟨h3, ν, h1.1, by omega, h2⟩
    · rintro ⟨h3, ν, h1, h1', h2⟩; exact ⟨⟨ν, ⟨h1, by omega⟩, h2⟩, h3⟩
  constructor
  · intro hall
    have hemp : positives ns = [] := by
      rw [List.eq_nil_iff_forall_not_mem]
      intro x hx
      obtain ⟨h3, ν, h4, h5, h6⟩ := (hmem x).1 hx
      have := hall ν h4 h5
      linarith
    have h0 : ¬ 0 < n t (lo + k) := not_lt.2 (hall (lo + k) (by omega) (by omega))
    rw [hr _ hfill, if_neg h0, hemp]
    simp [KBins.median, channelVar]
  · rintro ⟨ν, h3, h4, h5⟩
    have hne' : positives ns ≠ [] := List.ne_nil_of_mem ((hmem (n t ν)).2 ⟨h5, ν, h3, h4, rfl⟩)
    obtain ⟨md, hmd, hmd'⟩ := median_isMedian _ hne'
    have hmdpos : 0 < md := isMedian_pos (fun x hx => ((hmem x).1 hx).1) hmd'
    have hval : ∀ x, 0 < x → channelVar dt' (width (lo + k)) x (V1 t (lo + k)) (V2 t (lo + k)) =
        (((‖V1 t (lo + k)‖ * ‖V2 t (lo + k)‖ / (x * dt' * width (lo + k)) : ℝ)) : WithTop ℝ) := by
      intro x hx
      unfold channelVar
      rw [if_neg hx.ne', norm_mul, norm_star, div_div, div_div]
      congr 2; ring
    by_cases hpos : 0 < n t (lo + k)
    · refine ⟨n t (lo + k), ⟨fun _ => rfl, fun h => absurd hpos (not_lt.2 h)⟩, hpos, ?_⟩
      rw [hr _ hfill, if_pos hpos, hval _ hpos]
    · refine ⟨md, ⟨fun h => absurd h hpos, fun _ => hmd'⟩, hmdpos, ?_⟩
      rw [hr _ hfill, if_neg hpos, hmd, Option.getD_some, hval _ hmdpos]

/-- **C117** The variance does not depend on the order of the antennas of the baseline (whose samples are the same either way). -/
theorem C117_reversed (u : UVD P) (a1 a2 : ℕ) (p : P) (nt nf lo hi t : ℕ) (V1 V2 : ℕ → ℕ → ℂ) (n : ℕ → ℕ → ℝ) (width : ℕ → ℝ) (dt : ℝ)
    (h1 : Waterfall (u.data (a1, a1, p)) nt nf V1) (h2 : Waterfall (u.data (a2, a2, p)) nt nf V2) (hn : Waterfall (u.nsamples (a1, a2, p)) nt nf n)
    (hn' : Waterfall (u.nsamples (a2, a1, p)) nt nf n)
    (hw : u.width = (List.range nf).map width) (ht : t < nt) (hhi : hi ≤ nf) (hdt : IsMedian u.intTime dt) :
    autoVar u (a2, a1, p) lo hi t = autoVar u (a1, a2, p) lo hi t := by
  have hc : ∀ a b c x y, channelVar a b c x y = channelVar a b c y x := by
    intro a b c x y
    unfold channelVar
    rw [norm_mul, norm_mul, norm_star, norm_star, mul_comm]
  unfold autoVar
  cases hm : KBins.median u.intTime with
  | none => rfl
  | some d =>
    simp only [rowOf_spec h1 t lo hi ht hhi, rowOf_spec h2 t lo hi ht hhi, rowOf_spec hn t lo hi ht hhi, rowOf_spec hn' t lo hi ht hhi]
    congr 1
    apply List.ext_getElem?
    intro i
    simp only [List.getElem?_zipWith]
    cases hz : (((slice lo hi u.width).zip (fillSamples ((List.range' lo (hi - lo)).map (n t))))[i]?) with
    | none => rfl
    | some z =>
      by_cases hi' : i < hi - lo
      · have hget : ∀ (f : ℕ → ℂ), ((List.range' lo (hi - lo)).map f)[i]? = some (f (lo + i)) := by
          intro f
          rw [List.getElem?_map, range_get, if_pos hi']; rfl
        rw [zip_get (hget (V1 t)) (hget (V2 t)), zip_get (hget (V2 t)) (hget (V1 t))]
        simp only [hc]
      · rw [List.getElem?_eq_none (by simpa using not_lt.1 hi'), List.getElem?_eq_none (by simpa using not_lt.1 hi')]

/-- What it means for a matrix to be diagonal with the given diagonal. -/
def Diagonal (M : List (List (WithTop ℝ))) (v : List (WithTop ℝ)) : Prop :=
  M.length = v.length ∧ ∀ i j : ℕ, i < v.length → j < v.length → ∃ r, M[i]? = some r ∧ r.length = v.length ∧
    r[j]? = if i = j then v[i]? else some 0

theorem diag_spec (v : List (WithTop ℝ)) : Diagonal (diag v) v := by
  refine ⟨by simp [diag], fun i j hi hj => ⟨(List.range v.length).map (fun j => if i = j then v.getD i 0 else 0), ?_, by simp, ?_⟩⟩
  · unfold diag; rw [List.getElem?_map, List.getElem?_range hi]; rfl
  · rw [List.getElem?_map, List.getElem?_range hj, Option.map_some]
    split_ifs with h
    · rw [List.getD, List.getElem?_eq_getElem hi]; rfl
    · rfl

/-- **C117** Without a known covariance, the `autos` model is the diagonal matrix of the variances from autocorrelations, and the `dsets`
model the diagonal matrix of the squared standard deviations of the data, zero where the data are flagged (or multiplied by the squared
weights given). -/
theorem C117_models (u std : UVD P) (bl : ℕ × ℕ × P) (nt nf lo hi t : ℕ) (ht : t < nt) (hhi : hi ≤ nf) (wgts : Option (UVD P))
    (σ wt : ℕ → ℕ → ℂ) (fl : ℕ → ℕ → Bool) (hσ : Waterfall (std.data bl) nt nf σ)
    (hfl : Waterfall (u.flags bl) nt nf fl) (hw : ∀ w, wgts = some w → Waterfall (w.data bl) nt nf wt) :
    (∀ v, autoVar u bl lo hi t = .ok v → ∃ M, cModel u std wgts bl lo hi (some t) .autos none = .ok M ∧ Diagonal M v) ∧
    (∃ M v, cModel u std wgts bl lo hi (some t) .dsets none = .ok M ∧ Diagonal M v ∧ v.length = hi - lo ∧
      ∀ k : ℕ, k < hi - lo → v[k]? = some (((match wgts with
        | some _ => ‖wt t (lo + k)‖ ^ 2
        | none => if fl t (lo + k) then 0 else 1) * ‖σ t (lo + k)‖ ^ 2 : ℝ) : WithTop ℝ)) := by
  constructor
  · intro v hv
    exact ⟨diag v, by simp [cModel, hv, Except.map], diag_spec v⟩
  · have key : ∀ w : ℕ → ℂ, weightRow u wgts bl lo hi t = .ok ((List.range' lo (hi - lo)).map w) →
        ∃ M v, cModel u std wgts bl lo hi (some t) .dsets none = .ok M ∧ Diagonal M v ∧ v.length = hi - lo ∧
          ∀ k : ℕ, k < hi - lo → v[k]? = some ((‖w (lo + k)‖ ^ 2 * ‖σ t (lo + k)‖ ^ 2 : ℝ) : WithTop ℝ) := by
      intro w hwr
      have hv : stdVar u std wgts bl lo hi t = .ok (List.zipWith (fun a b => ((‖a * b‖ ^ 2 : ℝ) : WithTop ℝ)) ((List.range' lo (hi - lo)).map w)
          ((List.range' lo (hi - lo)).map (σ t))) := by simp only [stdVar, hwr, rowOf_spec hσ t lo hi ht hhi]
      refine ⟨diag _, _, by simp only [cModel]; rw [hv]; rfl, diag_spec _, by simp, ?_⟩
      intro k hk
      have hget : ∀ (f : ℕ → ℂ), ((List.range' lo (hi - lo)).map f)[k]? = some (f (lo + k)) := by
        intro f
        rw [List.getElem?_map, range_get, if_pos hk]; rfl
      rw [List.getElem?_zipWith, hget, hget]
      simp only [norm_mul, mul_pow]
    cases wgts with
    | some w =>
      exact key (wt t) (by unfold weightRow; exact rowOf_spec (hw w rfl) t lo hi ht hhi)
    | none =>
      obtain ⟨M, v, h1, h2, h3, h4⟩ := key (fun ν => if fl t ν then 0 else 1) (by
        unfold weightRow
        simp only [rowOf_spec hfl t lo hi ht hhi, Except.map, List.map_map]; rfl)
      refine ⟨M, v, h1, h2, h3, fun k hk => ?_⟩
      rw [h4 k hk]
      cases fl t (lo + k) <;> simp

/-- **C117** A known covariance for the key takes precedence over every model, restricted to the window; an unknown model without one is
refused, and so is a model without a time. -/
theorem C117_known (u std : UVD P) (wgts : Option (UVD P)) (bl : ℕ × ℕ × P) (nf lo hi t : ℕ) (hhi : hi ≤ nf) (K : ℕ → ℕ → WithTop ℝ)
    (k : List (List (WithTop ℝ))) (hk : Waterfall (some k) nf nf K) (m : Model) :
    (∃ M, cModel u std wgts bl lo hi (some t) m (some k) = .ok M ∧ M.length = hi - lo ∧
      ∀ i j : ℕ, i < hi - lo → j < hi - lo → ∃ r, M[i]? = some r ∧ r.length = hi - lo ∧ r[j]? = some (K (lo + i) (lo + j))) ∧
    cModel u std wgts bl lo hi (some t) .other none = .error .value ∧
    (∀ k', cModel u std wgts bl lo hi none m k' = .error .assertion) := by
  refine ⟨⟨_, rfl, ?_, ?_⟩, rfl, fun _ => rfl⟩
  · obtain ⟨rows, h1, h2, h3⟩ := hk
    cases h1
    simp [slice]; omega
  · intro i j hi' hj
    have hr := fun (i : ℕ) (hx : i < nf) => rowOf_spec hk i lo hi hx hhi
    obtain ⟨rows, h1, h2, h3⟩ := hk
    cases h1
    refine ⟨(List.range' lo (hi - lo)).map (K (lo + i)), ?_, by simp, ?_⟩
    · have hx := hr (lo + i) (by omega)
      unfold rowOf at hx
      have hg : k[lo + i]? = some k[lo + i] := List.getElem?_eq_getElem (by omega)
      simp only [hg, Except.ok.injEq] at hx
      have hs : (slice lo hi k)[i]? = some k[lo + i] := by
        unfold slice
        rw [List.getElem?_drop, List.getElem?_take, if_pos (by omega), hg]
      rw [List.getElem?_map, hs, Option.map_some, hx]
    · rw [List.getElem?_map, range_get, if_pos hj]; rfl

/-! ### Non-vacuity -/

/-- Two antennas, one time, three channels; the baseline has samples 4, 0, 2. -/
noncomputable def exU : UVD Unit where
  intTime := [10, 10]
  width := (List.range 3).map (fun _ => (2 : ℝ))
  data b := if b.1 = b.2.1 then some [[(3 : ℂ), 4, 5]] else none
  flags _ := some [[false, true, false]]
  nsamples _ := some [[4, 0, 2]]

/-- The value of the middle channel, which has no samples: 4 * 4 / (3 * 10 * 2), with the median 3 of the samples 4 and 2. -/
example : ∃ r, autoVar exU (0, 1, ()) 0 3 0 = .ok r ∧ r[1]? = some (((16 / 60 : ℝ)) : WithTop ℝ) := by
  have hW : ∀ b, b = ((0 : ℕ), (0 : ℕ), ()) ∨ b = (1, 1, ()) → Waterfall (exU.data b) 1 3 (fun _ ν => (3 : ℂ) + ν) := by
    intro b hb
    refine ⟨[[3, 4, 5]], by rcases hb with rfl | rfl <;> simp [exU], rfl, ?_⟩
    intro t r hr
    rcases t with _ | t
    · simp at hr; subst hr
      refine ⟨rfl, fun ν hν => ?_⟩
      have : ν = 0 ∨ ν = 1 ∨ ν = 2 := by omega
      rcases this with rfl | rfl | rfl <;> norm_num
    · simp at hr
  have hN : Waterfall (exU.nsamples (0, 1, ())) 1 3 (fun _ ν => if ν = 0 then 4 else if ν = 1 then 0 else 2) := by
    refine ⟨[[4, 0, 2]], rfl, rfl, ?_⟩
    intro t r hr
    rcases t with _ | t
    · simp at hr; subst hr
      refine ⟨rfl, fun ν hν => ?_⟩
      have : ν = 0 ∨ ν = 1 ∨ ν = 2 := by omega
      rcases this with rfl | rfl | rfl <;> norm_num
    · simp at hr
  obtain ⟨r, h1, -, h3⟩ := C117_variance exU 0 1 () 1 3 0 3 0 _ _ _ (fun _ => 2) 10 (hW _ (Or.inl rfl)) (hW _ (Or.inr rfl)) hN rfl (by norm_num) le_rfl
    ⟨[10, 10], 10, 10, .refl _, by simp, rfl, rfl, by norm_num⟩
  obtain ⟨x, ⟨-, hx⟩, -, hr⟩ := (h3 1 (by norm_num)).2 ⟨0, le_rfl, by norm_num, by norm_num⟩
  obtain ⟨s, a, b, hp, hs, ha, hb, rfl⟩ := hx (by norm_num)
  have hl : (((List.range' 0 (3 - 0)).map (fun ν : ℕ => if ν = 0 then (4 : ℝ) else if ν = 1 then 0 else 2)).filter
      (fun y => open Classical in decide (0 < y))) = [4, 2] := by
    norm_num [List.range'_succ, List.filter]
  rw [hl] at hp
  have : s = [2, 4] := (hp.trans (List.Perm.swap _ _ _)).eq_of_pairwise (fun a b _ _ h1 h2 => le_antisymm h1 h2) hs (by norm_num)
  subst this
  simp at ha hb
  refine ⟨r, h1, ?_⟩
  rw [hr, ← ha, ← hb]
  norm_num

end HeraPspec.AutoVar
