import Verif.Model.FTBeam
import Mathlib.Tactic.Linarith
import Mathlib.Tactic.NormNum

/-! C103: cutting a beam to a spectral window. C104: the beams `UVWindow.from_uvpspec` picks. -/
namespace HeraPspec.FTBeam

variable {P : Type}

/-! Specification. -/

/-- `m` is the part of `l` from position `off` on that has `n` elements. -/
def Part {α : Type} (l m : List α) (off n : ℕ) : Prop := m.length = n ∧ ∀ (i : ℕ), i < n → m[i]? = l[off + i]? ∧ off + i < l.length

/-- Beam `b` is the part of beam `o` with channels `off, ..., off + n - 1`: same polarization and map size, frequencies and planes cut
alike. -/
def SubBand (o b : Beam P) (off n : ℕ) : Prop :=
  b.pol = o.pol ∧ b.mapsize = o.mapsize ∧ Part o.freqs b.freqs off n ∧ Part o.planes b.planes off n

/-- A beam has one plane per frequency. -/
def Aligned (b : Beam P) : Prop := b.planes.length = b.freqs.length

/-- A valid channel range for `n` channels. -/
def ValidRange (n : ℕ) (r : List ℤ) : Prop := ∃ a c : ℕ, r = [(a : ℤ), (c : ℤ)] ∧ a < c ∧ c ≤ n

/-- A user calls `update_spw` with each range in turn, going on after an exception. -/
def history (b : Beam P) (rs : List (List ℤ)) : Beam P := rs.foldl (fun b r => (updateSpw b r).2) b

theorem check_iff (r : List ℤ) (n : ℕ) : checkSpwRange r n = true ↔ ValidRange n r := by
  unfold checkSpwRange ValidRange
  match r with
  | [] => simp
  | [a] => simp
  | a :: b :: c :: l => simp
  | [a, b] =>
    constructor
    · intro h
      simp only at h
      split_ifs at h with h1 h2 h3
      have ha : 0 ≤ a := by omega
      have hb : 0 ≤ b := by omega
      exact ⟨a.toNat, b.toNat, by simp [ha, hb], by omega, by omega⟩
    · rintro ⟨x, y, h, h1, h2⟩
      simp only [List.cons.injEq, and_true] at h
      obtain ⟨rfl, rfl⟩ := h
      simp only
      rw [if_neg (by omega), if_neg (by omega), if_neg (by omega)]

theorem slice_part {α : Type} (l : List α) (a c : ℕ) (h : a < c) (hc : c ≤ l.length) : Part l (slice (a : ℤ) (c : ℤ) l) a (c - a) := by
  have e : slice (a : ℤ) (c : ℤ) l = (l.take c).drop a := by
    unfold slice bound
    rw [if_neg (by omega), if_neg (by omega)]
    simp only [Int.toNat_natCast]
    rw [Nat.min_eq_left hc, Nat.min_eq_left (by omega)]
  rw [e]
  refine ⟨by rw [List.length_drop, List.length_take]; omega, fun i hi => ⟨?_, by omega⟩⟩
  rw [List.getElem?_drop, List.getElem?_take, if_pos (by omega)]

/-- Two parts of the same list at the same place are equal. -/
theorem Part.ext {α : Type} {l m m' : List α} {off n : ℕ} (h : Part l m off n) (h' : Part l m' off n) : m = m' := by
  apply List.ext_getElem?
  intro i
  by_cases hi : i < n
  · rw [(h.2 i hi).1, (h'.2 i hi).1]
  · rw [List.getElem?_eq_none (by rw [h.1]; omega), List.getElem?_eq_none (by rw [h'.1]; omega)]

theorem Part.trans {α : Type} {l m k : List α} {o n o' n' : ℕ} (h : Part l m o n) (h' : Part m k o' n') : Part l k (o + o') n' := by
  refine ⟨h'.1, fun i hi => ?_⟩
  obtain ⟨h1, h2⟩ := h'.2 i hi
  rw [h.1] at h2
  obtain ⟨h3, h4⟩ := h.2 _ h2
  rw [h1, h3, Nat.add_assoc]
  exact ⟨rfl, by omega⟩

/-- `update_spw` accepts exactly the ranges `(a, c)` with `0 <= a < c <= number of channels`; otherwise it raises ValueError and the
object is unchanged. -/
theorem C103_update_refuses (b : Beam P) (r : List ℤ) :
    ((updateSpw b r).1 = none ↔ ValidRange b.freqs.length r) ∧
    (¬ ValidRange b.freqs.length r → updateSpw b r = (some .value, b)) := by
  unfold updateSpw
  by_cases h : checkSpwRange r b.freqs.length = true
  · simp only [h, if_true, true_iff]
    exact ⟨(check_iff _ _).1 h, fun h' => absurd ((check_iff _ _).1 h) h'⟩
  · rw [if_neg h]
    exact ⟨⟨by simp, fun h' => absurd ((check_iff _ _).2 h') h⟩, fun _ => rfl⟩

/-- An accepted range `(a, c)` keeps exactly channels `a .. c-1` of frequencies and planes, and records the range. -/
theorem C103_update_channels (b : Beam P) (hb : Aligned b) (a c : ℕ) (h : a < c) (hc : c ≤ b.freqs.length) :
    SubBand b (updateSpw b [(a : ℤ), (c : ℤ)]).2 a (c - a) ∧ (updateSpw b [(a : ℤ), (c : ℤ)]).2.spwRange = some ((a : ℤ), (c : ℤ)) := by
  have e : checkSpwRange [(a : ℤ), (c : ℤ)] b.freqs.length = true := (check_iff _ _).2 ⟨a, c, rfl, h, hc⟩
  unfold updateSpw
  rw [if_pos e]
  refine ⟨⟨rfl, rfl, slice_part _ a c h hc, slice_part _ a c h (by rw [hb]; exact hc)⟩, rfl⟩

theorem SubBand.aligned {o b : Beam P} {off n : ℕ} (h : SubBand o b off n) : Aligned b := by
  unfold Aligned; rw [h.2.2.1.1, h.2.2.2.1]

theorem SubBand.refl (b : Beam P) (hb : Aligned b) : SubBand b b 0 b.freqs.length := by
  refine ⟨rfl, rfl, ⟨rfl, fun i hi => ⟨by simp, by omega⟩⟩, ⟨hb, fun i hi => ⟨by simp, by rw [hb]; omega⟩⟩⟩

/-- **C103.** Whatever sequence of ranges is requested, including refused ones, the beam is always one contiguous band of the original
beam, with frequencies and planes aligned: cuts compose, and a band once dropped never comes back. -/
theorem C103_history (b : Beam P) (hb : Aligned b) (rs : List (List ℤ)) : ∃ off n, SubBand b (history b rs) off n := by
  suffices h : ∀ (c : Beam P) (off n : ℕ), SubBand b c off n → ∃ off n, SubBand b (history c rs) off n from h b 0 _ (SubBand.refl b hb)
  intro c off n hc
  induction rs generalizing c off n with
  | nil => exact ⟨off, n, hc⟩
  | cons r rs ih =>
    show ∃ off n, SubBand b (history (updateSpw c r).2 rs) off n
    by_cases hr : ValidRange c.freqs.length r
    · obtain ⟨x, y, rfl, h1, h2⟩ := hr
      have s := (C103_update_channels c hc.aligned x y h1 h2).1
      exact ih _ (off + x) (y - x)
        ⟨s.1.trans hc.1, s.2.1.trans hc.2.1, hc.2.2.1.trans s.2.2.1, hc.2.2.2.trans s.2.2.2⟩
    · rw [(C103_update_refuses c r).2 hr]
      exact ih _ _ _ hc

/-- A second cut counts channels from the first one: `(a, c)` then `(x, y)` is `(a + x, a + y)` of the original beam. -/
theorem C103_cuts_compose (b : Beam P) (hb : Aligned b) (a c x y : ℕ) (h : a < c) (hc : c ≤ b.freqs.length) (h' : x < y) (hy : y ≤ c - a) :
    SubBand b (history b [[(a : ℤ), (c : ℤ)], [(x : ℤ), (y : ℤ)]]) (a + x) (y - x) ∧
    (history b [[(a : ℤ), (c : ℤ)], [(x : ℤ), (y : ℤ)]]).spwRange = some ((x : ℤ), (y : ℤ)) := by
  have s := (C103_update_channels b hb a c h hc).1
  have t := C103_update_channels _ s.aligned x y h' (by rw [s.2.2.1.1]; exact hy)
  exact ⟨⟨t.1.1.trans s.1, t.1.2.1.trans s.2.1, s.2.2.1.trans t.1.2.2.1, s.2.2.2.trans t.1.2.2.2⟩, t.2⟩

private theorem mk_ok {num2str : ℤ → String} {d : Data P} {pol : PolArg} {freqs : List ℚ} {m : ℚ} {b : Beam P}
    (h : mkBeam num2str d pol freqs m = .ok b) :
    d.ndim = 3 ∧ d.rows = d.cols ∧ polCheck num2str pol = .ok b.pol ∧ b.freqs = freqs ∧ b.planes = d.planes ∧ b.mapsize = m ∧
      b.spwRange = none ∧ freqs.length = d.planes.length := by
  unfold mkBeam at h
  by_cases h1 : d.ndim ≠ 3
  · rw [if_pos h1] at h; cases h
  rw [if_neg h1] at h
  by_cases h2 : d.rows ≠ d.cols
  · rw [if_pos h2] at h; cases h
  rw [if_neg h2] at h
  cases hp : polCheck num2str pol with
  | error e => rw [hp] at h; exact absurd h (by simp)
  | ok p =>
    rw [hp] at h
    simp only at h
    by_cases h3 : freqs.length ≠ d.planes.length
    · rw [if_pos h3] at h; cases h
    rw [if_neg h3] at h
    injection h with h
    subst h
    exact ⟨not_not.1 h1, not_not.1 h2, rfl, rfl, rfl, rfl, rfl, not_not.1 h3⟩

/-- The constructor: every object made has one plane per frequency, a known polarization, and exactly the data given. -/
theorem C103_constructor (num2str : ℤ → String) (d : Data P) (pol : PolArg) (freqs : List ℚ) (m : ℚ) (b : Beam P)
    (h : mkBeam num2str d pol freqs m = .ok b) :
    Aligned b ∧ b.freqs = freqs ∧ b.planes = d.planes ∧ b.mapsize = m ∧
    ((∃ s, pol = .str s ∧ b.pol = s ∧ s ∈ ["pI", "pQ", "pU", "pV", "xx", "yy", "xy", "yx"]) ∨
     (∃ n, pol = .int n ∧ b.pol = num2str n ∧ n ∈ ([1, 2, 3, 4, -5, -6, -7, -8] : List ℤ))) := by
  obtain ⟨_, _, h3, h4, h5, h6, _, h8⟩ := mk_ok h
  refine ⟨by unfold Aligned; rw [h4, h5, h8], h4, h5, h6, ?_⟩
  match pol with
  | .str s =>
    unfold polCheck at h3
    simp only at h3
    split_ifs at h3 with hs
    injection h3 with h3
    refine .inl ⟨s, rfl, h3.symm, ?_⟩
    unfold polStrings at hs
    simp only [List.mem_cons, List.not_mem_nil, or_false] at hs ⊢
    tauto
  | .int n =>
    unfold polCheck at h3
    simp only at h3
    split_ifs at h3 with hs
    injection h3 with h3
    refine .inr ⟨n, rfl, h3.symm, ?_⟩
    unfold polNums at hs
    simp only [List.mem_cons, List.not_mem_nil, or_false] at hs ⊢
    tauto
  | .other => unfold polCheck at h3; cases h3

/-- The constructor accepts every square cube with one plane per frequency and a known polarization string or number. -/
theorem C103_constructor_accepts (num2str : ℤ → String) (d : Data P) (freqs : List ℚ) (m : ℚ) (h1 : d.ndim = 3)
    (h2 : d.rows = d.cols) (h3 : freqs.length = d.planes.length) :
    (∀ s ∈ ["pI", "pQ", "pU", "pV", "xx", "yy", "xy", "yx"], ∃ b, mkBeam num2str d (.str s) freqs m = .ok b) ∧
    (∀ n ∈ ([1, 2, 3, 4, -5, -6, -7, -8] : List ℤ), ∃ b, mkBeam num2str d (.int n) freqs m = .ok b) := by
  constructor
  swap
  · intro n hn
    have hn' : n ∈ polNums := by
      unfold polNums
      simp only [List.mem_cons, List.not_mem_nil, or_false] at hn ⊢
      tauto
    unfold mkBeam polCheck
    simp [h1, h2, h3, hn']
  intro s hs
  have hs' : s ∈ polStrings := by
    unfold polStrings
    simp only [List.mem_cons, List.not_mem_nil, or_false] at hs ⊢
    tauto
  unfold mkBeam polCheck
  simp [h1, h2, h3, hs']

/-- Reading with a range is reading the whole file and cutting afterwards: same polarization, map size, frequencies and planes; one
is refused exactly when the other is. -/
theorem C103_read_then_cut (num2str : ℤ → String) (fs : List Char → Option (File P)) (path : List Char) (r : List ℤ) (w : Beam P)
    (h : fromFile num2str fs path none = .ok w) :
    (ValidRange w.freqs.length r → ∃ b, fromFile num2str fs path (some r) = .ok b ∧ b.pol = (updateSpw w r).2.pol ∧
      b.mapsize = (updateSpw w r).2.mapsize ∧ b.freqs = (updateSpw w r).2.freqs ∧ b.planes = (updateSpw w r).2.planes) ∧
    (¬ ValidRange w.freqs.length r → fromFile num2str fs path (some r) = .error .value) := by
  unfold fromFile at h ⊢
  cases hf : fs path with
  | none => rw [hf] at h; cases h
  | some f =>
    rw [hf] at h
    simp only at h ⊢
    obtain ⟨h1, h2, h3, h4, h5, h6, _, h8⟩ := mk_ok h
    constructor
    · rintro ⟨a, c, rfl, hac, hc⟩
      have e := C103_update_channels w (by unfold Aligned; rw [h4, h5, h8]) a c hac hc
      rw [h4] at hc
      rw [if_pos ((check_iff _ _).2 ⟨a, c, rfl, hac, hc⟩)]
      have q1 := slice_part f.freq a c hac hc
      have q2 := slice_part f.beam.planes a c hac (by rw [← h8]; exact hc)
      unfold mkBeam
      rw [h3]
      simp only [h1, h2, ne_eq, not_true_eq_false, if_false]
      have hl : (slice (a : ℤ) (c : ℤ) f.freq).length = (slice (a : ℤ) (c : ℤ) f.beam.planes).length := by rw [q1.1, q2.1]
      simp only [List.getD_cons_zero, List.getD_cons_succ, List.getLastD_cons, List.getLastD_nil, hl, not_true_eq_false, if_false]
      refine ⟨_, rfl, e.1.1.symm, by rw [e.1.2.1, h6], ?_, ?_⟩
      · exact q1.ext (h4 ▸ e.1.2.2.1)
      · exact q2.ext (h5 ▸ e.1.2.2.2)
    · intro hr
      rw [h4] at hr
      rw [if_neg (fun h => hr ((check_iff _ _).1 h))]

private theorem takeWhile_all {α : Type} (p : α → Bool) (l r : List α) (x : α) (h : ∀ a ∈ l, p a = true) (hx : p x = false) :
    (l ++ x :: r).takeWhile p = l := by
  induction l with
  | nil => simp [hx]
  | cons a l ih =>
    have := h a (by simp)
    simp only [List.cons_append, List.takeWhile_cons, this, if_true]
    rw [ih (fun b hb => h b (by simp [hb]))]

/-- The polarization is read off the file name `<root>_<pol>.hdf5`, whatever the root (it may contain underscores and dots). -/
theorem C103_name (root : List Char) (pol : String) (h : ∀ c ∈ pol.toList, c ≠ '_' ∧ c ≠ '.') :
    polOfPath (root ++ '_' :: (pol.toList ++ ".hdf5".toList)) = pol := by
  unfold polOfPath lastField
  rw [List.reverse_append, List.reverse_cons, List.append_assoc, List.singleton_append]
  rw [takeWhile_all _ _ _ '_' _ (by simp), List.reverse_reverse]
  · unfold firstField
    have e : ".hdf5".toList = '.' :: "hdf5".toList := by decide
    rw [e, takeWhile_all _ _ _ '.' _ (by simp)]
    · simp
    · intro a ha
      simpa using (h a ha).2
  · intro a ha
    rw [List.mem_reverse, List.mem_append] at ha
    rcases ha with ha | ha
    · simpa using (h a ha).1
    · have : ∀ x ∈ ".hdf5".toList, x ≠ '_' := by decide
      simpa using this a ha

private def exBeam : Beam ℕ := { pol := "pI", freqs := [100, 101, 102, 103, 104], planes := [0, 1, 2, 3, 4], mapsize := 1, spwRange := none }

/-- Finding: after a second cut, `spw_range` no longer indexes the original bandwidth: (1, 5) then (0, 2) leaves channels 1 and 2 but
records (0, 2). -/
theorem C103_finding_recorded_range_relative :
    (history exBeam [[1, 5], [0, 2]]).spwRange = some (0, 2) ∧ (history exBeam [[1, 5], [0, 2]]).freqs = [101, 102] ∧
    slice 0 2 exBeam.freqs = [100, 101] := by
  refine ⟨rfl, ?_, ?_⟩ <;> decide +kernel

example : Aligned exBeam ∧ ValidRange exBeam.freqs.length [1, 4] ∧ ¬ ValidRange exBeam.freqs.length [2, 6] ∧
    (history exBeam [[1, 5], [2, 6], [1, 3]]).planes = [2, 3] :=
  ⟨rfl, ⟨1, 4, rfl, by decide, by decide⟩, by rw [← check_iff]; decide, by decide +kernel⟩

/-- The bandwidth reported for a file is the list of frequencies a beam read from it has. -/
theorem C103_bandwidth (num2str : ℤ → String) (fs : List Char → Option (File P)) (path : List Char) (l : List ℚ) (b : Beam P)
    (h : getBandwidth fs path = .ok l) (hb : fromFile num2str fs path none = .ok b) : b.freqs = l ∧ 2 ≤ l.length := by
  unfold getBandwidth at h
  unfold fromFile at hb
  cases hf : fs path with
  | none => rw [hf] at h; cases h
  | some f =>
    rw [hf] at h hb
    simp only at h hb
    split_ifs at h with hl
    injection h with h
    subst h
    exact ⟨(mk_ok hb).2.2.2.1, by omega⟩

/-! C104: `UVWindow.from_uvpspec`. -/

/-- The path of the beam file of one polarization. -/
def beamPath (root : List Char) (pol : String) : List Char := root ++ '_' :: (pol.toList ++ ".hdf5".toList)

/-- A polarization name with two different letters ("pI", "xy", ...). -/
def TwoLetters (pol : String) : Prop := ∃ c0 c1 l, pol.toList = c0 :: c1 :: l ∧ c1 ≠ c0

/-- A polarization name with the same letter twice ("xx", "yy"). -/
def OneLetter (pol : String) : Prop := ∃ c l, pol.toList = c :: c :: l

theorem updateE_ok {b c : Beam P} {r : List ℤ} (h : updateE b r = .ok c) : ValidRange b.freqs.length r ∧ c = (updateSpw b r).2 := by
  unfold updateE at h
  by_cases hr : ValidRange b.freqs.length r
  · rw [(C103_update_refuses b r).1.2 hr] at h
    injection h with h
    exact ⟨hr, h.symm⟩
  · rw [(C103_update_refuses b r).2 hr] at h
    cases h

theorem updateE_valid {b : Beam P} {r : List ℤ} (hr : ValidRange b.freqs.length r) : updateE b r = .ok (updateSpw b r).2 := by
  unfold updateE
  rw [(C103_update_refuses b r).1.2 hr]

theorem spwRange_ok {bw freqs : List ℚ} {r : List ℤ} (h : spwRange bw freqs = .ok r) :
    ∃ f0 i, freqs[0]? = some f0 ∧ r = [((i : ℕ) : ℤ), ((i + freqs.length : ℕ) : ℤ)] ∧ (∃ x, bw[i]? = some x ∧ f0 - 1 / 1000000000 ≤ x) ∧
      ∀ (j : ℕ) (x : ℚ), j < i → bw[j]? = some x → x < f0 - 1 / 1000000000 := by
  unfold spwRange at h
  match freqs with
  | [] => cases h
  | f0 :: l =>
    simp only at h
    cases hi : bw.findIdx? (fun x => decide (f0 - 1 / 1000000000 ≤ x)) with
    | none => rw [hi] at h; cases h
    | some i =>
      rw [hi] at h
      injection h with h
      rw [List.findIdx?_eq_some_iff_getElem] at hi
      obtain ⟨hl, h1, h2⟩ := hi
      refine ⟨f0, i, rfl, ?_, ⟨bw[i], List.getElem?_eq_getElem hl, by simpa using h1⟩, ?_⟩
      · rw [← h]; push_cast; rw [Int.add_comm]
      · intro j x hj hx
        have hjl : j < bw.length := by omega
        rw [List.getElem?_eq_getElem hjl] at hx
        injection hx with hx
        have := h2 j hj
        rw [hx] at this
        simp only [decide_eq_true_eq, not_le] at this
        exact this

private theorem inv {num2str : ℤ → String} {fs : List Char → Option (File P)} {spws : List (List ℚ)} {spw : ℕ} {pp : String × String}
    {arg : FtArg P} {w : UVWindow P} (h : fromUvpspec num2str fs spws spw pp arg = .ok w) :
    ∃ freqs b0 r b1 range c0, spws[spw]? = some freqs ∧ load num2str fs arg pp.1 = .ok b0 ∧ reuse pp.2 = .ok r ∧
      second num2str fs arg pp.2 b0 r = .ok b1 ∧ spwRange b0.freqs freqs = .ok range ∧ updateE b0 range = .ok c0 ∧
      (∃ c1, (if r then c1 = c0 else updateE b1 range = .ok c1) ∧ mkWindow c0 c1 = .ok w) := by
  unfold fromUvpspec at h
  simp only [bind, Except.bind] at h
  cases h1 : spws[spw]? with
  | none => rw [h1] at h; cases h
  | some freqs =>
    rw [h1] at h
    simp only at h
    cases h2 : load num2str fs arg pp.1 with
    | error e => rw [h2] at h; cases h
    | ok b0 =>
      rw [h2] at h
      simp only at h
      cases h3 : reuse pp.2 with
      | error e => rw [h3] at h; cases h
      | ok r =>
        rw [h3] at h
        simp only at h
        cases h4 : second num2str fs arg pp.2 b0 r with
        | error e => rw [h4] at h; cases h
        | ok b1 =>
          rw [h4] at h
          simp only at h
          cases h5 : spwRange b0.freqs freqs with
          | error e => rw [h5] at h; cases h
          | ok range =>
            rw [h5] at h
            simp only at h
            cases h6 : updateE b0 range with
            | error e => rw [h6] at h; cases h
            | ok c0 =>
              rw [h6] at h
              simp only at h
              refine ⟨freqs, b0, r, b1, range, c0, rfl, rfl, rfl, h4, h5, h6, ?_⟩
              cases r with
              | true => exact ⟨c0, by simp, by simpa using h⟩
              | false =>
                simp only [Bool.false_eq_true, if_false] at h ⊢
                cases h7 : updateE b1 range with
                | error e => rw [h7] at h; cases h
                | ok c1 => rw [h7] at h; exact ⟨c1, rfl, h⟩

theorem mkWindow_ok {b0 b1 : Beam P} {w : UVWindow P} (h : mkWindow b0 b1 = .ok w) :
    b0.freqs = b1.freqs ∧ b0.mapsize = b1.mapsize ∧ w = { beam0 := b0, beam1 := b1, pols := (b0.pol, b1.pol), freqs := b0.freqs } := by
  unfold mkWindow at h
  split_ifs at h with h1 h2 h3
  injection h with h
  exact ⟨not_not.1 h2, not_not.1 h3, h.symm⟩

theorem fromFile_pol {num2str : ℤ → String} {fs : List Char → Option (File P)} {root : List Char} {pol : String} {b : Beam P}
    (hp : ∀ c ∈ pol.toList, c ≠ '_' ∧ c ≠ '.') (h : fromFile num2str fs (beamPath root pol) none = .ok b) : b.pol = pol ∧ Aligned b := by
  unfold fromFile at h
  cases hf : fs (beamPath root pol) with
  | none => rw [hf] at h; cases h
  | some f =>
    rw [hf] at h
    simp only at h
    have k := mk_ok h
    refine ⟨?_, (C103_constructor _ _ _ _ _ _ h).1⟩
    have := k.2.2.1
    unfold polCheck at this
    simp only at this
    split_ifs at this
    injection this with this
    rw [← this]
    exact C103_name root pol hp

/-- The names of polarizations: no underscores and dots. -/
def PlainName (pol : String) : Prop := ∀ c ∈ pol.toList, c ≠ '_' ∧ c ≠ '.'

/-- **C104** (partial). When the second polarization of the pair is written with two different letters, or both are the same, the
window uses for each polarization the beam in the file of that polarization, and both are cut to the same channels: as many as the
spectral window has, starting at the first beam channel not below its lowest frequency.

Missing: pairs such as ("xx", "yy") (see `C104_finding_equal_letters`). -/
theorem C104_beams_partial (num2str : ℤ → String) (fs : List Char → Option (File P)) (spws : List (List ℚ)) (spw : ℕ) (p q : String)
    (root : List Char) (hp : PlainName p) (hq : PlainName q) (hpq : p = q ∨ TwoLetters q) (w : UVWindow P)
    (h : fromUvpspec num2str fs spws spw (p, q) (.root root) = .ok w) :
    ∃ freqs f0 B0 B1 start, spws[spw]? = some freqs ∧ freqs[0]? = some f0 ∧
      fromFile num2str fs (beamPath root p) none = .ok B0 ∧ fromFile num2str fs (beamPath root q) none = .ok B1 ∧
      SubBand B0 w.beam0 start freqs.length ∧ SubBand B1 w.beam1 start freqs.length ∧ w.pols = (p, q) ∧
      w.freqs = w.beam0.freqs ∧ w.freqs = w.beam1.freqs ∧ w.beam0.mapsize = w.beam1.mapsize ∧
      (∃ x, B0.freqs[start]? = some x ∧ f0 - 1 / 1000000000 ≤ x) ∧
      (∀ (j : ℕ) (x : ℚ), j < start → B0.freqs[j]? = some x → x < f0 - 1 / 1000000000) := by
  obtain ⟨freqs, b0, r, b1, range, c0, h1, h2, h3, h4, h5, h6, c1, h7, h8⟩ := inv h
  obtain ⟨f0, i, e1, e2, e3, e4⟩ := spwRange_ok h5
  subst e2
  simp only [load] at h2
  change fromFile num2str fs (beamPath root p) none = .ok b0 at h2
  obtain ⟨m1, m2, m3⟩ := mkWindow_ok h8
  have n0 := updateE_ok h6
  have hf : 0 < freqs.length := by
    rw [List.getElem?_eq_some_iff] at e1
    exact e1.1
  have cut : ∀ (b c : Beam P), Aligned b → updateE b [((i : ℕ) : ℤ), ((i + freqs.length : ℕ) : ℤ)] = .ok c → SubBand b c i freqs.length := by
    intro b c hb hc
    obtain ⟨⟨a', c', hr, _, hl⟩, rfl⟩ := updateE_ok hc
    simp only [List.cons.injEq, Int.natCast_inj, and_true] at hr
    have := (C103_update_channels b hb i (i + freqs.length) (by omega) (by omega)).1
    rwa [Nat.add_sub_cancel_left] at this
  have s0 := cut b0 c0 (fromFile_pol hp h2).2 h6
  have key : ∃ B1, fromFile num2str fs (beamPath root q) none = .ok B1 ∧ SubBand B1 c1 i freqs.length := by
    cases r with
    | true =>
      have hpq' : p = q := by
        rcases hpq with h | ⟨x0, x1, l, hl, hne⟩
        · exact h
        · unfold reuse at h3
          simp only [hl] at h3
          injection h3 with h3
          exact absurd (by simpa using h3) hne
      subst hpq'
      rw [if_pos rfl] at h7
      subst h7
      exact ⟨b0, h2, s0⟩
    | false =>
      simp only [second, Bool.false_eq_true, if_false, load] at h4
      change fromFile num2str fs (beamPath root q) none = .ok b1 at h4
      simp only [Bool.false_eq_true, if_false] at h7
      exact ⟨b1, h4, cut b1 c1 (fromFile_pol hq h4).2 h7⟩
  obtain ⟨B1, k1, k2⟩ := key
  refine ⟨freqs, f0, b0, B1, i, h1, e1, h2, k1, ?_, ?_, ?_, ?_, ?_, ?_, e3, e4⟩
  · rw [m3]; exact s0
  · rw [m3]; exact k2
  · rw [m3]
    simp only [Prod.mk.injEq]
    exact ⟨s0.1.trans (fromFile_pol hp h2).1, k2.1.trans (fromFile_pol hq k1).1⟩
  · rw [m3]
  · rw [m3]; exact m1
  · rw [m3]; exact m2

/-- The frequencies of a list ascend, by more than 1e-9. -/
def Ascending (l : List ℚ) : Prop := ∀ (i j : ℕ) (x y : ℚ), i < j → l[i]? = some x → l[j]? = some y → x + 1 / 1000000000 < y

/-- If the spectral window is a contiguous part of the beam's bandwidth, the channels used are exactly that part: the window object has
the frequencies of the spectral window. -/
theorem C104_frequencies (num2str : ℤ → String) (fs : List Char → Option (File P)) (spws : List (List ℚ)) (spw : ℕ) (p q : String)
    (root : List Char) (hp : PlainName p) (w : UVWindow P)
    (h : fromUvpspec num2str fs spws spw (p, q) (.root root) = .ok w) (freqs : List ℚ) (hf : spws[spw]? = some freqs)
    (B0 : Beam P) (hB : fromFile num2str fs (beamPath root p) none = .ok B0) (ha : Ascending B0.freqs) (s : ℕ)
    (hs : Part B0.freqs freqs s freqs.length) : w.freqs = freqs ∧ SubBand B0 w.beam0 s freqs.length := by
  obtain ⟨freqs', b0, r, b1, range, c0, h1, h2, h3, h4, h5, h6, c1, h7, h8⟩ := inv h
  rw [hf] at h1
  injection h1 with h1
  subst h1
  simp only [load] at h2
  change fromFile num2str fs (beamPath root p) none = .ok b0 at h2
  rw [hB] at h2
  injection h2 with h2
  subst h2
  obtain ⟨f0, i, e1, e2, ⟨x, e3, e3'⟩, e4⟩ := spwRange_ok h5
  subst e2
  have hpos : 0 < freqs.length := by
    rw [List.getElem?_eq_some_iff] at e1
    exact e1.1
  have k0 : B0.freqs[s]? = some f0 := by
    have := (hs.2 0 hpos).1
    rw [e1] at this
    simpa using this.symm
  have his : i = s := by
    rcases Nat.lt_trichotomy i s with hlt | heq | hgt
    · exfalso
      have := ha i s x f0 hlt e3 k0
      linarith
    · exact heq
    · exfalso
      have := e4 s f0 hgt k0
      linarith
  subst his
  obtain ⟨m1, m2, m3⟩ := mkWindow_ok h8
  obtain ⟨⟨a', c', hr, _, hl⟩, hc⟩ := updateE_ok h6
  simp only [List.cons.injEq, Int.natCast_inj, and_true] at hr
  have s0 := (C103_update_channels B0 (fromFile_pol hp hB).2 i (i + freqs.length) (by omega) (by omega)).1
  rw [Nat.add_sub_cancel_left, ← hc] at s0
  rw [m3]
  exact ⟨s0.2.2.1.ext hs, s0⟩

/-- If both files hold beams of the right shape on the same frequencies and map size, and the spectral window is a non-empty part of
them, the call succeeds. -/
theorem C104_succeeds (num2str : ℤ → String) (fs : List Char → Option (File P)) (spws : List (List ℚ)) (spw : ℕ) (p q : String)
    (root : List Char) (hp : PlainName p) (hq : PlainName q) (hq2 : TwoLetters q ∨ OneLetter q)
    (freqs : List ℚ) (hf : spws[spw]? = some freqs) (B0 B1 : Beam P)
    (hB0 : fromFile num2str fs (beamPath root p) none = .ok B0) (hB1 : fromFile num2str fs (beamPath root q) none = .ok B1)
    (hfr : B0.freqs = B1.freqs) (hm : B0.mapsize = B1.mapsize) (ha : Ascending B0.freqs) (s : ℕ) (hne : freqs ≠ [])
    (hs : Part B0.freqs freqs s freqs.length) :
    ∃ w, fromUvpspec num2str fs spws spw (p, q) (.root root) = .ok w := by
  match freqs, hne with
  | f0 :: l, _ =>
    have hs0 := hs.2 0 (by simp)
    simp only [Nat.add_zero, List.getElem?_cons_zero] at hs0
    have hi : B0.freqs.findIdx? (fun x => decide (f0 - 1 / 1000000000 ≤ x)) = some s := by
      rw [List.findIdx?_eq_some_iff_getElem]
      refine ⟨hs0.2, ?_, ?_⟩
      · have := hs0.1.symm
        rw [List.getElem?_eq_getElem hs0.2] at this
        injection this with this
        rw [this]
        simp only [decide_eq_true_eq]
        linarith
      · intro j hj
        have hjl : j < B0.freqs.length := by omega
        have := ha j s B0.freqs[j] f0 hj (List.getElem?_eq_getElem hjl) hs0.1.symm
        simp only [decide_eq_true_eq]
        linarith
    have hr : spwRange B0.freqs (f0 :: l) = .ok [(s : ℤ), ((s + (f0 :: l).length : ℕ) : ℤ)] := by
      unfold spwRange
      simp only [hi]
      push_cast
      rw [Int.add_comm]
    have hlast := (hs.2 l.length (by simp)).2
    have hlen : s + (f0 :: l).length ≤ B0.freqs.length := by
      simp only [List.length_cons]; omega
    have valid : ∀ b : Beam P, b.freqs = B0.freqs → ValidRange b.freqs.length [(s : ℤ), ((s + (f0 :: l).length : ℕ) : ℤ)] := by
      intro b hb
      rw [hb]
      exact ⟨s, s + (f0 :: l).length, rfl, by simp, hlen⟩
    have u0 := updateE_valid (valid B0 rfl)
    have u1 := updateE_valid (valid B1 hfr.symm)
    have c0 := (C103_update_channels B0 (fromFile_pol hp hB0).2 s (s + (f0 :: l).length) (by simp) hlen).1
    have c1 := (C103_update_channels B1 (fromFile_pol hq hB1).2 s (s + (f0 :: l).length) (by simp) (hfr ▸ hlen)).1
    have hre : ∃ r, reuse q = .ok r := by
      unfold reuse
      rcases hq2 with ⟨x0, x1, l, hl, _⟩ | ⟨x, l, hl⟩ <;> simp [hl]
    obtain ⟨r, hre⟩ := hre
    have l0 : load num2str fs (.root root) p = .ok B0 := hB0
    have l1 : load num2str fs (.root root) q = .ok B1 := hB1
    unfold fromUvpspec
    simp only [bind, Except.bind, hf, l0, hre]
    cases r with
    | true =>
      simp only [second, if_true, hr, u0]
      unfold mkWindow
      simp
    | false =>
      simp only [second, Bool.false_eq_true, if_false, l1, hr, u0, u1]
      unfold mkWindow
      have e1 : (updateSpw B0 [(s : ℤ), ((s + (f0 :: l).length : ℕ) : ℤ)]).2.freqs
          = (updateSpw B1 [(s : ℤ), ((s + (f0 :: l).length : ℕ) : ℤ)]).2.freqs := c0.2.2.1.ext (hfr ▸ c1.2.2.1)
      have e2 : (updateSpw B0 [(s : ℤ), ((s + (f0 :: l).length : ℕ) : ℤ)]).2.mapsize
          = (updateSpw B1 [(s : ℤ), ((s + (f0 :: l).length : ℕ) : ℤ)]).2.mapsize := by rw [c0.2.1, c1.2.1, hm]
      rw [if_neg (by rw [e1]; simp), if_neg (by rw [e1]; simp), if_neg (by rw [e2]; simp)]
      exact ⟨_, rfl⟩

/-- Finding: when the second polarization is "xx" or "yy" (one letter twice), the beam of the first polarization is used for both, and
the file of the second one is never read: the result is the same whatever it contains, even if it does not exist. -/
theorem C104_finding_equal_letters (num2str : ℤ → String) (fs fs' : List Char → Option (File P)) (spws : List (List ℚ)) (spw : ℕ)
    (p q : String) (root : List Char) (hq : OneLetter q) (hfs : fs (beamPath root p) = fs' (beamPath root p)) :
    fromUvpspec num2str fs spws spw (p, q) (.root root) = fromUvpspec num2str fs' spws spw (p, q) (.root root) ∧
    ∀ w, fromUvpspec num2str fs spws spw (p, q) (.root root) = .ok w → w.beam1 = w.beam0 ∧ w.pols = (w.beam0.pol, w.beam0.pol) := by
  obtain ⟨c, l, hl⟩ := hq
  have hr : reuse q = .ok true := by unfold reuse; simp [hl]
  constructor
  · have hload : load num2str fs (.root root) p = load num2str fs' (.root root) p := by
      simp only [load, fromFile]
      unfold beamPath at hfs
      rw [hfs]
    unfold fromUvpspec
    simp only [hload, hr, second, if_true, bind, Except.bind]
  · intro w h
    obtain ⟨freqs, b0, r, b1, range, c0, h1, h2, h3, h4, h5, h6, c1, h7, h8⟩ := inv h
    rw [hr] at h3
    injection h3 with h3
    subst h3
    rw [if_pos rfl] at h7
    subst h7
    obtain ⟨_, _, m3⟩ := mkWindow_ok h8
    rw [m3]
    exact ⟨rfl, rfl⟩

/-- Finding: given an FTBeam object, the polarization pair asked for is ignored: the object is used for both. -/
theorem C104_finding_object_pol_ignored (num2str : ℤ → String) (fs : List Char → Option (File P)) (spws : List (List ℚ)) (spw : ℕ)
    (pp : String × String) (b : Beam P) (w : UVWindow P) (h : fromUvpspec num2str fs spws spw pp (.obj b) = .ok w) :
    w.pols = (b.pol, b.pol) ∧ w.beam0 = w.beam1 := by
  obtain ⟨freqs, b0, r, b1, range, c0, h1, h2, h3, h4, h5, h6, c1, h7, h8⟩ := inv h
  simp only [load, Except.ok.injEq] at h2
  subst h2
  have hb1 : b1 = b := by
    unfold second at h4
    split at h4
    · injection h4 with h4; exact h4.symm
    · simp only [load, Except.ok.injEq] at h4; exact h4.symm
  subst hb1
  have hc : c1 = c0 := by
    cases r with
    | true => simpa using h7
    | false =>
      simp only [Bool.false_eq_true, if_false] at h7
      rw [h6] at h7
      injection h7 with h7
      exact h7.symm
  subst hc
  obtain ⟨_, _, m3⟩ := mkWindow_ok h8
  have e := (updateE_ok h6).2
  have hp : c1.pol = b1.pol := by
    rw [e]; unfold updateSpw; split <;> rfl
  rw [m3]
  simp [hp]

/-- No beam, a wrong window and a wrong argument are refused. -/
theorem C104_refuses (num2str : ℤ → String) (fs : List Char → Option (File P)) (spws : List (List ℚ)) (spw : ℕ) (pp : String × String)
    (arg : FtArg P) :
    (spws.length ≤ spw → fromUvpspec num2str fs spws spw pp arg = .error .value) ∧
    (spw < spws.length → fromUvpspec num2str fs spws spw pp .none = .error .notImplemented) ∧
    (spw < spws.length → fromUvpspec num2str fs spws spw pp .other = .error .type) := by
  refine ⟨fun h => ?_, fun h => ?_, fun h => ?_⟩ <;> unfold fromUvpspec
  · rw [List.getElem?_eq_none h]; rfl
  · rw [List.getElem?_eq_getElem h]; rfl
  · rw [List.getElem?_eq_getElem h]; rfl

private def exFile (k : ℕ) (f : List ℚ) : File ℕ := { mapsize := 1, freq := f, beam := { ndim := 3, rows := 3, cols := 3, planes := (List.range f.length).map (fun i => k + i) } }

private def exFs : List Char → Option (File ℕ) := fun s =>
  if s = "hera_xx.hdf5".toList then some (exFile 10 [100, 101, 102, 103]) else
  if s = "hera_yy.hdf5".toList then some (exFile 20 [100, 101, 102, 103]) else
  if s = "hera_xy.hdf5".toList then some (exFile 30 [100, 101, 102, 103]) else none

private def sig (r : Except Err (UVWindow ℕ)) : Option ((String × String) × List ℚ × List ℕ × List ℕ) :=
  match r with
  | .ok w => some (w.pols, w.freqs, w.beam0.planes, w.beam1.planes)
  | .error _ => none

example : sig (fromUvpspec (fun _ => "") exFs [[101, 102]] 0 ("xx", "xy") (.root "hera".toList)) =
    some (("xx", "xy"), [101, 102], [11, 12], [31, 32]) := by decide +kernel

/-- Counterexample: the pair ("xx", "yy") is given the "xx" beam twice although a "yy" beam file is there. -/
theorem C104_counterexample_xx_yy : sig (fromUvpspec (fun _ => "") exFs [[101, 102]] 0 ("xx", "yy") (.root "hera".toList)) =
    some (("xx", "xx"), [101, 102], [11, 12], [11, 12]) := by decide +kernel

/-- Counterexample: a spectral window below the beam's bandwidth is given the lowest beam channels, without an error; and so are the
channels of a window with a different channel width. -/
theorem C104_counterexample_wrong_frequencies :
    sig (fromUvpspec (fun _ => "") exFs [[50, 51]] 0 ("xy", "xy") (.root "hera".toList)) = some (("xy", "xy"), [100, 101], [30, 31], [30, 31]) ∧
    sig (fromUvpspec (fun _ => "") exFs [[100, 102]] 0 ("xy", "xy") (.root "hera".toList)) = some (("xy", "xy"), [100, 101], [30, 31], [30, 31]) := by
  constructor <;> decide +kernel

example : TwoLetters "pI" ∧ TwoLetters "xy" ∧ OneLetter "yy" ∧ PlainName "pI" :=
  ⟨⟨'p', 'I', [], rfl, by decide⟩, ⟨'x', 'y', [], rfl, by decide⟩, ⟨'y', [], rfl⟩, by unfold PlainName; decide⟩

end HeraPspec.FTBeam
