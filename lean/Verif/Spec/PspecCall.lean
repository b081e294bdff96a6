import Verif.Model.PspecCall
import Verif.Spec.UVP

/-!
Vocabulary for the properties of a call of `pspec`.
-/
namespace HeraPspec.PspecCall
open HeraPspec.UVP (Obj Meas)

variable {D W : Type}

/-- The integrations of the requested baseline-pairs, in the order requested; each with its position among those of its baseline-pair. -/
def rowsOf (w : World D W) (blps : List Blp) : List (Blp × Obs × ℕ) := blps.flatMap (fun b => (w.obs b).zipIdx.map (fun o => (b, o.1, o.2)))

/-- The entries computed for one window, polarization pair and baseline-pair (none if that raises). -/
def table (w : World D W) (i : ℕ) (p : ℤ × ℤ) (b : Blp) : List (Entry D W) := ((w.val i p b).toOption).getD []

/-- The six-digit number of a baseline. -/
def blCode (b : Bl) : ℤ := (b.1 + 100) * 1000 + (b.2 + 100)

/-- The content the result should have: one row per baseline-pair and integration, with its own times, and for every window and polarization
pair the spectrum and integration time computed for it. -/
def content (w : World D W) (nspw : ℕ) (pols : List (ℤ × ℤ)) (blps : List Blp) : Obj D W where
  nspw := nspw
  chans := (List.range nspw).flatMap (fun i => (w.freqs i).map (fun f => (i, f)))
  dlys := (List.range nspw).flatMap (fun i => (w.dlys i).map (fun t => (i, t)))
  folded := false
  pols := pols.map (fun p => (20 + p.1) * 100 + (20 + p.2))
  rows := (rowsOf w blps).map (fun m =>
    { bl1 := blCode m.1.1, bl2 := blCode m.1.2
      t1 := m.2.1.t1, t2 := m.2.1.t2, tAvg := (m.2.1.t1 + m.2.1.t2) / 2
      l1 := m.2.1.l1, l2 := m.2.1.l2, lAvg := w.circ m.2.1.l1 m.2.1.l2
      dat := fun i => (List.range (w.dlys i).length).map (fun d => pols.filterMap (fun p => ((table w i p m.1)[m.2.2]?).bind (fun e => e.spec[d]?)))
      itg := fun i => pols.filterMap (fun p => ((table w i p m.1)[m.2.2]?).map (·.integ)) })

/-- An antenna number that fits the codes. -/
def GoodAnt (a : ℤ) : Prop := -100 ≤ a ∧ a ≤ 899

/-- What holds of every dataset: a requested baseline-pair has integrations; what is computed has one entry per integration, with as many values as
the window has delays; windows have channels and delays; antenna numbers fit the codes. -/
structure Regular (w : World D W) (nspw : ℕ) (blps : List Blp) : Prop where
  obs : ∀ b ∈ blps, w.obs b ≠ []
  len : ∀ i < nspw, ∀ p, ∀ b ∈ blps, ∀ l, w.val i p b = .ok l → l.length = (w.obs b).length ∧ ∀ e ∈ l, e.spec.length = (w.dlys i).length
  dlys : ∀ i < nspw, w.dlys i ≠ []
  freqs : ∀ i < nspw, w.freqs i ≠ []
  ants : ∀ b ∈ blps, GoodAnt b.1.1 ∧ GoodAnt b.1.2 ∧ GoodAnt b.2.1 ∧ GoodAnt b.2.2

/-! ### What the arguments of a call stand for -/

/-- The baseline-pair two elements of `bls1` and `bls2` stand for: two baselines, or two groups of one baseline. -/
def PairFor : BlArg → BlArg → Blp → Prop
  | .one a, .one b, p => p = (a, b)
  | .many [a], .many [b], p => p = (a, b)
  | _, _, _ => False

/-- The number of a polarization. -/
def NumFor (polnum : String → Option ℤ) : Validate.Pol → ℤ → Prop
  | .int m, n => m = n
  | .str s, n => polnum s = some n

/-- The polarization pair an element of `pols` stands for: a string stands for the pair of it with itself. -/
def PolFor (polnum : String → Option ℤ) : PolArg → ℤ × ℤ → Prop
  | .str s, p => polnum s = some p.1 ∧ polnum s = some p.2
  | .pair a b, p => NumFor polnum a p.1 ∧ NumFor polnum b p.2

/-- The element of a list with number `n`, counted from the end if negative. -/
def IsAt {α : Type} (l : List α) (n : ℤ) (x : α) : Prop := ∃ k : ℕ, l[k]? = some x ∧ (n = k ∨ n = k - l.length)

/-- The elements of `pols`. -/
def PolsArg.list : PolsArg → List PolArg
  | .one p => [p]
  | .many l => l

/-- What a call asks for: the labels of the two datasets, baseline-pairs, windows and polarization pairs. -/
structure Meaning where
  label1 : String
  label2 : String
  blps : List Blp
  spws : List (ℕ × ℕ)
  pols : List (ℤ × ℤ)

/-- A list given as one element, as a list or left out. -/
def Lists {α : Type} (d : List α) (a : OneMany α) (l : List α) : Prop := (a = .none ∧ l = d) ∨ (∃ x, a = .one x ∧ l = [x]) ∨ a = .many l

/-- The call is well formed and asks for `m`. -/
structure Asks (w : World D W) (c : Call) (m : Meaning) : Prop where
  dsets : ∃ a b, c.dsets = [.int a, .int b] ∧ IsAt w.labels a m.label1 ∧ IsAt w.labels b m.label2
  nonempty : c.bls1 ≠ []
  len1 : c.bls1.length = m.blps.length
  len2 : c.bls2.length = m.blps.length
  pairs : ∀ (i : ℕ) a b p, c.bls1[i]? = some a → c.bls2[i]? = some b → m.blps[i]? = some p → PairFor a b p
  redundant : w.posOk (m.blps.map Validate.Item.pair) = true
  spws : Lists [(0, w.nfreqs)] c.spws m.spws
  exts : ∃ l, Lists (List.replicate m.spws.length (0, 0)) c.exts l ∧ l.length = m.spws.length
  ndlys : ∃ l, Lists (List.replicate m.spws.length none) c.ndlys l ∧ l.length = m.spws.length
  pols : List.Forall₂ (PolFor w.polnum) c.pols.list m.pols

/-- The polarization pairs of the request that the data have. -/
def Meaning.available (w : World D W) (m : Meaning) : List (ℤ × ℤ) := m.pols.filter w.polOk

end HeraPspec.PspecCall
