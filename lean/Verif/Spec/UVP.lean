import Verif.Model.UVP

/-!
Specification vocabulary for UVPSpec objects, independent of the model's index functions: an object is a list of
measurement rows together with its spectral windows and polarization pairs.
-/
namespace HeraPspec.UVP

/-- One measurement row: a baseline-pair at one time, with its spectra `dat s` (delay x polpair) and per-polpair numbers
`itg s` for each spectral window `s`. -/
structure Meas (D W : Type) where
  bl1 : Int
  bl2 : Int
  t1 : ℚ
  t2 : ℚ
  tAvg : ℚ
  l1 : ℚ
  l2 : ℚ
  lAvg : ℚ
  dat : Nat → List (List D)
  itg : Nat → List W

/-- The 12-digit baseline-pair integer. -/
def Meas.blpair {D W : Type} (m : Meas D W) : Int := m.bl1 * 1000000 + m.bl2

/-- The content of an object. `chans`/`dlys` list (window, frequency) / (window, delay) in storage order. -/
structure Obj (D W : Type) where
  nspw : Nat
  chans : List (Nat × ℚ)
  dlys : List (Nat × ℚ)
  folded : Bool
  pols : List Int
  rows : List (Meas D W)

variable {D W : Type}

/-- The arrays of `u` hold exactly the content `o`, every row at the same position in every array. -/
structure Represents (u : UVP D W) (o : Obj D W) : Prop where
  spw : u.spwArray = List.range o.nspw
  spwFreq : u.spwFreqArray = o.chans.map (·.1)
  freq : u.freqArray = o.chans.map (·.2)
  spwDly : u.spwDlyArray = o.dlys.map (·.1)
  dly : u.dlyArray = o.dlys.map (·.2)
  folded : u.folded = o.folded
  blpair : u.blpairArray = o.rows.map Meas.blpair
  time1 : u.time1 = o.rows.map (·.t1)
  time2 : u.time2 = o.rows.map (·.t2)
  timeAvg : u.timeAvg = o.rows.map (·.tAvg)
  lst1 : u.lst1 = o.rows.map (·.l1)
  lst2 : u.lst2 = o.rows.map (·.l2)
  lstAvg : u.lstAvg = o.rows.map (·.lAvg)
  pols : u.polpairArray = o.pols
  data : ∀ s, Dict.get u.data s = if s < o.nspw then some (o.rows.map (·.dat s)) else none
  integ : ∀ s, Dict.get u.integ s = if s < o.nspw then some (o.rows.map (·.itg s)) else none

/-- Shapes are consistent (what `UVPSpec.check` and the constructors guarantee): every window has channels and delays and
no other label occurs, baseline integers have at most six digits, every spectrum sample has one entry per polpair. -/
structure Valid (o : Obj D W) : Prop where
  chans_lt : ∀ c ∈ o.chans, c.1 < o.nspw
  dlys_lt : ∀ c ∈ o.dlys, c.1 < o.nspw
  chans_all : ∀ s, s < o.nspw → ∃ c ∈ o.chans, c.1 = s
  dlys_all : ∀ s, s < o.nspw → ∃ c ∈ o.dlys, c.1 = s
  bl2 : ∀ m ∈ o.rows, 0 ≤ m.bl2 ∧ m.bl2 < 1000000
  dat : ∀ m ∈ o.rows, ∀ s, s < o.nspw → ∀ d ∈ m.dat s, d.length = o.pols.length
  itg : ∀ m ∈ o.rows, ∀ s, s < o.nspw → (m.itg s).length = o.pols.length

/-- A stored time matches a requested one: `|x - t| <= 1e-8 + 1e-16 |t|`. -/
def near (x t : ℚ) : Bool := decide (|x - t| ≤ 1 / 100000000 + 1 / 10000000000000000 * |t|)

/-- Does a row satisfy the request? Baseline selection or baseline-pair selection, and the time (LST) selection. -/
def keepRow (a : Args) (m : Meas D W) : Bool :=
  (match a.bls, a.blpairs with
    | none, none => true
    | some bls, none =>
      if a.onlyPairs then decide (m.bl1 ∈ bls ∧ m.bl2 ∈ bls) else decide (m.bl1 ∈ bls ∨ m.bl2 ∈ bls)
    | none, some bps => decide (m.blpair ∈ bps)
    | some bls, some bps =>
      (if a.onlyPairs then decide (m.bl1 ∈ bls ∧ m.bl2 ∈ bls) else decide (m.bl1 ∈ bls ∨ m.bl2 ∈ bls))
        || decide (m.blpair ∈ bps))
  && (match a.times with
    | none => true
    | some ts => ts.any (near m.tAvg))
  && (match a.lsts with
    | none => true
    | some ls => ls.any (near m.lAvg))

/-- Is a polarization pair requested? -/
def keepPol (a : Args) (p : Int) : Bool :=
  match a.polpairs with
  | none => true
  | some ps => decide (p ∈ ps)

/-- Original labels of the requested windows, increasing. -/
def keptSpws (n : Nat) (a : Args) : List Nat :=
  match a.spws with
  | none => List.range n
  | some l => (List.range n).filter (fun s => decide (s ∈ l))

/-- Number of kept windows with a smaller label: the new label of window `k`. -/
def rankIn (K : List Nat) (k : Nat) : Nat := (K.filter (fun x => decide (x < k))).length

/-- The entries of one sample belonging to requested polarization pairs, in order. -/
def keepEntries {α : Type} (a : Args) (pols : List Int) (d : List α) : List α :=
  ((pols.zip d).filter (fun x => keepPol a x.1)).map (·.2)

/-- The content a selection should leave. -/
def specSelect (o : Obj D W) (a : Args) : Obj D W :=
  let K := keptSpws o.nspw a
  { nspw := K.length
    chans := (o.chans.filter (fun c => decide (c.1 ∈ K))).map (fun c => (rankIn K c.1, c.2))
    dlys := (o.dlys.filter (fun c => decide (c.1 ∈ K))).map (fun c => (rankIn K c.1, c.2))
    folded := o.folded
    pols := o.pols.filter (keepPol a)
    rows := (o.rows.filter (keepRow a)).map (fun m => { m with
      dat := fun j => (m.dat (K.getD j 0)).map (keepEntries a o.pols)
      itg := fun j => keepEntries a o.pols (m.itg (K.getD j 0)) }) }

/-- The requests that are meaningful: known windows, no empty lists, not both times and lsts, something selected. -/
structure Accepts (o : Obj D W) (a : Args) : Prop where
  spws : ∀ l, a.spws = some l → l ≠ [] ∧ ∀ s ∈ l, s < o.nspw
  bls : a.bls ≠ some []
  blpairs : a.blpairs ≠ some []
  timesLsts : a.times = none ∨ a.lsts = none
  rows : (a.bls = none ∧ a.blpairs = none ∧ a.times = none ∧ a.lsts = none) ∨ ∃ m ∈ o.rows, keepRow a m = true
  pols : a.polpairs = none ∨ ∃ p ∈ o.pols, keepPol a p = true

end HeraPspec.UVP
