import Verif.Model.Combine

/-!
Specification vocabulary for combining objects: what entries an object holds, and when objects are combinable.
-/
namespace HeraPspec.Combine
variable {R M T Z S X C K V : Type}

/-- Object `u` holds, for window `r`, baseline-pair-time `b` and polpair `p`, the payload `x`, taken from the datasets
named `n1` and `n2`. -/
def Has (rangeOf : M → R) (u : Obj M T Z S X C K V) (r : R) (b : Int × T × T) (p : Int) (x : X) (n1 n2 : String) : Prop :=
  ∃ (i j k : Nat) (a : List (List (Cell X))) (a' : List (Cell X)) (c : Cell X), (u.spwMeta[i]?).map rangeOf = some r ∧ u.blpair[j]? = some b.1 ∧ u.time1[j]? = some b.2.1 ∧
    u.time2[j]? = some b.2.2 ∧ u.pols[k]? = some p ∧
    u.data[i]? = some a ∧ a[j]? = some a' ∧ a'[k]? = some c ∧ c.val = x ∧
    u.labels[c.lab1]? = some n1 ∧ u.labels[c.lab2]? = some n2

/-- Row `b` of object `u` carries the average time and LSTs `z`. -/
def HasRow (u : Obj M T Z S X C K V) (b : Int × T × T) (z : Z) : Prop :=
  ∃ j : Nat, u.blpair[j]? = some b.1 ∧ u.time1[j]? = some b.2.1 ∧ u.time2[j]? = some b.2.2 ∧ u.rowMeta[j]? = some z

/-- The shapes of all arrays fit together and no window, row or polpair is stored twice (what `UVPSpec.check` and the
constructors establish). -/
structure WF [DecidableEq K] (rangeOf : M → R) (u : Obj M T Z S X C K V) : Prop where
  time1 : u.time1.length = u.blpair.length
  time2 : u.time2.length = u.blpair.length
  rowMeta : u.rowMeta.length = u.blpair.length
  scalar : u.scalar.length = u.spwMeta.length
  scalar2 : ∀ a ∈ u.scalar, a.length = u.pols.length
  data : u.data.length = u.spwMeta.length
  data2 : ∀ a ∈ u.data, a.length = u.blpair.length
  data3 : ∀ a ∈ u.data, ∀ b ∈ a, b.length = u.pols.length
  lab : ∀ a ∈ u.data, ∀ b ∈ a, ∀ c ∈ b, c.lab1 < u.labels.length ∧ c.lab2 < u.labels.length
  spws : (u.spwMeta.map rangeOf).Nodup
  rows : u.blpts.Nodup
  pols : u.pols.Nodup
  someSpw : u.spwMeta ≠ []
  somePol : u.pols ≠ []
  rkeys : u.rparams.keys.Nodup

/-- Same elements. -/
def Same {α : Type} (a b : List α) : Prop := ∀ x, x ∈ a ↔ x ∈ b

/-- No common element, and not both empty. -/
def Apart {α : Type} (a b : List α) : Prop := (∀ x ∈ a, x ∉ b) ∧ ¬ Same a b

/-- Two objects agree on two axes and are apart on the axis `ax`. -/
def PairOK (rangeOf : M → R) (ax : Axis) (u v : Obj M T Z S X C K V) : Prop :=
  (if ax = .spw then Apart (u.spwMeta.map rangeOf) (v.spwMeta.map rangeOf)
    else Same (u.spwMeta.map rangeOf) (v.spwMeta.map rangeOf)) ∧
  (if ax = .blpairts then Apart u.blpts v.blpts else Same u.blpts v.blpts) ∧
  (if ax = .polpairs then Apart u.pols v.pols else Same u.pols v.pols)

/-- Entries at the same place (window, polarization) agree. -/
def ScalarsAgree (close : S → S → Bool) (a b : List (List S)) : Prop :=
  ∀ (i j : ℕ) (r q : List S) (x y : S), a[i]? = some r → b[i]? = some q → r[j]? = some x → q[j]? = some y → close x y = true

/-- The objects can be combined along `ax`. -/
structure Combinable (rangeOf : M → R) (close : S → S → Bool) (ax : Axis) (us : List (Obj M T Z S X C K V)) : Prop where
  two : 2 ≤ us.length
  static : ∀ u0 ∈ us.head?, ∀ u ∈ us, u.static = u0.static
  pair : us.Pairwise (PairOK rangeOf ax)
  scalar : ax = .blpairts → ∀ u0 ∈ us.head?, ∀ u ∈ us.tail, ScalarsAgree close u0.scalar u.scalar

/-- No key carries two different values, and either all dictionaries are empty or none is. -/
structure Compatible [DecidableEq K] (ds : List (Dict K V)) : Prop where
  agree : ∀ d ∈ ds, ∀ e ∈ ds, ∀ k v w, Dict.get d k = some v → Dict.get e k = some w → v = w
  empty : (∀ d ∈ ds, d = []) ∨ (∀ d ∈ ds, d ≠ [])

/-- Within one object, the rows are distinguished by baseline-pair and rounded first time. -/
def Keyed (rnd : T → T) (u : Obj M T Z S X C K V) : Prop :=
  u.blpts.Pairwise (fun a b => ¬ (a.1 = b.1 ∧ rnd a.2.1 = rnd b.2.1))

/-- Hypotheses under which the row and window metadata of the result are aligned with its data: along polpairs and
windows all inputs store their rows in one order; unless windows are concatenated the first object's windows are stored
in increasing order. -/
structure Aligned [LinearOrder R] (rangeOf : M → R) (rnd : T → T) (ax : Axis) (us : List (Obj M T Z S X C K V)) : Prop where
  keyed : ax ≠ .blpairts → ∀ v ∈ us, Keyed rnd v
  order : ax ≠ .blpairts → ∀ u0 ∈ us.head?, ∀ v ∈ us, v.blpts = u0.blpts
  windows : ax ≠ .spw → ∀ u0 ∈ us.head?, (u0.spwMeta.map rangeOf).Pairwise (· ≤ ·)

end HeraPspec.Combine
