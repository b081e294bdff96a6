import Verif.Spec.Combine
import Mathlib.Data.Prod.Lex

/-! Specification vocabulary for splitting and merging objects. -/
namespace HeraPspec.Combine
variable {R M T Z S X C K V : Type}

/-- A list of positions in increasing order, below `n`. -/
def Positions (n : Nat) (is : List Nat) : Prop := is.Pairwise (· < ·) ∧ ∀ i ∈ is, i < n

/-- The parts of `0, …, n - 1`: at least two, none empty, no position in two of them, every position in one. -/
structure Partition (n : Nat) (parts : List (List Nat)) : Prop where
  two : 2 ≤ parts.length
  positions : ∀ is ∈ parts, Positions n is
  nonempty : ∀ is ∈ parts, is ≠ []
  disjoint : parts.Pairwise (fun a b => ∀ i ∈ a, i ∉ b)
  cover : ∀ i < n, ∃ is ∈ parts, i ∈ is

/-- The number of windows, rows or polarization pairs. -/
def Obj.axisLen (u : Obj M T Z S X C K V) : Axis → Nat
  | .spw => u.spwMeta.length
  | .blpairts => u.blpair.length
  | .polpairs => u.pols.length

/-- All spectra are of the same two data sets. -/
def OneOrigin (u : Obj M T Z S X C K V) : Prop := ∃ l1 l2, ∀ a ∈ u.data, ∀ b ∈ a, ∀ c ∈ b, c.lab1 = l1 ∧ c.lab2 = l2

/-- The order in which `combine_uvpspec` stores windows, rows, polarization pairs and label names. -/
structure Ordered [LinearOrder R] [LinearOrder T] (rangeOf : M → R) (u : Obj M T Z S X C K V) : Prop where
  spws : (u.spwMeta.map rangeOf).Pairwise (· < ·)
  rows : u.blpts.Pairwise (fun a b => (toLex (a.1, toLex (a.2.1, a.2.2)) : Int ×ₗ T ×ₗ T) < toLex (b.1, toLex (b.2.1, b.2.2)))
  pols : u.pols.Pairwise (fun a b => a.natAbs < b.natAbs)
  labels : u.labels.Pairwise (· < ·)

/-- The `r_params` belong to the baselines of the object, and if there are any then every baseline has its own. -/
structure RParamsFit [DecidableEq K] (keysOf : Int → Int → List K) (u : Obj M T Z S X C K V) : Prop where
  used : ∀ k v, Dict.get u.rparams k = some v → ∃ b ∈ u.blpair, ∃ p ∈ u.pols, k ∈ keysOf b p
  all : u.rparams ≠ [] → ∀ b ∈ u.blpair, ∀ p ∈ u.pols, keysOf b p ≠ [] ∧ ∀ k ∈ keysOf b p, ∃ v, Dict.get u.rparams k = some v

/-- Object `u` holds the payload `x` for window `r`, baseline-pair-time `b` and polpair `p` (whatever its labels). -/
def HasVal (rangeOf : M → R) (u : Obj M T Z S X C K V) (r : R) (b : Int × T × T) (p : Int) (x : X) : Prop :=
  ∃ n1 n2, Has rangeOf u r b p x n1 n2

end HeraPspec.Combine
