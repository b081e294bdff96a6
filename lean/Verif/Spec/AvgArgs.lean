import Verif.Model.AvgArgs

/-!
The accepted ways of writing baseline-pair groups and weights, as a user of `average_spectra` sees them.
-/
namespace HeraPspec.AvgArgs

/-- A list, tuple or array with these elements. -/
def IsSeq (v : Val) (l : List Val) : Prop := v = .lst l ∨ v = .tup l ∨ v = .arr l

/-- A baseline: a sequence of two antenna numbers. -/
def IsBl (v : Val) (a : Int × Int) : Prop := IsSeq v [.int a.1, .int a.2]

/-- A baseline-pair as a tuple of two baselines. -/
def IsBlpTuple (v : Val) (p : Antnums.Blp) : Prop := ∃ x y, v = .tup [x, y] ∧ IsBl x p.1 ∧ IsBl y p.2

/-- The groups written with baseline-pair integers. -/
def SpellsInts (v : Val) (gs : List (List Nat)) : Prop :=
  ∃ l, IsSeq v l ∧ List.Forall₂ (fun x g => IsSeq x (g.map (fun b : Nat => Val.int b))) l gs

/-- The groups written with nested tuples of antenna numbers. -/
def SpellsTuples (v : Val) (gs : List (List Nat)) : Prop :=
  ∃ l, IsSeq v l ∧ List.Forall₂ (fun x g => ∃ m, IsSeq x m ∧
    List.Forall₂ (fun y (b : Nat) => ∃ p, IsBlpTuple y p ∧ Antnums.antnumsToBlpair p = (b : Int)) m g) l gs

/-- A number. -/
def IsNum (v : Val) (q : ℚ) : Prop := v = .num q ∨ ∃ n : Int, v = .int n ∧ q = n

/-- The weights, written as nested sequences of numbers. -/
def SpellsWeights (v : Val) (ws : List (List ℚ)) : Prop :=
  ∃ l, IsSeq v l ∧ List.Forall₂ (fun x w => ∃ m, IsSeq x m ∧ List.Forall₂ IsNum m w) l ws

end HeraPspec.AvgArgs
