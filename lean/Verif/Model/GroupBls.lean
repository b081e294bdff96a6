/-!
Model of `group_baselines` and `sample_baselines`, grouping.py L64-153.
-/
namespace HeraPspec.GroupBls

/-- Exceptions. Used by `groupBaselines`, grouping.py L99-125. -/
inductive Err | value | zeroDiv | index
  deriving DecidableEq, Repr

/-- Python `l[i:j]` for non-negative `i`, `j`. Used by `groupBaselines`, grouping.py L99-125. -/
def slice {α : Type} (l : List α) (i j : Nat) : List α := (l.take j).drop i

/-- Python `l[-r:]` for `r > 0`. Used by `groupBaselines`, grouping.py L99-125. -/
def lastN {α : Type} (l : List α) (r : Nat) : List α := l.drop (l.length - r)

/-- `groups[-1] += x` on a non-empty list of lists. Used by `groupBaselines`, grouping.py L99-125. -/
def addToLast {α : Type} : List (List α) → List α → List (List α)
  | [], _ => []
  | [g], x => [g ++ x]
  | g :: gs, x => g :: addToLast gs x

/-- `group_baselines`, grouping.py L99-125, `Ngroups ≥ 0`. `shuffle` stands for `random.shuffle` (any function; only
used if `randomize`). The type check of the elements is not modelled. -/
def groupBaselines {α : Type} (bls : List α) (Ngroups : Nat) (keepRemainder randomize : Bool)
    (shuffle : List α → List α) : Except Err (List (List α)) :=
  let Nbls := bls.length
  if Ngroups = 0 then .error .zeroDiv
  else
    let n := Nbls / Ngroups
    let rem := Nbls - n * Ngroups
    if Nbls < Ngroups then .error .value
    else
      let bls := if randomize then shuffle bls else bls
      let grouped := (List.range Ngroups).map (fun i => slice bls (i * n) ((i + 1) * n))
      if keepRemainder ∧ rem > 0 then .ok (addToLast grouped (lastN bls rem)) else .ok grouped

/-- `sample_baselines`, grouping.py L148-153: `choice i` is the index drawn by the i-th `random.choice`, reduced to a
valid index (`random.choice` of an empty list is never called because the range is then empty). -/
def sampleBaselines {α : Type} (bls : List α) (choice : Nat → Nat) : List α :=
  (List.range bls.length).filterMap (fun i => bls[choice i % bls.length]?)

end HeraPspec.GroupBls
