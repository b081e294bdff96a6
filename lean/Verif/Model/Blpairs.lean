/-!
Model of `construct_blpairs`, utils.py L189-296.
-/
namespace HeraPspec.Blpairs

/-- Exceptions. Used by `construct`, utils.py L250-278. -/
inductive Err | assertion | index | zeroDiv
  deriving DecidableEq, Repr

variable {α : Type}

/-- `itertools.combinations(bls, 2)` (used at utils.py L261): pairs of positions `i < j` in lexicographic order. -/
def comb2 : List α → List (α × α)
  | [] => []
  | x :: xs => xs.map (fun y => (x, y)) ++ comb2 xs

/-- `itertools.permutations(bls, 2)` (used at utils.py L263): pairs of positions `i ≠ j` in lexicographic order. -/
def perm2 (l : List α) : List (α × α) :=
  l.zipIdx.flatMap (fun xi => (l.eraseIdx xi.2).map (fun y => (xi.1, y)))

/-- Result of `construct_blpairs` without grouping: (bls1, bls2, blpairs), utils.py L250-278. -/
def construct [DecidableEq α] (bls : List α) (exclAuto exclCross exclPerm : Bool) :
    Except Err (List α × List α × List (α × α)) :=
  if bls = [] then .error .index          -- `bls[0]` of an empty list
  else if exclAuto ∧ exclCross then .error .assertion
  else
    let blpairs := if exclPerm then comb2 bls else perm2 bls
    let blpairs := blpairs ++ bls.zip bls
    let blpairs := if exclAuto then blpairs.filter (fun p => p.1 ≠ p.2) else blpairs
    let blpairs := if exclCross then blpairs.filter (fun p => p.1 = p.2) else blpairs
    .ok (blpairs.map (·.1), blpairs.map (·.2), blpairs)

/-- Python `l[i:j]` for non-negative bounds. Used by `group`, utils.py L281-290. -/
def slice {β : Type} (l : List β) (i j : Nat) : List β := (l.take j).drop i

/-- The grouping of one of the three lists, utils.py L281-290: `int(np.ceil(float(N)/k))` slices of length `k`. -/
def group {β : Type} (N : Nat) (k : Nat) (l : List β) : List (List β) :=
  (List.range ((N + k - 1) / k)).map (fun i => slice l (i * k) ((i + 1) * k))

/-- `construct_blpairs(group=True, Nblps_per_group=k)`, utils.py L250-296; `k = 0` divides by zero. (Negative group
sizes are not modelled.) -/
def constructGrouped [DecidableEq α] (bls : List α) (exclAuto exclCross exclPerm : Bool) (k : Nat) :
    Except Err (List (List α) × List (List α) × List (List (α × α))) := do
  let (bls1, bls2, blpairs) ← construct bls exclAuto exclCross exclPerm
  if k = 0 then .error .zeroDiv
  else .ok (group blpairs.length k bls1, group blpairs.length k bls2, group blpairs.length k blpairs)

end HeraPspec.Blpairs
