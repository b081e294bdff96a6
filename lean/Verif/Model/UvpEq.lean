import Verif.Model.Hdf5

/-!
Model of `UVPSpec.__eq__` (uvpspec.py L2461-2491). Values are opaque; `Cmp` gives the comparisons numpy makes.
-/
namespace HeraPspec.UvpEq
open HeraPspec.ArgParse (Str)
open HeraPspec.Hdf5 (Obj Err attr)
open HeraPspec.Params

/-- Comparisons of values: `same` is `a == b` (or `np.all(a == b)` for arrays of strings), `isStr` whether an array holds strings,
`close a b` is `np.isclose(a, b).all()` (`none`: the shapes do not broadcast and numpy raises). Used by `eqEntries`, uvpspec.py L2477-2481. -/
structure Cmp (V : Type) where
  same : V → V → Bool
  isStr : V → Bool
  close : V → V → Option Bool

variable {V : Type}

/-- `np.isclose(x, y).all()`; the exception raised on mismatched shapes is rendered as `os`, it is not an `AssertionError`. Used by `eqEntries`, uvpspec.py L2477-2481. -/
def closeE (m : Cmp V) (x y : V) : Except Err Bool :=
  match m.close x y with
  | some b => .ok b
  | none => .error .os

/-- The entries of a dictionary attribute, uvpspec.py L2477-2481: only the keys of the left object are visited, and the loop stops
at the first difference. -/
def eqEntries (m : Cmp V) (e : Dict ℕ V) : Dict ℕ V → Except Err Bool
  | [] => .ok true
  | x :: d => match Dict.get e x.1 with
    | none => .error .key
    | some y => match closeE m x.2 y with
      | .ok true => eqEntries m e d
      | .ok false => .ok false
      | .error err => .error err

/-- A dictionary attribute of two objects. The attribute of the right object is only looked up inside the loop. Used by `eqParam`, uvpspec.py L2466-2481. -/
def eqDict (m : Cmp V) (d : Option (Dict ℕ V)) (e : Option (Dict ℕ V)) : Except Err Bool :=
  match d with
  | none => .error .attribute
  | some [] => .ok true
  | some (x :: d) => match e with
    | none => .error .attribute
    | some e => eqEntries m e (x :: d)

/-- The comparison of one parameter, uvpspec.py L2466-2481. -/
def eqParam (m : Cmp V) (u v : Obj V) (p : Str) : Except Err Bool :=
  if !(reqParams.contains p) && !(u.hasattr p) && !(v.hasattr p) then .ok true
  else if immutables.contains p then
    match attr u.attrs p, attr v.attrs p with
    | .ok x, .ok y => .ok (m.same x y)
    | _, _ => .error .attribute
  else if ndarrays.contains p then
    match attr u.attrs p, attr v.attrs p with
    | .ok x, .ok y => if m.isStr x then .ok (m.same x y) else closeE m x y
    | _, _ => .error .attribute
  else if Params.dicts.contains p then eqDict m (Dict.get u.dicts p) (Dict.get v.dicts p)
  else .ok true

/-- The loop over parameters: stops at the first difference (`AssertionError`, L2483-2488) or at another exception. -/
def eqLoop (m : Cmp V) (u v : Obj V) : List Str → Except Err Bool
  | [] => .ok true
  | p :: ps => match eqParam m u v p with
    | .ok true => eqLoop m u v ps
    | .ok false => .ok false
    | .error e => .error e

/-- `u == v`, uvpspec.py L2461-2491. -/
def eq (m : Cmp V) (u v : Obj V) : Except Err Bool := eqLoop m u v allParams

/-- `setattr` of a plain attribute. (uvpspec.py L2461-2491 reads it with `getattr`) -/
def setAttr (u : Obj V) (k : Str) (x : V) : Obj V := { u with attrs := Dict.set u.attrs k x }

end HeraPspec.UvpEq
