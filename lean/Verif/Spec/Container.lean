/-!
Specification for C37-C39: a container is a map from (group, name) to what is stored there.
-/
namespace HeraPspec.Container

/-- What is stored under a name: nothing, the remains of a failed write, or an object. -/
inductive Slot (V : Type) | absent | broken | stored (v : V)
  deriving DecidableEq

/-- Contents of the container. -/
abbrev Store (V : Type) := String → String → Slot V

/-- The map with one value replaced. -/
def Store.put {V : Type} (m : Store V) (g n : String) (s : Slot V) : Store V :=
  fun g' n' => if g' = g ∧ n' = n then s else m g' n'

/-- Nothing is stored here. -/
def Slot.free {V : Type} : Slot V → Bool
  | .absent => true
  | _ => false

/-- Storing `v` (writable or not) under `(g, n)`: takes effect if nothing is there or `overwrite`; whether the call succeeds. -/
def Store.write {V : Type} (ok : V → Bool) (m : Store V) (g n : String) (v : V) (overwrite : Bool) : Store V × Bool :=
  if (m g n).free || overwrite then (m.put g n (if ok v then .stored v else .broken), ok v) else (m, false)

/-- A single call: the group, name and object, or a list of them written in order until one raises. -/
def Store.writeAll {V : Type} (ok : V → Bool) (g : String) (overwrite : Bool) : Store V → List (String × V) → Store V
  | m, [] => m
  | m, (n, v) :: rest => if (m.write ok g n v overwrite).2 then Store.writeAll ok g overwrite (m.write ok g n v overwrite).1 rest
      else (m.write ok g n v overwrite).1

end HeraPspec.Container
