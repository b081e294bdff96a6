/-!
Model of the `transactional` decorator (container.py L12-51) and of `PSpecContainer._open` (L111-186).

A method body is a tree of uses of the file handle and of calls of other decorated methods, ending in a return or in an exception
(the point of failure is arbitrary). The file handle `psc.data` is open or `None`.
-/
namespace HeraPspec.Transact

/-- How a body ends: it returns, raises an `Exception`, raises another `BaseException` (KeyboardInterrupt ...), or raises because
it used the handle while it was `None` (also an `Exception`). Used by `wrapper`, container.py L25-49. -/
inductive Outcome | ret | exc | base | closedUse
  deriving DecidableEq

/-- A method body. `call nested callee rest` calls a decorated method, passing `nested=True` or not. Used by `treeBody`, container.py L426-455. -/
inductive Body
  | done (o : Outcome)
  | access (rest : Body)
  | call (nested : Bool) (callee : Body) (rest : Body)

/-- What the `k`-th execution of `_open` on a closed handle does: opens the file; raises without opening; or opens the file and then
raises while updating the header (L177-186). -/
inductive OpenRes | ok | fail | headerFail
  deriving DecidableEq

/-- Whether the handle is open, and how often `_open` was executed. Used by `wrapper`, container.py L25-49. -/
structure St where
  isOpen : Bool
  n : Nat

/-- `psc._close()`. Used by `wrapper`, container.py L25-49. -/
def St.close (s : St) : St := { s with isOpen := false }

/-- `if psc.data is None: psc._open()`: `false` if it raises. Used by `wrapper`, container.py L25-49. -/
def ensureOpen (σ : Nat → OpenRes) (s : St) : Bool × St :=
  if s.isOpen then (true, s)
  else match σ s.n with
    | .ok => (true, ⟨true, s.n + 1⟩)
    | .fail => (false, ⟨false, s.n + 1⟩)
    | .headerFail => (false, ⟨true, s.n + 1⟩)

/-- The wrapper, L25-49. Only `Exception`s are caught; `_open` is called outside the `try`. -/
def wrapper (keep : Bool) (σ : Nat → OpenRes) (nested : Bool) (body : St → Outcome × St) (s : St) : Outcome × St :=
  match ensureOpen σ s with
  | (false, s1) => (.exc, s1)
  | (true, s1) =>
    match body s1 with
    | (.ret, s2) => (.ret, if !keep && !nested then s2.close else s2)
    | (.exc, s2) => (.exc, if !keep then s2.close else s2)
    | (.closedUse, s2) => (.closedUse, if !keep then s2.close else s2)
    | (.base, s2) => (.base, s2)

/-- Running a body: an exception of a callee ends it. (container.py L12-51) -/
def run (keep : Bool) (σ : Nat → OpenRes) : Body → St → Outcome × St
  | .done o, s => (o, s)
  | .access k, s => if s.isOpen then run keep σ k s else (.closedUse, s)
  | .call nested b k, s =>
    match wrapper keep σ nested (run keep σ b) s with
    | (.ret, s') => run keep σ k s'
    | (o, s') => (o, s')

/-- A call of a decorated method by the user (without `nested`). (container.py L25-49) -/
def topCall (keep : Bool) (σ : Nat → OpenRes) (b : Body) (s : St) : Outcome × St := wrapper keep σ false (run keep σ b) s

/-- `groups()`, `spectra()`, `get_pspec()`, `save()`: use the handle, then end (o). Used by `treeBody`, container.py L426-455. -/
def reader (o : Outcome) : Body := .access (.done o)

/-- `tree()` (L426-455): `groups(nested=True)`, then `spectra(grp, nested=True)` for every group. -/
def treeBody : List Outcome → Body
  | [] => .done .ret
  | o :: os => .call true (reader o) (treeBody os)

/-- `set_pspec` of a single object (L275-340): with SWMR it first calls `tree(nested=True)`. -/
def setBody (swmr : Option (List Outcome)) (o : Outcome) : Body :=
  match swmr with
  | none => .access (.done o)
  | some os => .call true (treeBody os) (.access (.done o))

/-- `set_pspec` of lists (L282-292): a call of `set_pspec` for every element, without `nested`. -/
def setListBody : List (Option (List Outcome) × Outcome) → Body
  | [] => .done .ret
  | (swmr, o) :: rest => .call false (setBody swmr o) (setListBody rest)

/-! ### `_open` -/

/-- The result of one attempt of `h5py.File`: a handle, OSError, or another exception. Used by `openLoop`, container.py L146-175. -/
inductive Attempt | ok | osError | other
  deriving DecidableEq

/-- The loop of `_open`, L146-175, from attempt number `ncount`; returns the result and the number of attempts made. -/
def openLoop (maxiter : Int) (pat : Nat → Attempt) (ncount : Nat) : Attempt × Nat :=
  match pat ncount with
  | .ok => (.ok, ncount + 1)
  | .other => (.other, ncount + 1)
  | .osError => if _h : (ncount : Int) ≥ maxiter then (.osError, ncount + 1) else openLoop maxiter pat (ncount + 1)
termination_by (maxiter - ncount).toNat
decreasing_by omega

end HeraPspec.Transact
