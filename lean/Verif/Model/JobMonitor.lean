/-!
Model of `job_monitor` (utils.py L1090-1184).

A run of the monitor is described by the exit codes it sees: `code r i a` is the exit code of the `i`-th call of round `r`, made
with argument `a`. Any behaviour of `run_func` (deterministic or not, stateful or not) and of an order-preserving `M` gives such
a function. The model returns, besides the result, the arguments of every call, round by round. Simplification: log messages
are left out.
-/
namespace HeraPspec.JobMonitor

/-- The exceptions. Used by `jobMonitor`, utils.py L1090-1184. -/
inductive Err | noOutput | allFailed
  deriving DecidableEq, Repr

variable {A : Type}

/-- `np.array(list(M(run_func, args)))`, L1134 and L1162: the exit codes of round `r`. -/
def runRound (code : Nat → Nat → A → Int) (r : Nat) (args : List A) : List Int :=
  args.zipIdx.map (fun ai => code r ai.2 ai.1)

/-- `np.where(exit_codes != 0)[0]`, L1154. -/
def whereNonzero (codes : List Int) : List Nat := (codes.zipIdx.filter (fun c => decide (c.1 ≠ 0))).map (·.2)

/-- `failures[exit_codes != 0]`, L1166. -/
def maskNonzero (failures : List Nat) (codes : List Int) : List Nat :=
  ((failures.zip codes).filter (fun fc => decide (fc.2 ≠ 0))).map (·.1)

/-- The loop of L1155-1169. `counter` is the number of rounds made so far; re-runs get the *indices* as arguments (L1162), which
`ofIdx` turns into arguments of `run_func`. -/
def loop (code : Nat → Nat → A → Int) (ofIdx : Nat → A) (maxiter : Nat) (counter : Nat) (failures : List Nat) (codes : List Int)
    (calls : List (List A)) : List Nat × List (List A) :=
  if codes.all (fun c => decide (c = 0)) then (failures, calls)
  else if _h : counter ≥ maxiter then (failures, calls)
  else
    loop code ofIdx maxiter (counter + 1) (maskNonzero failures (runRound code counter (failures.map ofIdx)))
      (runRound code counter (failures.map ofIdx)) (calls ++ [failures.map ofIdx])
termination_by maxiter - counter

/-- `job_monitor(run_func, iterator, ..., maxiter)`, L1090-1184: the returned indices and the arguments of all calls. Negative
`maxiter` behaves like 0. -/
def jobMonitor (code : Nat → Nat → A → Int) (ofIdx : Nat → A) (maxiter : Nat) (jobs : List A) :
    Except Err (List Nat × List (List A)) :=
  if (runRound code 0 jobs).length = 0 then .error .noOutput
  else if (runRound code 0 jobs).all (fun c => decide (c ≠ 0)) then .error .allFailed
  else .ok (loop code ofIdx maxiter 1 (whereNonzero (runRound code 0 jobs)) (runRound code 0 jobs) [jobs])

end HeraPspec.JobMonitor
