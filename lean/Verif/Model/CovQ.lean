import Mathlib.Analysis.Complex.Basic

/-!
Model of `PSpecData.cov_q_hat` (pspecdata.py L1376-1481). `get_unnormed_V` (Model/Oqe.lean `unnormedV`) of a pair of keys is a parameter, `none` if it
raises (e.g. for a time index beyond the data); with an empty list of times it is not called at all (the code calls it once per key for
"empirical"). Exact complex numbers; where numpy divides by zero the result is `none` (numpy: inf or nan).
-/
namespace HeraPspec.CovQ

/-- Exceptions: ValueError for bad time indices, AssertionError for keys, and whatever `get_unnormed_V` raises. Used by `covQHat`, pspecdata.py
L1440-1449. -/
inductive Err | value | assertion | inner
  deriving DecidableEq, Repr

/-- The argument `time_indices`, L1435-1440. Used by `times`. -/
inductive TimeArg | none | one (t : ℤ) | list (l : List ℤ) | other
  deriving DecidableEq, Repr

/-- The argument `key1` or `key2`: one key or a list, L1441-1454. Used by `covQHat`. -/
inductive Keys (K : Type) | one (k : K) | list (l : List K)

/-- The covariance model, L1460, L1475; any other name is accepted and ignored. Used by `covQHat`. -/
inductive Model | dsets | empirical | other
  deriving DecidableEq, Repr

/-- L1435-1440. -/
def times (nt : ℕ) : TimeArg → Except Err (List ℤ)
  | .none => .ok ((List.range nt).map Int.ofNat)
  | .one t => .ok [t]
  | .list l => .ok l
  | .other => .error .value

/-- L1441-1445 and L1451-1454: the two lists of keys. -/
def keyLists {K : Type} : Keys K → Keys K → Except Err (List K × List K)
  | .one a, .one b => .ok ([a], [b])
  | .list l, .list m => if m.length = l.length then .ok (l, m) else .error .assertion
  | _, _ => .error .assertion

/-- The time index given to `get_unnormed_V`, L1462-1478. -/
def timeOf (m : Model) (t : ℤ) : Option ℤ := match m with
  | .dsets => some t
  | _ => none

variable {K ι : Type}

/-- All covariance matrices of one time, in the order of the keys: L1459-1479. -/
def vs (V : K → K → Option ℤ → Option (Matrix ι ι ℂ)) (t : Option ℤ) : List (K × K) → Option (List (Matrix ι ι ℂ))
  | [] => some []
  | k :: l => match V k.1 k.2 t, vs V t l with
    | some v, some r => some (v :: r)
    | _, _ => Option.none

/-- Elementwise `1.0 / V`, L1461, L1479; `none` where numpy divides by zero. -/
noncomputable def inv? (z : ℂ) : Option ℂ := open Classical in if z = 0 then none else some (1 / z)

/-- The sum of elements `none` for inf or nan, L1461, L1479. -/
def addO : Option ℂ → Option ℂ → Option ℂ
  | some a, some b => some (a + b)
  | _, _ => none

/-- `float(len(key1)) / output` at one element, L1481. -/
noncomputable def elem (n : ℕ) (l : List ℂ) : Option ℂ :=
  match l.foldl (fun acc z => addO acc (inv? z)) (some 0) with
  | none => none
  | some s => match inv? s with
    | none => none
    | some i => some (n * i)

/-- One time of the result, L1456-1481. -/
noncomputable def oneTime (V : K → K → Option ℤ → Option (Matrix ι ι ℂ)) (m : Model) (ks : List (K × K)) (n : ℕ) (t : ℤ) :
    Except Err (Matrix ι ι (Option ℂ)) :=
  match m with
  | .other => .ok (fun _ _ => elem n [])
  | _ => match vs V (timeOf m t) ks with
    | none => .error .inner
    | some l => .ok (fun i j => elem n (l.map (fun v => v i j)))

/-- All times, L1456-1481. -/
noncomputable def allTimes (V : K → K → Option ℤ → Option (Matrix ι ι ℂ)) (m : Model) (ks : List (K × K)) (n : ℕ) :
    List ℤ → Except Err (List (Matrix ι ι (Option ℂ)))
  | [] => .ok []
  | t :: l => match oneTime V m ks n t with
    | .error e => .error e
    | .ok x => match allTimes V m ks n l with
      | .error e => .error e
      | .ok r => .ok (x :: r)

/-- `cov_q_hat`, L1376-1481. -/
noncomputable def covQHat (V : K → K → Option ℤ → Option (Matrix ι ι ℂ)) (nt : ℕ) (key1 key2 : Keys K) (m : Model) (ta : TimeArg) :
    Except Err (List (Matrix ι ι (Option ℂ))) :=
  match times nt ta with
  | .error e => .error e
  | .ok ts => match keyLists key1 key2 with
    | .error e => .error e
    | .ok ks =>
      if ts.any (fun t => !(decide (0 ≤ t) && decide (t ≤ nt))) then .error .value
      else allTimes V m (ks.1.zip ks.2) ks.1.length ts

end HeraPspec.CovQ
