import Verif.Model.Access

/-!
Model of `get_cov` and `get_window_function` (uvpspec.py L571-677).
-/
namespace HeraPspec.GetCov
open HeraPspec.UVP HeraPspec.Access

variable {D S : Type}

/-- The argument `component`; any other string is `other`. Used by `getCov`, uvpspec.py L604-633. -/
inductive Component | real | imag | other
  deriving DecidableEq

/-- `AttributeError` besides the exceptions of the index functions. Used by `getCov`, uvpspec.py L617, L631, L633. -/
inductive GErr | key (e : Err) | attribute | value
  deriving DecidableEq

/-- An array with the axes row, delay, delay, polarization pair, for every window: `cov_array_real` and the approximate
`window_function_array` (uvpspec.py L608, L670). -/
abbrev Arr4 (S : Type) := Dict ℕ (List (List (List (List S))))

/-- An array with the axes row, delay, k_perp, k_para, polarization pair, for every window: the exact `window_function_array`
(uvpspec.py L2282-2289, L2327). -/
abbrev Arr5 (S : Type) := Dict ℕ (List (List (List (List (List S)))))

/-- `-(Ndlys - Ndlys // 2 - 1)` with `Ndlys = np.count_nonzero(self.spw_dly_array == spw)`, uvpspec.py L607-611, L669-673. -/
def posCount (u : UVP D ℚ) (s : ℕ) : ℕ := u.spwDlyArray.count s - u.spwDlyArray.count s / 2 - 1

/-- The block of one row: all delays, or the last `n` on both axes; one polarization pair. Used by `slice4`, uvpspec.py L608-615. -/
def block (folded : Bool) (n p : ℕ) (m : List (List (List S))) : List (List S) :=
  (if folded then negSlice m n else m).map (fun r => (if folded then negSlice r n else r).filterMap (fun x => x[p]?))

/-- `array[spw][blpairts, -n:, -n:, polpair]` or `array[spw][blpairts, :, :, polpair]`, uvpspec.py L608-615, L622-629, L670-677. -/
def slice4 (u : UVP D ℚ) (a : Arr4 S) (k : ℕ × List ℕ × ℕ) : Except GErr (List (List (List S))) :=
  match Dict.get a k.1 with
  | none => .error (.key .key)
  | some x => .ok ((k.2.1.filterMap (fun i => x[i]?)).map (block u.folded (posCount u k.1) k.2.2))

/-- Exceptions of `key_to_indices` are passed on. Used by `getCov`, uvpspec.py L600. -/
def liftE {α : Type} : Except Err α → Except GErr α
  | .ok x => .ok x
  | .error e => .error (.key e)

/-- One component of `get_cov`: `AttributeError` if the array does not exist, uvpspec.py L605-617, L619-631. -/
def oneComp (u : UVP D ℚ) (k : ℕ × List ℕ × ℕ) : Option (Arr4 S) → Except GErr (List (List (List S)))
  | none => .error .attribute
  | some a => slice4 u a k

/-- `get_cov(key, component, omit_flags)`, uvpspec.py L600-633. -/
def getCov (u : UVP D ℚ) (re im : Option (Arr4 S)) (spw : ℕ) (blpair polpair : ℤ) (omit_ : Bool) (c : Component) :
    Except GErr (List (List (List S))) :=
  liftE (keyToIndicesOmit u spw blpair polpair omit_) >>= fun k =>
    match c with
    | .real => oneComp u k re
    | .imag => oneComp u k im
    | .other => .error .value

/-- `window_function_array` with approximate or exact window functions (uvpspec.py L123, L2327). -/
inductive WinArr (S : Type) | approx (a : Arr4 S) | exact (a : Arr5 S)

/-- What `get_window_function` returns: three axes (approximate) or four (exact), uvpspec.py L670-677. -/
inductive WinOut (S : Type) | three (a : List (List (List S))) | four (a : List (List (List (List S))))
  deriving DecidableEq

/-- One row of `array[spw][blpairts, ..., polpair]` for exact window functions, uvpspec.py L677. -/
def row5 (p : ℕ) (m : List (List (List (List S)))) : List (List (List S)) :=
  m.map (fun r => r.map (fun c => c.filterMap (fun x => x[p]?)))

/-- One row of `array[spw][blpairts, -n:, -n:, polpair]` for exact window functions (uvpspec.py L670-675): the second slice runs over
the k_perp axis and the index `polpair` over the k_para axis; the polarization axis is kept. (An index out of range raises `IndexError`
in numpy; here the entry is missing.) -/
def row5folded (n p : ℕ) (m : List (List (List (List S)))) : List (List (List S)) :=
  (negSlice m n).map (fun r => (negSlice r n).filterMap (fun c => c[p]?))

/-- The exact window functions at the indices of a key, uvpspec.py L668-677. -/
def slice5 (u : UVP D ℚ) (a : Arr5 S) (k : ℕ × List ℕ × ℕ) : Except GErr (List (List (List (List S)))) :=
  match Dict.get a k.1 with
  | none => .error (.key .key)
  | some x => .ok ((k.2.1.filterMap (fun i => x[i]?)).map
      (if u.folded then row5folded (posCount u k.1) k.2.2 else row5 k.2.2))

/-- `get_window_function(key, omit_flags)`, uvpspec.py L664-677. -/
def getWindow (u : UVP D ℚ) (w : WinArr S) (spw : ℕ) (blpair polpair : ℤ) (omit_ : Bool) : Except GErr (WinOut S) :=
  liftE (keyToIndicesOmit u spw blpair polpair omit_) >>= fun k =>
    match w with
    | .approx a => (slice4 u a k).map .three
    | .exact a => (slice5 u a k).map .four

end HeraPspec.GetCov
