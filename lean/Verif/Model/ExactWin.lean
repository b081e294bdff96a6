import Verif.Model.UVP
import Verif.Model.GetCov

/-!
Model of `get_exact_window_functions` (uvpspec.py L2183-2344) with `_normalize_spw_array_input` (uvpspec.py L33-49). The window functions
of one baseline length (`UVWindow.get_cylindrical_wf`, modelled elsewhere), the bins and the redundant groups (`get_red_blpairs`) are
parameters; the types of `ftbeam` and `x_orientation` (L2236-2239), messages, the history and the final `check` are not modelled.
-/
namespace HeraPspec.ExactWin
open HeraPspec.UVP

variable {D W A K : Type}

/-- Exceptions. Used by `normSpws`, uvpspec.py L33-49. -/
inductive XErr | type | value | assertion
  deriving DecidableEq

/-- An element of a sequence: an integer or not. Used by `normSpws`, uvpspec.py L40. -/
inductive Elem | int (n : ℤ) | other

/-- The argument `spw_array`, uvpspec.py L34-44. -/
inductive SpwArg | none | int (n : ℤ) | seq (l : List Elem) | other

/-- The integer of an element; `TypeError` otherwise, uvpspec.py L40-42. -/
def Elem.toInt : Elem → Except XErr ℤ
  | .int n => .ok n
  | .other => .error .type

/-- The requested windows before validation, uvpspec.py L37-44. -/
def rawSpws : SpwArg → Except XErr (List ℤ)
  | .none => .ok []
  | .int n => .ok [n]
  | .seq l => mapE Elem.toInt l
  | .other => .error .type

/-- `_normalize_spw_array_input`, uvpspec.py L33-49. -/
def normSpws (arg : SpwArg) (valid : List ℕ) : Except XErr (List ℕ) :=
  match arg with
  | .none => .ok valid
  | a => match rawSpws a with
    | .error e => .error e
    | .ok l => if l.all (fun s => decide (s ∈ valid.map (fun v : ℕ => (v : ℤ)))) then .ok (l.map Int.toNat) else .error .value

/-- What the function asks other parts of the code for: the window function of a window, polarization index and baseline length, the
bins of a window and polarization index, and the groups with their lengths; uvpspec.py L2244, L2270-2281, L2299-2301. -/
structure Ask (A K : Type) where
  wf : ℕ → ℕ → ℚ → A
  kperp : ℕ → ℕ → List K
  kpara : ℕ → ℕ → List K
  groups : List (List ℤ × ℚ)

/-- The loops over groups, baseline-pairs and rows for one window and polarization, uvpspec.py L2282-2314: `none` is an entry left at
zero. -/
def fillRows (u : UVP D W) (wf : ℚ → A) : List (List ℤ × ℚ) → List (Option A) → List (Option A)
  | [], out => out
  | g :: gs, out => fillRows u wf gs
      (g.1.foldl (fun acc b => acc.mapIdx (fun i o => if u.blpairArray[i]? = some b then some (wf g.2) else o)) out)

/-- `pol_window_function` for one window and polarization, uvpspec.py L2282-2314. A baseline-pair of a group that is not in the object
raises `AssertionError` (`blpair_to_indices`). -/
def onePol (u : UVP D W) (a : Ask A K) (s p : ℕ) : Except XErr (List (Option A)) :=
  if a.groups.all (fun g => g.1.all (fun b => decide (b ∈ u.blpairArray))) then
    .ok (fillRows u (a.wf s p) a.groups (u.blpairArray.map (fun _ => none)))
  else .error .assertion

/-- Lists of one length, as `np.moveaxis` of a list of arrays needs (uvpspec.py L2327-2329). -/
def sameLength {α : Type} : List (List α) → Bool
  | [] => true
  | x :: l => l.all (fun y => decide (y.length = x.length))

/-- The arrays of one window: row, polarization (after `moveaxis`), and the bins, uvpspec.py L2264-2329. -/
structure SpwWin (A K : Type) where
  win : List (List (Option A))
  kperp : List (List K)
  kpara : List (List K)

/-- One window, uvpspec.py L2261-2329. Here `win` is kept per polarization. -/
def oneSpw (u : UVP D W) (a : Ask A K) (s : ℕ) : Except XErr (SpwWin A K) :=
  match mapE (onePol u a s) (List.range u.polpairArray.length) with
  | .error e => .error e
  | .ok w =>
    if sameLength ((List.range u.polpairArray.length).map (a.kperp s)) && sameLength ((List.range u.polpairArray.length).map (a.kpara s)) then
      .ok { win := w, kperp := (List.range u.polpairArray.length).map (a.kperp s), kpara := (List.range u.polpairArray.length).map (a.kpara s) }
    else .error .value

/-- The loop over windows, uvpspec.py L2257-2329. -/
def compute (u : UVP D W) (a : Ask A K) (l : List ℕ) : Except XErr (Dict ℕ (SpwWin A K)) :=
  (mapE (fun s => (oneSpw u a s).map (fun w => (s, w))) l).map (fun r => r.foldl (fun d e => Dict.set d e.1 e.2) [])

/-- The window-function attributes of the object: `exact_windows` and the arrays, uvpspec.py L2331-2336. -/
structure WinState (A K : Type) where
  exact : Bool
  arrays : Option (Dict ℕ (SpwWin A K))

/-- `get_exact_window_functions(spw_array, inplace)`, uvpspec.py L2241-2344: the object's window functions afterwards, and the value
returned (`none` if `inplace`) or the exception. -/
def exactWindows (u : UVP D W) (a : Ask A K) (st : WinState A K) (arg : SpwArg) (inplace : Bool) :
    WinState A K × Except XErr (Option (Dict ℕ (SpwWin A K))) :=
  match normSpws arg u.spwArray with
  | .error e => (st, .error e)
  | .ok l => match compute u a l with
    | .error e => (st, .error e)
    | .ok d => if inplace && decide (l = u.spwArray) then ({ exact := true, arrays := some d }, .ok none) else (st, .ok (some d))

end HeraPspec.ExactWin
