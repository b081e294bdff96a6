import Verif.Model.Combine
import Verif.Model.Recursive

/-!
The optional arrays, the shapes, the baselines and the history in `combine_uvpspec` (uvpspec.py L3029-3103, L3370-3391),
on top of `Verif.Model.Combine`.

The payload of a cell is made explicit. All arrays with a delay axis (data, statistics, covariance, first axis of the window
function) are filled with slices of the stored arrays; they are allocated with the number of delays that `get_spw_ranges`
reports. Only the data array is checked for its length here; in a well-formed object the others have the same axis.
When several errors are possible the model need not report the same one as the code.
-/
namespace HeraPspec.CombineOpt
open HeraPspec.UVP (mapE Err)
open HeraPspec.Combine

/-- What the code copies for one (window, row, polpair): the stored delay spectrum; weights, integration time and number of
samples; covariance; window function; statistics by name. Which of the optional ones exist is said by `Full`. Used by
`combineFull`, uvpspec.py L3209-3233. -/
structure Pay (D W Cv Wn : Type) where
  data : List D
  rest : W
  cov : Cv
  win : Wn
  stat : String → List D

/-- An object with its optional attributes: `cov_array_*` and `cov_model`, `window_function_array`, `exact_windows`,
`window_function_kperp/kpara` (by window; `none` is a missing key), `stats_array` (names), `bl_array` with `bl_vecs`, `history`.
Used by `combineFull`, uvpspec.py L3029-3063, L3370-3391. -/
structure Full (M T Z S D W Cv Wn C K V B Vec : Type) where
  base : Obj M T Z S (Pay D W Cv Wn) C K V
  hasCov : Bool
  covModel : String
  hasWin : Bool
  exact : Bool
  kbins : List (Option B)
  stats : Option (List String)
  bls : List (Nat × Vec)
  history : String

variable {R M T Z S D W Cv Wn C K V B Vec : Type}

/-- `store_cov`, uvpspec.py L3030, L3045-3052. -/
def storeCov (us : List (Full M T Z S D W Cv Wn C K V B Vec)) : Bool :=
  us.all (·.hasCov) && us.all (fun u => decide (us.head?.map (·.covModel) = some u.covModel))

/-- The statistics that are kept: those all objects have; none at all if an object has no `stats_array` or nothing is shared,
uvpspec.py L3033, L3053-3063. -/
def storedStats (us : List (Full M T Z S D W Cv Wn C K V B Vec)) : Option (List String) :=
  match us.head?.bind (·.stats) with
  | none => none
  | some names =>
    if us.all (fun u => u.stats.isSome) then
      let shared := names.filter (fun s => us.all (fun u => decide (s ∈ u.stats.getD [])))
      if shared.isEmpty then none else some shared
    else none

/-- Assigning an array of length `l.length` to a slice of length `n`: equal lengths, or broadcasting of length one; used for
`u.data_array[i][j, :, k] = ...`, uvpspec.py L3209, L3271, L3329. -/
def fit {α : Type} (n : Nat) (l : List α) : Except Err (List α) :=
  if l.length = n then .ok l
  else match l with
    | [x] => .ok (List.replicate n x)
    | _ => .error .value

/-- Filling one cell of a window of `n` delays, uvpspec.py L3209-3233. -/
def fitCell (n : Nat) (c : Cell (Pay D W Cv Wn)) : Except Err (Cell (Pay D W Cv Wn)) :=
  match fit n c.val.data with
  | .error e => .error e
  | .ok d => .ok { c with val := { c.val with data := d } }

/-- `new_bls` and `bl_vecs`: `np.unique` of all baselines, each with the vector of the first object that has it,
uvpspec.py L3372-3383. -/
def newBls (us : List (Full M T Z S D W Cv Wn C K V B Vec)) : Except Err (List (Nat × Vec)) :=
  mapE (fun b => do
    let v ← owner (fun u => decide (b ∈ u.bls.map (·.1))) us
    let h ← indexOf (v.bls.map (·.1)) b
    at? v.bls h) (pySorted (fun a b => decide (a ≤ b)) ((us.flatMap (fun u => u.bls.map (·.1))).dedup))

section
variable [LinearOrder R] [LinearOrder T] [DecidableEq C] [DecidableEq K] [DecidableEq V]
variable (rangeOf : M → R) (ndl : R → Nat) (rnd : T → T) (close : S → S → Bool)

/-- With exact window functions the sizes of the cylindrical bins are read from the first object that has the window,
uvpspec.py L3079-3083. -/
def checkBins (us : List (Full M T Z S D W Cv Wn C K V B Vec)) : Except Err (List B) :=
  mapE (fun r => do
    let v ← owner (fun u => decide (r ∈ u.base.spws rangeOf)) us
    let m ← indexOf (v.base.spws rangeOf) r
    match v.kbins[m]? with
    | some (some b) => .ok b
    | _ => .error .key) (newSpws rangeOf (us.map (·.base)))

/-- `combine_uvpspec` with the optional arrays, uvpspec.py L2999-3399. `ndl` is the fourth component of a window range, the
number of delays. `exact_windows` is one of the static attributes that must agree and is copied from the first object (L3520, L3393-3394). `window_function_kperp` and `window_function_kpara` of the result are empty dictionaries (L3042-3043) that are
never filled. -/
def combineFull (merge : Bool) (us : List (Full M T Z S D W Cv Wn C K V B Vec)) : Except Err (Full M T Z S D W Cv Wn C K V B Vec) :=
  match us with
  | [u] => .ok u
  | _ => do
    if us.any (fun u => decide (us.head?.map (·.exact) ≠ some u.exact)) then .error .assertion
    let u ← combine rangeOf rnd close (us.map (·.base))
    let win := us.all (·.hasWin)
    let exact := us.all (·.exact)
    let _ ← (if win && exact then checkBins rangeOf us else .ok [])
    let data ← mapE (fun (x : R × List (List (Cell (Pay D W Cv Wn)))) => mapE (mapE (fitCell (ndl x.1))) x.2)
      ((newSpws rangeOf (us.map (·.base))).zip u.data)
    let bls ← newBls us
    .ok { base := { u with data := data }
          hasCov := storeCov us
          covModel := (us.head?.map (·.covModel)).getD ""
          hasWin := win
          exact := (us.head?.map (·.exact)).getD false
          kbins := u.spwMeta.map (fun _ => none)
          stats := storedStats us
          bls := bls
          history := if merge then String.join (us.map (·.history)) else (us.head?.map (·.history)).getD "" }

/-- `recursive_combine_uvpspec` of such objects, uvpspec.py L3402-3437. -/
def recursiveFull (us : List (Full M T Z S D W Cv Wn C K V B Vec)) : Except Err (Full M T Z S D W Cv Wn C K V B Vec) :=
  Recursive.recursive (fun a b => combineFull rangeOf ndl rnd close false [a, b]) us

end
end HeraPspec.CombineOpt
