import Verif.Model.GetCov
import Verif.Model.Noise

/-!
Model of `add_approximate_covariance` (uvpspec.py L2905-2974) over the reals.
-/
namespace HeraPspec.ApproxCov
open HeraPspec.ArgParse (Str)
open HeraPspec.UVP HeraPspec.Access HeraPspec.GetCov
noncomputable section

variable {D : Type}

/-- The parts of a `UVPSpec` object that matter here: its index arrays and data, its statistics (absent or present) and its covariances
(absent or present); uvpspec.py L2947-2972. -/
structure CObj (D : Type) where
  u : UVP D ℚ
  stats : Option (Stats ℂ)
  re : Option (Arr4 ℝ)
  im : Option (Arr4 ℝ)

/-- `noise.get_approximate_delay_delay_corr_matrix(taper, n)`, uvpspec.py L2959 and noise.py L292-297; `win n` is the window function
of the taper with `n` samples. The maximum of an empty array raises `ValueError`. -/
def corrOf (win : ℕ → ℕ → ℝ) : ℕ → Except GErr (ℕ → ℕ → ℝ)
  | 0 => .error .value
  | n + 1 => .ok (fun i j => Noise.corrMatrix (fun a : Fin (n + 1) => win (n + 1) a) (Fin.ofNat (n + 1) i) (Fin.ofNat (n + 1) j))

/-- `stats[blidx, :, polidx].real`, uvpspec.py L2967; indices out of range raise `IndexError`. -/
def statRow (a : List (List (List ℂ))) (b p : ℕ) : Except GErr (List ℝ) :=
  match a[b]? with
  | none => .error (.key .index)
  | some r => mapE (fun d : List ℂ => match d[p]? with
    | none => .error (.key .index)
    | some z => .ok z.re) r

/-- Assigning the `L` by `L` outer product times the `n` by `n` matrix to an `n` by `n` slot (uvpspec.py L2969): numpy needs `L = n`, or
broadcasts `L = 1`; otherwise `ValueError`. -/
def fits (n : ℕ) (pn : List ℝ) : Except GErr (List ℝ) := if pn.length = n ∨ pn.length = 1 then .ok pn else .error .value

/-- An element of a row, broadcast if the row has one element. Used by `covRow`, uvpspec.py L2969. -/
def bget (pn : List ℝ) (i : ℕ) : ℝ := if pn.length = 1 then pn.getD 0 0 else pn.getD i 0

/-- One row of `cov4d`: `np.outer(pn, pn) * cov2d` for every polarization pair, uvpspec.py L2966-2969. -/
def covRow (n : ℕ) (corr : ℕ → ℕ → ℝ) (pns : List (List ℝ)) : List (List (List ℝ)) :=
  (List.range n).map (fun i => (List.range n).map (fun j => pns.map (fun pn => bget pn i * bget pn j * corr i j)))

/-- `cov4d` of one window, uvpspec.py L2958-2969, for `nb` rows and `np` polarization pairs. -/
def cov4d (win : ℕ → ℕ → ℝ) (n nb np : ℕ) (a : List (List (List ℂ))) : Except GErr (List (List (List (List ℝ)))) :=
  match corrOf win n with
  | .error e => .error e
  | .ok corr => mapE (fun b => (mapE (fun p => statRow a b p >>= fits n) (List.range np)).map (covRow n corr)) (List.range nb)

/-- `np.zeros_like(cov4d)`, uvpspec.py L2972. -/
def zerosLike (a : List (List (List (List ℝ)))) : List (List (List (List ℝ))) :=
  a.map (fun r => r.map (fun i => i.map (fun j => j.map (fun _ => 0))))

/-- The covariance of one window: the statistic of that window (`KeyError` if absent), uvpspec.py L2957-2969. -/
def oneSpw (win : ℕ → ℕ → ℝ) (u : UVP D ℚ) (d : Dict ℕ (List (List (List ℂ)))) (s : ℕ) : Except GErr (List (List (List (List ℝ)))) :=
  match Dict.get d s with
  | none => .error (.key .key)
  | some a => cov4d win (u.spwFreqArray.count s) u.blpairArray.length u.polpairArray.length a

/-- The loop over windows, uvpspec.py L2957-2972: the arrays after it, and the exception if one was raised. -/
def loop (win : ℕ → ℕ → ℝ) (u : UVP D ℚ) (d : Dict ℕ (List (List (List ℂ)))) :
    List ℕ → Arr4 ℝ × Arr4 ℝ → (Arr4 ℝ × Arr4 ℝ) × Option GErr
  | [], st => (st, none)
  | s :: l, st => match oneSpw win u d s with
    | .error e => (st, some e)
    | .ok c => loop win u d l (Dict.set st.1 s c, Dict.set st.2 s (zerosLike c))

/-- `add_approximate_covariance` on the object it works on, uvpspec.py L2947-2972: the object afterwards and the exception if any. -/
def work (win : ℕ → ℕ → ℝ) (x : CObj D) (stat : Str) : CObj D × Option GErr :=
  match x.stats with
  | none => (x, some .attribute)
  | some st => match Dict.get st stat with
    | none => (x, some .value)
    | some d =>
      let r := loop win x.u d x.u.spwArray (x.re.getD [], x.im.getD [])
      ({ x with re := some r.1.1, im := some r.1.2 }, r.2)

/-- `add_approximate_covariance(variance_stat, inplace, taper)`, uvpspec.py L2942-2974: `self` afterwards, and the object returned or the
exception. (Without `inplace` the work is done on a deep copy.) -/
def addApprox (win : ℕ → ℕ → ℝ) (x : CObj D) (stat : Str) (inplace : Bool) : CObj D × Except GErr (CObj D) :=
  let r := work win x stat
  (if inplace then r.1 else x, match r.2 with
    | none => .ok r.1
    | some e => .error e)

end
end HeraPspec.ApproxCov
