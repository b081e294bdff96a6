import Verif.Model.PyDict
import Mathlib.Analysis.SpecialFunctions.Trigonometric.Basic
import Mathlib.Analysis.SpecialFunctions.Pow.Real

/-!
Model of `apply_bias_correction` (loss.py L8-58), `apply_P_SN_correction` (utils.py L1783-1812) and
`UVPSpec.convert_to_deltasq` (uvpspec.py L1183-1242).

Arrays are functions of their indices (row, delay, polarization); numbers are real or complex, without rounding.
-/
namespace HeraPspec.Rescale

/-- Exceptions: a missing key, a shape mismatch. Used by `biasLoop`, loss.py L41-56. -/
inductive Err | key | value
  deriving DecidableEq, Repr

/-- The arrays of one object that hold power spectra or their errors; per window: `data_array`, `cov_array_real`/`_imag`,
`stats_array`. Indices: row, delay(s), polarization. Used by `applyTotal`, loss.py L42-53. -/
structure Obj (K : Type) where
  spws : List Nat
  data : Nat → Nat → Nat → Nat → K
  /-- `cov_array_real`, `cov_array_imag`, if the object has them -/
  cov : Option ((Nat → Nat → Nat → Nat → Nat → K) × (Nat → Nat → Nat → Nat → Nat → K))
  /-- `stats_array`, if the object has it: statistic, window, row, delay, polarization -/
  stats : Option (String → Nat → Nat → Nat → Nat → K)

variable {K : Type} [Field K]

/-- Change one window of an array. Used by `applyTotal`, loss.py L42-53. -/
def onSpw {A : Type} (s : Nat) (f : A → A) (arr : Nat → A) : Nat → A := fun s' => if s' = s then f (arr s') else arr s'

/-- The part of the loop body guarded by `total_bias is not None`, loss.py L42-53. -/
def applyTotal (s : Nat) (b : K) (u : Obj K) : Obj K :=
  { u with
    data := onSpw s (fun a r d p => a r d p * b) u.data
    cov := u.cov.map (fun c => (onSpw s (fun a r d e p => a r d e p * b ^ 2) c.1, onSpw s (fun a r d e p => a r d e p * b ^ 2) c.2))
    stats := u.stats.map (fun st name => onSpw s (fun a r d p => a r d p * b) (st name)) }

/-- The part guarded by `data_bias is not None`, loss.py L55-56. -/
def applyData (s : Nat) (b : K) (u : Obj K) : Obj K := { u with data := onSpw s (fun a r d p => a r d p * b) u.data }

/-- A bias dictionary looked up for a window: no dictionary, or its value, or a `KeyError`. Used by `biasLoop`, loss.py L41-56. -/
def withBias (bias : Option (Dict Nat K)) (s : Nat) (f : K → Obj K → Obj K) (u : Obj K) : Except Err (Obj K) :=
  match bias with
  | none => .ok u
  | some d => match d.get s with
    | none => .error .key
    | some b => .ok (f b u)

/-- The loop over windows, loss.py L41-56. The object is changed in place: on an exception the changes made so far remain, so the
loop returns the object in any case. -/
def biasLoop (total dataB : Option (Dict Nat K)) : List Nat → Obj K → Obj K × Option Err
  | [], u => (u, none)
  | s :: ss, u =>
    match withBias total s (applyTotal s) u with
    | .error e => (u, some e)
    | .ok u1 => match withBias dataB s (applyData s) u1 with
      | .error e => (u1, some e)
      | .ok u2 => biasLoop total dataB ss u2

/-- `apply_bias_correction(uvp, total_bias, data_bias, inplace)`, loss.py L8-58: the caller's object afterwards, and the returned
object or exception. -/
def applyBias (u : Obj K) (total dataB : Option (Dict Nat K)) (inplace : Bool) : Obj K × Except Err (Obj K) :=
  let r := biasLoop total dataB u.spws u
  (if inplace then r.1 else u, match r.2 with | none => .ok r.1 | some e => .error e)

/-! ### P_SN -/

noncomputable section

/-- Floating-point values that occur: a real number, `+inf`, `nan`. Used by `corr`, utils.py L1805-1810. -/
inductive Fl | fin (x : ℝ) | inf | nan

/-- `np.clip(x, 1e-40, np.inf)`, utils.py L1805-1807. -/
def clip (x : ℝ) : ℝ := max x 1e-40

open Classical in
/-- The correction factor, utils.py L1805-1810, for finite error bars (real parts): `np.isclose(corr, 0)` is `|corr| <= 1e-8`. -/
def corr (pn psn : ℝ) : Fl :=
  let c := 1 - (Real.sqrt (1 / Real.sqrt Real.pi + 1) - 1) * pn / clip psn
  if |c| ≤ 1e-8 then .inf else if c < 0 then .inf else .fin c

open Classical in
/-- `P_SN *= corr`, utils.py L1812: zero times infinity is `nan`. -/
def applyPSN (pn psn : ℝ) : Fl :=
  match corr pn psn with
  | .fin c => .fin (psn * c)
  | .inf => if psn = 0 then .nan else if 0 < psn then .inf else .nan
  | .nan => .nan

/-! ### Delta^2 -/

/-- What `convert_to_deltasq` reads besides the arrays: the wave numbers of window `s` (functions of row and delay), for
`little_h` true or false, and whether the object is folded. Used by `coeff`, uvpspec.py L1213-1217. -/
structure KInfo where
  kperp : Bool → Nat → Nat → ℝ
  kpara : Bool → Nat → Nat → ℝ
  folded : Bool

/-- `k_mag**3 / (2 * np.pi**2)`, uvpspec.py L1213-1217. -/
def coeff (ki : KInfo) (lh : Bool) (s r d : Nat) : ℝ :=
  Real.sqrt (ki.kperp lh s r ^ 2 + ki.kpara lh s d ^ 2) ^ 3 / (2 * Real.pi ^ 2)

/-- One window, uvpspec.py L1211-1236 (for real data; complex data are multiplied by the same real factors). -/
def deltaSqSpw (ki : KInfo) (lh : Bool) (s : Nat) (u : Obj ℝ) : Obj ℝ :=
  { u with
    data := onSpw s (fun a r d p => a r d p * coeff ki lh s r d) u.data
    stats := u.stats.map (fun st name => onSpw s (fun a r d p => a r d p * coeff ki lh s r d) (st name))
    cov := u.cov.map (fun c =>
      (onSpw s (fun a r d e p => coeff ki lh s r d * a r d e p * coeff ki lh s r e) c.1,
       onSpw s (fun a r d e p => coeff ki lh s r d * a r d e p * coeff ki lh s r e) c.2)) }

/-- `convert_to_deltasq()`, uvpspec.py L1183-1242, for windows `0 .. Nspws-1`. `units` is `norm_units` as a list of words;
`little_h` is read from it (L1208). A folded object has only the positive delays in `get_kparas` but all delays in `data_array`, so
the multiplication L1220 raises (windows with at least two delays). -/
def deltaSq (ki : KInfo) (units : List String) (u : Obj ℝ) : Except Err (Obj ℝ × List String) :=
  if ki.folded ∧ u.spws ≠ [] then .error .value
  else .ok (u.spws.foldl (fun v s => deltaSqSpw ki (decide ("h^-3" ∈ units)) s v) u, units ++ ["k^3 / (2pi^2)"])

end
end HeraPspec.Rescale
