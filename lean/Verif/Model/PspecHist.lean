import Verif.Model.Settings

/-!
Model of a whole call of `PSpecData.pspec` as far as the settings and the weighting matrices are concerned, pspecdata.py
L3540-3543 and L3704-3890, and of the loop of `pspec_run` over pairs of data sets, L5140-5182, which calls `pspec` again and again
on the same object. The numerical kernels are those of `Settings`.

What is not modelled here: the validation of the requests (`PspecCall`), the skipped polarization pairs, the G/H cache of identity
weighting (`PspecLoop`), and what is computed from the R matrices.
-/
namespace HeraPspec.PspecHist
open HeraPspec.Settings

variable {κ T P M V : Type}

/-- One entry of `spw_ranges`, `n_dlys` and `filter_extensions`. pspecdata.py L3704-3709. -/
structure Win where
  lo : ℤ
  hi : ℤ
  nd : Option ℤ
  ext : ℤ × ℤ
  deriving DecidableEq, Repr

/-- The arguments of one call of `pspec`: taper, `input_data_weight`, `symmetric_taper`, the spectral windows, the pairs of baseline
keys (one for each polarization and baseline-pair, in the order of the loops) and `r_params`. pspecdata.py L3275-3300. -/
structure Args (κ T P : Type) where
  taper : T
  wt : Wt
  symm : Bool
  wins : List Win
  pairs : List (κ × κ)
  rp : κ → Option P

/-- What one window contributes to the result: the settings in force (window, extension, kind of taper), the number of delays, and
the two R matrices of each pair of keys. pspecdata.py L3704-3890. -/
structure WinOut (M V : Type) where
  g : Geom V
  ndlys : ℤ
  mats : List (M × M)
  deriving DecidableEq

section
variable [DecidableEq κ] [DecidableEq T] (K : Kern κ T P M V)

/-- For dayenu, look up and store the parameters of both keys. pspecdata.py L3835-3849. -/
def setParams (s : PS κ T P M V) (rp : κ → Option P) (x : κ × κ) : PS κ T P M V × Option Err :=
  if s.wt = .dayenu then
    match rp x.1 with
    | none => (s, some .value)
    | some p => match rp x.2 with
      | none => (s, some .value)
      | some q => (setRParam (setRParam s x.1 p) x.2 q, none)
  else (s, none)

/-- One pair of keys: the flag weights (L3822-3823), the dayenu parameters, and the R matrices. pspecdata.py L3821-3890. -/
def pairStep (s : PS κ T P M V) (rp : κ → Option P) (x : κ × κ) : PS κ T P M V × Except Err (M × M) :=
  let r1 := qY K s x.1
  match r1.2 with
  | .error e => (r1.1, .error e)
  | .ok _ =>
    let r2 := qY K r1.1 x.2
    match r2.2 with
    | .error e => (r2.1, .error e)
    | .ok _ =>
      let r3 := setParams r2.1 rp x
      match r3.2 with
      | some e => (r3.1, .error e)
      | none =>
        let r4 := qR K r3.1 x.1
        match r4.2 with
        | .error e => (r4.1, .error e)
        | .ok m1 =>
          let r5 := qR K r4.1 x.2
          match r5.2 with
          | .error e => (r5.1, .error e)
          | .ok m2 => (r5.1, .ok (m1, m2))

/-- The loops over polarizations and baseline-pairs. pspecdata.py L3732-3890. -/
def pairsLoop (s : PS κ T P M V) (rp : κ → Option P) : List (κ × κ) → PS κ T P M V × Except Err (List (M × M))
  | [] => (s, .ok [])
  | x :: xs =>
    let r := pairStep K s rp x
    match r.2 with
    | .error e => (r.1, .error e)
    | .ok m =>
      let q := pairsLoop r.1 rp xs
      match q.2 with
      | .error e => (q.1, .error e)
      | .ok ms => (q.1, .ok (m :: ms))

/-- One window: `set_spw`, `set_filter_extension`, `clear_cache`, then the loops. pspecdata.py L3705-3890. -/
def winStep (s : PS κ T P M V) (rp : κ → Option P) (pairs : List (κ × κ)) (w : Win) :
    PS κ T P M V × Except Err (WinOut M V) :=
  let r1 := setSpw s w.lo w.hi w.nd
  match r1.2 with
  | some e => (r1.1, .error e)
  | none =>
    let r2 := setExt r1.1 w.ext.1 w.ext.2
    match r2.2 with
    | some e => (r2.1, .error e)
    | none =>
      let s3 := clearCache r2.1
      let r := pairsLoop K s3 rp pairs
      match r.2 with
      | .error e => (r.1, .error e)
      | .ok ms => (r.1, .ok ⟨s3.g, s3.ndlys, ms⟩)

/-- The loop over spectral windows. pspecdata.py L3704-3890. -/
def winsLoop (s : PS κ T P M V) (rp : κ → Option P) (pairs : List (κ × κ)) :
    List Win → PS κ T P M V × Except Err (List (WinOut M V))
  | [] => (s, .ok [])
  | w :: ws =>
    let r := winStep K s rp pairs w
    match r.2 with
    | .error e => (r.1, .error e)
    | .ok o =>
      let q := winsLoop r.1 rp pairs ws
      match q.2 with
      | .error e => (q.1, .error e)
      | .ok os => (q.1, .ok (o :: os))

/-- A call of `pspec`: `set_taper`, `set_symmetric_taper`, `set_weighting`, and the loops. pspecdata.py L3540-3543, L3704-3890. -/
def call (s : PS κ T P M V) (a : Args κ T P) : PS κ T P M V × Except Err (List (WinOut M V)) :=
  let r := setSymm { s with taper := a.taper } a.symm
  match r.2 with
  | some e => (r.1, .error e)
  | none => winsLoop K { r.1 with wt := a.wt } a.rp a.pairs a.wins

/-- The loop of `pspec_run` over pairs of data sets: the same object and the same settings, other keys; the first exception ends it.
The result is the list of stored spectra and the exception. pspecdata.py L5140-5182. -/
def runLoop (s : PS κ T P M V) (a : Args κ T P) :
    List (List (κ × κ)) → PS κ T P M V × List (List (WinOut M V)) × Option Err
  | [] => (s, [], none)
  | ks :: rest =>
    let r := call K s { a with pairs := ks }
    match r.2 with
    | .error e => (r.1, [], some e)
    | .ok o =>
      let q := runLoop r.1 a rest
      (q.1, o :: q.2.1, q.2.2)

end
end HeraPspec.PspecHist
