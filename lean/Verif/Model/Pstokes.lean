import Mathlib.Data.Complex.Basic

/-!
Model of pstokes.py: `pol_weights` L18-23, `_combine_pol` L80-152, `_combine_pol_arrays` L155-306, `construct_pstokes` L309-465,
`filter_dset_on_stokes_pol` L468-520. Polarizations and pseudo-Stokes parameters are the integers of pyuvdata (strings are converted
by pyuvdata). Arrays are flattened; equal shape is equal length. Numbers are exact.
-/
namespace HeraPspec.Pstokes

/-- Used by `combineArrays`, pstokes.py L227-306. -/
inductive Err
  | assertion
  | value
deriving DecidableEq

/-- `pol_weights`, L18-23, with the dictionary order. -/
noncomputable def polWeights (s : ℤ) : Option (List (ℤ × ℂ)) :=
  if s = 1 then some [(-5, 1), (-6, 1)]
  else if s = 2 then some [(-5, 1), (-6, -1)]
  else if s = 3 then some [(-7, 1), (-8, 1)]
  else if s = 4 then some [(-7, -Complex.I), (-8, Complex.I)]
  else none

/-- Dictionary lookup. Used by `combineArrays`, pstokes.py L227-306. -/
def look (l : List (ℤ × ℂ)) (p : ℤ) : Option ℂ := (l.find? (fun x => x.1 = p)).map Prod.snd

/-- `pol_convention`. Used by `combData`, pstokes.py L275-281. -/
inductive Conv
  | avg
  | sum
  | other
deriving DecidableEq

/-- `combined_data` of one sample, L275-281. -/
noncomputable def combData (w1 w2 : ℂ) (c : Conv) (x y : ℂ) : ℂ := if c = .avg then (w1 * x + w2 * y) * (1 / 2) else w1 * x + w2 * y

/-- `valid_nsamples`, L287-288. -/
noncomputable def validN (a b : ℝ) : Bool := decide (0 < a ∧ 0 < b)

/-- `combined_nsamples` of one sample, L286, L295-301. -/
noncomputable def combN (a b : ℝ) : ℝ := if validN a b then 4 / (1 / a + 1 / b) else 0

/-- `logical_or` of two flag arrays, L270. -/
def orFlags (f g : List Bool) : List Bool := f.zipWith (· || ·) g

/-- L289-293: samples that are not valid are flagged as well (when some of them was not flagged yet). -/
noncomputable def addInvalid (f : List Bool) (a b : List ℝ) : List Bool :=
  if (f.zip (a.zip b)).any (fun x => !x.1 && !validN x.2.1 x.2.2) then (f.zip (a.zip b)).map (fun x => x.1 || !validN x.2.1 x.2.2)
  else f

/-- A pair of arrays of equal shape or `None` (the checks of L257-266 for one list). -/
def sameLen {α : Type} : Option (List α × List α) → Bool
  | none => true
  | some (a, b) => a.length == b.length

/-- The result arrays: data, flags, nsamples. Used by `combineArrays`, pstokes.py L227-306. -/
structure Out where
  data : Option (List ℂ)
  flags : Option (List Bool)
  nsamp : Option (List ℝ)

/-- Flags after both steps, L268-272, L289-293. -/
noncomputable def combFlags (flags : Option (List Bool × List Bool)) (ns : Option (List ℝ × List ℝ)) : Option (List Bool) :=
  match flags, ns with
  | none, _ => none
  | some (f, g), none => some (orFlags f g)
  | some (f, g), some (a, b) => some (addInvalid (orFlags f g) a b)

/-- `_combine_pol_arrays`, L227-306. -/
noncomputable def combineArrays (pol1 pol2 s : ℤ) (c : Conv) (data : Option (List ℂ × List ℂ)) (flags : Option (List Bool × List Bool))
    (ns : Option (List ℝ × List ℝ)) : Except Err Out :=
  match polWeights s with
  | none => .error .assertion
  | some w =>
    match look w pol1, look w pol2 with
    | some w1, some w2 =>
      if c = .other then .error .value
      else if !(sameLen data && sameLen flags && sameLen ns) then .error .assertion
      else .ok ⟨data.map (fun d => d.1.zipWith (combData w1 w2 c) d.2), combFlags flags ns, ns.map (fun n => n.1.zipWith combN n.2)⟩
    | _, _ => .error .assertion

/-- A `UVData` object: convention (`none` if unset), metadata that must agree, polarizations, and the arrays of each polarization. Used by `convOf`, pstokes.py L106-113. -/
structure UVD where
  conv : Option Conv
  freqs : List ℤ
  times : List ℤ
  bls : List ℤ
  pols : List ℤ
  data : ℤ → List ℂ
  flags : ℤ → List Bool
  nsamp : ℤ → List ℝ

/-- The convention used for an object, L106-113: unset is taken as "avg". -/
def convOf (u : UVD) : Conv := u.conv.getD .avg

/-- `construct_pstokes`, L405-465, through `_combine_pol`, L115-134: the arrays of the pseudo-Stokes object. `polWeights` of an
unknown parameter is a KeyError (here an assertion). (If an object holds one polarization, its arrays are used as they are; that
polarization is the required one by the check of L439.) -/
noncomputable def construct (u v : UVD) (s : ℤ) : Except Err Out :=
  if u.freqs ≠ v.freqs ∨ u.times ≠ v.times ∨ u.bls ≠ v.bls then .error .value
  else match polWeights s with
    | some [(p, _), (q, _)] =>
      if p ∉ u.pols ∨ q ∉ v.pols then .error .assertion
      else if convOf u ≠ convOf v then .error .value
      else combineArrays p q s (convOf u) (some (u.data p, v.data q)) (some (u.flags p, v.flags q)) (some (u.nsamp p, v.nsamp q))
    | _ => .error .assertion

/-- `filter_dset_on_stokes_pol`, L492-520. `none`: an assertion or an index error (a data set without polarizations). -/
noncomputable def filterDsets (ds : List UVD) (s : ℤ) : Option (UVD × UVD) :=
  match polWeights s with
  | some [(p, _), (q, _)] =>
    if ds.any (fun d => d.pols.isEmpty) then none
    else
      match ds.find? (fun d => d.pols.head? == some p), ds.find? (fun d => d.pols.head? == some q) with
      | some d, some e => some (d, e)
      | _, _ => none
  | _ => none

end HeraPspec.Pstokes
