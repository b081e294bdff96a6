import Verif.Model.Container
import Mathlib.Data.Int.Notation
import Mathlib.Data.Nat.Notation

/-!
Model of the driver `pspec_run` (pspecdata.py L4846-5187): checks of the arguments, the pairs of datasets, the baselines used for each, the
names, and what is written to the container.

Loading of files (L4900-4946; `ValueError` there makes the run return without output), calibration, beam and cosmology (L4968-4999), LST
trimming, rephasing, flag broadcasting and unit conversion (L5015-5069; see C60-C63) act on the datasets and are not repeated here:
what the run needs of the datasets afterwards are parameters (`World`). Interleaving (L5020-5057) is modelled for its effect on labels and
pairs (for the times see C62). The type checks of arguments are not modelled. Strings are Lean strings.
-/
namespace HeraPspec.PspecRun
open HeraPspec.Container (File CErr setOne)
variable {V : Type}

/-- A baseline. Used by `World`, pspecdata.py L5092-5128. -/
abbrev Bl := ℤ × ℤ

/-- Exceptions: `AssertionError`, `IndexError`, `ValueError`, those of `PSpecData.pspec`, those of the container. Used by `pspecRun`, pspecdata.py L4846-5187. -/
inductive PErr | assertion | index | value | pspec | cont (e : CErr)
  deriving DecidableEq

/-- What the run uses of the datasets, by their index after loading and interleaving: baselines present (`get_antpairs`), the baseline lists of
`calc_blpair_reds`, the result of `PSpecData.pspec`; and the numbers of channels and polarizations of the datasets as loaded; pspecdata.py
L4959-4960, L4985-4986, L5096-5110, L5116-5117, L5147-5172. -/
structure World (V : Type) where
  nfreqs : List ℤ
  allPols : List String
  antpairs : ℕ → List Bl
  reds : ℕ → ℕ → List Bl × List Bl
  pspec : List Bl → List Bl → ℤ × ℤ → List (String × String) → Option V

/-- The arguments, pspecdata.py L4500-4560. -/
structure Args where
  psnameExt : Option String
  polPairs : Option (List (String × String))
  blpairs : Option (List (Bl × Bl))
  dsetPairs : Option (List (ℤ × ℤ))
  labels : Option (List String)
  spwRanges : Option (List (List ℤ))
  interleave : Bool
  groupname : Option String
  overwrite : Bool

/-- `"_" in dl`, pspecdata.py L4896. -/
def hasUnderscore (s : String) : Bool := s.toList.contains '_'

/-- `itertools.combinations(range(n), 2)`, pspecdata.py L4889. -/
def combinations (n : ℕ) : List (ℤ × ℤ) :=
  (List.range n).flatMap (fun i => (List.range' (i + 1) (n - (i + 1))).map (fun j : ℕ => ((i : ℤ), (j : ℤ))))

/-- The pairs of datasets, pspecdata.py L4886-4891. -/
def pairsOf (n : ℕ) (a : Args) : List (ℤ × ℤ) :=
  match a.dsetPairs with
  | some l => l
  | none => if n > 1 then combinations n else [(0, 0)]

/-- The labels before `PSpecData` is made, pspecdata.py L4893-4898. -/
def labelsOf (n : ℕ) (a : Args) : Except PErr (List String) :=
  match a.labels with
  | none => .ok ((List.range n).map (fun i => "dset" ++ toString i))
  | some l => if l.any hasUnderscore then .error .assertion else .ok l

/-- The check of one spectral window, pspecdata.py L4952-4962. -/
def spwOk (nfreqs : List ℤ) : List ℤ → Bool
  | [a, b] => decide (0 ≤ a) && decide (a < b) && nfreqs.all (fun n => decide (b ≤ n))
  | _ => false

/-- The pairs of polarizations, pspecdata.py L4984-4988. -/
def polsOf (allPols : List String) (a : Args) : Except PErr (List (String × String)) :=
  let l := match a.polPairs with
    | some l => l
    | none => allPols.map (fun p => (p, p))
  if l.length = 0 then .error .assertion else .ok l

/-- `l[i]` for an integer index. Python language semantics, pspecdata.py L5097, L5116, L5176. -/
def pyIndex (n : ℕ) (i : ℤ) : Option ℕ :=
  if 0 ≤ i ∧ i < n then some i.toNat else if i < 0 ∧ -n ≤ i then some (i + n).toNat else none

/-- `bl in antpairs or bl[::-1] in antpairs`, pspecdata.py L5121-5122. -/
def present (l : List Bl) (b : Bl) : Bool := l.contains b || l.contains (b.2, b.1)

/-- The baselines for one pair of datasets, pspecdata.py L5093-5128. -/
def blsFor (W : World V) (a : Args) (i j : ℕ) : List Bl × List Bl :=
  match a.blpairs with
  | none => W.reds i j
  | some l =>
    let k := l.filter (fun p => present (W.antpairs i) p.1 && present (W.antpairs j) p.2)
    (k.map (·.1), k.map (·.2))

/-- One entry of the loop: the name, and whether and with which baselines `pspec` is called. Used by `jobs`, pspecdata.py L5140-5176. -/
structure Job where
  pair : ℤ × ℤ
  bls1 : List Bl
  bls2 : List Bl
  name : String

/-- `f"{label1}_x_{label2}{ext}"`, pspecdata.py L5175-5177. -/
def psname (l1 l2 ext : String) : String := l1 ++ "_x_" ++ l2 ++ ext

/-- The jobs for all pairs: `IndexError` for a dataset that does not exist (raised in the loop over baselines, before the container is opened),
pspecdata.py L5092-5128, L5175-5177. -/
def jobs (W : World V) (a : Args) (labels : List String) : List (ℤ × ℤ) → Except PErr (List Job)
  | [] => .ok []
  | p :: ps =>
    match pyIndex labels.length p.1, pyIndex labels.length p.2 with
    | some i, some j => match jobs W a labels ps with
      | .error e => .error e
      | .ok r => .ok ({ pair := p, bls1 := (blsFor W a i j).1, bls2 := (blsFor W a i j).2,
                        name := psname (labels.getD i "") (labels.getD j "") (a.psnameExt.getD "") } :: r)
    | _, _ => .error .index

/-- The loop, pspecdata.py L5141-5182: jobs without baselines are skipped; the flag tells whether something was stored. -/
def loop (write : V → Bool) (W : World V) (pols : List (String × String)) (g : String) (ow : Bool) :
    File V → Bool → List Job → File V × Except PErr Bool
  | f, stored, [] => (f, .ok stored)
  | f, stored, x :: xs =>
    if x.bls1.length = 0 ∨ x.bls2.length = 0 then loop write W pols g ow f stored xs
    else match W.pspec x.bls1 x.bls2 x.pair pols with
      | none => (f, .error .pspec)
      | some v => match setOne write .rw false f g x.name (.uvp v) ow with
        | (f', .error e) => (f', .error (.cont e))
        | (f', .ok ()) => loop write W pols g ow f' true xs

/-- The part after `PSpecData` has been made: `names` are `dset_labels` and `pairs` the pairs used, pspecdata.py L5086-5187. -/
def finish (write : V → Bool) (W : World V) (a : Args) (pols : List (String × String)) (names : List String) (pairs : List (ℤ × ℤ)) (f : File V) :
    File V × Except PErr Bool :=
  match jobs W a names pairs with
  | .error e => (f, .error e)
  | .ok js => loop write W pols (a.groupname.getD ("_".intercalate names)) a.overwrite f false js

/-- `pspec_run` on `n` datasets and the container `f`, pspecdata.py L4846-5187; the result tells whether something was stored (if not, a warning is
issued, L5184-5185). Labels must be as many as datasets (L228 of `PSpecData.add`). -/
def pspecRun (write : V → Bool) (W : World V) (n : ℕ) (a : Args) (f : File V) : File V × Except PErr Bool :=
  match labelsOf n a with
  | .error e => (f, .error e)
  | .ok labels =>
    if !(a.spwRanges.getD []).all (spwOk W.nfreqs) then (f, .error .assertion)
    else match polsOf W.allPols a with
      | .error e => (f, .error e)
      | .ok pols =>
        if labels.length ≠ n then (f, .error .assertion)
        else if a.interleave then
          (if n ≠ 1 then (f, .error .value) else finish write W a pols (labels ++ ["dset1"]) [(0, 1)] f)
        else finish write W a pols labels (pairsOf n a) f

end HeraPspec.PspecRun
