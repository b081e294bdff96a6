import Verif.Model.Bootstrap
import Verif.Model.Container
import Verif.Model.KBins
import Mathlib.Analysis.Complex.Basic
import Mathlib.Algebra.Order.Floor.Semiring
import Mathlib.Algebra.Order.Round

/-!
Model of `bootstrap_resampled_error` (grouping.py L1854-1927) and `bootstrap_run` (grouping.py L2017-2077).

* The random generator is a parameter: a state, `seed` and `randint(0, n, n)`.
* `astropy.stats.biweight_midvariance` is a parameter (a function of the list of samples). `np.std` and `np.percentile` (linear interpolation)
  are defined here.
* Groups of baseline-pairs are given (`blpair_groups=None` is the grouping of C97); reading a file and the history are not modelled.
* In `bootstrap_run` the function that resamples one object is a parameter; with a seed it does not depend on the state of the generator
  (see `resampledError`). Names are pairs of a group and a spectrum (the code joins and splits them at `/`, which names do not contain).
-/
namespace HeraPspec.BootRun
open HeraPspec.UVP (Err mapE)
open HeraPspec.Average (Obj Cell averageSpectra cellsOf indices)
open HeraPspec.Bootstrap (BErr bootstrapAverage avail)
open HeraPspec.Combine (uniq)
noncomputable section

/-- `np.random`: setting the seed, and `np.random.randint(low=0, high=n, size=n)` with the new state; grouping.py L1758, L1876. -/
structure Rng (S : Type) where
  seed : ℕ → S
  randint : ℕ → S → List ℕ × S

variable {S : Type}

/-- The draws of one resample: one per group, one after the other, grouping.py L1744-1758. -/
def drawAll (rng : Rng S) : List ℕ → S → List (List ℕ) × S
  | [], st => ([], st)
  | n :: ns, st => ((rng.randint n st).1 :: (drawAll rng ns (rng.randint n st).2).1, (drawAll rng ns (rng.randint n st).2).2)

/-- The number of available pairs of every group, grouping.py L1746-1754. -/
def sizes (u : Obj ℂ) (groups : List (List ℕ)) : List ℕ := groups.map (fun g => (avail g (uniq (u.rows.map (·.blp)))).length)

/-- One call of `bootstrap_average_blpairs(..., seed=None)`, grouping.py L1883-1885: result and new state. -/
def oneBoot (circ : List ℝ → ℝ) (so : List ℕ → List ℕ) (rng : Rng S) (u : Obj ℂ) (groups : List (List ℕ)) (ta : Bool) (st : S) :
    Except BErr (List (Obj ℂ × List (List ℝ))) × S :=
  (bootstrapAverage circ so [u] groups ta (drawAll rng (sizes u groups) st).1, (drawAll rng (sizes u groups) st).2)

/-- The loop over samples, grouping.py L1881-1887. -/
def boots (circ : List ℝ → ℝ) (so : List ℕ → List ℕ) (rng : Rng S) (u : Obj ℂ) (groups : List (List ℕ)) (ta : Bool) :
    ℕ → S → Except BErr (List (Obj ℂ × List (List ℝ)))
  | 0, _ => .ok []
  | n + 1, st =>
    match (oneBoot circ so rng u groups ta st).1 with
    | .error e => .error e
    | .ok r => match boots circ so rng u groups ta n (oneBoot circ so rng u groups ta st).2 with
      | .error e => .error e
      | .ok rs => .ok (r ++ rs)

/-- `np.std` (`ddof=0`). Used by `tagStat`, grouping.py L1898-1900. -/
def std (l : List ℝ) : ℝ := Real.sqrt ((l.map (fun x => (x - l.sum / l.length) ^ 2)).sum / l.length)

/-- `np.percentile(l, q)` with linear interpolation. Used by `tagStat`, grouping.py L1914-1916. -/
def percentile (q : ℝ) (l : List ℝ) : ℝ :=
  let s := pySorted (fun a b => open Classical in decide (a ≤ b)) l
  let pos := (l.length - 1 : ℕ) * (q / 100)
  let i := ⌊pos⌋₊
  s.getD i 0 + (pos - i) * (s.getD (min (i + 1) (l.length - 1)) 0 - s.getD i 0)

/-- The names of the statistics: `bs_std`, `bs_robust_std` and `bs_cinterval_xx.xx`, by the percentage in hundredths; grouping.py L1901, L1908, L1912. -/
inductive Tag | std | robust | cint (hundredths : ℤ)
  deriving DecidableEq

/-- `f"bs_cinterval_{ci:05.2f}"`, grouping.py L1912 (rounding; exact halves are not modelled faithfully). -/
def ciTag (ci : ℝ) : Tag := .cint (round (100 * ci))

/-- A statistic of the real and of the imaginary parts, grouping.py L1898-1900, L1905-1907, L1914-1916. -/
def reIm (F : List ℝ → ℝ) (l : List ℂ) : ℂ := ⟨F (l.map Complex.re), F (l.map Complex.im)⟩

/-- `stats_array[name][spw][row, delay, polpair]`; `none`: not set. Used by `setStats`, uvpspec.py L1131-1143. -/
abbrev Stat := ℕ → ℕ → ℕ → Option (ℕ → ℂ)

/-- `uvp_boot_data[k]`, grouping.py L1891-1893: the spectra of the key in every resample; `ValueError` for different numbers of integrations. -/
def bootData (bs : List (Obj ℂ)) (s p b : ℕ) : Except Err (List (List (Cell ℂ))) :=
  match mapE (fun v => cellsOf v s p b) bs with
  | .error e => .error e
  | .ok l => if l.all (fun r => decide (r.length = (l.head?.map (·.length)).getD 0)) then .ok l else .error .value

/-- `set_stats` for one key, uvpspec.py L1123-1143. -/
def setStats (st : Stat) (s p : ℕ) (rows : List ℕ) (val : ℕ → ℕ → ℂ) : Stat :=
  fun s' p' r => if s' = s ∧ p' = p ∧ r ∈ rows then some (val (rows.idxOf r)) else st s' p' r

/-- One statistic for one key, grouping.py L1897-1901 (and L1904-1908, L1913-1917): the rows of the key must be as many as in the resamples. -/
def keyStat (F : List ℝ → ℝ) (avg : Obj ℂ) (bs : List (Obj ℂ)) (st : Stat) (k : ℕ × ℕ × ℕ) : Except Err Stat :=
  match bootData bs k.1 k.2.1 k.2.2 with
  | .error e => .error e
  | .ok l => match indices avg k.2.2 with
    | .error e => .error e
    | .ok rows => if (l.head?.map (·.length)).getD 0 = rows.length
      then .ok (setStats st k.1 k.2.1 rows (fun t d => reIm F (l.filterMap (fun r => (r[t]?).map (fun c => c.data d)))))
      else .error .value

/-- The loop over keys, grouping.py L1897, L1904, L1913. -/
def allKeys (F : List ℝ → ℝ) (avg : Obj ℂ) (bs : List (Obj ℂ)) : Stat → List (ℕ × ℕ × ℕ) → Except Err Stat
  | st, [] => .ok st
  | st, k :: ks => match keyStat F avg bs st k with
    | .error e => .error e
    | .ok st' => allKeys F avg bs st' ks

/-- `uvp_avg.get_all_keys()`, uvpspec.py L1009-1030: window, polarization pair (by position), baseline-pair. -/
def keysOf (avg : Obj ℂ) : List (ℕ × ℕ × ℕ) :=
  (List.range avg.cells.length).flatMap (fun s => (List.range ((avg.cells[s]?.map (·.length)).getD 0)).flatMap (fun p =>
    (uniq (avg.rows.map (·.blp))).map (fun b => (s, p, b))))

/-- Arguments of the call. Used by `resampledError`, grouping.py L1790-1803. -/
structure Opts where
  n : ℕ
  seed : Option ℕ
  timeAvg : Bool
  normalStd : Bool
  robustStd : Bool
  cintervals : List ℝ

/-- The statistics to compute, in order, with their names; grouping.py L1896-1917. `biw` is `biweight_midvariance`. -/
def tagStats (biw : List ℝ → ℝ) (o : Opts) : List (Tag × (List ℝ → ℝ)) :=
  (if o.normalStd then [(Tag.std, std)] else []) ++ (if o.robustStd then [(Tag.robust, fun l => Real.sqrt (biw l))] else []) ++
    o.cintervals.map (fun c => (ciTag c, percentile c))

/-- The loops over statistics, grouping.py L1896-1917: a name that exists already is written over. -/
def addStats (avg : Obj ℂ) (bs : List (Obj ℂ)) : Dict Tag Stat → List (Tag × (List ℝ → ℝ)) → Except Err (Dict Tag Stat)
  | d, [] => .ok d
  | d, e :: es => match allKeys e.2 avg bs ((d.get e.1).getD (fun _ _ _ => none)) (keysOf avg) with
    | .error e => .error e
    | .ok st => addStats avg bs (d.set e.1 st) es

/-- The arguments of the uniform average, grouping.py L1870-1872. -/
def avgArgs (groups : List (List ℕ)) (ta : Bool) : Average.Args :=
  { groups := some groups, weights := none, timeAvg := ta, errorField := [], errorWeights := none, normalize := true }

/-- What is returned: the average, its statistics, the resamples and their weights. Used by `resampledError`, grouping.py L1927. -/
structure Result where
  avg : Obj ℂ
  stats : Dict Tag Stat
  boots : List (Obj ℂ)
  wgts : List (List (List ℝ))

/-- `bootstrap_resampled_error(uvp, blpair_groups, ...)`, grouping.py L1854-1927; `st` is the state of the generator before the call. -/
def resampledError (circ : List ℝ → ℝ) (so : List ℕ → List ℕ) (biw : List ℝ → ℝ) (rng : Rng S) (o : Opts) (u : Obj ℂ)
    (groups : List (List ℕ)) (st : S) : Except BErr Result :=
  match averageSpectra circ so (avgArgs groups o.timeAvg) u with
  | .error e => .error (.other e)
  | .ok avg => match boots circ so rng u groups o.timeAvg o.n (match o.seed with
      | some k => rng.seed k
      | none => st) with
    | .error e => .error e
    | .ok bs => match addStats avg (bs.map (·.1)) [] (tagStats biw o) with
      | .error e => .error (.other e)
      | .ok d => .ok { avg := avg, stats := d, boots := bs.map (·.1), wgts := bs.map (·.2) }

end

/-! ### `bootstrap_run` -/

open HeraPspec.Container (File Mode CErr groups spectra getOne setOne)

/-- Exceptions of the run: `AssertionError`, those of the container, those of the resampling. Used by `bootRun`, grouping.py L2017-2077. -/
inductive RunErr | assertion | cont (e : CErr) | resample
  deriving DecidableEq

variable {V : Type}

/-- `all_spectra`, grouping.py L2041-2043 (`groups()` lists existing groups). -/
def allSpectra (f : File V) : List (String × String) :=
  (groups f).flatMap (fun g => (match spectra f g with
    | .error _ => []
    | .ok l => l).map (fun n => (g, n)))

/-- The spectra to work on, grouping.py L2044-2048. -/
def chosen (f : File V) : Option (List (String × String)) → Except RunErr (List (String × String))
  | none => .ok (allSpectra f)
  | some l => let r := l.filter (fun x => decide (x ∈ allSpectra f))
    if r.length = 0 then .error .assertion else .ok r

/-- `spc + "_avg"`, grouping.py L2072. -/
def avgName (n : String) : String := n ++ "_avg"

/-- `spc + f"_bs{i}"`, grouping.py L2077. -/
def bsName (n : String) (i : ℕ) : String := n ++ "_bs" ++ toString i

/-- The writes for one spectrum, grouping.py L2072-2077. -/
def outputs (keep : Bool) (n : String) (r : V × List V) : List (String × V) :=
  (avgName n, r.1) :: (if keep then ((List.range r.2.length).zip r.2).map (fun e => (bsName n e.1, e.2)) else [])

/-- Writing one after the other until one raises, grouping.py L2072-2077. -/
def writeAll (write : V → Bool) (mode : Mode) (g : String) (ow : Bool) : File V → List (String × V) → File V × Except RunErr Unit
  | f, [] => (f, .ok ())
  | f, e :: es => match setOne write mode false f g e.1 (.uvp e.2) ow with
    | (f', .error x) => (f', .error (.cont x))
    | (f', .ok ()) => writeAll write mode g ow f' es

/-- The loop over spectra, grouping.py L2051-2077. -/
def loop (write : V → Bool) (mode : Mode) (resample : V → Except Unit (V × List V)) (keep ow : Bool) :
    File V → List (String × String) → File V × Except RunErr Unit
  | f, [] => (f, .ok ())
  | f, x :: xs => match getOne f x.1 x.2 with
    | .error e => (f, .error (.cont e))
    | .ok v => match resample v with
      | .error _ => (f, .error .resample)
      | .ok r => match writeAll write mode x.1 ow f (outputs keep x.2 r) with
        | (f', .error e) => (f', .error e)
        | (f', .ok ()) => loop write mode resample keep ow f' xs

/-- `bootstrap_run(container, spectra, ...)`, grouping.py L2030-2077: `swmr` containers are refused. -/
def bootRun (write : V → Bool) (mode : Mode) (swmr : Bool) (resample : V → Except Unit (V × List V)) (keep ow : Bool) (f : File V)
    (req : Option (List (String × String))) : File V × Except RunErr Unit :=
  if swmr then (f, .error .assertion)
  else if (groups f).length = 0 then (f, .error .assertion)
  else match chosen f req with
    | .error e => (f, .error e)
    | .ok l => loop write mode resample keep ow f l

end HeraPspec.BootRun
