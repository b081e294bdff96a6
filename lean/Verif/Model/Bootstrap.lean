import Verif.Model.Average

/-!
Model of `bootstrap_average_blpairs` (grouping.py L1622-1787).

The random stream is a parameter: one list of drawn integers per group, of length `num_avail` and below `num_avail`
(`np.random.randint(low=0, high=num_avail, size=num_avail)`).
-/
namespace HeraPspec.Bootstrap
open HeraPspec.UVP (Err mapE)
open HeraPspec.Average
open HeraPspec.Combine (uniq)
variable {E : Type} [AddCommGroup E] [Module ℝ E]

/-- Exceptions: a TypeError (unknown keyword), or one of the others. Used by `bootstrapAverage`, uvpspec_utils.py L219. -/
inductive BErr | typeError | other (e : Err)
  deriving DecidableEq

/-- The pairs of the group that are available in one object, in the order of the group, each once: `np.intersect1d` returns
the first occurrence of every common value, `np.unique` sorts these positions, L1738-1743. -/
def avail (grp : List Nat) (blps : List Nat) : List Nat := (uniq grp).filter (fun b => b ∈ blps)

/-- `wgt[i] = (draw == i).sum()`, L1750. -/
def drawCounts (n : Nat) (draw : List Nat) : List Nat := (List.range n).map (fun i => draw.count i)

/-- Cutting the weights into one piece per object, L1753-1759. -/
def cut : List (List Nat) → List Nat → List (List Nat)
  | [], _ => []
  | a :: as, w => w.take a.length :: cut as (w.drop a.length)

/-- Groups and weights of every object for one requested group, L1734-1759. -/
def sampleGroup (objs : List (List Nat)) (grp : List Nat) (draw : List Nat) : List (List Nat × List Nat) :=
  let av := objs.map (avail grp)
  av.zip (cut av (drawCounts av.flatten.length draw))

/-- The arguments of the call of `average_spectra`, L1764-1770. -/
def bootArgs (timeAvg : Bool) (gs : List (List Nat)) (ws : List (List ℝ)) : Args :=
  { groups := some gs, weights := some ws, timeAvg := timeAvg, errorField := [], errorWeights := none, normalize := true }

/-- The call, L1676-1787. With more than one object it calls `select_common(..., pols=True)`, which has no such parameter
(L1714-1715; uvpspec_utils.py L219): TypeError. `Ntimes` is not modelled (for one object its check is void). -/
noncomputable def bootstrapAverage (circ : List ℝ → ℝ) (setOrder : List Nat → List Nat) (us : List (Obj E))
    (groups : List (List Nat)) (timeAvg : Bool) (draws : List (List Nat)) :
    Except BErr (List (Obj E × List (List ℝ))) :=
  if us.length > 1 then .error .typeError
  else
    let objs := us.map (fun u => uniq (u.rows.map (·.blp)))
    if !(uniq groups.flatten).all (fun b => b ∈ objs.flatten) then .error (.other .key)
    else
      let samples := List.zipWith (sampleGroup objs) groups draws
      mapE (fun iu : Nat × Obj E =>
        let gs := samples.filterMap (fun smp => (smp[iu.1]?).map (·.1))
        let ws := samples.filterMap (fun smp => (smp[iu.1]?).map (fun x => x.2.map (fun k : Nat => (k : ℝ))))
        match averageSpectra circ setOrder (bootArgs timeAvg gs ws) iu.2 with
        | .error e => .error (.other e)
        | .ok v => .ok (v, ws)) ((List.range us.length).zip us)

end HeraPspec.Bootstrap
