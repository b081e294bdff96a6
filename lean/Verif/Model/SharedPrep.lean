import Verif.Model.CalAdd
import Verif.Model.Flags
import Verif.Model.Rephase
import Verif.Model.JyMk
import Verif.Model.Times

/-!
Model of the preparation steps of a `PSpecData` that edit its data sets in place, when the same `UVData` object may sit at
several positions (`PSpecData(dsets=[uvd, uvd])`): `broadcast_dset_flags` (pspecdata.py L2851-2942), `rephase_to_dset`
(L4291-4404), `Jy_to_mK` (L4406-4455) and `trim_dset_lsts` (L4457-4497). Objects are references into a memory; what a step
does to one object is the value model of `Model/Flags.lean`, `Model/Rephase.lean`, `Model/JyMk.lean` and `Model/Times.lean`.
-/
namespace HeraPspec.Shared
open HeraPspec.Labels (Mem)

/-- The loops `for i, dset in enumerate(dsets)` of pspecdata.py L2900 and L4346: `f i` is the effect on the content of the object at
position `i`, `none` if it raises. The flag tells whether the loop ended. (The object a step fails on is taken to be left alone.) -/
def each {D : Type} (f : ℕ → D → Option D) : Mem D → List (ℕ × ℕ) → Mem D × Bool
  | m, [] => (m, true)
  | m, (i, a) :: rest =>
    match f i (m a) with
    | none => (m, false)
    | some d => each f (Function.update m a d) rest

/-- `enumerate(self.dsets)`, pspecdata.py L4346. -/
def positions (refs : List ℕ) : List (ℕ × ℕ) := (List.range refs.length).zip refs

/-- The flags of one object, with the shape they have. Used by `bcastRef`, pspecdata.py L2900. -/
abbrev FObj := Flags.Shape × Flags.Arr

/-- The body of the loop of `broadcast_dset_flags` for one object, pspecdata.py L2901-2942. -/
def bcastStep (thr : ℚ) (unflag : Bool) (ws : List (ℕ × ℕ)) (x : FObj) : Option FObj :=
  (Flags.broadcast x.1 thr unflag ws x.2).map (fun G => (x.1, G))

/-- `broadcast_dset_flags(ws, thr, unflag)` on objects, pspecdata.py L2899-2942. (The validation of L2887 is taken to pass.) -/
def bcastRef (thr : ℚ) (unflag : Bool) (ws : List (ℕ × ℕ)) (m : Mem FObj) (refs : List ℕ) : Mem FObj × Bool :=
  each (fun _ => bcastStep thr unflag ws) m (positions refs)

/-- `rephase_to_dset(k)` on objects, pspecdata.py L4322-4401: the LST grid and the polarizations of the anchor are taken before the loop
(L4335-4343). -/
def rephaseRef (ph : Rephase.Phasor) (k : ℕ) (m : Mem Rephase.UV) (refs : List ℕ) : Mem Rephase.UV × Bool :=
  if Rephase.valid (refs.map m) then
    match refs[k]? with
    | none => (m, false)
    | some a => each (fun i u => Rephase.step ph (Rephase.lstGrid (m a).lsts) (m a).pols k (i, u)) m (positions refs)
  else (m, false)

/-- The memory afterwards and the contents of the returned list of `rephase_to_dset(k, inplace)`, pspecdata.py L4326-4329 and
L4403-4404: `copy.deepcopy` of the list copies an object that occurs several times once. -/
def rephaseRefApi (ph : Rephase.Phasor) (k : ℕ) (inplace : Bool) (m : Mem Rephase.UV) (refs : List ℕ) :
    Mem Rephase.UV × Option (Option (List Rephase.UV)) :=
  let r := rephaseRef ph k m refs
  if inplace then (r.1, if r.2 then some none else none)
  else (m, if r.2 then some (some (refs.map r.1)) else none)

/-- The loop of `Jy_to_mK` over the objects, pspecdata.py L4445-4455: the test of the units looks at the object as the loop finds it. -/
def jyLoop (b : JyMk.Beam) : Mem JyMk.UV → List ℕ → Mem JyMk.UV × Bool
  | m, [] => (m, true)
  | m, a :: rest =>
    if !JyMk.isJy (m a) then jyLoop b m rest
    else if JyMk.fits b (m a) then jyLoop b (Function.update m a (JyMk.convert b (m a))) rest
    else (m, false)

/-- `Jy_to_mK(beam)` on objects, pspecdata.py L4417-4455. -/
def jyRef (b : JyMk.Beam) (m : Mem JyMk.UV) (refs : List ℕ) : Mem JyMk.UV × Bool :=
  if JyMk.ragged (refs.map m) then (m, false)
  else if (refs.map m).any (fun u => u.pols.any (fun p => (b p).isNone)) then (m, false)
  else jyLoop b m refs

/-- How `trim_dset_lsts` ends: normally, with the `ValueError` of pspecdata.py L4476, with an exception of `select` (nothing to
select), or with numpy's `IndexError` for a Boolean mask of the wrong length (L4497). -/
inductive TrimEnd | done | grid | select | index
deriving DecidableEq

variable {K : Type} [DecidableEq K]

/-- `dset.time_array[~trim_inds]`, pspecdata.py L4495-4497: the mask must be as long as the object's time array is now. -/
def maskTimes (c lsts : List K) (d : List Times.Row) : Option (List ℚ) :=
  if lsts.length = d.length then
    some (((lsts.zip d).filter (fun x => decide (x.1 ∈ c))).map (fun x => x.2.time))
  else none

/-- The second loop of `trim_dset_lsts`, pspecdata.py L4494-4497, over the objects with the rounded LSTs they had before the loop. -/
def trimLoop (c : List K) : Mem (List Times.Row) → List (ℕ × List K) → Mem (List Times.Row) × TrimEnd
  | m, [] => (m, .done)
  | m, (a, lsts) :: rest =>
    if lsts.any (fun l => !decide (l ∈ c)) then
      match maskTimes c lsts (m a) with
      | none => (m, .index)
      | some ts => match Times.select ts (m a) with
        | none => (m, .select)
        | some d => trimLoop c (Function.update m a d) rest
    else trimLoop c m rest

/-- `trim_dset_lsts` on objects, pspecdata.py L4471-4497; `rnd` is the formatting of L4485. -/
def trimRef (rnd : ℚ → K) (tol : ℚ) (m : Mem (List Times.Row)) (refs : List ℕ) : Mem (List Times.Row) × TrimEnd :=
  if Times.sameGrid tol (refs.map m) then
    trimLoop (Times.common rnd (refs.map m)) m (refs.map (fun a => (a, (m a).map (fun r => rnd r.lst))))
  else (m, .grid)

end HeraPspec.Shared
