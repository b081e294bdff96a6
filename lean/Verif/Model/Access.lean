import Verif.Model.UVP
import Verif.Model.ArgParse

/-!
Model of the accessors of `UVPSpec` with `omit_flags`, of the statistics (`get_stats`, `set_stats`, `set_stats_slice`) and of the
baseline lengths (`get_blpair_seps`, `get_kperps`): uvpspec.py L683-834, L852-990, L1066-1181, L1604-1635.
-/
namespace HeraPspec.Access
open HeraPspec.ArgParse (Str)
open HeraPspec.UVP

variable {D : Type}

/-! ### `omit_flags` -/

/-- `~np.isclose(x, 0.0)`: `|x| > 1e-8` (uvpspec.py L1631). -/
def notZero (x : ℚ) : Bool := !(isclose (1 / 100000) x 0)

/-- The filter of rows with a vanishing integration time, uvpspec.py L1629-1633. -/
def dropFlagged (u : UVP D ℚ) (k : ℕ × List ℕ × ℕ) : Except Err (ℕ × List ℕ × ℕ) :=
  match Dict.get u.integ k.1 with
  | none => .error .key
  | some a => .ok (k.1, k.2.1.filter (fun i => ((a[i]?.bind (fun r => r[k.2.2]?)).map notZero).getD false), k.2.2)

/-- `key_to_indices`, uvpspec.py L1604-1635. -/
def keyToIndicesOmit (u : UVP D ℚ) (spw : ℕ) (blpair polpair : ℤ) : Bool → Except Err (ℕ × List ℕ × ℕ)
  | false => keyToIndices u spw blpair polpair
  | true => keyToIndices u spw blpair polpair >>= dropFlagged u

/-- Indexing `array[spw][blpairts, :, polpair]` with the folded slice, uvpspec.py L710-717. -/
def sliceData {S : Type} (u : UVP D ℚ) (d : Dict ℕ (List (List (List S)))) (k : ℕ × List ℕ × ℕ) : Except Err (List (List S)) :=
  match Dict.get d k.1 with
  | none => .error .key
  | some a => .ok ((k.2.1.filterMap (fun i => a[i]?)).map (fun r =>
      (if u.folded then negSlice r (u.spwDlyArray.count k.1 - u.spwDlyArray.count k.1 / 2 - 1) else r).filterMap (fun x => x[k.2.2]?)))

/-- `get_data(key, omit_flags)`, uvpspec.py L683-717. -/
def getDataOmit (u : UVP D ℚ) (spw : ℕ) (blpair polpair : ℤ) (omit_ : Bool) : Except Err (List (List D)) :=
  keyToIndicesOmit u spw blpair polpair omit_ >>= sliceData u u.data

/-- `get_integrations(key, omit_flags)`, uvpspec.py L752-785 (`get_nsamples` L806-834 reads another array at the same rows). -/
def getIntegrations (u : UVP D ℚ) (spw : ℕ) (blpair polpair : ℤ) (omit_ : Bool) : Except Err (List ℚ) :=
  keyToIndicesOmit u spw blpair polpair omit_ >>= fun k =>
    match Dict.get u.integ k.1 with
    | none => .error .key
    | some a => .ok ((k.2.1.filterMap (fun i => a[i]?)).filterMap (fun r => r[k.2.2]?))

/-! ### Statistics -/

/-- `stats_array`: name, spectral window, rows, delays, polarization pairs. Used by `getStats`, uvpspec.py L1066-1108. -/
abbrev Stats (S : Type) := Dict Str (Dict ℕ (List (List (List S))))

/-- `get_stats`, uvpspec.py L1066-1108 (with `stats = none` for an object without the attribute: `AttributeError`, rendered as
`value`). -/
def getStats {S : Type} (u : UVP D ℚ) (stats : Option (Stats S)) (stat : Str) (spw : ℕ) (blpair polpair : ℤ) (omit_ : Bool) :
    Except Err (List (List S)) :=
  match stats with
  | none => .error .value
  | some st => match Dict.get st stat with
    | none => .error .assertion
    | some d => keyToIndicesOmit u spw blpair polpair omit_ >>= sliceData u d

/-- The shape of an array filled with one value. Used by `setStats`, uvpspec.py L1110-1146. -/
def fillLike {S : Type} (x : S) (a : List (List (List D))) : List (List (List S)) := a.map (fun r => r.map (fun d => d.map (fun _ => x)))

/-- `a[is, :, p] = v` for a row of `v` per index. Used by `setStats`, uvpspec.py L1110-1146. -/
def setRows {S : Type} (a : List (List (List S))) (is : List ℕ) (p : ℕ) (v : List (List S)) : List (List (List S)) :=
  a.mapIdx (fun i row => if i ∈ is then List.zipWith (fun d x => d.set p x) row (v.getD (is.idxOf i) []) else row)

/-- The shape of `data_array[spw][blpairts, :, polpair]` agrees with that of the statistic, uvpspec.py L1127-1131: as many rows, and
each row as long as the delay axis. -/
def shapeOk {S : Type} (a : List (List (List D))) (is : List ℕ) (v : List (List S)) : Bool :=
  decide (v.map List.length = (is.filterMap (fun i => a[i]?)).map List.length)

/-- `set_stats`, uvpspec.py L1110-1146; `nan` fills a statistic that did not exist. Conversions between element types are not
modelled. -/
def setStats {S : Type} (nan : S) (u : UVP D ℚ) (stats : Option (Stats S)) (stat : Str) (spw : ℕ) (blpair polpair : ℤ)
    (v : List (List S)) : Except Err (Stats S) :=
  keyToIndices u spw blpair polpair >>= fun k =>
    match Dict.get u.data k.1 with
    | none => .error .key
    | some a =>
      if shapeOk a k.2.1 v then
        (let st := stats.getD []
         let old := (Dict.get st stat).getD (u.data.map (fun e => (e.1, fillLike nan e.2)))
         match Dict.get old k.1 with
         | none => .error .key
         | some b => .ok (Dict.set st stat (Dict.set old k.1 (setRows b k.2.1 k.2.2 v))))
      else .error .value

/-! ### Baseline lengths -/

/-- `blseps[bls.index(bl)]`: the length of a baseline from `bl_array` and the lengths of `bl_vecs` (uvpspec.py L866-870);
`ValueError` if the baseline is not listed. -/
def blLen (blArray : List ℤ) (lens : List ℚ) (b : ℤ) : Except Err ℚ :=
  match blArray.idxOf? b with
  | none => .error .value
  | some i => match lens[i]? with
    | none => .error .index
    | some x => .ok x

/-- The mean of the two baseline lengths of a baseline-pair integer, uvpspec.py L875-881. -/
def pairSep (blArray : List ℤ) (lens : List ℚ) (blp : ℤ) : Except Err ℚ :=
  match blLen blArray lens (blp / 1000000), blLen blArray lens (blp % 1000000) with
  | .ok x, .ok y => .ok ((x + y) / 2)
  | .error e, _ => .error e
  | _, .error e => .error e

/-- `blp_avg_sep[inds] = avg_sep` (L882-883). -/
def assignRows (out : List (Option ℚ)) (is : List ℕ) (x : ℚ) : List (Option ℚ) :=
  out.mapIdx (fun i o => if i ∈ is then some x else o)

/-- The loop of `get_blpair_seps` over the unique baseline-pairs, uvpspec.py L879-883. -/
def sepLoop (u : UVP D ℚ) (blArray : List ℤ) (lens : List ℚ) : List ℤ → List (Option ℚ) → Except Err (List (Option ℚ))
  | [], out => .ok out
  | b :: bs, out => match pairSep blArray lens b, blpairToIndices u [b] with
    | .ok x, .ok is => sepLoop u blArray lens bs (assignRows out is x)
    | .error e, _ => .error e
    | _, .error e => .error e

/-- `get_blpair_seps`, uvpspec.py L852-885: entries not assigned (`np.empty`) are `none`. -/
def blpairSeps (u : UVP D ℚ) (blArray : List ℤ) (lens : List ℚ) : Except Err (List (Option ℚ)) :=
  sepLoop u blArray lens (orderedUnique u.blpairArray) (u.blpairArray.map (fun _ => none))

/-- `get_kperps`, uvpspec.py L913-944: the separations times the factor `bl_to_kperp` of the window. -/
def kperps (u : UVP D ℚ) (blArray : List ℤ) (lens : List ℚ) (factor : ℚ) : Except Err (List (Option ℚ)) :=
  (blpairSeps u blArray lens).map (fun l => l.map (fun o => o.map (fun x => x * factor)))

/-- `get_kparas`, uvpspec.py L946-990: the delays of the window (or the delays given) times the factor `tau_to_kpara`. -/
def kparas (u : UVP D ℚ) (spw : ℕ) (factor : ℚ) (dlys : Option (List ℚ)) : Except Err (List ℚ) :=
  match dlys with
  | some d => .ok (d.map (· * factor))
  | none => (getDlys u spw).map (fun d => d.map (· * factor))

/-! ### `set_stats_slice` -/

/-- The delay mask, uvpspec.py L1171-1176: strictly above (below) the line. Delays are in seconds, the line in nanoseconds. -/
def sliceMask (dlys : List ℚ) (line : ℚ) (above : Bool) : List Bool :=
  dlys.map (fun t => if above then decide (line < |t * 1000000000|) else decide (|t * 1000000000| < line))

/-- `a[tind, mask, :] = val` for each row of the list; a mask of the wrong length raises `IndexError`. Used by `sliceLoop`, uvpspec.py L1166-1181. -/
def maskRows {S : Type} (a : List (List (List S))) (is : List ℕ) (mask : List Bool) (val : S) : Except Err (List (List (List S))) :=
  if is.all (fun i => decide ((a[i]?.map List.length).getD mask.length = mask.length)) then
    .ok (a.mapIdx (fun i row => if i ∈ is then List.zipWith (fun d m => if m then d.map (fun _ => val) else d) row mask else row))
  else .error .index

/-- The mean of `bllens[tinds]` (L1172); `none` if some entry is missing or there are no rows. -/
def meanAt (l : List (Option ℚ)) (is : List ℕ) : Option ℚ :=
  if is = [] then none
  else if is.all (fun i => decide ((l[i]?.bind id).isSome)) then
    some ((is.filterMap (fun i => l[i]?.bind id)).sum / is.length)
  else none

/-- The inner loop of `set_stats_slice` over baseline-pairs for one window, uvpspec.py L1166-1181. -/
def sliceLoop {S : Type} (u : UVP D ℚ) (seps : List (Option ℚ)) (dlys : List ℚ) (m b : ℚ) (above : Bool) (val : S) :
    List ℤ → List (List (List S)) → Except Err (List (List (List S)))
  | [], a => .ok a
  | blp :: bs, a => match blpairToIndices u [blp] with
    | .error e => .error e
    | .ok is => match meanAt seps is with
      | none => .error .value
      | some x => match maskRows a is (sliceMask dlys (x * m + b) above) val with
        | .error e => .error e
        | .ok a' => sliceLoop u seps dlys m b above val bs a'

/-- `set_stats_slice` for one spectral window `i` of one statistic (the loop over windows, L1163, is independent per window):
the array `a` before, the array after. -/
def setStatsSlice {S : Type} (u : UVP D ℚ) (blArray : List ℤ) (lens : List ℚ) (i : ℕ) (m b : ℚ) (above : Bool) (val : S)
    (a : List (List (List S))) : Except Err (List (List (List S))) :=
  match blpairSeps u blArray lens, getDlys u i with
  | .ok seps, .ok dlys => sliceLoop u seps dlys m b above val (orderedUnique u.blpairArray) a
  | .error e, _ => .error e
  | _, .error e => .error e

end HeraPspec.Access
