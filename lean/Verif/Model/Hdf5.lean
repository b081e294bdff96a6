import Verif.Model.Params
import Verif.Model.PyDict
import Verif.Model.UVP

/-!
Model of writing a `UVPSpec` object to an HDF5 group and reading it back: `write_hdf5`, `write_to_group`, `read_from_group`,
`_clear`, the presence part of `check` (uvpspec.py L1743-1902, L1972-2089, L2346-2437) and the array part of `_select` for
both sources, file and memory (uvpspec_utils.py L754-928).

Values of attributes and arrays are opaque (type `V`). An HDF5 group is a flat map from names to values, which is what `h5py`
offers for names without a slash; statistics whose name contains a slash are outside the model. Conversions of values done by
`h5py` (numpy scalar types, byte strings) and by `check` (casts) are summarised by `Codec.enc` and `Codec.dec`.
-/
namespace HeraPspec.Hdf5
open HeraPspec.ArgParse (Str)
open HeraPspec.UVP (mapE)
open HeraPspec.Params

/-- Exceptions. Used by `check`, uvpspec.py L2346-2429. -/
inductive Err | assertion | attribute | key | exists_ | os
  deriving DecidableEq, Repr

/-- The attributes of a `UVPSpec` object (uvpspec.py L58-560): plain attributes, the attributes that are dictionaries indexed by
spectral window (`self._dicts`), and `stats_array`. An absent key means that `hasattr` is false. -/
structure Obj (V : Type) where
  attrs : Dict Str V
  dicts : Dict Str (Dict ℕ V)
  stats : Option (Dict Str (Dict ℕ V))

/-- An HDF5 group: attributes and datasets. Used by `writeBody`, uvpspec.py L1992-2067. -/
structure File (V : Type) where
  attrs : Dict Str V
  dsets : Dict Str V
  deriving DecidableEq

/-- How opaque values are interpreted. `spws` reads `spw_array`, `nat` reads `Nspws`, `truthy` reads `exact_windows`; `enc k` is
what is stored for attribute `k` (`cosmo` becomes a string and `labels` bytes, uvpspec.py L1998-2008) and `dec k` what is made of it
on reading (L1806-1811, L1870-1871 and the casts of `check`); `rp` is the `r_params` string recomputed at the end of `_select`
(uvpspec_utils.py L915-942); `tag` is the string `UVPSpec` stored as `pspec_type` and `isTag` the test for it (L1797-1800). -/
structure Codec (V : Type) where
  spws : V → List ℕ
  nat : V → ℕ
  truthy : V → Bool
  enc : Str → V → V
  dec : Str → V → V
  rp : Dict Str V → V
  ff : V
  tag : V
  isTag : V → Bool

variable {V : Type}

/-- `hasattr(self, p)`. Used by `check`, uvpspec.py L2346-2429. -/
def Obj.hasattr (u : Obj V) (p : Str) : Bool :=
  if Params.dicts.contains p then Dict.has u.dicts p else if p == n_stats_array then u.stats.isSome else Dict.has u.attrs p

/-- The value of the attribute, or `AttributeError`. Used by `check`, uvpspec.py L2346-2429. -/
def attr (d : Dict Str V) (k : Str) : Except Err V :=
  match Dict.get d k with
  | some v => .ok v
  | none => .error .attribute

/-- `check`, uvpspec.py L2346-2429: presence of required parameters (only those that are in `_all_params`, L2357), the numbering of
the spectral windows, and the presence of the exact window function arrays. Types are not modelled. -/
def check (c : Codec V) (u : Obj V) (justMeta : Bool) : Except Err Unit :=
  if !justMeta && !(allParams.all (fun p => !(reqParams.contains p) || u.hasattr p)) then .error .assertion
  else match attr u.attrs n_spw_array, attr u.attrs n_Nspws, attr u.attrs n_exact_windows with
    | .ok sp, .ok n, .ok ex =>
      if !((c.spws sp).all (fun s => decide (s < c.nat n)) && (List.range (c.nat n)).all (fun s => (c.spws sp).contains s)) then
        .error .assertion
      else if c.truthy ex && !justMeta &&
          !(Dict.has u.dicts n_window_function_array && Dict.has u.dicts n_window_function_kperp) then .error .assertion
      else .ok ()
    | _, _, _ => .error .attribute

/-! ### Names of datasets -/

/-- `"data_spw"`, uvpspec.py L2021. -/
def pData : Str := ['d', 'a', 't', 'a', '_', 's', 'p', 'w']
/-- `"wgt_spw"`, uvpspec.py L2024. -/
def pWgt : Str := ['w', 'g', 't', '_', 's', 'p', 'w']
/-- `"integration_spw"`, uvpspec.py L2027. -/
def pInt : Str := ['i', 'n', 't', 'e', 'g', 'r', 'a', 't', 'i', 'o', 'n', '_', 's', 'p', 'w']
/-- `"nsample_spw"`, uvpspec.py L2030. -/
def pNsmp : Str := ['n', 's', 'a', 'm', 'p', 'l', 'e', '_', 's', 'p', 'w']
/-- `"window_function_spw"`, uvpspec.py L2034. -/
def pWin : Str := ['w', 'i', 'n', 'd', 'o', 'w', '_', 'f', 'u', 'n', 'c', 't', 'i', 'o', 'n', '_', 's', 'p', 'w']
/-- `"window_function_kperp_spw"`, uvpspec.py L2040. -/
def pKperp : Str :=
  ['w', 'i', 'n', 'd', 'o', 'w', '_', 'f', 'u', 'n', 'c', 't', 'i', 'o', 'n', '_', 'k', 'p', 'e', 'r', 'p', '_', 's', 'p', 'w']
/-- `"window_function_kpara_spw"`, uvpspec.py L2045. -/
def pKpara : Str :=
  ['w', 'i', 'n', 'd', 'o', 'w', '_', 'f', 'u', 'n', 'c', 't', 'i', 'o', 'n', '_', 'k', 'p', 'a', 'r', 'a', '_', 's', 'p', 'w']
/-- `"cov_real_spw"`, uvpspec.py L2051. -/
def pCovR : Str := ['c', 'o', 'v', '_', 'r', 'e', 'a', 'l', '_', 's', 'p', 'w']
/-- `"cov_imag_spw"`, uvpspec.py L2054. -/
def pCovI : Str := ['c', 'o', 'v', '_', 'i', 'm', 'a', 'g', '_', 's', 'p', 'w']
/-- `"stats_"`, uvpspec.py L2062. -/
def pStats : Str := ['s', 't', 'a', 't', 's', '_']

/-- `f"{prefix}{i}"`. Used by `entries`, uvpspec.py L2018-2056. -/
def dsName (pre : Str) (i : ℕ) : Str := pre ++ Nat.toDigits 10 i

/-- `f"stats_{s}_{i}"`, uvpspec.py L2062. -/
def statName (s : Str) (i : ℕ) : Str := pStats ++ (s ++ '_' :: Nat.toDigits 10 i)

/-- `f[f.find("_") + 1 : f.rfind("_")]`, uvpspec_utils.py L786. Without an underscore both searches give `-1`, and the slice
`f[0:-1]` drops the last character. -/
def statOf (f : Str) : Str :=
  if '_' ∈ f then (f.take (f.length - 1 - f.reverse.idxOf '_')).drop (f.idxOf '_' + 1) else f.dropLast

/-- The names (attribute, prefix of datasets) of the arrays that every object has. Used by `names`, uvpspec.py L2019-2056. -/
def required : List (Str × Str) :=
  [(n_data_array, pData), (n_wgt_array, pWgt), (n_integration_array, pInt), (n_nsample_array, pNsmp)]

/-- The arrays stored or loaded, uvpspec.py L2019-2056 and uvpspec_utils.py L800-826, given whether there are window functions, exact
window functions and covariances. -/
def names (win exact cov : Bool) : List (Str × Str) :=
  required ++
    (if win then (n_window_function_array, pWin) ::
      (if exact then [(n_window_function_kperp, pKperp), (n_window_function_kpara, pKpara)] else []) else []) ++
    (if cov then [(n_cov_array_real, pCovR), (n_cov_array_imag, pCovI)] else [])

/-! ### Writing -/

/-- `self.X[i]` for an attribute that is a dictionary: `AttributeError` or `KeyError`. Used by `entries`, uvpspec.py L2018-2056. -/
def fetchMem (d : Dict Str (Dict ℕ V)) (a : Str) (i : ℕ) : Except Err V :=
  match Dict.get d a with
  | none => .error .attribute
  | some e => match Dict.get e i with
    | none => .error .key
    | some v => .ok v

/-- The datasets written for one spectral window, uvpspec.py L2018-2056. -/
def entries (d : Dict Str (Dict ℕ V)) (ns : List (Str × Str)) (i : ℕ) : Except Err (List (Str × V)) :=
  mapE (fun n => (fetchMem d n.1 i).map (fun v => (dsName n.2 i, v))) ns

/-- The datasets of the statistics, uvpspec.py L2058-2064. -/
def statEntries (st : Dict Str (Dict ℕ V)) (spws : List ℕ) : Except Err (List (List (Str × V))) :=
  mapE (fun s => mapE (fun i => (fetchMem st s i).map (fun v => (statName s i, v))) spws) (Dict.keys st)

/-- A sequence of `group.create_dataset` calls; a name that is taken raises. Used by `writeBody`, uvpspec.py L1992-2067. -/
def createAll : Dict Str V → List (Str × V) → Except Err (Dict Str V)
  | g, [] => .ok g
  | g, e :: l => if Dict.has g e.1 then .error .exists_ else createAll (g ++ [e]) l

/-- Whether exact window functions are written: `self.exact_windows` is only looked at if there are window functions
(uvpspec.py L2032-2038). -/
def exactFlag (c : Codec V) (u : Obj V) : Except Err Bool :=
  if Dict.has u.dicts n_window_function_array then (attr u.attrs n_exact_windows).map c.truthy else .ok false

/-- `write_to_group` on an empty group after the check, uvpspec.py L1992-2067. `np.unique` (L2018) is modelled without its sorting. What a call that
raises leaves in the group is not modelled. -/
def writeBody (c : Codec V) (u : Obj V) : Except Err (File V) := do
  let sp ← attr u.attrs n_spw_array
  let spws := (c.spws sp).dedup
  let ex ← exactFlag c u
  let ns := names (Dict.has u.dicts n_window_function_array) ex (Dict.has u.dicts n_cov_array_real)
  let hs ← mapE (entries u.dicts ns) spws
  let ss ← statEntries (u.stats.getD []) spws
  let ds ← createAll [] (metaDsets.filterMap (fun k => (Dict.get u.attrs k).map (fun v => (k, v))) ++ hs.flatten ++ ss.flatten)
  return ⟨Dict.set (metaAttrs.filterMap (fun k => (Dict.get u.attrs k).map (fun v => (k, c.enc k v)))) n_pspec_type c.tag, ds⟩

/-- `write_to_group` on an empty group, uvpspec.py L1972-2067. -/
def writeGroup (c : Codec V) (u : Obj V) : Bool → Except Err (File V)
  | true => check c u false >>= fun _ => writeBody c u
  | false => writeBody c u

/-- `write_hdf5`, uvpspec.py L2066-2089: `fs` is what is on disk at the path; the result is what is there afterwards. The old file is
removed before the object is checked, and a write that raises leaves a file with unspecified contents (`none` in the second
component means: not a complete object). -/
def writeFile (c : Codec V) (u : Obj V) (fs : Option (File V)) (overwrite runCheck : Bool) : Except Err Unit × Option (Option (File V)) :=
  if fs.isSome && !overwrite then (.error .os, fs.map some)
  else match writeGroup c u runCheck with
    | .ok f => (.ok (), some (some f))
    | .error e => (.error e, some none)

/-! ### Selecting and reading -/

/-- What the metadata part of `_select` produces (uvpspec_utils.py L583-752): the new attributes, the pairs (new label, old label) of
spectral windows, and how arrays are sliced along baseline-pair-times and polarizations. -/
structure Picked (V : Type) where
  attrs : Dict Str V
  pairs : List (ℕ × ℕ)
  slice : Str → V → V
  statSlice : V → V

/-- A selection (any choice of spws, bls, blpairs, times, lsts, polpairs): it acts on the metadata only. Used by `full`, uvpspec_utils.py L915-942. -/
abbrev Selection (V : Type) := Dict Str V → Except Err (Picked V)

/-- No selection: everything is kept, `r_params` is recomputed (uvpspec_utils.py L915-942). -/
def full (c : Codec V) : Selection V := fun a => do
  let sp ← attr a n_spw_array
  return ⟨Dict.set a n_r_params (c.rp a), (c.spws sp).zip (c.spws sp), fun _ v => v, fun v => v⟩

/-- The loop over spectral windows for one array, uvpspec_utils.py L799-905. The new labels are distinct. -/
def loadOne (fetch : ℕ → Except Err V) (f : V → V) (pairs : List (ℕ × ℕ)) : Except Err (Dict ℕ V) :=
  mapE (fun p => (fetch p.2).map (fun v => (p.1, f v))) pairs

/-- Assigning attributes one after the other, uvpspec_utils.py L907-926. -/
def assign (d : Dict Str (Dict ℕ V)) (l : List (Str × Dict ℕ V)) : Dict Str (Dict ℕ V) :=
  l.foldl (fun d e => Dict.set d e.1 e.2) d

/-- The arrays part of `_select`, uvpspec_utils.py L754-928, for a source of arrays `fetch`, a source of statistics `sfetch`, the
names of statistics and the three presence flags. Covariances and statistics are only assigned if not empty (L918-922). -/
def arrays (u : Obj V) (p : Picked V) (win exact cov : Bool) (stats : List Str)
    (fetch : Str × Str → ℕ → Except Err V) (sfetch : Str → ℕ → Except Err V) : Except Err (Obj V) := do
  let ds ← mapE (fun n => (loadOne (fetch n) (p.slice n.1) p.pairs).map (fun d => (n.1, d)))
    (names win exact (cov && !p.pairs.isEmpty))
  let ss ← mapE (fun s => (loadOne (sfetch s) p.statSlice p.pairs).map (fun d => (s, d))) stats
  return ⟨p.attrs, assign u.dicts ds, if stats.isEmpty || p.pairs.isEmpty then u.stats else some ss⟩

/-- `h5file[name]`. Used by `readBody`, uvpspec.py L1802-1902. -/
def fetchDs (f : File V) (name : Str) : Except Err V :=
  match Dict.get f.dsets name with
  | none => .error .key
  | some v => .ok v

/-- The names of statistics in a file, uvpspec_utils.py L783-790. `np.unique` is modelled without its sorting. -/
def statNames (f : File V) : List Str :=
  (((Dict.keys f.dsets).filter (fun k => ['s', 't', 'a', 't', 's'].isPrefixOf k)).map statOf).dedup

/-- `_select` in memory followed by `check` (`UVPSpec.select`, uvpspec.py L1637-1741). -/
def select (c : Codec V) (u : Obj V) (sel : Selection V) : Except Err (Obj V) := do
  let p ← sel u.attrs
  let r ← arrays u p (Dict.has u.dicts n_window_function_array) (Dict.has u.dicts n_window_function_kperp)
    (Dict.has u.dicts n_cov_array_real) (Dict.keys (u.stats.getD [])) (fun n => fetchMem u.dicts n.1)
    (fetchMem (u.stats.getD []))
  check c r false
  return r

/-- `_clear`, uvpspec.py L2431-2437: only attributes in `_all_params` are deleted. -/
def clear (u : Obj V) : Dict Str V := u.attrs.filter (fun e => !(allParams.contains e.1))

/-- `setattr` of a list of attributes. Used by `readMeta`, uvpspec.py L1803-1832. -/
def setAll (d : Dict Str V) (l : List (Str × V)) : Dict Str V := l.foldl (fun d e => Dict.set d e.1 e.2) d

/-- The metadata read from a file into an object, uvpspec.py L1803-1832 (files with the old `pol_array` and `Nblpairts` attributes
are not modelled). -/
def readMeta (c : Codec V) (old : Obj V) (f : File V) : Dict Str V :=
  let d := setAll (clear old) ((f.attrs.filter (fun e => metaAttrs.contains e.1)).map (fun e => (e.1, c.dec e.1 e.2)))
  let d := setAll d (f.dsets.filter (fun e => metaDsets.contains e.1))
  if Dict.has f.attrs n_exact_windows then d else Dict.set d n_exact_windows c.ff

/-- `read_from_group` after the test of `pspec_type`, uvpspec.py L1802-1902, with data (`just_meta=False`). -/
def readBody (c : Codec V) (old : Obj V) (f : File V) (sel : Selection V) : Except Err (Obj V) := do
  let p ← sel (readMeta c old f)
  let r ← arrays ⟨[], [], none⟩ p (Dict.has f.dsets (dsName pWin 0)) (Dict.has f.dsets (dsName pKperp 0))
    (Dict.has f.dsets (dsName pCovR 0)) (statNames f) (fun n i => fetchDs f (dsName n.2 i))
    (fun s i => fetchDs f (statName s i))
  check c r false
  return r

/-- `read_from_group` into the object `old`, uvpspec.py L1743-1902, with data (`just_meta=False`). -/
def readGroup (c : Codec V) (old : Obj V) (f : File V) (sel : Selection V) : Except Err (Obj V) :=
  if ((Dict.get f.attrs n_pspec_type).map c.isTag).getD false then readBody c old f sel else .error .assertion

end HeraPspec.Hdf5
