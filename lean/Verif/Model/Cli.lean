import Verif.Model.ArgParse
import Verif.Model.PyDict
import Mathlib.Data.Rat.Defs

/-!
Model of the command lines of scripts/pspec_run.py and scripts/bootstrap_run.py: the argument parsers (pspecdata.py L5190-5489, grouping.py L2080-2180,
utils.py L1741-1780, pstokes.py L529-563), the translation to keyword arguments (scripts/pspec_run.py L8-27, scripts/bootstrap_run.py L11-20) and the binding
of the call.

The standard library's `argparse` is modelled from option occurrences on: a command line is the list of its options with their arguments, and the chunks of
positional arguments between them (how argparse attributes tokens to options, and its abbreviations, are not modelled). `float(s)` is a parameter.
The options that `hera_cal._cli_tools.parse_args` adds to a parser are a parameter too; `filter_kwargs` removes exactly those.
-/
namespace HeraPspec.Cli
open HeraPspec.ArgParse (Str)
open HeraPspec.UVP (mapE)

/-- Values on the namespace. Used by the parsers, pspecdata.py L5190-5489. -/
inductive Val
  | none
  | bool (b : Bool)
  | int (i : Int)
  | num (q : Rat)
  | str (s : String)
  | list (l : List Val)
  | tup (l : List Val)

/-- `SystemExit` of a parser, `TypeError` of a call, and `AttributeError`. Used by `parse` and `bind`, scripts/pspec_run.py L8-27. -/
inductive Err | usage | type | attr
  deriving DecidableEq

/-- Number of arguments: `action="store_true"`, one, `nargs="+"`, `nargs="*"`. Used by `Opt`, pspecdata.py L5226-5488. -/
inductive Kind | flag | one | plus | star
  deriving DecidableEq

/-- The `type` of an option. Used by `Opt`, pspecdata.py L5226-5488 and grouping.py L2085-2178. -/
inductive Conv | str | int | float | bool | intTuples | strTuples | blTuples | intLists
  deriving DecidableEq

/-- One `add_argument`. pspecdata.py L5226-5488. -/
structure Opt where
  name : String
  kind : Kind
  conv : Conv
  dflt : Val

/-- Any exception of a converter ends the program. Python's argparse, used at pspecdata.py L5226-5488. -/
def usage {ε α : Type} : Except ε α → Except Err α
  | .ok a => .ok a
  | .error _ => .error .usage

/-- `list_of_lists_of_tuples`, grouping.py L2085-2087. -/
def intLists (v : Str) : Except ArgParse.Err (List (List Int)) := mapE (fun x => mapE ArgParse.pyInt (ArgParse.splitWs x)) (ArgParse.splitOn ',' v)

/-- The converters: `str`, `int`, `float`, `bool` and the functions of pspecdata.py L5193-5224, grouping.py L2085-2087. -/
def convert (fl : Str → Option Rat) (c : Conv) (a : Str) : Except Err Val :=
  match c with
  | .str => .ok (.str (String.ofList a))
  | .int => (usage (ArgParse.pyInt a)).map .int
  | .float => match fl a with
    | Option.none => .error .usage
    | some q => .ok (.num q)
  | .bool => .ok (.bool (decide (a ≠ [])))
  | .intTuples => (usage (ArgParse.listOfIntTuples a)).map (fun l => .list (l.map (fun t => .tup (t.map .int))))
  | .strTuples => .ok (.list ((ArgParse.listOfStrTuples a).map (fun t => .tup (t.map (fun s => .str (String.ofList s))))))
  | .blTuples => (usage (ArgParse.listOfTupleTuples a)).map (fun l => .list (l.map (fun t => .tup [.tup (t.1.map .int), .tup (t.2.map .int)])))
  | .intLists => (usage (intLists a)).map (fun l => .list (l.map (fun t => .list (t.map .int))))

/-- The value of one occurrence of an option. Python's argparse, used at pspecdata.py L5226-5488. -/
def optValue (fl : Str → Option Rat) (o : Opt) (args : List Str) : Except Err Val :=
  match o.kind, args with
  | .flag, [] => .ok (.bool true)
  | .flag, _ :: _ => .error .usage
  | .one, [a] => convert fl o.conv a
  | .one, _ => .error .usage
  | .plus, [] => .error .usage
  | .plus, a :: as => (mapE (convert fl o.conv) (a :: as)).map .list
  | .star, as => (mapE (convert fl o.conv) as).map .list

/-- One occurrence of an option sets its entry of the namespace. Python's argparse, used at scripts/pspec_run.py L10. -/
def parseOne (fl : Str → Option Rat) (opts : List Opt) (ns : Dict String Val) (oc : String × List Str) : Except Err (Dict String Val) :=
  match opts.find? (fun o => o.name = oc.1) with
  | Option.none => .error .usage
  | some o => (optValue fl o oc.2).map (fun v => ns.set o.name v)

/-- All occurrences, in order. Python's argparse, used at scripts/pspec_run.py L10. -/
def parseAll (fl : Str → Option Rat) (opts : List Opt) : Dict String Val → List (String × List Str) → Except Err (Dict String Val)
  | ns, [] => .ok ns
  | ns, oc :: rest => match parseOne fl opts ns oc with
    | .error e => .error e
    | .ok ns' => parseAll fl opts ns' rest

/-- The namespace of the options: defaults, then what is given. Python's argparse, used at scripts/pspec_run.py L10. -/
def parse (fl : Str → Option Rat) (opts : List Opt) (occs : List (String × List Str)) : Except Err (Dict String Val) :=
  parseAll fl opts (opts.map (fun o => (o.name, o.dflt))) occs

/-- Positional arguments `dsets` (`nargs="*"`) and `filename`: the first chunk with any arguments is split before its last, and no other chunk may have any.
pspecdata.py L5226-5229. -/
def starThenOne (chunks : List (List Str)) : Except Err (List Str × Str) :=
  match chunks.filter (fun c => c ≠ []) with
  | [c] => match c.getLast? with
    | Option.none => .error .usage
    | some f => .ok (c.dropLast, f)
  | _ => .error .usage

/-- A single positional argument. grouping.py L2090-2095. -/
def oneArg (chunks : List (List Str)) : Except Err Str :=
  match chunks.flatten with
  | [f] => .ok f
  | _ => .error .usage

/-- Binding keyword arguments to parameters: an unknown name or a missing argument is a `TypeError`. Python language semantics, used at scripts/pspec_run.py L25-27. -/
def bind (sig : List (String × Option Val)) (kw : Dict String Val) : Except Err (Dict String Val) :=
  if kw.keys.any (fun k => !(sig.map (·.1)).contains k) then .error .type
  else mapE (fun p : String × Option Val => match kw.get p.1, p.2 with
    | some v, _ => .ok (p.1, v)
    | Option.none, some d => .ok (p.1, d)
    | Option.none, Option.none => .error .type) sig

/-- Options of `get_pspec_run_argparser`, pspecdata.py L5230-5488. -/
def pspecOpts : List Opt := [
  ⟨"dsets_std", .star, .str, .none⟩,
  ⟨"groupname", .one, .str, .none⟩,
  ⟨"dset_pairs", .one, .intTuples, .none⟩,
  ⟨"dset_labels", .star, .str, .none⟩,
  ⟨"spw_ranges", .one, .intTuples, .none⟩,
  ⟨"n_dlys", .plus, .int, .none⟩,
  ⟨"pol_pairs", .one, .strTuples, .none⟩,
  ⟨"blpairs", .one, .blTuples, .none⟩,
  ⟨"input_data_weight", .one, .str, .str "identity"⟩,
  ⟨"norm", .one, .str, .str "I"⟩,
  ⟨"taper", .one, .str, .str "none"⟩,
  ⟨"beam", .one, .str, .none⟩,
  ⟨"cosmo", .plus, .float, .none⟩,
  ⟨"rephase_to_dset", .one, .int, .none⟩,
  ⟨"trim_dset_lsts", .flag, .str, .bool false⟩,
  ⟨"broadcast_dset_flags", .flag, .str, .bool false⟩,
  ⟨"time_thresh", .one, .float, .num (1 / 5)⟩,
  ⟨"Jy2mK", .flag, .str, .bool false⟩,
  ⟨"exclude_auto_bls", .flag, .str, .bool false⟩,
  ⟨"exclude_cross_bls", .flag, .str, .bool false⟩,
  ⟨"exclude_permutations", .flag, .str, .bool false⟩,
  ⟨"Nblps_per_group", .one, .int, .none⟩,
  ⟨"bl_len_range", .plus, .float, .tup [.int 0, .num (10000000000)]⟩,
  ⟨"bl_deg_range", .plus, .float, .tup [.int 0, .int 180]⟩,
  ⟨"bl_error_tol", .one, .float, .num (1)⟩,
  ⟨"store_cov", .flag, .str, .bool false⟩,
  ⟨"store_cov_diag", .flag, .str, .bool false⟩,
  ⟨"return_q", .flag, .str, .bool false⟩,
  ⟨"overwrite", .flag, .str, .bool false⟩,
  ⟨"cov_model", .one, .str, .str "empirical"⟩,
  ⟨"psname_ext", .one, .str, .str ""⟩,
  ⟨"verbose", .flag, .str, .bool false⟩,
  ⟨"file_type", .one, .str, .str "uvh5"⟩,
  ⟨"filter_extensions", .one, .intTuples, .none⟩,
  ⟨"symmetric_taper", .one, .bool, .bool true⟩,
  ⟨"include_autocorrs", .flag, .str, .bool false⟩,
  ⟨"exclude_crosscorrs", .flag, .str, .bool false⟩,
  ⟨"interleave_times", .flag, .str, .bool false⟩,
  ⟨"xant_flag_thresh", .one, .float, .num (19 / 20)⟩,
  ⟨"store_window", .flag, .str, .bool false⟩,
  ⟨"allow_fft", .flag, .str, .bool false⟩]

/-- Parameters of `pspec_run` with their defaults, pspecdata.py L4500-4555. -/
def pspecSig : List (String × Option Val) := [
  ("dsets", none),
  ("filename", none),
  ("dsets_std", some (.none)),
  ("cals", some (.none)),
  ("cal_flag", some (.bool true)),
  ("groupname", some (.none)),
  ("dset_labels", some (.none)),
  ("dset_pairs", some (.none)),
  ("psname_ext", some (.none)),
  ("spw_ranges", some (.none)),
  ("n_dlys", some (.none)),
  ("pol_pairs", some (.none)),
  ("blpairs", some (.none)),
  ("input_data_weight", some (.str "identity")),
  ("norm", some (.str "I")),
  ("taper", some (.str "none")),
  ("sampling", some (.bool false)),
  ("exclude_auto_bls", some (.bool false)),
  ("exclude_cross_bls", some (.bool false)),
  ("exclude_permutations", some (.bool true)),
  ("Nblps_per_group", some (.none)),
  ("bl_len_range", some (.tup [.int 0, .num (10000000000)])),
  ("bl_deg_range", some (.tup [.int 0, .int 180])),
  ("bl_error_tol", some (.num (1))),
  ("store_window", some (.bool true)),
  ("exact_windows", some (.bool false)),
  ("ftbeam", some (.none)),
  ("beam", some (.none)),
  ("cosmo", some (.none)),
  ("interleave_times", some (.bool false)),
  ("rephase_to_dset", some (.none)),
  ("trim_dset_lsts", some (.bool false)),
  ("broadcast_dset_flags", some (.bool true)),
  ("time_thresh", some (.num (1 / 5))),
  ("Jy2mK", some (.bool false)),
  ("overwrite", some (.bool true)),
  ("symmetric_taper", some (.bool true)),
  ("file_type", some (.str "miriad")),
  ("verbose", some (.bool true)),
  ("exact_norm", some (.bool false)),
  ("store_cov", some (.bool false)),
  ("store_cov_diag", some (.bool false)),
  ("filter_extensions", some (.none)),
  ("history", some (.str "")),
  ("r_params", some (.none)),
  ("tsleep", some (.num (1 / 10))),
  ("maxiter", some (.int 1)),
  ("return_q", some (.bool false)),
  ("known_cov", some (.none)),
  ("cov_model", some (.str "empirical")),
  ("include_autocorrs", some (.bool false)),
  ("include_crosscorrs", some (.bool true)),
  ("xant_flag_thresh", some (.num (19 / 20))),
  ("allow_fft", some (.bool false))]

/-- Options of `get_bootstrap_run_argparser`, grouping.py L2096-2178. -/
def bootOpts : List Opt := [
  ⟨"spectra", .plus, .str, .none⟩,
  ⟨"blpair_groups", .one, .intLists, .none⟩,
  ⟨"time_avg", .one, .bool, .bool false⟩,
  ⟨"Nsamples", .one, .int, .int 100⟩,
  ⟨"seed", .one, .int, .int 0⟩,
  ⟨"normal_std", .one, .bool, .bool true⟩,
  ⟨"robust_std", .one, .bool, .bool false⟩,
  ⟨"cintervals", .plus, .float, .none⟩,
  ⟨"keep_samples", .flag, .str, .bool false⟩,
  ⟨"bl_error_tol", .one, .float, .num (1)⟩,
  ⟨"overwrite", .flag, .str, .bool false⟩,
  ⟨"add_to_history", .one, .str, .str ""⟩,
  ⟨"verbose", .flag, .str, .bool false⟩]

/-- Parameters of `bootstrap_run` with their defaults, grouping.py L1930-1946. -/
def bootSig : List (String × Option Val) := [
  ("filename", none),
  ("spectra", some (.none)),
  ("blpair_groups", some (.none)),
  ("time_avg", some (.bool false)),
  ("Nsamples", some (.int 1000)),
  ("seed", some (.int 0)),
  ("normal_std", some (.bool true)),
  ("robust_std", some (.bool true)),
  ("cintervals", some (.none)),
  ("keep_samples", some (.bool false)),
  ("bl_error_tol", some (.num (1))),
  ("overwrite", some (.bool false)),
  ("add_to_history", some (.str "")),
  ("verbose", some (.bool true)),
  ("maxiter", some (.int 1))]

/-- Options of `uvp_noise_error_parser`, utils.py L1759-1779. -/
def noiseOpts : List Opt := [
  ⟨"groups", .plus, .str, .none⟩,
  ⟨"spectra", .plus, .str, .none⟩,
  ⟨"err_type", .plus, .str, .str "P_N"⟩]

/-- Options of `generate_pstokes_argparser`, pstokes.py L537-562. -/
def stokesOpts : List Opt := [
  ⟨"pstokes", .plus, .str, .str "pI"⟩,
  ⟨"outputdata", .one, .str, .none⟩,
  ⟨"clobber", .flag, .str, .bool false⟩,
  ⟨"keep_vispols", .flag, .str, .bool false⟩]

/-- A string value. Used by the scripts, scripts/pspec_run.py L16-17. -/
def vstr (s : Str) : Val := .str (String.ofList s)

/-- Negation of a flag, scripts/pspec_run.py L20. -/
def vnot : Option Val → Val
  | some (.bool b) => .bool (!b)
  | _ => .none

/-- scripts/pspec_run.py L8-27: `extra` are the options added by `parse_args`; `argv` is `sys.argv`. The result is the bound call of `pspec_run`. -/
def pspecScript (fl : Str → Option Rat) (extra : List Opt) (argv : List Str) (occs : List (String × List Str)) (chunks : List (List Str)) : Except Err (Dict String Val) :=
  match parse fl (pspecOpts ++ extra) occs with
  | .error e => .error e
  | .ok ns => match starThenOne chunks with
    | .error e => .error e
    | .ok (dsets, filename) =>
      let kw : Dict String Val := ns.filter (fun e => !(extra.map (·.name)).contains e.1)
      let kw' : Dict String Val := (Dict.del kw "exclude_crosscorrs").set "include_crosscorrs" (vnot (Dict.get kw "exclude_crosscorrs"))
      bind pspecSig (("dsets", .list (dsets.map vstr)) :: ("filename", vstr filename) :: ("history", vstr (List.intercalate [' '] argv)) :: kw')

/-- scripts/bootstrap_run.py L11-20: nothing is filtered. -/
def bootScript (fl : Str → Option Rat) (extra : List Opt) (occs : List (String × List Str)) (chunks : List (List Str)) : Except Err (Dict String Val) :=
  match parse fl (bootOpts ++ extra) occs with
  | .error e => .error e
  | .ok ns => match oneArg chunks with
    | .error e => .error e
    | .ok filename => bind bootSig (("filename", vstr filename) :: ns)

/-- Names at the top level of container.py, L1-9, L12, L55, L512, L632. -/
def containerNames : List String := ["argparse", "time", "warnings", "wraps", "h5py", "np", "__version__", "utils", "uvpspec", "transactional", "PSpecContainer",
  "combine_psc_spectra", "get_combine_psc_spectra_argparser"]

/-- Options of `get_combine_psc_spectra_argparser`, container.py L644-662. -/
def combineOpts : List Opt := [
  ⟨"dset_split_str", .one, .str, .str "_x_"⟩,
  ⟨"ext_split_str", .one, .str, .str "_"⟩,
  ⟨"verbose", .flag, .str, .bool false⟩]

/-- Parameters of `combine_psc_spectra`, container.py L512-520. -/
def combineSig : List (String × Option Val) := [
  ("psc", none),
  ("groups", some .none),
  ("dset_split_str", some (.str "_x_")),
  ("ext_split_str", some (.str "_")),
  ("merge_history", some (.bool true)),
  ("verbose", some (.bool true)),
  ("overwrite", some (.bool false))]

/-- A value that must be on the namespace. Python language semantics, scripts/psc_merge_spectra.py L18-21. -/
def attrOf (ns : Dict String Val) (n : String) : Except Err Val :=
  match ns.get n with
  | some v => .ok v
  | Option.none => .error .attr

/-- The rest of scripts/psc_merge_spectra.py, L13-22, once the parser is there: the attribute `split` of the namespace is passed on as the keyword `split`
(`uvp_split_str` in the script). -/
def mergeWith (split : String) (fl : Str → Option Rat) (extra : List Opt) (occs : List (String × List Str)) (chunks : List (List Str)) : Except Err (Dict String Val) :=
  match parse fl (combineOpts ++ extra) occs with
  | .error e => .error e
  | .ok ns => match oneArg chunks with
    | .error e => .error e
    | .ok filename => match attrOf ns split, attrOf ns "ext_split_str", attrOf ns "verbose" with
      | .ok a, .ok b, .ok c => bind combineSig [("psc", vstr filename), (split, a), ("ext_split_str", b), ("verbose", c)]
      | _, _, _ => .error .attr

/-- scripts/psc_merge_spectra.py L12-22: the parser is looked up in the module first. -/
def mergeScript (fl : Str → Option Rat) (extra : List Opt) (occs : List (String × List Str)) (chunks : List (List Str)) : Except Err (Dict String Val) :=
  if "get_combine_psc_argparser" ∈ containerNames then mergeWith "uvp_split_str" fl extra occs chunks else .error .attr

/-- Parameters of `PSpecData.pspec`, pspecdata.py L3270-3299. -/
def methodSig : List (String × Option Val) := [
  ("bls1", none), ("bls2", none), ("dsets", none), ("pols", none), ("n_dlys", some .none), ("input_data_weight", some (.str "identity")), ("norm", some (.str "I")),
  ("taper", some (.str "none")), ("sampling", some (.bool false)), ("little_h", some (.bool true)), ("spw_ranges", some .none), ("symmetric_taper", some (.bool true)),
  ("baseline_tol", some (.num 1)), ("store_cov", some (.bool false)), ("store_cov_diag", some (.bool false)), ("return_q", some (.bool false)),
  ("store_window", some (.bool true)), ("exact_windows", some (.bool false)), ("ftbeam", some .none), ("verbose", some (.bool true)), ("filter_extensions", some .none),
  ("exact_norm", some (.bool false)), ("history", some (.str "")), ("r_params", some .none), ("cov_model", some (.str "empirical")), ("known_cov", some .none),
  ("allow_fft", some (.bool false))]

/-- The call of `pspec` in scripts/pspec_red.py L128-140, for any baselines, data sets and settings. -/
def redCall (bls : Val) (i j : Int) (weight norm taper avg auto perm little : Val) : Except Err (Dict String Val) :=
  bind methodSig [("bls1", .list [bls]), ("bls2", .list [bls]), ("dsets", .tup [.int i, .int j]), ("input_data_weight", weight), ("norm", norm), ("taper", taper),
    ("avg_group", avg), ("exclude_auto_bls", auto), ("exclude_permutations", perm), ("spw_ranges", .none), ("little_h", little)]

end HeraPspec.Cli
