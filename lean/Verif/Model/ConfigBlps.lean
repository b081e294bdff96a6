import Verif.Model.PyDict
import Verif.Model.Sort
import Mathlib.Data.Int.Notation
import Mathlib.Data.List.Dedup

/-!
Model of `config_pspec_blpairs` (utils.py L788-980). Strings are lists of characters. `glob.glob` is a parameter; so is the list of
baseline-pairs `calc_blpair_reds` (Model/RedGroups.lean) finds from the antennas of one file, which is `none` if that file cannot be
read. Printing is not modelled. `str.format` is modelled as filling in `{pol}` and `{group}`; other braces are not treated specially.
-/
namespace HeraPspec.ConfigBlps

/-- A Python string. Used by `config`, utils.py L788-980. -/
abbrev Str := List Char
/-- A baseline (antenna pair). Used by `config`, utils.py L955-969. -/
abbrev Bl := ℤ × ℤ

/-- Exceptions: AssertionError for lists of different lengths, IndexError without any file, OSError for an unreadable file. Used by
`config`, utils.py L880-941. -/
inductive Err | assertion | index | os
  deriving DecidableEq, Repr

/-- `s.replace(old, new)`: leftmost, non-overlapping; `fuel` bounds the number of steps. Used by `pyReplace`, utils.py L901-903. -/
def replaceAux (old new : Str) : ℕ → Str → Str
  | 0, s => s
  | _ + 1, [] => []
  | n + 1, c :: s => if old.isPrefixOf (c :: s) then new ++ replaceAux old new n ((c :: s).drop old.length) else c :: replaceAux old new n s

/-- `s.replace(old, new)` for a non-empty `old`, L901-903. -/
def pyReplace (old new s : Str) : Str := replaceAux old new s.length s

/-- `template.format(pol=pol, group=group)`, L895, L939. -/
def fill (t pol group : Str) : Str := pyReplace "{group}".toList group (pyReplace "{pol}".toList pol t)

/-- `_file.replace(f".{pol}.", ".{pol}.").replace(f".{group}.", ".{group}.")`, L901-903. -/
def unfill (f pol group : Str) : Str :=
  pyReplace ('.' :: group ++ ".".toList) ".{group}.".toList (pyReplace ('.' :: pol ++ ".".toList) ".{pol}.".toList f)

/-- Lexicographic order of strings. Used by `config`, utils.py L885-886, L906. -/
def strLe : Str → Str → Bool
  | [], _ => true
  | _ :: _, [] => false
  | a :: l, b :: m => if a.toNat < b.toNat then true else if b.toNat < a.toNat then false else strLe l m

/-- `sorted(set([item for sublist in pairs for item in sublist]))`, L885-886. -/
def names (pairs : List (Str × Str)) : List Str := pySorted strLe (pairs.flatMap (fun p => [p.1, p.2])).dedup

/-- All passes of the triple loop, L891-893. -/
def combos (templates pols groups : List Str) : List (Str × Str × Str) :=
  templates.flatMap (fun t => pols.flatMap (fun p => groups.map (fun g => (t, p, g))))

/-- `if _unique_file not in unique_files: unique_files.append(_unique_file)`, L904-905. -/
def addNew (l : List Str) (f : Str) : List Str := if f ∈ l then l else l ++ [f]

/-- What the triple loop collects: `unique_files` and `pol_grps`. Used by `step`, utils.py L889-905. -/
structure Found where
  files : List Str
  polGrps : List (Str × Str)

/-- One pass of the triple loop, L894-905. -/
def step (glob : Str → List Str) (st : Found) (c : Str × Str × Str) : Found :=
  { files := (glob (fill c.1 c.2.1 c.2.2)).foldl (fun l f => addNew l (unfill f c.2.1 c.2.2)) st.files
    polGrps := if 0 < (glob (fill c.1 c.2.1 c.2.2)).length then st.polGrps ++ [c.2] else st.polGrps }

/-- "parse wildcards in uv_templates", L888-905. -/
def search (glob : Str → List Str) (templates pols groups : List Str) : Found :=
  (combos templates pols groups).foldl (step glob) ⟨[], []⟩

/-- `pattern in f` for strings, L916. -/
def contains (pattern f : Str) : Bool := f.tails.any (fun t => pattern.isPrefixOf t)

/-- `to_exclude`, L909-923: a file is listed once per matching pattern. -/
def toExclude (patterns files : List Str) : List Str := files.flatMap (fun f => (patterns.filter (fun p => contains p f)).map (fun _ => f))

/-- "Exclude files that matched a pattern", L926-930. -/
def exclude (patterns files : List Str) : List Str := (toExclude patterns files).foldl (fun l f => l.erase f) files

/-- "take out xants if fed", L955-969. -/
def cutAnts (xants : Option (List ℤ)) (l : List (Bl × Bl)) : List (Bl × Bl) :=
  match xants with
  | none => l
  | some x => l.filter (fun p => decide (p.1.1 ∉ x ∧ p.1.2 ∉ x ∧ p.2.1 ∉ x ∧ p.2.2 ∉ x))

/-- The result: a dictionary, or the empty list of L936. Keys are (group pair, polarization pair). Used by `config`, utils.py L936, L972-980. -/
inductive Res
  | dict (d : Dict ((Str × Str) × (Str × Str)) (List (Bl × Bl)))
  | emptyList

/-- "iterate over pol-group pairs that exist", L971-980. -/
def groupings (polGrps : List (Str × Str)) (blps : List (Bl × Bl)) (l : List ((Str × Str) × (Str × Str))) :
    Dict ((Str × Str) × (Str × Str)) (List (Bl × Bl)) :=
  l.foldl (fun d x => if (x.1.1, x.2.1) ∉ polGrps ∨ (x.1.2, x.2.2) ∉ polGrps then d else Dict.set d (x.2, x.1) blps) []

/-- From the single file on, L938-980. -/
def finish (reds : Str → Option (List (Bl × Bl))) (xants : Option (List ℤ)) (files : List Str) (polGrps : List (Str × Str))
    (l : List ((Str × Str) × (Str × Str))) : Except Err Res :=
  match files, polGrps with
  | f :: _, g :: _ => match reds (fill f g.1 g.2) with
    | none => .error .os
    | some blps => .ok (.dict (groupings polGrps (cutAnts xants blps) l))
  | _, _ => .error .index

/-- `config_pspec_blpairs`, L788-980. -/
def config (glob : Str → List Str) (reds : Str → Option (List (Bl × Bl))) (templates : List Str) (polPairs groupPairs : List (Str × Str))
    (xants : Option (List ℤ)) (patterns : Option (List Str)) : Except Err Res :=
  if polPairs.length ≠ groupPairs.length then .error .assertion
  else
    let st := search glob templates (names polPairs) (names groupPairs)
    match patterns with
    | none => finish reds xants (pySorted strLe st.files) st.polGrps (polPairs.zip groupPairs)
    | some ps =>
      if (exclude ps (pySorted strLe st.files)).length = 0 then .ok .emptyList
      else finish reds xants (exclude ps (pySorted strLe st.files)) st.polGrps (polPairs.zip groupPairs)

end HeraPspec.ConfigBlps
