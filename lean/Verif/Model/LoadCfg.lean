import Verif.Model.PyDict

/-!
Model of `load_config` (utils.py L746-778) after the YAML parser: the replacement of entries. Reading and parsing the file (L769-773) are
not modelled. Dictionaries are changed in place by the code; since aliases in YAML make one dictionary appear in several places, it may be
visited repeatedly (see the idempotence theorem of C118).
-/
namespace HeraPspec.LoadCfg

/-- A scalar of YAML. Used by `Y`, utils.py L771. -/
inductive Atom | null | bool (b : Bool) | num (n : Int) | str (s : List Char)
  deriving DecidableEq

/-- A value after parsing: scalars, lists, tuples and dictionaries. Used by `replaceD`, utils.py L754-766. -/
inductive Y
  | atom (a : Atom)
  | list (l : List Y)
  | tuple (l : List Y)
  | dict (d : List (List Char × Y))

/-- `isinstance(i, list)`, utils.py L762. -/
def isList : Y → Bool
  | .list _ => true
  | _ => false

/-- `tuple(i)` for a list, utils.py L764; other values are left alone (they do not occur there). -/
def toTuple : Y → Y
  | .list l => .tuple l
  | y => y

mutual
/-- What happens to one value of a dictionary, utils.py L757-766. -/
def entry : Y → Y
  | .atom (.str s) => if s = "None".toList then .atom .null else .atom (.str s)
  | .atom a => .atom a
  | .tuple l => .tuple l
  | .list l => if l.all isList then .list (l.map toTuple) else .list l
  | .dict d => .dict (replaceD d)
/-- `replace(d)` on the entries of a dictionary, utils.py L756-766. -/
def replaceD : List (List Char × Y) → List (List Char × Y)
  | [] => []
  | e :: d => replaceE e :: replaceD d
/-- One entry of a dictionary, utils.py L756-766. -/
def replaceE : List Char × Y → List Char × Y
  | (k, v) => (k, entry v)
end

/-- `replace(cfg); return cfg`, utils.py L755, L776-778: a value that is not a dictionary is returned as it is. -/
def loadConfig : Y → Y
  | .dict d => .dict (replaceD d)
  | y => y

end HeraPspec.LoadCfg
