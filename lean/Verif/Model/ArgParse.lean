import Verif.Model.UVP

/-!
Model of the list parsers of `get_pspec_run_argparser` (pspecdata.py L5193-5226). Strings are lists of characters.
Simplifications: whitespace is the ASCII whitespace, and `int` accepts an optional sign and decimal digits (not the underscores
and Unicode digits Python also accepts).
-/
namespace HeraPspec.ArgParse
open HeraPspec.UVP (mapE)

/-- Strings. Used by `intTuple`, pspecdata.py L5202. -/
abbrev Str := List Char

/-- `ValueError`. Used by `intTuple`, pspecdata.py L5202. -/
inductive Err | value
  deriving DecidableEq, Repr

/-- Whitespace. Used by `splitWs`, pspecdata.py L5202. -/
def isWs (c : Char) : Bool := c = ' ' || c = '\t' || c = '\n' || c = '\r' || c = '\x0b' || c = '\x0c'

/-- Split at every character that satisfies `p`. Used by `splitOn`, pspecdata.py L5202. -/
def splitP (p : Char → Bool) : Str → List Str
  | [] => [[]]
  | c :: cs =>
    if p c then [] :: splitP p cs
    else match splitP p cs with
      | [] => [[c]]
      | w :: ws => (c :: w) :: ws

/-- `s.split(c)` for a one-character separator. Used by `intTuple`, pspecdata.py L5202. -/
def splitOn (c : Char) (s : Str) : List Str := splitP (fun x => x = c) s

/-- `s.split()`: split at whitespace, without empty pieces. Used by `intTuple`, pspecdata.py L5202. -/
def splitWs (s : Str) : List Str := (splitP isWs s).filter (fun w => w ≠ [])

/-- `s.strip()`. Used by `pyInt`, pspecdata.py L5202. -/
def strip (s : Str) : Str := ((s.dropWhile isWs).reverse.dropWhile isWs).reverse

/-- Decimal digits to a number. Used by `pyInt`, pspecdata.py L5202. -/
def digitsVal (s : Str) : Except Err Nat :=
  if s ≠ [] ∧ s.all Char.isDigit then .ok (Nat.ofDigitChars 10 s 0) else .error .value

/-- `int(s)` (with the simplifications above). Used by `intTuple`, pspecdata.py L5202. -/
def pyInt (s : Str) : Except Err Int :=
  match strip s with
  | '-' :: ds => (match digitsVal ds with | .ok n => .ok (-(n : Int)) | .error e => .error e)
  | '+' :: ds => (match digitsVal ds with | .ok n => .ok (n : Int) | .error e => .error e)
  | ds => (match digitsVal ds with | .ok n => .ok (n : Int) | .error e => .error e)

/-- One tuple, L5202 or L5204. -/
def intTuple (tilde : Bool) (x : Str) : Except Err (List Int) := mapE pyInt (if tilde then splitOn '~' x else splitWs x)

/-- `list_of_int_tuples`, pspecdata.py L5196-5205. -/
def listOfIntTuples (v : Str) : Except Err (List (List Int)) :=
  mapE (intTuple (decide ('~' ∈ v))) (splitOn ',' v)

/-- `list_of_str_tuples`, pspecdata.py L5207-5216. -/
def listOfStrTuples (v : Str) : List (List Str) :=
  (splitOn ',' v).map (fun x => if '~' ∈ v then splitOn '~' x else splitWs x)

/-- `list_of_tuple_tuples`, pspecdata.py L5218-5227: `(x[:2], x[2:])` of each tuple. -/
def listOfTupleTuples (v : Str) : Except Err (List (List Int × List Int)) :=
  match listOfIntTuples v with
  | .ok l => .ok (l.map (fun x => (x.take 2, x.drop 2)))
  | .error e => .error e

end HeraPspec.ArgParse
