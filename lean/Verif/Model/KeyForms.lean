import Verif.Model.UVP
import Verif.Model.Polpair
import Verif.Model.Antnums

/-!
Keys, baseline-pairs and polarization pairs in the spellings the interface of UVPSpec accepts: integers, strings, tuples,
and keys as tuples or dictionaries. `num o s` is pyuvdata's `polstr2num(s, x_orientation=o)` (`none`: `KeyError`), `name n`
is `polnum2str(n)` (`none`: `KeyError`, for example for 0); both are parameters.
-/
namespace HeraPspec.KeyForms
open HeraPspec (Dict)

/-- Exceptions: those of `UVPSpec` methods, `KeyError` of `polstr2num`, `TypeError`. Used by `keyV`, uvpspec.py L1580-1609. -/
inductive Err | uvp (e : UVP.Err) | polStr | type
  deriving DecidableEq, Repr

/-- An element of a polarization tuple: integer or string, uvpspec_utils.py L467-472. -/
inductive PolEl | num (n : Int) | str (s : String)
  deriving DecidableEq, Repr

/-- A polarization pair as a caller writes it: integer, string or tuple, uvpspec.py L1463-1468. -/
inductive PolArg | num (n : Int) | str (s : String) | tup (l : List PolEl)
  deriving DecidableEq, Repr

/-- A baseline-pair as a caller writes it: integer or nested tuple, uvpspec.py L1321. -/
inductive BlpArg | num (n : Int) | tup (p : Antnums.Blp)
  deriving DecidableEq, Repr

/-- A value in a key: any of the above (and a window integer), uvpspec.py L1586-1597. -/
inductive KV | num (n : Int) | str (s : String) | pol (l : List PolEl) | blp (p : Antnums.Blp)
  deriving DecidableEq, Repr

/-- A key: a tuple (or list) or a dictionary, uvpspec.py L1581-1588. -/
inductive Key | tup (l : List KV) | dict (d : Dict String KV)

/-- Run a function over a list, stopping at the first exception (list comprehensions, uvpspec.py L1482-1491). -/
def mapE {α β : Type} (f : α → Except Err β) : List α → Except Err (List β)
  | [] => .ok []
  | a :: l => match f a with
    | .error e => .error e
    | .ok b => match mapE f l with
      | .error e => .error e
      | .ok bs => .ok (b :: bs)

section
variable (num : Option String → String → Option Int)

/-- One element of the tuple: strings are converted with the orientation, uvpspec_utils.py L469-472. -/
def elNum (o : Option String) : PolEl → Except Err Int
  | .num n => .ok n
  | .str s => match num o s with
    | some n => .ok n
    | none => .error .polStr

/-- `polpair_tuple2int` for a tuple, uvpspec_utils.py L463-476: the length assertion, then the first and the second element
converted, then the two numbers joined. -/
def tuple2int (o : Option String) : List PolEl → Except Err Int
  | [a, b] => match elNum num o a with
    | .error e => .error e
    | .ok x => match elNum num o b with
      | .error e => .error e
      | .ok y => .ok (Polpair.tuple2int (x, y))
  | _ => .error (.uvp .assertion)

/-- `polpair_tuple2int` of one value: anything that is not a tuple fails the assertion, uvpspec_utils.py L464. -/
def tuple2intArg (o : Option String) : PolArg → Except Err Int
  | .tup l => tuple2int num o l
  | _ => .error (.uvp .assertion)

/-- `polpair_tuple2int` of a list: the recursive call does not pass the orientation on, uvpspec_utils.py L460-461. -/
def tuple2intList (_o : Option String) (l : List PolArg) : Except Err (List Int) :=
  mapE (tuple2intArg num none) l

/-- First pass: a string `p` becomes the integer of `(p, p)`, uvpspec.py L1482-1485 and uvpspec_utils.py L715-717. -/
def passStr : PolArg → Except Err PolArg
  | .str s => match tuple2int num none [.str s, .str s] with
    | .ok n => .ok (.num n)
    | .error e => .error e
  | p => .ok p

/-- Second pass: a tuple becomes its integer, uvpspec.py L1488-1491 and uvpspec_utils.py L720-722. (After the first pass no
string is left; the last case does not occur.) -/
def passTup : PolArg → Except Err Int
  | .tup l => tuple2int num none l
  | .num n => .ok n
  | .str _ => .error .type

/-- Both passes over a list, uvpspec.py L1482-1491 and uvpspec_utils.py L715-722. -/
def polInts (l : List PolArg) : Except Err (List Int) :=
  match mapE (passStr num) l with
  | .error e => .error e
  | .ok l' => mapE (passTup num) l'

/-- A `UVP` result with its exception embedded. Used by `polpairToIndicesV`, uvpspec.py L1493-1500. -/
def lift {α : Type} : Except UVP.Err α → Except Err α
  | .ok a => .ok a
  | .error e => .error (.uvp e)

variable {D W : Type}

/-- `polpair_to_indices` of a list in any spelling, uvpspec.py L1475-1500. -/
def polpairToIndicesV (u : UVP.UVP D W) (l : List PolArg) : Except Err (List Nat) :=
  match polInts num l with
  | .error e => .error e
  | .ok ns => lift (UVP.polpairToIndices u ns)

/-- The `polpairs` argument of `select`: `polpairs[0]` raises `IndexError` on an empty list, then the two passes and the
selection, uvpspec_utils.py L705-738. -/
def polSelV (u : UVP.UVP D W) : Option (List PolArg) → Except Err UVP.Sel
  | none => .ok .all
  | some [] => .error (.uvp .index)
  | some l => match polInts num l with
    | .error e => .error e
    | .ok ns => lift (UVP.polSel u (some ns))

/-- A baseline-pair integer, whatever the spelling: `antnums_to_blpair` of a tuple, uvpspec.py L1325-1328, L1604-1605. -/
def blpInt : BlpArg → Int
  | .num n => n
  | .tup p => Antnums.antnumsToBlpair p

/-- An element of a list whose first element is a tuple: `antnums_to_blpair`; an integer fails to unpack (`TypeError`),
uvpspec.py L1330-1331. -/
def asTup : BlpArg → Except Err Int
  | .tup q => .ok (Antnums.antnumsToBlpair q)
  | .num _ => .error .type

/-- An element of a list whose first element is an integer: a tuple is not in the array, the assertion, uvpspec.py L1333. -/
def asNum : BlpArg → Except Err Int
  | .num m => .ok m
  | .tup _ => .error (.uvp .assertion)

/-- Conversion of a list of baseline-pairs: decided by the first element (`IndexError` on an empty list), uvpspec.py
L1329-1335. -/
def blpInts : List BlpArg → Except Err (List Int)
  | [] => .error (.uvp .index)
  | .tup p :: l => mapE asTup (.tup p :: l)
  | .num n :: l => mapE asNum (.num n :: l)

/-- `blpair_to_indices` of a list, uvpspec.py L1329-1338. -/
def blpairToIndicesV (u : UVP.UVP D W) (l : List BlpArg) : Except Err (List Nat) :=
  match blpInts l with
  | .error e => .error e
  | .ok ns => lift (UVP.blpairToIndices u ns)

/-- The three elements of a key: the length is checked first (of the dictionary or the tuple), then a dictionary is read by
its keys `spw`, `blpair`, `polpair`, uvpspec.py L1581-1588. -/
def keyParts : Key → Except Err (KV × KV × KV)
  | .tup [a, b, c] => .ok (a, b, c)
  | .tup _ => .error (.uvp .assertion)
  | .dict d => if d.length = 3 then
      (match Dict.get d "spw", Dict.get d "blpair", Dict.get d "polpair" with
        | some a, some b, some c => .ok (a, b, c)
        | _, _, _ => .error (.uvp .key))
    else .error (.uvp .assertion)

/-- The baseline-pair of a key as an integer: a tuple that is not a pair of pairs of integers fails to unpack (all of these
are one `TypeError` here), uvpspec.py L1604-1605. -/
def keyBlp : KV → Except Err Int
  | .num n => .ok n
  | .blp p => .ok (Antnums.antnumsToBlpair p)
  | _ => .error .type

/-- The polarization pair of a key as an integer: a string stands for the pair with itself, uvpspec.py L1600-1601,
L1608-1609 (adding 20 to a nested tuple is a `TypeError`). -/
def keyPol : KV → Except Err Int
  | .num n => .ok n
  | .str s => tuple2int num none [.str s, .str s]
  | .pol l => tuple2int num none l
  | .blp _ => .error .type

/-- The types of the elements of a key, asserted in the order window, baseline-pair, polarization, uvpspec.py L1591-1597. -/
def keyTypes : KV × KV × KV → Except Err Unit
  | (.num _, .num _, _) => .ok ()
  | (.num _, .blp _, _) => .ok ()
  | (.num _, .pol _, _) => .ok ()
  | _ => .error (.uvp .assertion)

/-- The key of integers a key stands for, uvpspec.py L1580-1609. -/
def keyInts (k : Key) : Except Err (Int × Int × Int) :=
  match keyParts k with
  | .error e => .error e
  | .ok (s, b, p) => match keyTypes (s, b, p) with
    | .error e => .error e
    | .ok _ => match keyBlp b with
      | .error e => .error e
      | .ok bi => match keyPol num p with
        | .error e => .error e
        | .ok pi => match s with
          | .num n => .ok (n, bi, pi)
          | _ => .error (.uvp .assertion)

/-- `key_to_indices` for a key in any spelling, uvpspec.py L1580-1635. A negative window integer is in no window array, so
it fails the assertion of L1612-1614. -/
def keyToIndicesV (u : UVP.UVP D W) (k : Key) : Except Err (Nat × List Nat × Nat) :=
  match keyInts num k with
  | .error e => .error e
  | .ok (s, b, p) => if s < 0 then .error (.uvp .assertion) else lift (UVP.keyToIndices u s.toNat b p)

/-- `get_data` for a key in any spelling, uvpspec.py L708-717. -/
def getDataV (u : UVP.UVP D W) (k : Key) : Except Err (List (List D)) :=
  match keyInts num k with
  | .error e => .error e
  | .ok (s, b, p) => if s < 0 then .error (.uvp .assertion) else lift (UVP.getData u s.toNat b p)

/-- The polarization strings of a stored pair, `polpair_int2tuple` and `polnum2str` of both numbers, uvpspec.py L1024-1025. -/
def polNames (name : Int → Option String) (p : Int) : Except Err (List PolEl) :=
  match Polpair.int2tuple p with
  | .error _ => .error (.uvp .value)
  | .ok (a, b) => match name a with
    | none => .error .polStr
    | some x => match name b with
      | none => .error .polStr
      | some y => .ok [.str x, .str y]

/-- One window of `get_all_keys`: for every stored polarization pair its strings, for every baseline-pair its tuple,
uvpspec.py L1023-1026. -/
def allKeysSpw (name : Int → Option String) (u : UVP.UVP D W) (s : Nat) : Except Err (List Key) :=
  match mapE (polNames name) u.polpairArray with
  | .error e => .error e
  | .ok ps => .ok (ps.flatMap (fun p => (UVP.orderedUnique u.blpairArray).map
      (fun b => Key.tup [.num s, .blp (Antnums.blpairToAntnums b), .pol p])))

/-- `get_all_keys`, with the tuples and strings it really returns, uvpspec.py L1016-1028. -/
def allKeysV (name : Int → Option String) (u : UVP.UVP D W) : Except Err (List Key) :=
  match mapE (allKeysSpw name u) (List.range u.spwArray.length) with
  | .error e => .error e
  | .ok ks => .ok ks.flatten

end

end HeraPspec.KeyForms
