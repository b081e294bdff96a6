import Mathlib.Data.Nat.Digits.Defs

/-!
Model of the polarization-pair integer code, uvpspec_utils.py L377-465.
-/
namespace HeraPspec.Polpair

/-- Exceptions raised: `ValueError` (either from `int(str)` or from the range check). Used by `int2tuple`, uvpspec_utils.py L403-418. -/
inductive Err | value
  deriving DecidableEq, Repr

/-- The characters that occur in `str(n)` of a Python integer: a minus sign and the ten digits. Used by `pyStr`, uvpspec_utils.py L404-405. -/
inductive Ch | minus | dig (n : Nat)
  deriving DecidableEq, Repr

/-- Decimal digits, most significant first; `0` is written with one digit. Used by `pyStr`, uvpspec_utils.py L404-405. -/
def decDigits (n : Nat) : List Nat := if n = 0 then [0] else (Nat.digits 10 n).reverse

/-- Python `str(n)` for an integer (used at uvpspec_utils.py L404-405). -/
def pyStr (n : Int) : List Ch :=
  if n < 0 then Ch.minus :: (decDigits n.natAbs).map Ch.dig else (decDigits n.natAbs).map Ch.dig

/-- Value of a string of digits, or none if some character is not a digit. Used by `pyInt`, uvpspec_utils.py L403-418. -/
def digitsVal : List Ch → Nat → Option Nat
  | [], acc => some acc
  | Ch.minus :: _, _ => none
  | Ch.dig d :: cs, acc => digitsVal cs (10 * acc + d)

/-- Python `int(s)` on substrings of `str(n)`: an optional minus sign followed by at least one digit; anything
else (in particular the empty string) raises `ValueError`. Used by `int2tuple`, uvpspec_utils.py L403-418. -/
def pyInt : List Ch → Except Err Int
  | [] => .error .value
  | [Ch.minus] => .error .value
  | Ch.minus :: cs => match digitsVal cs 0 with
    | some v => .ok (-(v : Int))
    | none => .error .value
  | cs => match digitsVal cs 0 with
    | some v => .ok (v : Int)
    | none => .error .value

/-- Python `s[:-2]`. Used by `int2tuple`, uvpspec_utils.py L403-418. -/
def dropLast2 (s : List Ch) : List Ch := s.take (s.length - 2)
/-- Python `s[-2:]`. Used by `int2tuple`, uvpspec_utils.py L403-418. -/
def last2 (s : List Ch) : List Ch := s.drop (s.length - 2)

/-- `polpair_int2tuple` for an integer argument with `pol_strings=False`, uvpspec_utils.py L403-418. (The list
argument maps this function; conversion to polarization strings is done by pyuvdata and is not modelled.) -/
def int2tuple (n : Int) : Except Err (Int × Int) := do
  let pol1 := (← pyInt (dropLast2 (pyStr n))) - 20
  let pol2 := (← pyInt (last2 (pyStr n))) - 20
  if (pol1 < -8 ∨ pol1 > 4) ∨ (pol2 < -8 ∨ pol2 > 4) then .error .value else .ok (pol1, pol2)

/-- `polpair_tuple2int` for a tuple of integers, uvpspec_utils.py L464. -/
def tuple2int (p : Int × Int) : Int := (20 + p.1) * 100 + (20 + p.2)

end HeraPspec.Polpair
