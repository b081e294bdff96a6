import Mathlib.Data.Rat.Floor
import Mathlib.Tactic.NormNum
import Mathlib.Tactic.Ring
import Mathlib.Tactic.Linarith

/-!
Model of the baseline / baseline-pair integer encoding of hera_pspec.

Every floating point operation of the Python code is written `fl (...)`, where `fl : ℚ → ℚ` is the rounding
function applied to the exact result. `fl = id` is exact arithmetic.
-/
namespace HeraPspec.Antnums

/-- A baseline: a tuple of two antenna numbers. Used by `blToAntnumsFl`, uvpspec_utils.py L1026-1034. -/
abbrev Bl := Int × Int
/-- A baseline-pair: nested tuple of antenna numbers `((a1,a2),(a3,a4))`. Used by `blpairToAntnumsFl`, uvpspec_utils.py L965-978. -/
abbrev Blp := Bl × Bl

/-- `_blpair_to_antnums`, uvpspec_utils.py L965-978. `blpair / 1e9` etc. are float operations, `int(np.floor(.))`
is `⌊.⌋`. (A Python/numpy integer below 2^53 converts to a double exactly.) -/
def blpairToAntnumsFl (fl : ℚ → ℚ) (b : Int) : Blp :=
  let ant1 : Int := ⌊fl ((b : ℚ) / 1000000000)⌋
  let ant2 : Int := ⌊fl (fl ((b : ℚ) / 1000000) - fl ((ant1 : ℚ) * 1000))⌋
  let ant3 : Int := ⌊fl (fl (fl ((b : ℚ) / 1000) - fl ((ant1 : ℚ) * 1000000)) - fl ((ant2 : ℚ) * 1000))⌋
  let ant4 : Int := ⌊fl (fl (fl ((b : ℚ) - fl ((ant1 : ℚ) * 1000000000)) - fl ((ant2 : ℚ) * 1000000))
                      - fl ((ant3 : ℚ) * 1000))⌋
  ((ant1 - 100, ant2 - 100), (ant3 - 100, ant4 - 100))

/-- `_antnums_to_blpair`, uvpspec_utils.py L999-1008. `int(.)` of a float truncates towards zero; the argument is
modelled with its rounding and truncated by `Int.tdiv` of the rational's numerator. -/
def truncRat (q : ℚ) : Int := Int.tdiv q.num q.den

/-- `_antnums_to_blpair`, uvpspec_utils.py L999-1008, with the float operations rounded by `fl`. -/
def antnumsToBlpairFl (fl : ℚ → ℚ) (a : Blp) : Int :=
  let ant1 := a.1.1 + 100
  let ant2 := a.1.2 + 100
  let ant3 := a.2.1 + 100
  let ant4 := a.2.2 + 100
  truncRat (fl (fl (fl (fl ((ant1 : ℚ) * 1000000000) + fl ((ant2 : ℚ) * 1000000)) + fl ((ant3 : ℚ) * 1000)) + (ant4 : ℚ)))

/-- `_bl_to_antnums`, uvpspec_utils.py L1026-1034. -/
def blToAntnumsFl (fl : ℚ → ℚ) (b : Int) : Bl :=
  let ant1 : Int := ⌊fl ((b : ℚ) / 1000)⌋
  let ant2 : Int := ⌊fl ((b : ℚ) - fl ((ant1 : ℚ) * 1000))⌋
  (ant1 - 100, ant2 - 100)

/-- `_antnums_to_bl`, uvpspec_utils.py L1055-1062. -/
def antnumsToBlFl (fl : ℚ → ℚ) (a : Bl) : Int :=
  let ant1 := a.1 + 100
  let ant2 := a.2 + 100
  truncRat (fl (fl ((ant1 : ℚ) * 1000) + (ant2 : ℚ)))

/-- `_blpair_to_antnums` in exact arithmetic. Used by `blpairToBls`, uvpspec_utils.py L1074-1082. -/
def blpairToAntnums : Int → Blp := blpairToAntnumsFl id
/-- `_antnums_to_blpair` in exact arithmetic. Used by `conjBlpairInt`, uvpspec_utils.py L1100-1102. -/
def antnumsToBlpair : Blp → Int := antnumsToBlpairFl id
/-- `_bl_to_antnums` in exact arithmetic. Used by `conjBlInt`, uvpspec_utils.py L1120-1122. -/
def blToAntnums : Int → Bl := blToAntnumsFl id
/-- `_antnums_to_bl` in exact arithmetic. Used by `blpairToBls`, uvpspec_utils.py L1074-1082. -/
def antnumsToBl : Bl → Int := antnumsToBlFl id

/-- `_blpair_to_bls` for an integer argument, uvpspec_utils.py L1074-1082. -/
def blpairToBls (b : Int) : Int × Int :=
  let a := blpairToAntnums b
  (antnumsToBl a.1, antnumsToBl a.2)

/-- Python `t[::-1]` of a 2-tuple. Used by `conjBlpairInt`, uvpspec_utils.py L1100-1102. -/
def rev2 {α : Type} (t : α × α) : α × α := (t.2, t.1)

/-- `_conj_blpair_int`, uvpspec_utils.py L1100-1102. -/
def conjBlpairInt (b : Int) : Int := antnumsToBlpair (rev2 (blpairToAntnums b))

/-- `_conj_bl_int`, uvpspec_utils.py L1120-1122. -/
def conjBlInt (b : Int) : Int := antnumsToBl (rev2 (blToAntnums b))

/-- The error `_conj_blpair` raises (`ValueError`). Used by `conjBlpair`, uvpspec_utils.py L1143-1153. -/
inductive Err | value
  deriving DecidableEq, Repr

/-- `_conj_blpair`, uvpspec_utils.py L1143-1153. -/
def conjBlpair (b : Int) (which : String) : Except Err Int :=
  let a := blpairToAntnums b
  if which = "first" then .ok (antnumsToBlpair (rev2 a.1, a.2))
  else if which = "second" then .ok (antnumsToBlpair (a.1, rev2 a.2))
  else if which = "both" then .ok (antnumsToBlpair (rev2 a.1, rev2 a.2))
  else .error .value

end HeraPspec.Antnums
