import Verif.Model.KeyForms

/-!
What a spelling denotes: the integers, written out as decimal blocks. None of the model's conversion functions is used.
-/
namespace HeraPspec.KeyForms

/-- The number an element of a polarization tuple stands for. -/
inductive ElDen (num : Option String → String → Option Int) : PolEl → Int → Prop
  | num (n : Int) : ElDen num (.num n) n
  | str (s : String) (n : Int) (h : num none s = some n) : ElDen num (.str s) n

/-- The polarization-pair integer a spelling stands for: an integer for itself, a string for that polarization with itself, a
pair for both numbers plus 20 written side by side in two digits each. -/
inductive PolDen (num : Option String → String → Option Int) : PolArg → Int → Prop
  | num (n : Int) : PolDen num (.num n) n
  | str (s : String) (k : Int) (h : num none s = some k) : PolDen num (.str s) ((k + 20) * 100 + (k + 20))
  | tup (a b : PolEl) (x y : Int) (ha : ElDen num a x) (hb : ElDen num b y) :
      PolDen num (.tup [a, b]) ((x + 20) * 100 + (y + 20))

/-- The baseline-pair integer a nested tuple stands for: every antenna plus 100, in blocks of three digits. -/
def blpCode (p : Antnums.Blp) : Int :=
  (p.1.1 + 100) * 1000000000 + (p.1.2 + 100) * 1000000 + (p.2.1 + 100) * 1000 + (p.2.2 + 100)

/-- The integer a baseline-pair spelling stands for. -/
inductive BlpDen : BlpArg → Int → Prop
  | num (n : Int) : BlpDen (.num n) n
  | tup (p : Antnums.Blp) : BlpDen (.tup p) (blpCode p)

/-- A value of a key seen as a baseline-pair. -/
inductive KVBlp : KV → Int → Prop
  | num (n : Int) : KVBlp (.num n) n
  | tup (p : Antnums.Blp) : KVBlp (.blp p) (blpCode p)

/-- A value of a key seen as a polarization pair. -/
inductive KVPol (num : Option String → String → Option Int) : KV → Int → Prop
  | num (n : Int) : KVPol num (.num n) n
  | str (s : String) (k : Int) (h : num none s = some k) : KVPol num (.str s) ((k + 20) * 100 + (k + 20))
  | tup (a b : PolEl) (x y : Int) (ha : ElDen num a x) (hb : ElDen num b y) :
      KVPol num (.pol [a, b]) ((x + 20) * 100 + (y + 20))

/-- The integer key a key stands for: three values, in the order (window, baseline-pair, polarization pair), or under
the names `spw`, `blpair`, `polpair` of a dictionary with three entries. -/
inductive KeyDen (num : Option String → String → Option Int) : Key → Int × Int × Int → Prop
  | tup (s b p : Int) (vb vp : KV) (hb : KVBlp vb b) (hp : KVPol num vp p) : KeyDen num (.tup [.num s, vb, vp]) (s, b, p)
  | dict (d : Dict String KV) (s b p : Int) (vb vp : KV) (hl : d.length = 3) (hs : Dict.get d "spw" = some (.num s))
      (hvb : Dict.get d "blpair" = some vb) (hvp : Dict.get d "polpair" = some vp)
      (hb : KVBlp vb b) (hp : KVPol num vp p) : KeyDen num (.dict d) (s, b, p)

end HeraPspec.KeyForms
