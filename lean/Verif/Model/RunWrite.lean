import Verif.Model.Window

/-!
Model of `UVWindow.run_and_write` (uvwindow.py L1290-1404): what it does to the file system. `get_cylindrical_wf` (Model/Window.lean) as a
function of the baseline length, and `get_kperp_bins` / `get_kpara_bins` for default bins, are parameters; each may raise.
A failure of HDF5 while writing is not modelled.
-/
namespace HeraPspec.RunWrite

/-- Exceptions: OSError for an existing file, ValueError for weights and bins, and whatever `get_cylindrical_wf` raises. Used by `run`,
uvwindow.py L1290-1404. -/
inductive Err | os | value | unit | cyl
  deriving DecidableEq, Repr

/-- A window of one baseline: (delay, kperp, kpara). Used by `scale`, uvwindow.py L1366-1373. -/
abbrev Cyl := List (List (List ℝ))

/-- The attributes of the object that are written, L1377-1387, L1396-1398. -/
structure Meta where
  avgNu : ℝ
  avgZ : ℝ
  nfreqs : ℕ
  littleH : Bool
  polpair : ℤ
  taper : String
  dly : List ℝ

/-- The content of the file, L1375-1404. -/
structure Content where
  info : Meta
  kperp : List ℝ
  kpara : List ℝ
  blLens : List ℝ
  blWeights : List ℝ
  cylWf : List Cyl

/-- What the object provides. Used by `run`, uvwindow.py L1290-1404. -/
structure Obj where
  info : Meta
  /-- `get_cylindrical_wf(bl_len, kperp_bins, kpara_bins)`; `none` if it raises -/
  cyl : ℝ → List ℝ → List ℝ → Option Cyl
  /-- `get_kperp_bins(bl_lens)`; `none` if it raises -/
  kperpBins : List ℝ → Option (List ℝ)
  /-- `get_kpara_bins(self.freq_array)` -/
  kparaBins : Option (List ℝ)

/-- A bins argument: `None`, or an array with a flag telling whether its units are right. Used by `bins`, uvwindow.py L1343-1360. -/
abbrev BinArg := Option (Bool × List ℝ)

/-- `if kperp_bins is None or len(kperp_bins) == 0: default else: check_kunits`, L1343-1360. -/
def bins (dflt : Option (List ℝ)) : BinArg → Except Err (List ℝ)
  | none => match dflt with
    | none => .error .value
    | some l => .ok l
  | some (unitsOk, l) =>
    if l.isEmpty then match dflt with
      | none => .error .value
      | some l => .ok l
    else if unitsOk then .ok l else .error .unit

/-- `bl_weights`, L1332-1341. -/
def weights (blLens : List ℝ) : Option (List ℝ) → Except Err (List ℝ)
  | none => .ok (List.replicate blLens.length 1)
  | some w => if w.length ≠ blLens.length then .error .value else .ok w

/-- `array * number`, L1368-1373. -/
def scale (x : ℝ) (c : Cyl) : Cyl := c.map (fun p => p.map (fun r => r.map (fun v => v * x)))

/-- The loop over baselines, L1366-1373. -/
def cyls (o : Obj) (kperp kpara : List ℝ) : List (ℝ × ℝ) → Except Err (List Cyl)
  | [] => .ok []
  | (b, w) :: l => match o.cyl b kperp kpara with
    | none => .error .cyl
    | some c => match cyls o kperp kpara l with
      | .error e => .error e
      | .ok cs => .ok (scale w c :: cs)

/-- Everything computed before the file is written, L1332-1373. -/
def compute (o : Obj) (blLens : List ℝ) (blWeights : Option (List ℝ)) (kperp kpara : BinArg) : Except Err Content := do
  let w ← weights blLens blWeights
  let kp ← bins (o.kperpBins blLens) kperp
  let kl ← bins o.kparaBins kpara
  let cs ← cyls o kp kl (blLens.zip w)
  .ok { info := o.info, kperp := kp, kpara := kl, blLens := blLens, blWeights := w, cylWf := cs }

/-- The file system: content of every path. Used by `run`, uvwindow.py L1290-1404. -/
abbrev FS := String → Option Content

/-- Set or remove one file. Used by `run`, uvwindow.py L1330, L1376. -/
def setFile (fs : FS) (path : String) (x : Option Content) : FS := fun p => if p = path then x else fs p

/-- `run_and_write`, L1290-1404: the exception, if any, and the file system afterwards. -/
def run (o : Obj) (fs : FS) (path : String) (blLens : List ℝ) (blWeights : Option (List ℝ)) (kperp kpara : BinArg) (clobber : Bool) :
    Option Err × FS :=
  if (fs path).isSome && !clobber then (some .os, fs)
  else match compute o blLens blWeights kperp kpara with
    | .error e => (some e, setFile fs path none)
    | .ok c => (none, setFile (setFile fs path none) path (some c))

end HeraPspec.RunWrite
