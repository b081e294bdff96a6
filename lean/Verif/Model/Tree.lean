import Verif.Model.Container

/-!
The tree listing of a container, container.py L463-492.
-/
namespace HeraPspec.Tree
open Container

/-- The loop that fills the dictionary: `tree[grp] = self.spectra(grp)` for the given groups, container.py L481-483. -/
def fill {V : Type} (f : File V) : List String → Dict String (List String) → Except CErr (Dict String (List String))
  | [], t => .ok t
  | g :: gs, t => match spectra f g with
    | .error e => .error e
    | .ok l => fill f gs (t.set g l)

/-- `tree(return_str=False)`, container.py L480-485. -/
def treeDict {V : Type} (f : File V) : Except CErr (Dict String (List String)) := fill f (groups f) []

/-- `"  |--%s\n" % pspec`, container.py L491. -/
def specLine (n : List Char) : List Char := [' ', ' ', '|', '-', '-'] ++ n ++ ['\n']

/-- `"(%s)\n" % grp` and the lines of its spectra, container.py L489-491. -/
def groupLines (x : List Char × List (List Char)) : List Char :=
  ['('] ++ x.1 ++ [')', '\n'] ++ x.2.flatMap specLine

/-- The string built from the groups in order with their spectra, container.py L487-492. -/
def treeStr (t : List (List Char × List (List Char))) : List Char := t.flatMap groupLines

/-- The spectra `tree[grp]` of a group of the loop (the key is in the dictionary), container.py L490. -/
def ofGroup (t : Dict String (List String)) (g : String) : List Char × List (List Char) :=
  (g.toList, ((t.get g).getD []).map String.toList)

/-- `tree()`, container.py L480-492. -/
def treeString {V : Type} (f : File V) : Except CErr (List Char) :=
  match treeDict f with
  | .error e => .error e
  | .ok t => .ok (treeStr ((groups f).map (ofGroup t)))

end HeraPspec.Tree
