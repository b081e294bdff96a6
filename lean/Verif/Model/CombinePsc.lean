import Verif.Model.PyDict
import Verif.Model.Combine

/-!
Model of `combine_psc_spectra` (container.py L487-630) for one group.

Names are lists of characters. A group is a dictionary from names to objects. `comb` is `combine_uvpspec` (`none`: it raised);
`write` says whether `write_to_group` succeeds.
-/
namespace HeraPspec.CombinePsc
open HeraPspec.Combine (uniq)

/-- Strings. Used by `baseName`, container.py L574-582. -/
abbrev Str := List Char

/-- `s.split(sep)` for a non-empty separator: the pieces from left to right; `acc` is the current piece. Used by `split`, container.py L574-582. -/
def splitGo (sep : Str) (acc : Str) : Str → List Str
  | [] => [acc]
  | c :: cs =>
    if _h : sep ≠ [] ∧ sep.isPrefixOf (c :: cs) then acc :: splitGo sep [] ((c :: cs).drop sep.length)
    else splitGo sep (acc ++ [c]) cs
termination_by s => s.length
decreasing_by
  · have : 0 < sep.length := List.length_pos_iff.2 (by simpa using _h.1)
    simp; omega
  · simp

/-- `s.split(sep)`. Used by `baseName`, container.py L574-582. -/
def split (sep s : Str) : List Str := splitGo sep [] s

/-- `sep.join(l)`. Used by `baseName`, container.py L574-582. -/
def join (sep : Str) (l : List Str) : Str := (l.intersperse sep).flatten

/-- The name of the output spectrum, L574-582: the first two pieces, or the first if there is no `dset_split_str`. -/
def baseName (dsetSplit extSplit : Str) (spc : Str) : Str :=
  if dsetSplit = [] then (split extSplit spc).headD []
  else join dsetSplit (((split dsetSplit spc).map (split extSplit)).flatten.take 2)

/-- `unique_spectra`, L571-584. -/
def uniqueSpectra (base : Str → Str) (spectra : List Str) : List Str := uniq (spectra.map base)

/-- `spc in s`: some tail of `s` begins with `spc`. Used by `toMerge`, container.py L598-600. -/
def contains (spc s : Str) : Bool := s.tails.any (fun t => spc.isPrefixOf t)

/-- `to_merge = [_sp for _sp in spectra if spc in _sp]`, L598-600: the substring test. -/
def toMerge (spectra : List Str) (spc : Str) : List Str := spectra.filter (contains spc)

variable {V : Type}

/-- Reading, merging and writing, L601-611: `none` if anything raises before writing. -/
def merged (comb : List V → Option V) (d : Dict Str V) (names : List Str) : Option V :=
  match names.mapM d.get with
  | none => none
  | some [] => none
  | some [v] => some v
  | some vs => comb vs

/-- One iteration of the loop, L587-622. A failed write leaves no readable entry under the output name. -/
def mergeStep (comb : List V → Option V) (write : V → Bool) (overwrite : Bool) (spectra : List Str) (d : Dict Str V)
    (spc : Str) : Dict Str V :=
  if spc ∈ spectra ∧ overwrite = false then d
  else match merged comb d (toMerge spectra spc) with
    | none => d
    | some v =>
      if write v then
        ((toMerge spectra spc).filter (fun n => decide (n ≠ spc))).foldl Dict.del (d.set spc v)
      else d.del spc

/-- The whole group. With `keep_open=False` the handle is `None` at L568 (TypeError): no result. -/
def combineGroup (keepOpen : Bool) (base : Str → Str) (comb : List V → Option V) (write : V → Bool) (overwrite : Bool)
    (d : Dict Str V) : Option (Dict Str V) :=
  if keepOpen then
    some ((uniqueSpectra base d.keys).foldl (mergeStep comb write overwrite d.keys) d)
  else none

end HeraPspec.CombinePsc
