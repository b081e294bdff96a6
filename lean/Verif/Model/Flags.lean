import Mathlib.Data.Rat.Defs
import Mathlib.Data.List.Dedup
import Mathlib.Algebra.Order.Ring.Rat

/-!
Model of `PSpecData.broadcast_dset_flags`, pspecdata.py L2851-2942. A flag array is a function of row (baseline-time), channel
and polarization index. Fractions are exact rationals instead of floats; windows are pairs of non-negative integers.
-/
namespace HeraPspec.Flags

/-- `flag_array[row, channel, pol]`. Used by `rowCount`, pspecdata.py L2915. -/
abbrev Arr := ℕ → ℕ → ℕ → Bool

/-- The shape of a data set: the baseline of each row (`baseline_array`), the number of channels and of polarizations. Used by `rowsOf`, pspecdata.py L2909. -/
structure Shape where
  base : List ℕ
  nf : ℕ
  npol : ℕ

/-- `bl_inds`, L2909: the rows of a baseline. -/
def rowsOf (S : Shape) (bl : ℕ) : List ℕ := (List.range S.base.length).filter (fun r => S.base[r]? == some bl)

/-- Number of flagged channels of a row, L2915. -/
def rowCount (S : Shape) (F : Arr) (p r : ℕ) : ℕ := ((List.range S.nf).filter (fun f => F r f p)).length

/-- `freq_contig_flgs`, L2915. -/
def contig (S : Shape) (F : Arr) (p r : ℕ) : Bool := decide ((rowCount S F p r : ℚ) / S.nf > 999999 / 1000000)

/-- The rows that are not entirely flagged, L2916-2920. -/
def nonContig (S : Shape) (F : Arr) (p bl : ℕ) : List ℕ := (rowsOf S bl).filter (fun r => !contig S F p r)

/-- `exceeds_thresh`, L2918-2922; 0/0 is not larger than the threshold. -/
def exceeds (S : Shape) (F : Arr) (p bl : ℕ) (thr : ℚ) (f : ℕ) : Bool :=
  decide (f < S.nf) && !(nonContig S F p bl).isEmpty &&
    decide ((((nonContig S F p bl).filter (fun r => F r f p)).length : ℚ) / (nonContig S F p bl).length > thr)

/-- The channels of a window: the slice `lo:hi` of `nf` channels. Used by `flagInt`, pspecdata.py L2929-2932. -/
def chans (S : Shape) (w : ℕ × ℕ) : List ℕ := (List.range S.nf).filter (fun f => decide (w.1 ≤ f) && decide (f < w.2))

/-- `flag_ints`, L2929-2932: the row holds a flag of the window in a channel below the threshold. -/
def flagInt (S : Shape) (F : Arr) (p bl : ℕ) (thr : ℚ) (w : ℕ × ℕ) (r : ℕ) : Bool :=
  (chans S w).any (fun f => F r f p && !exceeds S F p bl thr f)

/-- One baseline and polarization, L2907-2936: flag the channels above the threshold (in the whole band) for all times, and the
flagged integrations within the window. -/
def bcastOne (S : Shape) (thr : ℚ) (w : ℕ × ℕ) (F : Arr) (x : ℕ × ℕ) : Arr := fun r f q =>
  F r f q || (decide (q = x.1) && decide (r ∈ rowsOf S x.2) &&
    (exceeds S F x.1 x.2 thr f || (flagInt S F x.1 x.2 thr w r && decide (f ∈ chans S w))))

/-- The (polarization, baseline) pairs in the order of the loops, L2903-2908: baselines are sorted by `np.unique`; here they
appear in some fixed order without repetition. -/
def work (S : Shape) : List (ℕ × ℕ) := (List.range S.npol).flatMap (fun p => S.base.dedup.map (fun b => (p, b)))

/-- One window of one data set, L2896-2936. -/
def bcastSpw (S : Shape) (thr : ℚ) (F : Arr) (w : ℕ × ℕ) : Arr := (work S).foldl (bcastOne S thr w) F

/-- Unflagging one window, L2899-2902. -/
def unflagSpw (F : Arr) (w : ℕ × ℕ) : Arr := fun r f q => if w.1 ≤ f ∧ f < w.2 then false else F r f q

/-- `broadcast_dset_flags` for one data set (all data sets are treated alike). `none`: `np.max` of an empty window raises
(simplification: also for a data set without rows). (pspecdata.py L2851-2942) -/
def broadcast (S : Shape) (thr : ℚ) (unflag : Bool) (ws : List (ℕ × ℕ)) (F : Arr) : Option Arr :=
  if unflag then some (ws.foldl unflagSpw F)
  else if ws.any (fun w => (chans S w).isEmpty) then none
  else some (ws.foldl (bcastSpw S thr) F)

end HeraPspec.Flags
