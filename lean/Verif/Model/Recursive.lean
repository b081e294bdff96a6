import Verif.Model.Combine

/-!
Model of `recursive_combine_uvpspec` (uvpspec.py L3402-3437) and of the batching in `fast_merge_baselines`
(cli.py L34-160), over an arbitrary two-object merge `m` (`combine_uvpspec([a, b], merge_history=False)`).
-/
namespace HeraPspec.Recursive
open HeraPspec.UVP (Err)
variable {α : Type}

/-- `recursive_combine_uvpspec`, uvpspec.py L3419-3437: empty list raises, one object is returned, two are merged, longer
lists are split at `len(uvps) // 2`. -/
def recursive (m : α → α → Except Err α) : List α → Except Err α
  | [] => .error .value
  | [a] => .ok a
  | [a, b] => m a b
  | a :: b :: c :: l =>
    let us := a :: b :: c :: l
    have h1 : (us.take (us.length / 2)).length < us.length := by simp only [List.length_take, us, List.length_cons]; omega
    have h2 : (us.drop (us.length / 2)).length < us.length := by simp only [List.length_drop, us, List.length_cons]; omega
    do
      let x ← recursive m (us.take (us.length / 2))
      let y ← recursive m (us.drop (us.length / 2))
      m x y
termination_by us => us.length

/-- One batch: `files[batch_idx * batch_size : min((batch_idx + 1) * batch_size, len(files))]`, cli.py L111-113. -/
def batch (files : List α) (k i : Nat) : List α := (files.take (min ((i + 1) * k) files.length)).drop (i * k)

/-- The number of batches, cli.py L108. -/
def numBatches (n k : Nat) : Nat := (n + k - 1) / k

/-- The accumulation loop over the batches, cli.py L110-156, for one name: merge the batch recursively, then merge it into
the accumulated object if there is one. -/
def loop (m : α → α → Except Err α) (files : List α) (k : Nat) : List Nat → Option α → Except Err (Option α)
  | [], acc => .ok acc
  | i :: is, acc =>
    match recursive m (batch files k i) with
    | .error e => .error e
    | .ok b =>
      match acc with
      | none => loop m files k is (some b)
      | some a =>
        match recursive m [a, b] with
        | .error e => .error e
        | .ok c => loop m files k is (some c)

/-- `fast_merge_baselines` for one name (the names are processed independently), without reading and writing: `None` as
batch size means all files; zero (or no files at all with `None`) is a division by zero; no batch at all leaves `None`,
which cannot be written. (cli.py L108-156) -/
def fastMerge (m : α → α → Except Err α) (files : List α) (batchSize : Option Nat) : Except Err α :=
  let k := batchSize.getD files.length
  if k = 0 then .error .value
  else match loop m files k (List.range (numBatches files.length k)) none with
    | .error e => .error e
    | .ok none => .error .value
    | .ok (some u) => .ok u

end HeraPspec.Recursive
