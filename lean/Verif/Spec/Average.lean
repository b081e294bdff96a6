import Verif.Model.Average

/-!
Specification of averaging: weighted means of samples, independent of the loops of `average_spectra`.
-/
namespace HeraPspec.Average
variable {E : Type} [AddCommGroup E] [Module ℝ E]

/-- Total weight. -/
noncomputable def wsum {M : Type} (l : List (ℝ × M)) : ℝ := (l.map (·.1)).sum

/-- The weighted mean of samples `(weight, value)`. -/
noncomputable def wmean (l : List (ℝ × E)) : E := (wsum l)⁻¹ • (l.map (fun x => x.1 • x.2)).sum

/-- The error of the weighted mean of independent samples `(weight, sigma)`: errors added in quadrature. -/
noncomputable def werror (l : List (ℝ × ℝ)) : ℝ := Real.sqrt (l.map (fun x => x.1 ^ 2 * x.2 ^ 2)).sum / wsum l

/-- The integrations of one baseline-pair in window `s`, polarization `p`, in row order. -/
def integrations (u : Obj E) (s p b : Nat) : List (Cell E) :=
  ((u.rows.zip ((u.cells[s]?.bind (·[p]?)).getD [])).filter (fun x => x.1.blp = b)).map (·.2)

/-- Weight of an integration: `t_int^2 * nsample`, or the inverse variance of the chosen error (0 if infinite). -/
noncomputable def specWeight (errw : Option String) (c : Cell E) (d : Nat) : ℝ :=
  match errw with
  | none => c.ints ^ 2 * c.nsmp
  | some s => match c.stat s d with
    | none => 0
    | some x => 1 / x ^ 2

/-- How many times every baseline-pair of a group is counted: weights normalised to sum to the number of pairs, truncated. -/
noncomputable def mult (normalize : Bool) (ws : List ℝ) : List Nat :=
  ws.map (fun w => ⌊w * ws.length / (if normalize then ws.sum else 1)⌋₊)

/-- The integrations that enter integration `t` of the average of group `g`: of every pair its integration `t`, or all its
integrations if averaging in time, counted with multiplicity. -/
noncomputable def members (timeAvg normalize : Bool) (u : Obj E) (s p : Nat) (g : List Nat × List ℝ) (t : Nat) :
    List (Cell E) :=
  (g.1.zip (mult normalize g.2)).flatMap (fun bm =>
    (List.replicate bm.2 (if timeAvg then integrations u s p bm.1 else (integrations u s p bm.1)[t]?.toList)).flatten)

/-- Ranges in which the guards against zero division do not interfere: nsample is non-negative, finite errors used as
weights are at least `1e-20`. -/
def RegularCell (errw : Option String) (c : Cell E) : Prop :=
  0 ≤ c.nsmp ∧ ∀ s, errw = some s → ∀ d x, c.stat s d = some x → 1 / 10 ^ 20 ≤ x

/-- The total weight of a list of integrations is zero because all weights are, or it is at least `1e-40`. -/
def RegularSum (errw : Option String) (l : List (Cell E)) (d : Nat) : Prop :=
  (∀ c ∈ l, specWeight errw c d = 0) ∨ tiny ≤ (l.map (fun c => specWeight errw c d)).sum

end HeraPspec.Average
