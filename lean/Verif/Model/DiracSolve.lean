import Verif.Model.Dirac
import Mathlib.Analysis.SpecialFunctions.Log.Basic

/-!
# Model of the optimization in `src/models/dirac_mixture_single_publisher_model.py`

The problem that `solve_optimal_weights`, lines 225-260, hands to cvxpy.  Solutions are those of real
arithmetic; the solvers ECOS and SCS find them up to a tolerance, which is not modelled.
-/

namespace Verif.Dirac

/-- `cross_entropy`, lines 183-204, of one-dimensional arrays of the same length. -/
noncomputable def crossEntropy (observed : List ℚ) (fitted : List ℝ) : ℝ :=
  -(List.zipWith (fun (o : ℚ) (f : ℝ) => (o : ℝ) * Real.log (f + 1 / 10 ^ 200)) observed fitted).sum

/-- The constraints, line 247, on the variable of line 243. -/
def Feasible (pmfs : List (List ℝ)) (ws : List ℝ) : Prop :=
  ws.length = pmfs.length ∧ (∀ w ∈ ws, 0 ≤ w) ∧ ws.sum = 1

/-- A solution of the problem of lines 243-248 with `distance=cross_entropy`, line 273. -/
def Solution (observed : List ℚ) (pmfs : List (List ℝ)) (ws : List ℝ) : Prop :=
  Feasible pmfs ws ∧ ∃ v, weightedSum ws pmfs = .ok v ∧
    ∀ ws' v', Feasible pmfs ws' → weightedSum ws' pmfs = .ok v' →
      crossEntropy observed v ≤ crossEntropy observed v'

/-- What `solve_optimal_weights` documents, lines 238-241: a solution is found for all components of the
length of the observed array. -/
def Exact (solve : Solve) : Prop :=
  ∀ observed pmfs, pmfs ≠ [] → (∀ p ∈ pmfs, p.length = observed.length ∧ ∀ x ∈ p, 0 ≤ x) →
    ∃ ws, solve observed pmfs = .ok ws ∧ Solution observed pmfs ws

end Verif.Dirac
