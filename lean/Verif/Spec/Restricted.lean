import Mathlib.Algebra.BigOperators.Group.Finset.Basic
import Mathlib.Algebra.Order.Ring.Unbundled.Rat
import Mathlib.Algebra.Order.Ring.Rat

/-!
# Specification: feasible lambda vectors
-/

namespace Verif.Spec

/-- A lambda vector is feasible if no coordinate is negative and no coordinate times the sum of the
other coordinates exceeds one (restricted_pairwise_union_reach_surface.py:212, with no tolerance). -/
def FeasibleLambda (p : Nat) (lbd : Nat → ℚ) : Prop :=
  ∀ j < p, 0 ≤ lbd j ∧ lbd j * ∑ k ∈ (Finset.range p).erase j, lbd k ≤ 1

/-- No coordinate and no sum of all coordinates but one exceeds `M`. -/
def WithinSize (p : Nat) (lbd : Nat → ℚ) (M : ℚ) : Prop :=
  ∀ j < p, lbd j ≤ M ∧ ∑ k ∈ (Finset.range p).erase j, lbd k ≤ M

end Verif.Spec
