import Mathlib.Algebra.BigOperators.Group.Finset.Basic
import Mathlib.Algebra.Order.Ring.Unbundled.Rat
import Mathlib.Algebra.Order.Ring.Rat

/-!
# Specification: the generalized mixture model
-/

namespace Verif.Spec

/-- The documented union reach, generalized_mixture_reach_surface.py:42. -/
def mixtureUnion (N : ℚ) (p c : Nat) (a : Nat → Nat → ℚ) (r : Nat → ℚ) : ℚ :=
  N * ∑ j ∈ Finset.range c, (1 - ∏ i ∈ Finset.range p, (1 - a i j * r i / N))

/-- The documented conditions on the weights, generalized_mixture_reach_surface.py:45-46: every
publisher distributes a total weight of one over the clusters. -/
structure MixtureWeights (p c : Nat) (a : Nat → Nat → ℚ) : Prop where
  nonneg : ∀ i < p, ∀ j < c, 0 ≤ a i j
  total : ∀ i < p, ∑ j ∈ Finset.range c, a i j = 1

end Verif.Spec
