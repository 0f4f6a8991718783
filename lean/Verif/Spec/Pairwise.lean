import Mathlib.Algebra.BigOperators.Group.Finset.Basic
import Mathlib.Algebra.Order.Ring.Unbundled.Rat
import Mathlib.Algebra.Order.Ring.Rat

/-!
# Specification: pairwise overlap between publishers
-/

namespace Verif.Spec

/-- The publisher overlap matrices the documentation of the pairwise model allows
(pairwise_union_reach_surface.py:115-141): non-negative entries, no overlap of a publisher with
itself, symmetry, row and column sums at most one. -/
structure PlausibleOverlap (p : Nat) (a : Nat → Nat → ℚ) : Prop where
  nonneg : ∀ i < p, ∀ j < p, 0 ≤ a i j
  row : ∀ i < p, ∑ j ∈ Finset.range p, a i j ≤ 1
  col : ∀ j < p, ∑ i ∈ Finset.range p, a i j ≤ 1
  diag : ∀ i < p, a i i = 0
  symm : ∀ i < p, ∀ j < p, a i j = a j i

/-- The documented formula for the union reach, pairwise_union_reach_surface.py:35-37: sum of the
single reaches minus half the sum over all ordered pairs of `a r r / max m m`. -/
def unionReach (p : Nat) (a : Nat → Nat → ℚ) (m r : Nat → ℚ) : ℚ :=
  ∑ i ∈ Finset.range p, r i -
    (1 / 2) * ∑ i ∈ Finset.range p, ∑ j ∈ Finset.range p, a i j * r i * r j / max (m i) (m j)

/-- `x` satisfies the linear inequalities `G x ≤ h`. -/
def SatisfiesLe (rows cols : Nat) (G : Nat → Nat → ℚ) (h : Nat → ℚ) (x : Nat → ℚ) : Prop :=
  ∀ r < rows, ∑ c ∈ Finset.range cols, G r c * x c ≤ h r

/-- `x` satisfies the linear equations `A x = b`. -/
def SatisfiesEq (rows cols : Nat) (A : Nat → Nat → ℚ) (b : Nat → ℚ) (x : Nat → ℚ) : Prop :=
  ∀ r < rows, ∑ c ∈ Finset.range cols, A r c * x c = b r

end Verif.Spec
