import Mathlib.Topology.Algebra.InfiniteSum.Basic
import Mathlib.Topology.Algebra.InfiniteSum.Real
import Mathlib.Data.Nat.Choose.Basic

/-!
# Specification: laws of a random number of impressions

A law is given by the probabilities of 0, 1, 2, ...  Nothing here mentions the model.
-/

namespace Verif.Spec

/-- Probabilities: not negative, with total one. -/
def IsLaw (f : ℕ → ℝ) : Prop := (∀ n, 0 ≤ f n) ∧ HasSum f 1

/-- The mean of the law `f` exists and is `m`. -/
def LawMean (f : ℕ → ℝ) (m : ℝ) : Prop := HasSum (fun n : ℕ => (n : ℝ) * f n) m

/-- The mean squared distance from `m` exists under the law `f` and is `v`; this is the variance if
`m` is the mean. -/
def LawVariance (f : ℕ → ℝ) (m v : ℝ) : Prop := HasSum (fun n : ℕ => ((n : ℝ) - m) ^ 2 * f n) v

/-- Probability that a user sees `k` impressions if the number available to the user has the law `f`
and every one of them is shown with probability `p`, independently of the others. -/
noncomputable def Shown (f : ℕ → ℝ) (p : ℝ) (k : ℕ) : ℝ :=
  ∑' n : ℕ, (n.choose k : ℝ) * p ^ k * (1 - p) ^ (n - k) * f n

end Verif.Spec
