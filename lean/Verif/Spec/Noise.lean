import Verif.Spec.Dp
import Verif.Model.Halo
import Mathlib.Analysis.SpecificLimits.Basic
import Mathlib.Probability.ProbabilityMassFunction.Constructions
import Mathlib.Topology.Algebra.InfiniteSum.NatInt

/-!
# Specification: noise

What the theorems on differential privacy assume about the noise generator, and the distribution of
the result of the noise step under it.
-/

namespace Verif.Spec

/-- Distribution of `n` independent draws. -/
noncomputable def iid {X : Type} (ν : PMF X) : Nat → PMF (List X)
  | 0 => PMF.pure []
  | n + 1 => ν.bind (fun x => (iid ν n).map (fun z => x :: z))

/-- The probabilities of neighbouring integers differ at most by the factor `exp ε`. -/
def StepLaw (ε : ℝ) (ν : PMF ℤ) : Prop :=
  ∀ z, ν z ≤ ENNReal.ofReal (Real.exp ε) * ν (z + 1) ∧
    ν (z + 1) ≤ ENNReal.ofReal (Real.exp ε) * ν z

theorem weights_ne_zero (ε : ℝ) :
    ∑' z : ℤ, ENNReal.ofReal (Real.exp (-ε * (z.natAbs : ℝ))) ≠ 0 := by
  intro h
  rw [ENNReal.tsum_eq_zero] at h
  have := h 0
  simp at this

theorem weights_ne_top {ε : ℝ} (hε : 0 < ε) :
    ∑' z : ℤ, ENNReal.ofReal (Real.exp (-ε * (z.natAbs : ℝ))) ≠ ⊤ := by
  have hg : ∀ n : ℕ, Real.exp (-ε * (n : ℝ)) = Real.exp (-ε) ^ n := by
    intro n
    rw [← Real.exp_nat_mul, mul_comm]
  have hs : Summable (fun n : ℕ => Real.exp (-ε) ^ n) :=
    summable_geometric_of_lt_one (Real.exp_nonneg _) (by rw [Real.exp_lt_one_iff]; linarith)
  have hz : Summable (fun z : ℤ => Real.exp (-ε * (z.natAbs : ℝ))) := by
    apply Summable.of_nat_of_neg
    · simpa only [Int.natAbs_natCast, Int.natAbs_neg, hg] using hs
    · simpa only [Int.natAbs_natCast, Int.natAbs_neg, hg] using hs
  exact hz.tsum_ofReal_ne_top

/-- The discrete Laplace distribution: the probability of `z` is proportional to `exp (-ε |z|)`. -/
noncomputable def discreteLaplace (ε : ℝ) (hε : 0 < ε) : PMF ℤ :=
  PMF.normalize (fun z : ℤ => ENNReal.ofReal (Real.exp (-ε * (z.natAbs : ℝ))))
    (weights_ne_zero ε) (weights_ne_top hε)

/-- A noise generator that adds the given numbers, one for each call, if it is asked for noise with
parameter `ε`; asked for any other noise it adds nothing. -/
def noiserOf (ε : ℚ) (z : List ℤ) : Nat → ℚ → Nat → ℚ → ℚ :=
  fun _ ε' k v => if ε' = ε then v + ((z.getD k 0 : ℤ) : ℚ) else v

/-- The simulator with the given numbers as noise. -/
def withNoise {S : Type} (h : HaloSimulator S) (ε : ℚ) (z : List ℤ) : HaloSimulator S :=
  { h with rand := { h.rand with noiser := noiserOf ε z } }

/-- Distribution of everything the noise step does (result and new state), if the noise generator,
asked for noise with the first part of the budget, adds independent numbers with distribution
`ν`. -/
noncomputable def noiseLaw {S : Type} (ν : PMF ℤ) (h : HaloSimulator S) (regions : Dict Nat Int)
    (budget : PrivacyBudget ℚ) (split : ℚ) (st : HaloState) :
    PMF (Except PyErr (Dict Nat ℚ) × HaloState) :=
  (iid ν regions.length).map (fun z => (withNoise h (budget.epsilon * split) z).addDpNoise regions budget split st)

/-- Sum of the differences of two tables, entry by entry. -/
def tableDistance (a b : Dict Nat Int) : Nat :=
  (List.zipWith (fun x y => (x.2 - y.2).natAbs) a b).sum

end Verif.Spec
