import Mathlib.Analysis.SpecialFunctions.Exp
import Mathlib.Algebra.BigOperators.Group.Finset.Basic

/-!
# Model of the LiquidLegions formulas of `src/simulator/halo_simulator.py`

Numbers are real; `scipy.special.expi` is a parameter.
-/

namespace Verif

open scoped BigOperators

/-- `np.exp(-a * np.arange(m) / m)` at index `k`, halo_simulator.py:264. -/
noncomputable def registerWeight (a : ℝ) (m k : ℕ) : ℝ := Real.exp (-a * k / m)

/-- `register_probs` at index `k`, halo_simulator.py:264-265. -/
noncomputable def registerProb (a : ℝ) (m k : ℕ) : ℝ :=
  registerWeight a m k / ∑ j ∈ Finset.range m, registerWeight a m j

/-- The variable `c` of `_liquid_legions_cardinality_estimate_variance`, halo_simulator.py:243. -/
noncomputable def legionsLoad (a m n : ℝ) : ℝ := a * n / m / (1 - Real.exp (-a))

/-- `_liquid_legions_cardinality_estimate_variance`, halo_simulator.py:227-249.  `expi` is
`scipy.special.expi`. -/
noncomputable def cardinalityVariance (expi : ℝ → ℝ) (a m n : ℝ) : ℝ :=
  let c := legionsLoad a m n
  let variance := expi (-c) - expi (-c * Real.exp (-a)) - expi (-2 * c)
    + expi (-2 * c * Real.exp (-a))
  variance * (a * n ^ 2 / m / (Real.exp (-c) - Real.exp (-c * Real.exp (-a))) ^ 2) - n

end Verif
