import Mathlib.Analysis.SpecialFunctions.Gamma.Basic
import Mathlib.Analysis.PSeries

/-!
# The laws behind random impressions

The impression generators (`src/data_generators/`) draw from numpy; here stand the laws that numpy
documents for these draws, put together as the code does.  Also the distribution that
`src/models/gamma_poisson_model.py` and `src/models/kinflated_gamma_poisson_model.py` take from
scipy, and the generators of `src/data_generators/single_publisher_design.py`.
-/

namespace Verif

/-- The law of `Generator.poisson(lam)` (numpy), used at homogeneous_impression_generator.py:64 and
heterogeneous_impression_generator.py:75. -/
noncomputable def poissonLaw (lam : ℝ) (j : ℕ) : ℝ :=
  Real.exp (-lam) * lam ^ j / Nat.factorial j

/-- The density of `Generator.gamma(shape, scale)` (numpy), used at
heterogeneous_impression_generator.py:71-73; the same formula stands in lines 39-40. -/
noncomputable def gammaDensity (shape scale x : ℝ) : ℝ :=
  x ^ (shape - 1) * Real.exp (-x / scale) / scale ^ shape / Real.Gamma shape

/-- `zeta(s)`, heavy_tailed_impression_generator.py:34: one to the power `-s`, two to the power `-s`,
and so on. -/
noncomputable def zetaNorm (s : ℝ) : ℝ := ∑' n : ℕ, ((n : ℝ) + 1) ^ (-s)

/-- The law of `1 + x` if `q` is that of `x`. -/
def plusOne (q : ℕ → ℝ) (n : ℕ) : ℝ := if n = 0 then 0 else q (n - 1)

/-- The number of impressions of one user in `HomogeneousImpressionGenerator`,
homogeneous_impression_generator.py:62-65. -/
noncomputable def homogeneousLaw (lam : ℝ) : ℕ → ℝ := plusOne (poissonLaw lam)

/-- The number of impressions of one user in `HeterogeneousImpressionGenerator`,
heterogeneous_impression_generator.py:70-76: first the rate is drawn, then the number. -/
noncomputable def heterogeneousLaw (shape scale : ℝ) (n : ℕ) : ℝ :=
  ∫ x in Set.Ioi (0 : ℝ), gammaDensity shape scale x * plusOne (poissonLaw x) n

/-- The number of impressions of one user in `HeavyTailedImpressionGenerator`,
heavy_tailed_impression_generator.py:59-60: the law of `Generator.zipf(s)` (numpy).  numpy gives up on
draws above 2^63, which is not modelled. -/
noncomputable def heavyTailedLaw (s : ℝ) (n : ℕ) : ℝ :=
  if n = 0 then 0 else (n : ℝ) ^ (-s) / zetaNorm s

/-- `scipy.stats.nbinom.pmf(j, r, p)`. -/
noncomputable def nbinomPmf (r p : ℝ) (j : ℕ) : ℝ :=
  Real.Gamma (r + j) / (Real.Gamma r * (Nat.factorial j)) * p ^ r * (1 - p) ^ j

/-- The exponential of `_logpmf`, gamma_poisson_model.py:154-170, and
`kinflated_gamma_poisson_model.py:85-106`: `nbinom.pmf(n - 1, alpha, 1 / (1 + beta))`.  This is the
exact value of what the models call `gp`. -/
noncomputable def gammaPoissonPmf (alpha beta : ℝ) : ℕ → ℝ :=
  plusOne (nbinomPmf alpha (1 / (1 + beta)))

/-- `GeneratorParameters` of an impression generator. -/
inductive ImpressionParams
  /-- `HomogeneousImpressionGenerator` with `poisson_lambda` -/
  | homogeneous (lam : ℚ)
  /-- `HeterogeneousImpressionGenerator` with `gamma_shape` and `gamma_scale` -/
  | heterogeneous (shape scale : ℚ)
  /-- `HeavyTailedImpressionGenerator` with `zeta_s` -/
  | heavyTailed (s : ℚ)

/-- The number of impressions of one user: each class with its arguments. -/
noncomputable def ImpressionParams.law : ImpressionParams → ℕ → ℝ
  | .homogeneous lam => homogeneousLaw lam
  | .heterogeneous shape scale => heterogeneousLaw shape scale
  | .heavyTailed s => heavyTailedLaw s

/-- `IMPRESSION_GENERATORS`, single_publisher_design.py:41-146. -/
def singlePublisherImpressions : List ImpressionParams :=
  [.homogeneous (1 / 2), .heterogeneous 1 (1 / 2), .heterogeneous (4545 / 100000) 11,
   .heavyTailed (28106 / 10000),
   .homogeneous 2, .heterogeneous 1 2, .heterogeneous (4 / 10) 5, .heavyTailed (22662 / 10000),
   .homogeneous 4, .heterogeneous 1 4, .heterogeneous (44444 / 100000) 9,
   .heavyTailed (21416 / 10000),
   .homogeneous 9, .heterogeneous 1 9, .heterogeneous (42408 / 100000) (212222 / 10000),
   .heavyTailed (206539 / 100000)]

end Verif
