import Verif.Model.Float64
import Verif.Model.Generators
import Verif.Model.TestPoints
import Verif.Model.Designs
import Verif.Model.TrialRow

/-!
# Floats in spends, test points, designs and the Goerg model

The functions of other modules in which floats are multiplied or divided, again with every result
rounded to binary64 (see `Model/Float64`).
-/

namespace Verif

/-- `FixedPriceGenerator.__call__` on floats, fixed_price_generator.py:38-51. -/
def fixedPriceFl (cpi : ℚ) (impressions : List Int) : Log :=
  impressions.zipIdx.map (fun e => (e.1, round64 (((e.2 : ℚ) + 1) * cpi)))

/-- `campaign_spend` on floats, publisher.py:60-62. -/
def campaignSpendFl (fraction maxSpend : ℚ) : ℚ := round64 (fraction * maxSpend)

/-- `max_spend * np.arange(1, grid_size + 1) / (grid_size + 1)` on floats,
grid_test_point_generator.py:58-62. -/
def gridAxisFl (maxSpend : ℚ) (gridSize : Int) : List ℚ :=
  (List.range gridSize.toNat).map
    (fun j : Nat => round64 (round64 (maxSpend * ((j : ℚ) + 1)) / ((gridSize : ℚ) + 1)))

/-- `GridTestPointGenerator.test_points` on floats, grid_test_point_generator.py:47-65. -/
def gridTestPointsFl (ds : DataSet) (gridSize : Int) : List (List ℚ) :=
  cartesian ((maxSpends ds).map (fun m => gridAxisFl m gridSize))

/-- Elementwise product of two arrays of floats. -/
def mulVecFl (a b : List ℚ) : List ℚ := List.zipWith (fun x y => round64 (x * y)) a b

/-- `UniformlyRandomTestPointGenerator.test_points` on floats,
uniformly_random_test_point_generator.py:64-74. -/
def uniformTestPointsFl (ds : DataSet) (npoints npublishers minPerPublisher : Int)
    (random : Nat → List ℚ) : List (List ℚ) :=
  (List.range (requestedPoints npoints npublishers minPerPublisher).toNat).map
    (fun i => mulVecFl (maxSpends ds) (random i))

/-- `LatinHypercubeRandomTestPointGenerator.test_points` on floats,
latin_hypercube_random_test_point_generator.py:67-86. -/
def latinTestPointsFl (ds : DataSet) (npoints npublishers minPerPublisher : Int)
    (lhs : Nat → Nat → List (List ℚ)) (perm : Nat → Nat → List Nat) : List (List ℚ) :=
  let numPoints := (latinNumPoints npoints npublishers minPerPublisher).toNat
  let design := permuteDesign (lhs ds.publisherCount numPoints) (perm 0 numPoints)
    (perm 1 ds.publisherCount)
  design.map (fun point => mulVecFl (maxSpends ds) point)

/-- `LEVELS[key][int(level * len(LEVELS[key]))]` on floats, m3_data_design.py:179,
lhs_data_design_example.py:113, sample_experimental_design.py:111. -/
def pickLevelFl {α : Type} (levels : List α) (level : ℚ) : Except PyErr α :=
  pyIndex levels (pyInt (round64 (level * (levels.length : ℚ))))

/-- The publisher sizes on floats, synthetic_data_design_generator.py:146-162, for any value
`decay` of the decay rate (the power of line 144 is not modelled here). -/
def sizesFromFl (decay : ℚ) : Nat → Int → List Int
  | 0, _ => []
  | rounds + 1, size => size :: sizesFromFl decay rounds ⌊round64 ((size : ℚ) * decay)⌋

/-- `SINGLE_PUBLISHER_FRACTIONS` as floats, experimental_trial.py:73: the `r`-th multiple of the float
`0.1`. -/
def fractionFl (r : Nat) : ℚ := round64 ((r : ℚ) * round64 (1 / 10))

/-- `int(r*100)` on floats, experimental_trial.py:324, 336, 369, 373. -/
def fractionPercentFl (r : Nat) : Int := pyInt (round64 (fractionFl r * 100))

/-- `_rho` of the Goerg model on floats, goerg_model.py:54-62, for impressions and reach not so
large that integers are rounded. -/
def goergRhoFl (impressions reach : ℚ) : ℚ :=
  round64 (round64 (impressions * reach) / round64 (impressions - reach))

/-- The reach predicted by the Goerg model on floats, goerg_model.py:76-78 for `k = 1`. -/
def goergReachFl (rho impressions : ℚ) : ℚ :=
  round64 (rho * round64 (impressions / round64 (impressions + rho)))

end Verif
