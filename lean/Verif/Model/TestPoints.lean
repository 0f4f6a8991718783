import Mathlib.Data.Rat.Floor
import Verif.Model.DataSet

/-!
# Model of the test point generators

`src/driver/test_point_generator.py`, `grid_test_point_generator.py`,
`uniformly_random_test_point_generator.py`, `latin_hypercube_random_test_point_generator.py`.
-/

namespace Verif

/-- `_max_spends`, test_point_generator.py:57-60. -/
def maxSpends (ds : DataSet) : List ℚ := ds.data.map (·.maxSpend)

/-- `itertools.product(*axes)`: the last coordinate varies fastest. -/
def cartesian {α : Type} : List (List α) → List (List α)
  | [] => [[]]
  | axis :: rest => axis.flatMap (fun x => (cartesian rest).map (x :: ·))

/-- `max_spend * np.arange(1, grid_size + 1) / (grid_size + 1)`,
grid_test_point_generator.py:58-62. -/
def gridAxis (maxSpend : ℚ) (gridSize : Int) : List ℚ :=
  (List.range gridSize.toNat).map (fun j : Nat => maxSpend * ((j : ℚ) + 1) / ((gridSize : ℚ) + 1))

/-- `GridTestPointGenerator.test_points`, grid_test_point_generator.py:47-65. -/
def gridTestPoints (ds : DataSet) (gridSize : Int) : List (List ℚ) :=
  cartesian ((maxSpends ds).map (fun m => gridAxis m gridSize))

/-- `MINIMUM_NUMBER_OF_TEST_POINTS` (test_point_generator.py:38), also the default of `npoints`. -/
def minTestPoints : Int := 100

/-- `MINIMUM_NUMBER_OF_TEST_POINTS_PER_PUBLISHER` (test_point_generator.py:44). -/
def minTestPointsPerPublisher : Int := 100

/-- `MAXIMUM_NUMBER_OF_TEST_POINTS` (latin_hypercube_random_test_point_generator.py:34). -/
def maxTestPoints : Int := 2000

/-- The number of points stored by the constructors, uniformly_random_test_point_generator.py:62 and
latin_hypercube_random_test_point_generator.py:65. -/
def requestedPoints (npoints npublishers minPerPublisher : Int) : Int :=
  max npoints (npublishers * minPerPublisher)

/-- Elementwise product of two arrays of equal length. -/
def mulVec (a b : List ℚ) : List ℚ := List.zipWith (· * ·) a b

/-- `UniformlyRandomTestPointGenerator.test_points`,
uniformly_random_test_point_generator.py:64-74.  `random i` is the `i`-th vector drawn; the variable
`num_points` of line 72 is not used. -/
def uniformTestPoints (ds : DataSet) (npoints npublishers minPerPublisher : Int)
    (random : Nat → List ℚ) : List (List ℚ) :=
  (List.range (requestedPoints npoints npublishers minPerPublisher).toNat).map
    (fun i => mulVec (maxSpends ds) (random i))

/-- `num_points`, latin_hypercube_random_test_point_generator.py:77-80. -/
def latinNumPoints (npoints npublishers minPerPublisher : Int) : Int :=
  min (max (requestedPoints npoints npublishers minPerPublisher) minTestPoints) maxTestPoints

/-- `design[rows, :][:, cols]` for index lists, latin_hypercube_random_test_point_generator.py:82-84.
All indices are in range for permutations of the right size. -/
def permuteDesign (design : List (List ℚ)) (rows cols : List Nat) : List (List ℚ) :=
  rows.map (fun r => cols.map (fun c => (design.getD r []).getD c 0))

/-- `LatinHypercubeRandomTestPointGenerator.test_points`,
latin_hypercube_random_test_point_generator.py:67-86.  `lhs n samples` is the design of the external
library, `perm i n` the `i`-th permutation drawn. -/
def latinTestPoints (ds : DataSet) (npoints npublishers minPerPublisher : Int)
    (lhs : Nat → Nat → List (List ℚ)) (perm : Nat → Nat → List Nat) : List (List ℚ) :=
  let numPoints := (latinNumPoints npoints npublishers minPerPublisher).toNat
  let design := permuteDesign (lhs ds.publisherCount numPoints) (perm 0 numPoints)
    (perm 1 ds.publisherCount)
  design.map (fun point => mulVec (maxSpends ds) point)

end Verif
