import Mathlib.Algebra.Order.Field.Rat
import Mathlib.Algebra.Order.Group.Abs
import Verif.Model.Aggregator

/-!
# Floats in the accuracy statistics

The errors, the variance of the error and the shuffle distance of `src/driver/test_point_aggregator.py`
with every result rounded by `rnd` (see `Model/Float64`).  numpy does not say in which order it adds the
entries of an array, so the order is a parameter.
-/

namespace Verif

/-- The order in which the entries of an array are added. -/
inductive AddTree where
  | leaf (x : ℚ)
  | node (l r : AddTree)

namespace AddTree

/-- The numbers that are added. -/
def values : AddTree → List ℚ
  | leaf x => [x]
  | node l r => l.values ++ r.values

/-- Additions on the longest way from a number to the sum. -/
def height : AddTree → Nat
  | leaf _ => 0
  | node l r => max l.height r.height + 1

/-- The sum on floats, rounded after every addition. -/
def sumFl (rnd : ℚ → ℚ) : AddTree → ℚ
  | leaf x => x
  | node l r => rnd (l.sumFl rnd + r.sumFl rnd)

end AddTree

section

variable (rnd : ℚ → ℚ) (order : List ℚ → AddTree)

/-- `np.mean` of a non-empty array of floats: the sum, in an order chosen by numpy (`order`), divided by the
length.  Simplified: the length is below 2^53, so that it is a float. -/
def meanFl (l : List ℚ) : ℚ := rnd ((order l).sumFl rnd / l.length)

/-- `mean_error` on floats, test_point_aggregator.py:35. -/
def meanErrorFl (a b : List ℚ) : ℚ :=
  meanFl rnd order (List.zipWith (fun x y => rnd (x - y)) a b)

/-- `mean_abs_error` on floats, test_point_aggregator.py:37.  `a` and `b` are the true and the modelled
reaches, of equal number. -/
def meanAbsErrorFl (a b : List ℚ) : ℚ :=
  meanFl rnd order (List.zipWith (fun x y => |rnd (x - y)|) a b)

/-- `mean_squared_error` on floats, test_point_aggregator.py:39. -/
def meanSquaredErrorFl (a b : List ℚ) : ℚ :=
  meanFl rnd order (List.zipWith (fun x y => rnd (rnd (x - y) * rnd (x - y))) a b)

/-- `mean_abs_relative_error` on floats, test_point_aggregator.py:41 and 108, for true reaches that are not
zero. -/
def meanAbsRelativeErrorFl (a b : List ℚ) : ℚ :=
  meanFl rnd order (List.zipWith (fun x y => rnd (|rnd (x - y)| / x)) a b)

/-- `mean_squared_relative_error` on floats, test_point_aggregator.py:52-54, for true reaches that are not
zero. -/
def meanSquaredRelativeErrorFl (a b : List ℚ) : ℚ :=
  meanFl rnd order
    (List.zipWith (fun x y => rnd (rnd (rnd (x - y) * rnd (x - y)) / rnd (x * x))) a b)

/-- `var_error` on floats, test_point_aggregator.py:56: `np.var` takes the mean away from every entry, squares
the differences and averages them. -/
def varErrorFl (a b : List ℚ) : ℚ :=
  meanFl rnd order ((List.zipWith (fun x y => rnd (x - y)) a b).map (fun e =>
    rnd (rnd (e - meanErrorFl rnd order a b) * rnd (e - meanErrorFl rnd order a b))))

/-- Python's `sum` of floats: from the left, starting with 0. -/
def pySumFl (l : List ℚ) : ℚ := l.foldl (fun s v => rnd (s + v)) 0

/-- `_shuffle_distance` on floats, test_point_aggregator.py:116-124.  Simplified: the numbers of people
reached exactly i times, which are differences of reaches, are taken as exact. -/
def shuffleDistanceFl (x y : ReachPoint) (k : Int := 5) : Except PyErr ℚ :=
  if x.maxFrequency ≤ k ∨ y.maxFrequency ≤ k then .ok 1
  else do
    let xf ← (List.range k.toNat).mapM (fun i : Nat => x.frequency ((i : Int) + 1))
    let yf ← (List.range k.toNat).mapM (fun i : Nat => y.frequency ((i : Int) + 1))
    if pySumFl rnd xf = 0 ∨ pySumFl rnd yf = 0 then .ok (1 / 2)
    else .ok (rnd (1 / 2 * (order (List.zipWith (fun a b =>
      |rnd (rnd (a / pySumFl rnd xf) - rnd (b / pySumFl rnd yf))|) xf yf)).sumFl rnd))

/-- `mean_shuffle_distance` on floats, test_point_aggregator.py:88-90.  Simplified: for lists of equal
length. -/
def meanShuffleDistanceFl (x y : List ReachPoint) : Except PyErr ℚ := do
  let ds ← (x.zip y).mapM (fun xy => shuffleDistanceFl rnd order xy.1 xy.2)
  return meanFl rnd order ds

/-- `np.var` of a non-empty array of floats: the mean is taken away from every entry, the differences are
squared and averaged. -/
def varFl (l : List ℚ) : ℚ :=
  meanFl rnd order (l.map (fun e => rnd (rnd (e - meanFl rnd order l) * rnd (e - meanFl rnd order l))))

/-- `var_relative_error` on floats, test_point_aggregator.py:58, for true reaches that are not zero. -/
def varRelativeErrorFl (a b : List ℚ) : ℚ :=
  varFl rnd order (List.zipWith (fun x y => rnd (rnd (x - y) / x)) a b)

/-- `var_shuffle_distance` on floats, test_point_aggregator.py:96-98.  Simplified: for lists of equal
length. -/
def varShuffleDistanceFl (x y : List ReachPoint) : Except PyErr ℚ := do
  let ds ← (x.zip y).mapM (fun xy => shuffleDistanceFl rnd order xy.1 xy.2)
  return varFl rnd order ds

/-- `mean_squared_shuffle_distance` on floats, test_point_aggregator.py:92-94.  Simplified: for lists of equal
length, and the power of two is rounded like a product. -/
def meanSquaredShuffleDistanceFl (x y : List ReachPoint) :
    Except PyErr ℚ := do
  let ds ← (x.zip y).mapM (fun xy => shuffleDistanceFl rnd order xy.1 xy.2)
  return meanFl rnd order (ds.map (fun d => rnd (d * d)))

end

end Verif
