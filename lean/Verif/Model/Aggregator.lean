import Mathlib.Algebra.Order.Floor.Ring
import Mathlib.Data.Rat.Floor
import Mathlib.Data.List.Sort
import Verif.Model.ReachPoint

/-!
# Model of `src/driver/test_point_aggregator.py`

Floats are rationals.  `none` is a float that is not a finite number: numpy divides by zero without
raising, and the mean of an empty array is nan.
-/

namespace Verif

/-- A value in a column of a result row. -/
inductive Cell where
  /-- a Python int -/
  | int (n : Int)
  /-- a string -/
  | text (s : String)
  /-- a float; `none` if not finite -/
  | float (v : Option ℚ)
  deriving DecidableEq, Repr

/-- A data frame with a single row: column names and values in order. -/
abbrev Row := List (String × Cell)

/-- An array of floats. -/
abbrev NpArray := List (Option ℚ)

/-- Elementwise operation on one-dimensional arrays.  Equal lengths are combined position by
position, an array of length one is broadcast, everything else is a `ValueError`. -/
def npZip (f : ℚ → ℚ → Option ℚ) (a b : NpArray) : Except PyErr NpArray :=
  let g : Option ℚ → Option ℚ → Option ℚ := fun x y => x.bind (fun x' => y.bind (f x'))
  if a.length = b.length then .ok (List.zipWith g a b)
  else match a, b with
    | [x], _ => .ok (b.map (g x))
    | _, [y] => .ok (a.map (fun x => g x y))
    | _, _ => .error .valueError

/-- `a - b`. -/
def npSub (a b : NpArray) : Except PyErr NpArray := npZip (fun x y => some (x - y)) a b

/-- `a / b`: division by zero is not finite. -/
def npDiv (a b : NpArray) : Except PyErr NpArray :=
  npZip (fun x y => if y = 0 then none else some (x / y)) a b

/-- `np.abs`. -/
def npAbs (a : NpArray) : NpArray := a.map (Option.map (fun x : ℚ => |x|))

/-- `a ** 2`. -/
def npSq (a : NpArray) : NpArray := a.map (Option.map (fun x : ℚ => x * x))

/-- The values of an array all of whose entries are finite. -/
def allFinite : NpArray → Option (List ℚ)
  | [] => some []
  | none :: _ => none
  | some x :: rest => (allFinite rest).map (x :: ·)

/-- Mean of a non-empty list. -/
def meanOf (l : List ℚ) : ℚ := l.sum / l.length

/-- `np.mean`: nan for an empty array or an entry that is not finite. -/
def npMean (a : NpArray) : Option ℚ :=
  (allFinite a).bind (fun l => if l = [] then none else some (meanOf l))

/-- `np.var`: the mean of the squared deviations from the mean. -/
def npVar (a : NpArray) : Option ℚ :=
  (allFinite a).bind (fun l => if l = [] then none
    else some (meanOf (l.map (fun x => (x - meanOf l) * (x - meanOf l)))))

/-- Linear interpolation in a sorted list at position `q * (length - 1)`. -/
def quantileOf (l : List ℚ) (q : ℚ) : ℚ :=
  let s := l.mergeSort (fun a b => decide (a ≤ b))
  let pos := q * ((s.length : ℚ) - 1)
  let i := ⌊pos⌋.toNat
  s.getD i 0 + (pos - i) * (s.getD (i + 1) (s.getD i 0) - s.getD i 0)

/-- `np.quantile` with its default method.  Simplified: for an empty array, where the behaviour
depends on the version of numpy, and for entries that are not finite, the result is nan. -/
def npQuantile (a : NpArray) (q : ℚ) : Option ℚ :=
  (allFinite a).bind (fun l => if l = [] then none else some (quantileOf l q))

/-- `_reach`, test_point_aggregator.py:111-113. -/
def reachArray (points : List ReachPoint) (k : Int := 1) : Except PyErr NpArray :=
  points.mapM (fun p => do return some (← p.reach k))

/-- `_mean_abs_relative_error`, test_point_aggregator.py:102-108. -/
def meanAbsRelativeError (x y : List ReachPoint) (k : Int := 1) : Except PyErr (Option ℚ) :=
  if x.any (fun p => k > p.maxFrequency) then .ok none
  else if y.any (fun p => k > p.maxFrequency) then .ok none
  else do
    let d ← npSub (← reachArray x k) (← reachArray y k)
    return npMean (← npDiv (npAbs d) (← reachArray x k))

/-- `_shuffle_distance`, test_point_aggregator.py:116-124. -/
def shuffleDistance (x y : ReachPoint) (k : Int := 5) : Except PyErr ℚ :=
  if x.maxFrequency ≤ k ∨ y.maxFrequency ≤ k then .ok 1
  else do
    let xf ← (List.range k.toNat).mapM (fun i : Nat => x.frequency ((i : Int) + 1))
    let yf ← (List.range k.toNat).mapM (fun i : Nat => y.frequency ((i : Int) + 1))
    if xf.sum = 0 ∨ yf.sum = 0 then .ok (1 / 2)
    else .ok (1 / 2 * (List.zipWith (fun a b => |a / xf.sum - b / yf.sum|) xf yf).sum)

/-- `[_shuffle_distance(x[i], y[i]) for i in range(len(x))]`, test_point_aggregator.py:89, 93, 97. -/
def shuffleDistances (x y : List ReachPoint) : Except PyErr (List ℚ) :=
  (List.range x.length).mapM (fun i : Nat => do
    let a ← pyIndex x i
    let b ← pyIndex y i
    shuffleDistance a b)

/-- `_reach(x) - _reach(y)`. -/
def errors (x y : List ReachPoint) : Except PyErr NpArray := do
  npSub (← reachArray x) (← reachArray y)

/-- `(_reach(x) - _reach(y)) / _reach(x)`, test_point_aggregator.py:58. -/
def relativeErrors (x y : List ReachPoint) : Except PyErr NpArray := do
  npDiv (← errors x y) (← reachArray x)

/-- `np.abs(_reach(x) - _reach(y)) / _reach(x)`, test_point_aggregator.py:61 and following. -/
def absRelativeErrors (x y : List ReachPoint) : Except PyErr NpArray := do
  npDiv (npAbs (← errors x y)) (← reachArray x)

/-- `relative_error_qXX`, test_point_aggregator.py:60-86. -/
def relativeErrorQuantile (q : ℚ) (x y : List ReachPoint) : Except PyErr Cell := do
  return .float (npQuantile (← absRelativeErrors x y) q)

/-- `AGGREGATORS`, test_point_aggregator.py:31-99.  The last two compute the distances again. -/
def aggregators : List (String × (List ReachPoint → List ReachPoint → Except PyErr Cell)) :=
  [("npoints", fun x _ => .ok (.int x.length)),
   ("mean_error", fun x y => do return .float (npMean (← errors x y))),
   ("mean_abs_error", fun x y => do return .float (npMean (npAbs (← errors x y)))),
   ("mean_squared_error", fun x y => do return .float (npMean (npSq (← errors x y)))),
   ("mean_abs_relative_error", fun x y => do return .float (← meanAbsRelativeError x y)),
   ("mare_freq_at_least_2", fun x y => do return .float (← meanAbsRelativeError x y 2)),
   ("mare_freq_at_least_3", fun x y => do return .float (← meanAbsRelativeError x y 3)),
   ("mare_freq_at_least_4", fun x y => do return .float (← meanAbsRelativeError x y 4)),
   ("mare_freq_at_least_5", fun x y => do return .float (← meanAbsRelativeError x y 5)),
   ("mare_freq_at_least_6", fun x y => do return .float (← meanAbsRelativeError x y 6)),
   ("mare_freq_at_least_7", fun x y => do return .float (← meanAbsRelativeError x y 7)),
   ("mare_freq_at_least_8", fun x y => do return .float (← meanAbsRelativeError x y 8)),
   ("mare_freq_at_least_9", fun x y => do return .float (← meanAbsRelativeError x y 9)),
   ("mean_squared_relative_error", fun x y => do
      return .float (npMean (← npDiv (npSq (← errors x y)) (npSq (← reachArray x))))),
   ("var_error", fun x y => do return .float (npVar (← errors x y))),
   ("var_relative_error", fun x y => do return .float (npVar (← relativeErrors x y))),
   ("relative_error_q10", relativeErrorQuantile (1 / 10)),
   ("relative_error_q20", relativeErrorQuantile (2 / 10)),
   ("relative_error_q30", relativeErrorQuantile (3 / 10)),
   ("relative_error_q40", relativeErrorQuantile (4 / 10)),
   ("relative_error_q50", relativeErrorQuantile (5 / 10)),
   ("relative_error_q60", relativeErrorQuantile (6 / 10)),
   ("relative_error_q70", relativeErrorQuantile (7 / 10)),
   ("relative_error_q80", relativeErrorQuantile (8 / 10)),
   ("relative_error_q90", relativeErrorQuantile (9 / 10)),
   ("mean_shuffle_distance", fun x y => do
      return .float (npMean ((← shuffleDistances x y).map some))),
   ("mean_squared_shuffle_distance", fun x y => do
      return .float (npMean (npSq ((← shuffleDistances x y).map some)))),
   ("var_shuffle_distance", fun x y => do
      return .float (npVar ((← shuffleDistances x y).map some)))]

/-- The loop of `aggregate`, test_point_aggregator.py:144-145. -/
def aggregateStats (x y : List ReachPoint) : Except PyErr Row :=
  aggregators.mapM (fun a => do return (a.1, ← a.2 x y))

/-- `aggregate`, test_point_aggregator.py:127-146. -/
def aggregate (x y : List ReachPoint) : Except PyErr Row := do
  let stats ← aggregateStats x y
  return ("model_succeeded", .int 1) :: ("model_exception", .text "None") :: stats

/-- `aggregate_on_exception`, test_point_aggregator.py:149-161. -/
def aggregateOnException (debugMsg : String) : Row :=
  ("model_succeeded", .int 0) :: ("model_exception", .text debugMsg) ::
    aggregators.map (fun a => (a.1, .float none))

end Verif
