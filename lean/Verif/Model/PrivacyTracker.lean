import Mathlib.Algebra.Order.Field.Basic
import Mathlib.Algebra.Order.Field.Rat
import Mathlib.Data.List.Dedup

/-!
# Model of `src/simulator/privacy_tracker.py`

Numbers live in an arbitrary linearly ordered field `K` (exact arithmetic), so the theorems hold
for rational and real positions alike.
-/

namespace Verif

/-- `PrivacyBudget`, privacy_tracker.py:26-42. -/
structure PrivacyBudget (K : Type) where
  epsilon : K
  delta : K
  deriving DecidableEq, Repr

/-- `SamplingBucketIndices`, privacy_tracker.py:45-56. -/
structure SamplingBucketIndices (K : Type) where
  smallestIndex : K
  samplingRate : K
  deriving DecidableEq, Repr

/-- `NoisingEvent`, privacy_tracker.py:66-81.  The mechanism-specific `params` dictionary is not
modelled: nothing in the tracker reads it. -/
structure NoisingEvent (K : Type) where
  budget : PrivacyBudget K
  mechanism : String
  samplingBuckets : SamplingBucketIndices K
  deriving DecidableEq, Repr

section

variable {K : Type} [Field K] [LinearOrder K]

/-- `SamplingBucketIndices.contains`, privacy_tracker.py:58-63. -/
def SamplingBucketIndices.contains (b : SamplingBucketIndices K) (x : K) : Bool :=
  if b.smallestIndex ≤ x then x < b.smallestIndex + b.samplingRate
  else x < b.smallestIndex + b.samplingRate - 1

/-- State of a `PrivacyTracker`, privacy_tracker.py:101-106.  `starts` is the Python set of
starting points as a duplicate-free list. -/
structure PrivacyTracker (K : Type) where
  noisingEvents : List (NoisingEvent K)
  starts : List K
  deriving DecidableEq, Repr

namespace PrivacyTracker

/-- `__init__`, privacy_tracker.py:101-106. -/
def new : PrivacyTracker K := { noisingEvents := [], starts := [0] }

/-- `append`, privacy_tracker.py:148-153. -/
def append (t : PrivacyTracker K) (e : NoisingEvent K) : PrivacyTracker K :=
  { noisingEvents := t.noisingEvents ++ [e]
    starts := t.starts.insert e.samplingBuckets.smallestIndex }

/-- `privacy_consumption_for_sampling_bucket`, privacy_tracker.py:128-141. -/
def consumptionForBucket (t : PrivacyTracker K) (x : K) : PrivacyBudget K :=
  t.noisingEvents.foldl
    (fun acc e =>
      if e.samplingBuckets.contains x then
        { epsilon := acc.epsilon + e.budget.epsilon, delta := acc.delta + e.budget.delta }
      else acc)
    { epsilon := 0, delta := 0 }

/-- `privacy_consumption`, privacy_tracker.py:108-126. -/
def privacyConsumption (t : PrivacyTracker K) : PrivacyBudget K :=
  t.starts.foldl
    (fun acc x =>
      { epsilon := max acc.epsilon (t.consumptionForBucket x).epsilon
        delta := max acc.delta (t.consumptionForBucket x).delta })
    { epsilon := 0, delta := 0 }

/-- `mechanisms`, privacy_tracker.py:143-146. -/
def mechanisms (t : PrivacyTracker K) : List String := t.noisingEvents.map (·.mechanism)

/-- The tracker after a history of `append` calls. -/
def run (es : List (NoisingEvent K)) : PrivacyTracker K := es.foldl append new

end PrivacyTracker

end

end Verif
