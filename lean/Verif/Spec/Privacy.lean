import Verif.Model.PrivacyTracker
import Mathlib.Algebra.Order.Floor.Ring
import Mathlib.Order.Bounds.Defs

/-!
# Specification: privacy loss of a user under basic composition

A user sits at a position of the circle `[0, 1)`.  A noising event with bucket `(a, w)` touches
exactly the users at positions `a + t` modulo one for `0 ≤ t < w`.
-/

namespace Verif.Spec

variable {K : Type} [Field K] [LinearOrder K] [IsStrictOrderedRing K] [FloorRing K]

/-- Event `e` touches the user at position `x`. -/
def Touches (e : NoisingEvent K) (x : K) : Prop :=
  ∃ t : K, 0 ≤ t ∧ t < e.samplingBuckets.samplingRate ∧
    Int.fract (e.samplingBuckets.smallestIndex + t) = x

/-- A well-formed event: bucket start in `[0,1)`, width in `[0,1]`, non-negative budget. -/
def ValidEvent (e : NoisingEvent K) : Prop :=
  0 ≤ e.samplingBuckets.smallestIndex ∧ e.samplingBuckets.smallestIndex < 1 ∧
  0 ≤ e.samplingBuckets.samplingRate ∧ e.samplingBuckets.samplingRate ≤ 1 ∧
  0 ≤ e.budget.epsilon ∧ 0 ≤ e.budget.delta

open Classical in
/-- Privacy loss (for the cost `c`, epsilon or delta) of the user at `x`: summed cost of the
events touching the user. -/
noncomputable def userLoss (c : NoisingEvent K → K) (es : List (NoisingEvent K)) (x : K) : K :=
  ((es.filter (fun e => Touches e x)).map c).sum

/-- All users' losses. -/
def losses (c : NoisingEvent K → K) (es : List (NoisingEvent K)) : Set K :=
  {y | ∃ x : K, 0 ≤ x ∧ x < 1 ∧ y = userLoss c es x}

end Verif.Spec
