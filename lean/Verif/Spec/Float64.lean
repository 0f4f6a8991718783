import Verif.Model.Float64
import Mathlib.Order.Bounds.Defs

/-!
# Specification: privacy losses computed with floats

Membership in a bucket is what binary64 arithmetic says, and a loss is a sum rounded after each
addition.
-/

namespace Verif.Spec

/-- Adding up from the left, rounding each sum. -/
def flSum (rnd : ℚ → ℚ) (l : List ℚ) : ℚ := l.foldl (fun a e => rnd (a + e)) 0

/-- In floats, the user at `x` is in the bucket from `s` of width `w`: between the start and the
rounded end, or before the start and before the rounded end minus one. -/
def InBucketFl (s w x : ℚ) : Prop :=
  (s ≤ x ∧ x < round64 (s + w)) ∨ (x < s ∧ x < round64 (round64 (s + w) - 1))

open Classical in
/-- The loss of the user at `x`, in floats. -/
noncomputable def userLossFl (c : NoisingEvent ℚ → ℚ) (es : List (NoisingEvent ℚ)) (x : ℚ) : ℚ :=
  flSum round64 ((es.filter (fun e =>
    InBucketFl e.samplingBuckets.smallestIndex e.samplingBuckets.samplingRate x)).map c)

/-- All users' losses, in floats. -/
def lossesFl (c : NoisingEvent ℚ → ℚ) (es : List (NoisingEvent ℚ)) : Set ℚ :=
  {y | ∃ x : ℚ, 0 ≤ x ∧ x < 1 ∧ y = userLossFl c es x}

/-- The numbers of binary64, without the upper end: an integer of at most 53 bits times a power of two
from `2^-1074` on. -/
def IsFloat64 (y : ℚ) : Prop := ∃ n e : ℤ, |n| < 2 ^ 53 ∧ -1074 ≤ e ∧ y = n * 2 ^ e

end Verif.Spec
