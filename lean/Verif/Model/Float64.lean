import Verif.Model.PrivacyTracker
import Mathlib.Data.Int.Log
import Mathlib.Data.Rat.Floor

/-!
# Floating point numbers

The other modules compute with exact numbers.  This one models the arithmetic Python really uses for
the privacy budgets: every operation on floats is the exact operation followed by rounding to the
nearest number of binary64 (IEEE 754, ties to even).  Simplified: numbers too large for binary64
(2^1024 and more) are rounded as if the range of exponents had no upper end.

The functions take the rounding `rnd` as a parameter; `round64` is the one of the hardware, and with
`id` they are the exact functions of the other modules.
-/

namespace Verif

/-- Nearest integer, ties to even. -/
def roundHalfEven (x : ℚ) : ℤ :=
  if x - ⌊x⌋ < 1 / 2 then ⌊x⌋
  else if 1 / 2 < x - ⌊x⌋ then ⌊x⌋ + 1
  else if ⌊x⌋ % 2 = 0 then ⌊x⌋ else ⌊x⌋ + 1

/-- Distance of neighbouring numbers of binary64 at `x`: 53 significant bits, and no number closer to
zero than `2^-1074`. -/
def ulp64 (x : ℚ) : ℚ := (2 : ℚ) ^ (max (Int.log 2 |x| - 52) (-1074))

/-- The number of binary64 nearest to `x`. -/
def round64 (x : ℚ) : ℚ := roundHalfEven (x / ulp64 x) * ulp64 x

section

variable (rnd : ℚ → ℚ)

/-- `SamplingBucketIndices.contains` on floats, privacy_tracker.py:58-63. -/
def SamplingBucketIndices.containsFl (b : SamplingBucketIndices ℚ) (x : ℚ) : Bool :=
  if b.smallestIndex ≤ x then x < rnd (b.smallestIndex + b.samplingRate)
  else x < rnd (rnd (b.smallestIndex + b.samplingRate) - 1)

/-- `privacy_consumption_for_sampling_bucket` on floats, privacy_tracker.py:128-141. -/
def PrivacyTracker.consumptionForBucketFl (t : PrivacyTracker ℚ) (x : ℚ) : PrivacyBudget ℚ :=
  t.noisingEvents.foldl
    (fun acc e =>
      if e.samplingBuckets.containsFl rnd x then
        { epsilon := rnd (acc.epsilon + e.budget.epsilon), delta := rnd (acc.delta + e.budget.delta) }
      else acc)
    { epsilon := 0, delta := 0 }

/-- `privacy_consumption` on floats, privacy_tracker.py:108-126. -/
def PrivacyTracker.privacyConsumptionFl (t : PrivacyTracker ℚ) : PrivacyBudget ℚ :=
  t.starts.foldl
    (fun acc x =>
      { epsilon := max acc.epsilon (t.consumptionForBucketFl rnd x).epsilon
        delta := max acc.delta (t.consumptionForBucketFl rnd x).delta })
    { epsilon := 0, delta := 0 }

/-- The budgets of the two parts of a request, halo_simulator.py:176-179 and 324-336 (with 512-521,
575-586): the shares `split` and `1 - split`. -/
def splitBudgetFl (budget : PrivacyBudget ℚ) (split : ℚ) : List (PrivacyBudget ℚ) :=
  [⟨rnd (budget.epsilon * split), rnd (budget.delta * split)⟩,
    ⟨rnd (budget.epsilon * rnd (1 - split)), rnd (budget.delta * rnd (1 - split))⟩]

/-- The budget of each request of the M3 strategy for `p` publishers, m3_strategy.py:76-78. -/
def m3ShareFl (budget : PrivacyBudget ℚ) (p : Nat) : PrivacyBudget ℚ :=
  ⟨rnd (budget.epsilon / (2 * p + 1)), rnd (budget.delta / (2 * p + 1))⟩

/-- The number of requests of the M3 strategy, m3_strategy.py:80-107. -/
def m3Requests (p : Nat) : Nat := 1 + p + if 2 < p then p else 0

/-- An event recorded for a request, halo_simulator.py:205-212. -/
def requestEvent (budget : PrivacyBudget ℚ) : NoisingEvent ℚ :=
  { budget := budget, mechanism := "Discrete Gaussian", samplingBuckets := ⟨0, 1⟩ }

/-- The events a successful fit of the M3 strategy records, if the estimator reports the budgets it
was given: two for each request. -/
def m3EventsFl (budget : PrivacyBudget ℚ) (p : Nat) : List (NoisingEvent ℚ) :=
  (List.replicate (m3Requests p)
    ((splitBudgetFl rnd (m3ShareFl rnd budget p) (1 / 2)).map requestEvent)).flatten

end

end Verif
