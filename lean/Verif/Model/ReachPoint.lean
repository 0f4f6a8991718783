import Verif.Model.Py

/-!
# Model of `src/models/reach_point.py`

Reaches, impressions and spends are rationals (Python ints and floats).
-/

namespace Verif

/-- Attributes set by `ReachPoint.__init__`, reach_point.py:50-60. -/
structure ReachPoint where
  /-- `_impressions`, line 50 -/
  impressions : List ℚ
  /-- `_kplus_reaches`, line 51 -/
  kplusReaches : List ℚ
  /-- `_frequencies`, lines 52-55 -/
  frequencies : List ℚ
  /-- `_spends`, lines 56-59 -/
  spends : Option (List ℚ)
  /-- `_universe_size`, line 60 -/
  universeSize? : Option ℚ
  deriving DecidableEq, Repr

namespace ReachPoint

/-- `[k[i] - k[i+1] for i in range(len(k) - 1)]`, reach_point.py:52-55. -/
def successiveDifferences (l : List ℚ) : List ℚ := List.zipWith (· - ·) l l.tail

/-- `if spends` in Python: neither `None` nor the empty list (reach_point.py:48, 56). -/
def truthySpends : Option (List ℚ) → Bool
  | none => false
  | some l => !l.isEmpty

/-- `ReachPoint.__init__`, reach_point.py:28-60. -/
def new (impressions kplusReaches : List ℚ) (spends : Option (List ℚ) := none)
    (universeSize : Option ℚ := none) : Except PyErr ReachPoint :=
  if truthySpends spends ∧ impressions.length ≠ (spends.getD []).length then .error .valueError
  else .ok {
    impressions := impressions
    kplusReaches := kplusReaches
    frequencies := successiveDifferences kplusReaches
    spends := if truthySpends spends then spends else none
    universeSize? := universeSize }

/-- `universe_size`, reach_point.py:67-72. -/
def universeSize (r : ReachPoint) : Except PyErr ℚ :=
  match r.universeSize? with
  | none => .error .valueError
  | some u => .ok u

/-- `max_frequency`, reach_point.py:74-77. -/
def maxFrequency (r : ReachPoint) : Nat := r.kplusReaches.length

/-- `reach(k)`, reach_point.py:79-87. -/
def reach (r : ReachPoint) (k : Int) : Except PyErr ℚ :=
  if 0 < k ∧ k ≤ r.kplusReaches.length then pyIndex r.kplusReaches (k - 1)
  else .error .valueError

/-- `frequency(k)`, reach_point.py:89-97. -/
def frequency (r : ReachPoint) (k : Int) : Except PyErr ℚ :=
  if 0 < k ∧ k < r.kplusReaches.length then pyIndex r.frequencies (k - 1)
  else .error .valueError

/-- `frequencies_with_kplus_bucket`, reach_point.py:103-105.  `[-1]` of an empty tuple is an
`IndexError`. -/
def frequenciesWithKplusBucket (r : ReachPoint) : Except PyErr (List ℚ) := do
  let last ← pyIndex r.kplusReaches (-1)
  return r.frequencies ++ [last]

/-- `zero_included_histogram`, reach_point.py:107-120. -/
def zeroIncludedHistogram (r : ReachPoint) : Except PyErr (List ℚ) :=
  match r.universeSize? with
  | none => .error .valueError
  | some _ => do
    let u ← r.universeSize
    let r1 ← r.reach 1
    let fs ← r.frequenciesWithKplusBucket
    return (u - r1) :: fs

end ReachPoint

/-- The loop `for i in range(k - 1, -1, -1): l[i] += l[i + 1]`, used at reach_point.py:139-140
and 179-180 and data_set.py:188-189.  `k` is the number of iterations; all indices are in range
whenever `k < len(l)` or `k = 0`. -/
def suffixLoop {ν : Type} [Add ν] [Zero ν] (l : List ν) : Nat → List ν
  | 0 => l
  | k + 1 => suffixLoop (l.modify k (· + l.getD (k + 1) 0)) k

namespace ReachPoint

/-- `frequencies_to_kplus_reaches`, reach_point.py:127-141.  `range(len - 2, -1, -1)` has
`len - 1` elements (none for the empty list). -/
def frequenciesToKplusReaches (frequencies : List ℚ) : List ℚ :=
  suffixLoop frequencies (frequencies.length - 1)

/-- `user_counts_to_frequencies`, reach_point.py:143-161: the bucket index is
`min(c, max_frequency) - 1`, with Python's rule for negative indices. -/
def userCountsToFrequencies {κ : Type} (counts : Dict κ Int) (maxFrequency : Int) :
    Except PyErr (List Int) :=
  (counts.map (·.2)).foldlM
    (fun fc c => pyModify fc (min c maxFrequency - 1) (· + 1)) (pyRepeat 0 maxFrequency)

/-- `user_counts_to_kplus_reaches`, reach_point.py:163-181. -/
def userCountsToKplusReaches {κ : Type} (counts : Dict κ Int) (maxFrequency : Int) :
    Except PyErr (List Int) := do
  let fc ← userCountsToFrequencies counts maxFrequency
  return suffixLoop fc (maxFrequency - 1).toNat

end ReachPoint

end Verif
