import Verif.Model.Py

/-!
# Model of `src/data_generators/publisher_data.py`
-/

namespace Verif

/-- An impression log: pairs (user id, total spend needed for the impression to be shown).
publisher_data.py:67-71. -/
abbrev Log := List (Int × ℚ)

/-- The attributes set by `PublisherData.__init__`, publisher_data.py:78-85. -/
structure PublisherData where
  /-- `_data`: the log sorted by spend (line 78-79) -/
  data : Log
  /-- `_spends`: spends in the order of the *input*, line 83 -/
  spends : List ℚ
  /-- `_max_spend`, line 84 -/
  maxSpend : ℚ
  /-- `_max_reach`, line 85 -/
  maxReach : Nat
  /-- `_name`, lines 80-82 -/
  name : String
  deriving DecidableEq, Repr

/-- `list.sort(key=lambda x: x[1])` (publisher_data.py:79).  Python's sort is stable; insertion
sort from the right with `≤` computes the same (unique) stable arrangement. -/
def sortBySpend (log : Log) : Log := log.insertionSort (fun a b => a.2 ≤ b.2)

/-- `PublisherData.__init__`, publisher_data.py:78-85.  `rnd` stands for the random digit string
of line 82.  Raises `ValueError` on an empty log (`max([])`, line 84). -/
def PublisherData.new (log : Log) (name rnd : String) : Except PyErr PublisherData := do
  let maxSpend ← pyMax (log.map (·.2))
  return {
    data := sortBySpend log
    spends := log.map (·.2)
    maxSpend := maxSpend
    maxReach := lenSet (log.map (·.1))
    name := if name = "" then rnd else name }

namespace PublisherData

/-- `max_impressions`, publisher_data.py:87-90. -/
def maxImpressions (p : PublisherData) : Nat := p.data.length

/-- `spend_by_impressions`, publisher_data.py:112-122. -/
def spendByImpressions (p : PublisherData) (impressions : Int) : Except PyErr ℚ :=
  if impressions = 0 then .ok 0
  else do
    let e ← pyIndex p.data (min (p.data.length : Int) impressions - 1)
    return e.2

/-- `impressions_by_spend`, publisher_data.py:124-133. -/
def impressionsBySpend (p : PublisherData) (spend : ℚ) : Nat := bisectRight p.spends spend

/-- `user_counts_by_impressions`, publisher_data.py:135-144. -/
def userCountsByImpressions (p : PublisherData) (impressions : Int) : Dict Int Int :=
  counter ((pySliceTo p.data impressions).map (·.1))

/-- `user_counts_by_spend`, publisher_data.py:146-155. -/
def userCountsBySpend (p : PublisherData) (spend : ℚ) : Dict Int Int :=
  counter ((p.data.filter (fun e => e.2 ≤ spend)).map (·.1))

end PublisherData

end Verif
