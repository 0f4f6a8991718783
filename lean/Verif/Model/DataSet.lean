import Verif.Model.PublisherData
import Verif.Model.ReachPoint

/-!
# Model of `src/data_generators/data_set.py` (queries; reading and writing are in
`Verif.Model.Storage`)
-/

namespace Verif

/-- Attributes set by `DataSet.__init__`, data_set.py:73-91. -/
structure DataSet where
  /-- `_data`, line 73 -/
  data : List PublisherData
  /-- `_maximum_reach`, lines 75-78 -/
  maximumReach : Nat
  /-- `_name`, lines 80-83 -/
  name : String
  /-- `_universe_size`, lines 84-91 -/
  universeSize : Int
  deriving DecidableEq, Repr

namespace DataSet

/-- `total_audience.update([id for id, _ in pub._data])` for every publisher, then `len`,
data_set.py:75-78. -/
def totalAudience (pubs : List PublisherData) : Nat :=
  lenSet (pubs.flatMap (fun p => p.data.map (·.1)))

/-- `DataSet.__init__`, data_set.py:54-91.  Without a name the constructor calls `randint`, which
the module does not import: `NameError` (line 83). -/
def new (pubs : List PublisherData) (name : String) (universeSize : Option Int := none) :
    Except PyErr DataSet :=
  if name = "" then .error .nameError
  else .ok {
    data := pubs
    maximumReach := totalAudience pubs
    name := name
    universeSize := match universeSize with
      | none => 2 * (totalAudience pubs : Int)
      | some u => u }

/-- `publisher_count`, data_set.py:93-96. -/
def publisherCount (ds : DataSet) : Nat := ds.data.length

/-- `spend_by_impressions`, data_set.py:113-128: an `IndexError` if the vector is too short,
extra entries are ignored. -/
def spendByImpressions (ds : DataSet) (impressions : List Int) : Except PyErr (List ℚ) :=
  (ds.data.zipIdx).mapM (fun pi => do
    let n ← pyIndex impressions pi.2
    pi.1.spendByImpressions n)

/-- `impressions_by_spend`, data_set.py:130-145. -/
def impressionsBySpend (ds : DataSet) (spends : List ℚ) : Except PyErr (List Nat) :=
  (ds.data.zipIdx).mapM (fun pi => do
    let s ← pyIndex spends pi.2
    return pi.1.impressionsBySpend s)

/-- `_counts_to_histogram`, data_set.py:177-190. -/
def countsToHistogram (counts : Dict Int Int) (maxFrequency : Int) : Except PyErr (List Int) := do
  let fc ← (counts.map (·.2)).foldlM
    (fun fc c => pyModify fc (min c maxFrequency - 1) (· + 1)) (pyRepeat 0 maxFrequency)
  return suffixLoop fc (maxFrequency - 1).toNat

/-- Body of the loop of `reach_by_impressions`, data_set.py:170-173, over the publishers paired
with the vector (the lengths have been compared at line 162). -/
def impressionsLoop : List (PublisherData × Int) → Dict Int Int → List ℚ →
    Except PyErr (Dict Int Int × List ℚ)
  | [], counts, spends => .ok (counts, spends)
  | (p, imp) :: rest, counts, spends => do
    let s ← p.spendByImpressions imp
    impressionsLoop rest (dictAddAll counts (p.userCountsByImpressions imp)) (spends ++ [s])

/-- `reach_by_impressions`, data_set.py:147-175. -/
def reachByImpressions (ds : DataSet) (impressions : List Int) (maxFrequency : Int := 10) :
    Except PyErr ReachPoint :=
  if impressions.length ≠ ds.publisherCount then .error .valueError
  else do
    let (counts, spends) ← impressionsLoop (ds.data.zip impressions) [] []
    let kplus ← countsToHistogram counts maxFrequency
    ReachPoint.new (impressions.map (fun n : Int => (n : ℚ))) (kplus.map (fun n : Int => (n : ℚ)))
      (some spends) (some (ds.universeSize : ℚ))

/-- Body of the loop of `reach_by_spend`, data_set.py:215-219. -/
def spendLoop : List (PublisherData × ℚ) → Dict Int Int → List Int → Dict Int Int × List Int
  | [], counts, imps => (counts, imps)
  | (p, s) :: rest, counts, imps =>
    let userCounts := p.userCountsBySpend s
    spendLoop rest (dictAddAll counts userCounts) (imps ++ [(userCounts.map (·.2)).sum])

/-- `reach_by_spend`, data_set.py:192-221. -/
def reachBySpend (ds : DataSet) (spends : List ℚ) (maxFrequency : Int := 10) :
    Except PyErr ReachPoint :=
  if spends.length ≠ ds.publisherCount then .error .valueError
  else do
    let (counts, impressions) := spendLoop (ds.data.zip spends) [] []
    let kplus ← countsToHistogram counts maxFrequency
    ReachPoint.new (impressions.map (fun n : Int => (n : ℚ))) (kplus.map (fun n : Int => (n : ℚ)))
      (some spends) (some (ds.universeSize : ℚ))

end DataSet

end Verif
