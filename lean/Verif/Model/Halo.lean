import Verif.Model.DataSet
import Verif.Model.PrivacyTracker

/-!
# Model of `src/simulator/publisher.py` and `src/simulator/halo_simulator.py`

The LiquidLegions sketch library and all random draws are parameters (`SketchLib`, `RandomLib`):
a draw is a function of the number of draws made before, so a theorem for all libraries is a
theorem for every noise realisation.
-/

namespace Verif

/-- The external sketch library: `ExponentialSameKeyAggregator` and
`StandardizedHistogramEstimator` as used at publisher.py:94-101 and halo_simulator.py:172-205. -/
structure SketchLib (S : Type) where
  /-- a fresh sketch -/
  empty : S
  /-- `sketch.add_ids` -/
  addIds : S → List Int → S
  /-- `merge_two_sketches` -/
  merge : S → S → S
  /-- `estimate_cardinality` of an estimator with the given noise seeds, maximum frequency, reach
  budget and frequency budget -/
  estimate : Nat → Nat → Int → PrivacyBudget ℚ → PrivacyBudget ℚ → S → List ℚ
  /-- `output_privacy_parameters` (without the noiser class, which the code ignores) -/
  outputPrivacyParameters : PrivacyBudget ℚ → PrivacyBudget ℚ → List (ℚ × ℚ)

/-- Random sources used by the Venn diagram path.  The first argument of each is the draw number. -/
structure RandomLib where
  /-- number of registers hit exactly once, halo_simulator.py:262-268 -/
  activeRegisters : Nat → ℚ → Int
  /-- `generator.multivariate_hypergeometric(population, size)` -/
  hypergeometric : Nat → List Int → Int → List Int
  /-- `GeometricEstimateNoiser(epsilon, seed)`: result of its `k`-th call on a value -/
  noiser : Nat → ℚ → Nat → ℚ → ℚ
  /-- `generator.normal(mean, std)` where `std` is a function of the true cardinality,
  halo_simulator.py:331-333, 581 -/
  normalEstimate : Nat → ℚ → ℚ

/-! ## publisher.py -/

/-- `Publisher`, publisher.py:38-63. -/
structure Publisher where
  publisherData : PublisherData
  campaignSpend : ℚ
  deriving DecidableEq, Repr

namespace Publisher

/-- `Publisher.__init__`, publisher.py:39-63. -/
def new (pd : PublisherData) (index : Nat) (fractions : List ℚ) : Except PyErr Publisher := do
  let f ← pyIndex fractions index
  return { publisherData := pd, campaignSpend := f * pd.maxSpend }

/-- `max_spend`, publisher.py:70-73. -/
def maxSpend (p : Publisher) : ℚ := p.publisherData.maxSpend

/-- `true_reach_by_spend`, publisher.py:75-88. -/
def trueReachBySpend (p : Publisher) (spend : ℚ) (maxFrequency : Int := 1) :
    Except PyErr ReachPoint := do
  let userCounts := p.publisherData.userCountsBySpend spend
  let impressions : Int := (userCounts.map (·.2)).sum
  let reach ← ReachPoint.userCountsToKplusReaches userCounts maxFrequency
  ReachPoint.new [(impressions : ℚ)] (reach.map (fun n : Int => (n : ℚ))) (some [spend])

/-- `liquid_legions_sketch`, publisher.py:90-102. -/
def liquidLegionsSketch {S : Type} (lib : SketchLib S) (p : Publisher) (spend : ℚ) : S :=
  (p.publisherData.userCountsBySpend (min spend p.campaignSpend)).foldl
    (fun s kv => lib.addIds s (pyRepeat kv.1 kv.2)) lib.empty

end Publisher

/-! ## halo_simulator.py -/

/-- The immutable part of a `HaloSimulator`, halo_simulator.py:95-108. -/
structure HaloSimulator (S : Type) where
  dataSet : DataSet
  publishers : List Publisher
  lib : SketchLib S
  rand : RandomLib

/-- The mutable part: the shared privacy tracker and the state of the random generator (number of
draws so far). -/
structure HaloState where
  tracker : PrivacyTracker ℚ
  draws : Nat

/-- A computation that may raise an exception; the tracker keeps what was recorded before it. -/
def HaloM (α : Type) := HaloState → Except PyErr α × HaloState

namespace HaloM

/-- Sequencing: an exception skips the rest. -/
def bind {α β : Type} (m : HaloM α) (f : α → HaloM β) : HaloM β := fun st =>
  match m st with
  | (.ok a, st') => f a st'
  | (.error e, st') => (.error e, st')

instance : Monad HaloM where
  pure a := fun st => (.ok a, st)
  bind := HaloM.bind

/-- A computation without effects. -/
def lift {α : Type} (e : Except PyErr α) : HaloM α := fun st => (e, st)

/-- One draw from the shared random generator. -/
def draw : HaloM Nat := fun st => (.ok st.draws, { st with draws := st.draws + 1 })

/-- `self._privacy_tracker.append(event)`. -/
def record (e : NoisingEvent ℚ) : HaloM Unit :=
  fun st => (.ok (), { st with tracker := st.tracker.append e })

/-- Record several events in order. -/
def recordAll : List (NoisingEvent ℚ) → HaloM Unit
  | [] => pure ()
  | e :: es => do record e; recordAll es

end HaloM

/-- The default sampling bucket of a `NoisingEvent`: the whole universe, privacy_tracker.py:81. -/
def fullBucket : SamplingBucketIndices ℚ := ⟨0, 1⟩

namespace HaloSimulator

variable {S : Type}

/-- `HaloSimulator.__init__`, halo_simulator.py:80-108. -/
def new (ds : DataSet) (fractions : List ℚ) (lib : SketchLib S) (rand : RandomLib) :
    Except PyErr (HaloSimulator S) := do
  let pubs ← (ds.data.zipIdx).mapM (fun pi => Publisher.new pi.1 pi.2 fractions)
  return { dataSet := ds, publishers := pubs, lib := lib, rand := rand }

/-- `publisher_count`, halo_simulator.py:110-113. -/
def publisherCount (h : HaloSimulator S) : Nat := h.publishers.length

/-- `campaign_spends`, halo_simulator.py:105, 115-118. -/
def campaignSpends (h : HaloSimulator S) : List ℚ := h.publishers.map (·.campaignSpend)

/-- `max_spends`, halo_simulator.py:106, 120-123. -/
def maxSpends (h : HaloSimulator S) : List ℚ := h.publishers.map (·.maxSpend)

/-- `true_reach_by_spend`, halo_simulator.py:125-143. -/
def trueReachBySpend (h : HaloSimulator S) (spends : List ℚ) (maxFrequency : Int := 1) :
    Except PyErr ReachPoint :=
  h.dataSet.reachBySpend spends maxFrequency

/-- The merged sketch, halo_simulator.py:171, 191-195: `self._publishers[i]` and `spends[i]` raise
`IndexError` when out of range. -/
def combinedSketch (h : HaloSimulator S) (spends : List ℚ) : Except PyErr S := do
  let p0 ← pyIndex h.publishers 0
  let s0 ← pyIndex spends 0
  (spends.zipIdx.drop 1).foldlM
    (fun acc si => do
      let p ← pyIndex h.publishers si.2
      return h.lib.merge acc (p.liquidLegionsSketch h.lib si.1))
    (p0.liquidLegionsSketch h.lib s0)

/-- The capping of the k+ reaches, halo_simulator.py:216-219. -/
def capReaches (impressions : List Nat) (kplus : List Int) (maxFrequency : Int) :
    Except PyErr (List Int) := do
  let k0 ← pyIndex kplus 0
  return if (impressions.sum : Int) ≤ k0 then
      max ((impressions.sum : Int) - 1) 1 :: pyRepeat 0 (max 0 (maxFrequency - 1))
    else kplus

/-- `simulated_reach_by_spend`, halo_simulator.py:145-225.  Simplified: the code looks up the first
publisher and the first spend before it draws the two seeds; the order only shows in the number of
draws after an `IndexError` of these lookups. -/
def simulatedReachBySpend (h : HaloSimulator S) (spends : List ℚ) (budget : PrivacyBudget ℚ)
    (split : ℚ := 1 / 2) (maxFrequency : Int := 1) : HaloM ReachPoint := do
  let reachBudget : PrivacyBudget ℚ := ⟨budget.epsilon * split, budget.delta * split⟩
  let freqBudget : PrivacyBudget ℚ := ⟨budget.epsilon * (1 - split), budget.delta * (1 - split)⟩
  let seed1 ← HaloM.draw
  let seed2 ← HaloM.draw
  let sketch ← HaloM.lift (h.combinedSketch spends)
  let estimates := h.lib.estimate seed1 seed2 maxFrequency reachBudget freqBudget sketch
  let kplus := minAccumulate ((estimates.map pyRound).map (max 0))
  HaloM.recordAll ((h.lib.outputPrivacyParameters reachBudget freqBudget).map
    (fun ed => { budget := ⟨ed.1, ed.2⟩, mechanism := "Discrete Gaussian",
                 samplingBuckets := fullBucket }))
  let impressions ← HaloM.lift (h.dataSet.impressionsBySpend spends)
  let capped ← HaloM.lift (capReaches impressions kplus maxFrequency)
  HaloM.lift (ReachPoint.new (impressions.map (fun n : Nat => (n : ℚ)))
    (capped.map (fun n : Int => (n : ℚ))) (some spends) (some (h.dataSet.universeSize : ℚ)))

/-! ### Venn diagrams -/

/-- `user_counts_by_pub_id`, halo_simulator.py:372-376: publishers with non-zero spend. -/
def activeCounts (h : HaloSimulator S) (spends : List ℚ) :
    Except PyErr (List (Nat × Dict Int Int)) :=
  (spends.zipIdx.filter (fun si => si.1 ≠ 0)).mapM (fun si => do
    let p ← pyIndex h.publishers si.2
    return (si.2, p.publisherData.userCountsBySpend si.1))

/-- `sum(1 << pub_id for pub_id in pub_ids)`, halo_simulator.py:394, 639. -/
def regionOf (pubIds : List Nat) : Nat := (pubIds.map (fun i => 1 <<< i)).sum

/-- The loops of halo_simulator.py:402-410 computing `user_region` and `user_impressions`. -/
def locateUsers (counts : List (Nat × Dict Int Int)) : Dict Int Nat × Dict Int Int :=
  counts.foldl
    (fun acc pc => pc.2.foldl
      (fun acc kv =>
        (dictUpd acc.1 kv.1 (fun o => o.getD 0 ||| 1 <<< pc.1), dictAdd acc.2 kv.1 kv.2)) acc)
    ([], [])

/-- `d[region][impressions] += 1` with `KeyError`/`IndexError`, halo_simulator.py:419. -/
def bump (d : Dict Nat (List Int)) (region : Nat) (i : Int) : Except PyErr (Dict Nat (List Int)) :=
  match d with
  | [] => .error .keyError
  | (k, v) :: rest =>
    if k = region then do
      let v' ← pyModify v i (· + 1)
      return (k, v') :: rest
    else do
      let rest' ← bump rest region i
      return (k, v) :: rest'

/-- `MAX_ACTIVE_PUBLISHERS`, halo_simulator.py:64. -/
def maxActivePublishers : Nat := 20

/-- `_form_venn_diagram_regions`, halo_simulator.py:344-430.  `frequencies_to_kplus_reaches` of
reach_point.py works on integers here. -/
def formVennDiagramRegions (h : HaloSimulator S) (spends : List ℚ) (maxFrequency : Int := 1) :
    Except PyErr (Dict Nat (List Int)) := do
  let counts ← h.activeCounts spends
  if maxActivePublishers < counts.length then .error .valueError
  else do
    let activePubs := counts.map (·.1)
    let regions := (nonemptySubsets activePubs).map regionOf
    let (userRegion, userImpressions) := locateUsers counts
    let init : Dict Nat (List Int) := regions.map (fun r => (r, pyRepeat 0 (maxFrequency + 1)))
    let freqs ← userRegion.foldlM
      (fun d ur => bump d ur.2 (min maxFrequency (dictGet userImpressions ur.1))) init
    let occupied := userRegion.map (·.2)
    return freqs.map (fun rf =>
      (rf.1, if rf.1 ∈ occupied then suffixLoop rf.2.tail (rf.2.tail.length - 1) else rf.2.tail))

/-- `_sample_venn_diagram`, halo_simulator.py:432-480. -/
def sampleVennDiagram (h : HaloSimulator S) (regions : Dict Nat (List Int)) (sampleSize : Int) :
    HaloM (Dict Nat Int) := do
  let pairs ← HaloM.lift (regions.mapM (fun rk => do
    let r ← pyIndex rk.2 0
    return (rk.1, r)))
  if pairs = [] then HaloM.lift (.error .valueError)
  else if (pairs.map (·.2)).sum < sampleSize then HaloM.lift (.error .valueError)
  else do
    let d ← HaloM.draw
    return (pairs.map (·.1)).zip (h.rand.hypergeometric d (pairs.map (·.2)) sampleSize)

/-- `_add_dp_noise_to_primitive_regions`, halo_simulator.py:482-534. -/
def addDpNoise (h : HaloSimulator S) (regions : Dict Nat Int) (budget : PrivacyBudget ℚ)
    (split : ℚ) : HaloM (Dict Nat ℚ) := do
  let seed ← HaloM.draw
  let noised := regions.zipIdx.map (fun rk =>
    (rk.1.1, max 0 (h.rand.noiser seed (budget.epsilon * split) rk.2 (rk.1.2 : ℚ))))
  HaloM.record { budget := ⟨budget.epsilon * split, budget.delta * split⟩,
                 mechanism := "Discrete Laplace", samplingBuckets := fullBucket }
  return noised

/-- `_scale_up_reach_in_primitive_regions`, halo_simulator.py:536-604.  `std_cardinality_estimate`
is a function of the true cardinality and hidden in `normalEstimate`. -/
def scaleUp (h : HaloSimulator S) (regions : Dict Nat ℚ) (trueCardinality : ℚ)
    (budget : PrivacyBudget ℚ) (split : ℚ) : HaloM (Dict Nat ℚ) := do
  let seed ← HaloM.draw
  let d ← HaloM.draw
  let cardinalityEstimate :=
    h.rand.noiser seed (budget.epsilon * split) 0 (h.rand.normalEstimate d trueCardinality)
  HaloM.record { budget := ⟨budget.epsilon * split, budget.delta * split⟩,
                 mechanism := "Discrete Laplace", samplingBuckets := fullBucket }
  let sum := (regions.map (·.2)).sum
  let factor := if sum ≠ 0 then cardinalityEstimate / sum else 0
  return regions.map (fun rv => (rv.1, rv.2 * factor))

/-- `_aggregate_reach_in_primitive_venn_diagram_regions`, halo_simulator.py:606-644. -/
def aggregateReach (pubIds : List Nat) (regions : Dict Nat ℚ) : ℚ :=
  ((regions.filter (fun rv => rv.1 &&& regionOf pubIds ≠ 0)).map (·.2)).sum

/-- `_generate_reach_points_from_venn_diagram`, halo_simulator.py:646-699.  The product of the
impression array (one entry per publisher) and the 0/1 vector (one entry per spend) needs equal
lengths; numpy's broadcasting of length-one arrays is not modelled, it is a `ValueError` here. -/
def generateReachPoints (h : HaloSimulator S) (spends : List ℚ) (regions : Dict Nat ℚ) :
    Except PyErr (List ReachPoint) := do
  let active := (spends.zipIdx.filter (fun si => si.1 ≠ 0)).map (·.2)
  let impressions ← h.dataSet.impressionsBySpend spends
  (nonemptySubsets active).mapM (fun sub => do
    let mask : List ℚ := (List.range spends.length).map (fun i => if i ∈ sub then 1 else 0)
    if impressions.length ≠ spends.length then .error .valueError
    else
      ReachPoint.new
        (List.zipWith (· * ·) (impressions.map (fun n : Nat => (n : ℚ))) mask)
        [aggregateReach sub regions]
        (some (List.zipWith (· * ·) spends mask)) (some (h.dataSet.universeSize : ℚ)))

/-- `_liquid_legions_num_active_regions`, halo_simulator.py:251-273. -/
def numActiveRegions (h : HaloSimulator S) (n : ℚ) : HaloM Int := do
  let d ← HaloM.draw
  let k := h.rand.activeRegisters d n
  if k = 0 then HaloM.lift (.error .runtimeError) else return k

/-- `simulated_venn_diagram_reach_by_spend`, halo_simulator.py:275-342. -/
def simulatedVenn (h : HaloSimulator S) (spends : List ℚ) (budget : PrivacyBudget ℚ)
    (split : ℚ := 1 / 2) (maxFrequency : Int := 1) : HaloM (List ReachPoint) := do
  if maxFrequency ≠ 1 then HaloM.lift (.error .valueError)
  else do
    let regions ← HaloM.lift (h.formVennDiagramRegions spends maxFrequency)
    if regions = [] then return []
    else do
      let r ← HaloM.lift (h.trueReachBySpend spends)
      let trueCardinality ← HaloM.lift (r.reach 1)
      let sampleSize ← h.numActiveRegions trueCardinality
      let sampled ← h.sampleVennDiagram regions sampleSize
      let noised ← h.addDpNoise sampled budget split
      let scaled ← h.scaleUp noised trueCardinality budget (1 - split)
      HaloM.lift (h.generateReachPoints spends scaled)

end HaloSimulator

end Verif
