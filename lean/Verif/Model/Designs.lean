import Mathlib.Data.Rat.Floor
import Verif.Model.Descriptor
import Verif.Model.Generators

/-!
# Model of the shipped data designs and experimental designs

`src/data_generators/m3_data_design.py`, `lhs_data_design_example.py`,
`analysis_example_data_design.py`, `simple_data_design_example.py`, `single_publisher_design.py`,
`independent_overlap_data_set.py`, and
`src/driver/m3_first_round_experimental_design.py`, `analysis_example_experimental_design.py`,
and the choice of levels in `sample_experimental_design.py`.
-/

namespace Verif

/-- `int(x)` of a float: rounding towards zero. -/
def pyInt (x : ℚ) : Int := if 0 ≤ x then ⌊x⌋ else -⌊-x⌋

/-- `LEVELS[key][int(level * len(LEVELS[key]))]`, m3_data_design.py:179,
lhs_data_design_example.py:113, sample_experimental_design.py:111. -/
def pickLevel {α : Type} (levels : List α) (level : ℚ) : Except PyErr α :=
  pyIndex levels (pyInt (level * (levels.length : ℚ)))

/-! ## Data designs -/

/-- `LEVELS` of a data design, m3_data_design.py:155-162, lhs_data_design_example.py:86-93,
analysis_example_data_design.py:88-95. -/
structure DataSetLevels where
  /-- `NUM_PUBLISHERS` -/
  numPublishers : List Int
  /-- `LARGEST_PUBLISHER` -/
  largest : List Int
  /-- `PUBLISHER_RATIOS` -/
  ratios : List ℚ
  /-- `PRICING_GENERATORS` -/
  pricing : List GeneratorParams
  /-- `IMPRESSION_GENERATORS` -/
  impressions : List GeneratorParams
  /-- `OVERLAP_GENERATORS` -/
  overlaps : List GeneratorParams

/-- `int(largest_publisher_size / largest_pub_to_universe_ratio)`, m3_data_design.py:184-187. -/
def independentUniverse (largest : Int) (ratio : ℚ) : Int := pyInt ((largest : ℚ) / ratio)

/-- The replacement of the arguments of the overlap generator, m3_data_design.py:180-190.  The ratio
is stored as the text that `str` prints for it, so it is read back here. -/
def m3Overlap (T : FloatText) (largest : Int) (o : GeneratorParams) :
    Except PyErr GeneratorParams :=
  if o.name = "Independent".toList then do
    let text ← dictLookup o.params "largest_pub_to_universe_ratio".toList
    let generator ← dictLookup o.params "random_generator".toList
    match T.parse text with
    | none => .error .typeError
    | some ratio =>
      if ratio = 0 then .error .zeroDivision
      else .ok { o with params :=
        [("universe_size".toList, showInt (independentUniverse largest ratio)),
         ("random_generator".toList, generator)] }
  else .ok o

/-- The body of the loop, m3_data_design.py:177-191.  `adjust` is `m3Overlap T` there; for
lhs_data_design_example.py:111-114, which has no replacement, it returns its argument.  The design has
one column per key. -/
def lhsDataSet (L : DataSetLevels) (adjust : Int → GeneratorParams → Except PyErr GeneratorParams)
    (i : Nat) (sample : Fin 6 → ℚ) : Except PyErr DataSetParams := do
  let numPublishers ← pickLevel L.numPublishers (sample 0)
  let largest ← pickLevel L.largest (sample 1)
  let ratio ← pickLevel L.ratios (sample 2)
  let pricing ← pickLevel L.pricing (sample 3)
  let impressions ← pickLevel L.impressions (sample 4)
  let raw ← pickLevel L.overlaps (sample 5)
  let overlaps ← adjust largest raw
  return ⟨[], numPublishers, largest, ratio, pricing, impressions, overlaps, showNat i⟩

/-- `generate_data_design_config`, m3_data_design.py:168-191, lhs_data_design_example.py:99-114.
`samples` are the rows of the design drawn by pyDOE. -/
def lhsDataDesign (L : DataSetLevels)
    (adjust : Int → GeneratorParams → Except PyErr GeneratorParams)
    (samples : List (Fin 6 → ℚ)) : Except PyErr (List DataSetParams) :=
  samples.zipIdx.mapM (fun si => lhsDataSet L adjust si.2 si.1)

/-- `generate_data_design_config`, analysis_example_data_design.py:98-105, and, with only one level for
the other parameters, simple_data_design_example.py:31-50 and single_publisher_design.py:149-163:
`itertools.product`, the last parameter varying fastest. -/
def factorialDataDesign (L : DataSetLevels) : List DataSetParams :=
  L.numPublishers.flatMap fun a => L.largest.flatMap fun b => L.ratios.flatMap fun c =>
    L.pricing.flatMap fun d => L.impressions.flatMap fun e => L.overlaps.map fun f =>
      ⟨[], a, b, c, d, e, f, []⟩

/-- `IndependentOverlapDataSet.__init__`, independent_overlap_data_set.py:37-67.  `independent u sizes`
is what the external class `IndependentSetGenerator` yields for the universe size `u`; the universe
size is not passed on to the data set. -/
def independentOverlapDataSet (setOrder : List Int → List Int)
    (independent : Int → List Nat → List (List Int)) (universeSize : Int)
    (pubs : List PublisherData) (name rnd : String) : Except PyErr DataSet :=
  overlapDataSet setOrder (independent universeSize) pubs name rnd

/-! ## Experimental designs -/

/-- `LEVELS` of an experimental design, m3_first_round_experimental_design.py:87-95,
analysis_example_experimental_design.py:74-82.  `DS` is the type of data sets. -/
structure TrialLevels (DS : Type) where
  /-- `MODELING_STRATEGIES` -/
  strategies : List StrategyDescriptor
  /-- `CAMPAIGN_SPEND_FRACTIONS_GENERATORS` -/
  spends : List (DS → List ℚ)
  /-- `LIQUID_LEGIONS_PARAMS`: decay rate and sketch size -/
  liquidLegions : List (ℚ × ℚ)
  /-- `PRIVACY_BUDGETS` -/
  budgets : List (PrivacyBudget ℚ)
  /-- `REPLICA_IDS` -/
  replicas : List Int
  /-- `MAX_FREQUENCIES` -/
  maxFrequencies : List Int
  /-- `TEST_POINT_STRATEGIES` -/
  testPoints : List (Text × Kwargs)

/-- One iteration of the loop, m3_first_round_experimental_design.py:103-122.  The default random
seed of the sketches is 1 (system_parameters.py:39). -/
def trialOfLevels {DS : Type} (seed : Int) (m : StrategyDescriptor) (s : DS → List ℚ) (l : ℚ × ℚ)
    (b : PrivacyBudget ℚ) (r f : Int) (t : Text × Kwargs) : TrialTemplate DS where
  desc :=
    { strategy := m
      system := ⟨[], l.1, l.2, 1, seed⟩
      experiment := ⟨b, r, f, t.1, t.2⟩ }
  spendsGenerator := some s

/-- `generate_experimental_design_config`, m3_first_round_experimental_design.py:100-122 and
analysis_example_experimental_design.py:86-108. -/
def factorialTrials {DS : Type} (L : TrialLevels DS) (seed : Int) : List (TrialTemplate DS) :=
  L.strategies.flatMap fun m => L.spends.flatMap fun s => L.liquidLegions.flatMap fun l =>
    L.budgets.flatMap fun b => L.replicas.flatMap fun r => L.maxFrequencies.flatMap fun f =>
      L.testPoints.map fun t => trialOfLevels seed m s l b r f t

/-- The levels of m3_first_round_experimental_design.py:45-95; a data set is represented by its number
of publishers. -/
def m3TrialLevels : TrialLevels Nat where
  strategies :=
    [⟨"m3strategy".toList, [("use_ground_truth_for_reach_curves".toList, "True".toList)],
        "goerg".toList, [], "restricted_pairwise_union".toList, []⟩,
     ⟨"m3strategy".toList, [], "goerg".toList, [], "restricted_pairwise_union".toList, []⟩,
     ⟨"m3strategy".toList, [], "gamma_poisson".toList, [], "restricted_pairwise_union".toList, []⟩]
  spends :=
    [fun n => List.replicate n (1/5),
     fun n => (List.range n).map (fun i => [1/10, 1/5, 3/10].getD (i % 3) 0)]
  liquidLegions := [(12, 100000)]
  budgets :=
    [⟨1, 1/10000000⟩, ⟨1, 1/1000000000⟩, ⟨1/10, 1/10000000⟩, ⟨1/10, 1/1000000000⟩]
  replicas := [1, 2, 3]
  maxFrequencies := [5, 20]
  testPoints :=
    [("latin_hypercube".toList, [("npublishers".toList, "1".toList)]),
     ("uniformly_random".toList, [("npublishers".toList, "1".toList)])]

end Verif
