import Verif.Model.Aggregator
import Verif.Model.PrivacyTracker
import Verif.Model.Storage

/-!
# Model of the result row of a trial

`src/driver/experimental_trial.py`, lines 173-238 and 255-377.  The data set, Halo, the modelling
strategy and the test point generator are represented by what the trial asks them.
-/

namespace Verif

/-- What a trial uses of a fitted reach surface. -/
structure Surface where
  /-- `by_spend` -/
  bySpend : List ℚ → Int → Except PyErr ReachPoint
  /-- `_data`: an `AttributeError` for objects that do not have it -/
  data : Except PyErr (List ReachPoint)

/-- What a trial uses of its surroundings. -/
structure TrialInputs where
  /-- `_data_set_name` -/
  dataSetName : String
  /-- `str(_trial_descriptor)` -/
  descriptor : String
  /-- `experiment_params.replica_id` -/
  replicaId : Int
  /-- `modeling_strategy.single_pub_model` -/
  singlePubModel : String
  /-- `modeling_strategy.multi_pub_model` -/
  multiPubModel : String
  /-- `modeling_strategy.strategy` -/
  strategy : String
  /-- `liquid_legions.sketch_size`: some designs give it as an int, others as a float -/
  sketchSize : ℚ
  /-- `liquid_legions.decay_rate` -/
  decayRate : ℚ
  /-- `data_set.maximum_reach` -/
  maximumReach : Int
  /-- `max_reach` of the publishers -/
  publisherReaches : List Int
  /-- `experiment_params.max_frequency` -/
  maxFrequency : Int
  /-- `system_params.campaign_spend_fractions` -/
  spendFractions : List ℚ
  /-- `experiment_params.privacy_budget` -/
  budget : PrivacyBudget ℚ
  /-- `modeling_strategy.fit` -/
  fit : Except PyErr Surface
  /-- the tracker after the trial -/
  tracker : PrivacyTracker ℚ
  /-- `generate_test_points` -/
  testPoints : Except PyErr (List (List ℚ))
  /-- `halo.true_reach_by_spend` -/
  trueReach : List ℚ → Int → Except PyErr ReachPoint
  /-- `halo.campaign_spends` -/
  campaignSpends : List ℚ
  /-- `_analysis_type` -/
  analysisType : String
  /-- `traceback.format_exc()` -/
  traceback : PyErr → String

/-- `SINGLE_PUBLISHER_FRACTIONS`, experimental_trial.py:73: multiples of a tenth. -/
def singlePublisherFractions : List Nat := (List.range 30).map (· + 1)

/-- `f"{int(r*100):03d}"`, experimental_trial.py:325, 338, 369, 373, for `r` tenths.  (With
floats, too, `int(r*100)` is ten times the number of tenths.) -/
def fractionLabel (r : Nat) : String :=
  let t := showNat (r * 10)
  String.ofList (List.replicate (3 - t.length) '0' ++ t)

/-- Column name, experimental_trial.py:325, 369. -/
def reachColumn (r : Nat) : String := "relative_error_at_" ++ fractionLabel r

/-- Column name, experimental_trial.py:338, 373. -/
def frequencyColumn (f r : Nat) : String :=
  "freq_" ++ String.ofList (showNat f) ++ "_relative_error_at_" ++ fractionLabel r

/-- experimental_trial.py:321-324 and 333-336. -/
def relativeErrorCell (trueReach fittedReach : ℚ) : Cell :=
  if trueReach ≠ 0 then .float (some |(trueReach - fittedReach) / trueReach|) else .float none

/-- One column, experimental_trial.py:317-326 (`f = 1`) and 330-339. -/
def fractionCell (inp : TrialInputs) (s : Surface) (f : Nat) (r : Nat) : Except PyErr Cell := do
  let spend0 ← pyIndex inp.campaignSpends 0
  let spend := spend0 * ((r : ℚ) / 10)
  let t ← inp.trueReach [spend] f
  let trueReach ← t.reach f
  let p ← s.bySpend [spend] f
  let fittedReach ← p.reach f
  return relativeErrorCell trueReach fittedReach

/-- `[(i + 1) for i, f in enumerate(kplus) if f != 0]`. -/
def nonzeroFrequencies (kplus : List ℚ) : List Int :=
  (kplus.zipIdx.filter (fun x => x.1 ≠ 0)).map (fun x => (x.2 : Int) + 1)

/-- `max` of a list of ints; an empty list is a `ValueError`. -/
def pyMaxInt : List Int → Except PyErr Int
  | [] => .error .valueError
  | x :: xs => .ok (xs.foldl max x)

/-- experimental_trial.py:344-355 and 357-361. -/
def maxNonzeroFrequency (p : ReachPoint) : Except PyErr Cell :=
  if p.kplusReaches ≠ [] then do
    let m ← pyMaxInt (nonzeroFrequencies p.kplusReaches)
    return .int m
  else .ok (.int 0)

/-- Frequencies of the frequency columns: `range(1, max_frequency)`. -/
def frequencyRange (maxFrequency : Int) : List Nat :=
  (List.range (maxFrequency - 1).toNat).map (· + 1)

/-- The loop at experimental_trial.py:316-326. -/
def reachCells (inp : TrialInputs) (s : Surface) : Except PyErr Row :=
  singlePublisherFractions.mapM (fun r => do return (reachColumn r, ← fractionCell inp s 1 r))

/-- The loops at experimental_trial.py:328-339. -/
def frequencyCells (inp : TrialInputs) (s : Surface) : Except PyErr (List Row) :=
  (frequencyRange inp.maxFrequency).mapM (fun f =>
    singlePublisherFractions.mapM (fun r => do
      return (frequencyColumn f r, ← fractionCell inp s f r)))

/-- `_compute_single_publisher_fractions_dataframe`, experimental_trial.py:312-363. -/
def singlePublisherRow (inp : TrialInputs) (s : Surface) : Except PyErr Row := do
  let a ← reachCells inp s
  let b ← frequencyCells inp s
  let data ← s.data
  let training ← pyIndex data 0
  let c ← maxNonzeroFrequency training
  let point ← inp.trueReach inp.campaignSpends inp.maxFrequency
  let d ← maxNonzeroFrequency point
  return a ++ b.flatten ++
    [("max_nonzero_frequency_from_halo", c), ("max_nonzero_frequency_from_data", d)]

/-- `_single_publisher_fractions_dataframe_on_exception`, experimental_trial.py:365-377. -/
def singlePublisherRowOnException (maxFrequency : Int) : Row :=
  singlePublisherFractions.map (fun r => (reachColumn r, .float none)) ++
  ((frequencyRange maxFrequency).map (fun f =>
    singlePublisherFractions.map (fun r => (frequencyColumn f r, .float none)))).flatten ++
  [("max_nonzero_frequency_from_halo", .float none),
    ("max_nonzero_frequency_from_data", .float none)]

/-- `_make_independent_vars_dataframe`, experimental_trial.py:255-289.  `max` of an empty list is a
`ValueError`. -/
def independentVars (inp : TrialInputs) : Except PyErr Row := do
  let largest ← pyMaxInt inp.publisherReaches
  return [
    ("dataset", .text inp.dataSetName),
    ("trial", .text inp.descriptor),
    ("replica_id", .int inp.replicaId),
    ("single_pub_model", .text inp.singlePubModel),
    ("multi_pub_model", .text inp.multiPubModel),
    ("strategy", .text inp.strategy),
    ("liquid_legions_sketch_size", .float (some inp.sketchSize)),
    ("liquid_legions_decay_rate", .float (some inp.decayRate)),
    ("maximum_reach", .int inp.maximumReach),
    ("ncampaigns", .int inp.publisherReaches.length),
    ("largest_pub_reach", .int largest),
    ("max_frequency", .int inp.maxFrequency),
    ("average_spend_fraction", .float (npMean (inp.spendFractions.map some)))]

/-- `_make_privacy_tracking_vars_dataframe`, experimental_trial.py:291-310. -/
def privacyVars (inp : TrialInputs) : Row :=
  let mechanisms := (inp.tracker.noisingEvents.map (·.mechanism)).dedup
  [("privacy_budget_epsilon", .float (some inp.budget.epsilon)),
   ("privacy_budget_delta", .float (some inp.budget.delta)),
   ("privacy_used_epsilon", .float (some inp.tracker.privacyConsumption.epsilon)),
   ("privacy_used_delta", .float (some inp.tracker.privacyConsumption.delta)),
   ("privacy_mechanisms", .text (String.intercalate "/" (sortStrings mechanisms)))]

/-- The `try` block, experimental_trial.py:184-211: metrics and single publisher columns. -/
def trialAttempt (inp : TrialInputs) : Except PyErr (Row × Row) := do
  let surface ← inp.fit
  let points ← inp.testPoints
  let trueReach ← points.mapM (fun t => inp.trueReach t inp.maxFrequency)
  let fitted ← points.mapM (fun t => surface.bySpend t inp.maxFrequency)
  let metrics ← aggregate trueReach fitted
  if inp.analysisType = "single_pub" then do
    let single ← singlePublisherRow inp surface
    return (metrics, single)
  else return (metrics, [])

/-- The `except` block, experimental_trial.py:212-224. -/
def trialFailure (inp : TrialInputs) (e : PyErr) : Row × Row :=
  (aggregateOnException (inp.traceback e),
    if inp.analysisType = "single_pub" then singlePublisherRowOnException inp.maxFrequency else [])

/-- experimental_trial.py:184-238: the row of a trial.  An exception in the first part becomes part
of the row; one in `_make_independent_vars_dataframe` leaves `evaluate`. -/
def trialRow (inp : TrialInputs) : Except PyErr Row :=
  let ms := match trialAttempt inp with
    | .ok x => x
    | .error e => trialFailure inp e
  do
    let vars ← independentVars inp
    return vars ++ privacyVars inp ++ ms.1 ++ ms.2

end Verif
