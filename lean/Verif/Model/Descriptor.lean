import Verif.Model.Storage
import Verif.Model.PrivacyTracker

/-!
# Model of the textual descriptions of trials and data sets

`src/driver/trial_descriptor.py`, `src/driver/modeling_strategy_descriptor.py`,
`src/driver/experiment_parameters.py`, `src/simulator/system_parameters.py` and
`src/data_generators/data_set_parameters.py`.
-/

namespace Verif

/-- A dictionary of keyword arguments in insertion order.  Values are represented by what `str`
prints for them (so that the int 1 and the text "1" are not told apart). -/
abbrev Kwargs := List (Text × Text)

/-- `",".join(l)`. -/
def commaJoin : List Text → Text
  | [] => []
  | [a] => a
  | a :: rest => a ++ ',' :: commaJoin rest

/-- `",".join([f"{k}={v}" for k, v in d.items()])`. -/
def kwargsItems (d : Kwargs) : Text := commaJoin (d.map (fun kv => kv.1 ++ '=' :: kv.2))

/-- `_dict_to_string`, modeling_strategy_descriptor.py:109-113; the same text results from
`_kwargs_string`, experiment_parameters.py:80-84, after the name (line 93), and from
`GeneratorParameters.__str__`, data_set_parameters.py:43-48. -/
def dictToString (s : Text) (d : Kwargs) : Text :=
  if d = [] then s else s ++ '(' :: (kwargsItems d ++ [')'])

/-- `ModelingStrategyDescriptor`, modeling_strategy_descriptor.py:74-97. -/
structure StrategyDescriptor where
  /-- `strategy` -/
  strategy : Text
  /-- `strategy_kwargs` -/
  strategyKwargs : Kwargs
  /-- `single_pub_model` -/
  singlePub : Text
  /-- `single_pub_model_kwargs` -/
  singlePubKwargs : Kwargs
  /-- `multi_pub_model` -/
  multiPub : Text
  /-- `multi_pub_model_kwargs` -/
  multiPubKwargs : Kwargs
  deriving DecidableEq, Repr

/-- `ModelingStrategyDescriptor.__str__`, modeling_strategy_descriptor.py:115-128. -/
def StrategyDescriptor.str (m : StrategyDescriptor) : Text :=
  dictToString m.strategy m.strategyKwargs ++ ',' ::
    (dictToString m.singlePub m.singlePubKwargs ++ ',' ::
      dictToString m.multiPub m.multiPubKwargs)

/-- `SystemParameters` with its `LiquidLegionsParameters`, system_parameters.py:24-62.  The generator
is represented by its seed. -/
structure SystemParams where
  /-- `campaign_spend_fractions` -/
  spends : List ℚ
  /-- `liquid_legions.decay_rate` -/
  decayRate : ℚ
  /-- `liquid_legions.sketch_size` -/
  sketchSize : ℚ
  /-- `liquid_legions.random_seed` -/
  randomSeed : Int
  /-- `generator` -/
  generatorSeed : Int
  deriving DecidableEq, Repr

/-- `SystemParameters.__str__`, system_parameters.py:64-69. -/
def SystemParams.str (T : FloatText) (s : SystemParams) : Text :=
  "spends=(".toList ++ (commaJoin (s.spends.map T.fmt) ++ ')' :: ',' ::
    ("decay_rate=".toList ++ (T.fmt s.decayRate ++ ',' ::
      ("sketch_size=".toList ++ T.fmt s.sketchSize))))

/-- `ExperimentParameters`, experiment_parameters.py:47-65. -/
structure ExperimentParams where
  /-- `privacy_budget` -/
  budget : PrivacyBudget ℚ
  /-- `replica_id` -/
  replicaId : Int
  /-- `max_frequency` -/
  maxFrequency : Int
  /-- `test_point_strategy` -/
  testPointStrategy : Text
  /-- `test_point_strategy_kwargs` -/
  testPointKwargs : Kwargs
  deriving DecidableEq, Repr

/-- `ExperimentParameters.__str__`, experiment_parameters.py:86-94. -/
def ExperimentParams.str (T : FloatText) (e : ExperimentParams) : Text :=
  "epsilon=".toList ++ (T.fmt e.budget.epsilon ++ ',' ::
    ("delta=".toList ++ (T.fmt e.budget.delta ++ ',' ::
      ("replica_id=".toList ++ (showInt e.replicaId ++ ',' ::
        ("max_frequency=".toList ++ (showInt e.maxFrequency ++ ',' ::
          ("test_point_strategy=".toList ++
            dictToString e.testPointStrategy e.testPointKwargs))))))))

/-- `TrialDescriptor`, trial_descriptor.py:33-45. -/
structure TrialDesc where
  /-- `modeling_strategy` -/
  strategy : StrategyDescriptor
  /-- `system_params` -/
  system : SystemParams
  /-- `experiment_params` -/
  experiment : ExperimentParams
  deriving DecidableEq, Repr

/-- `TrialDescriptor.__str__`, trial_descriptor.py:47-53. -/
def TrialDesc.str (T : FloatText) (d : TrialDesc) : Text :=
  d.strategy.str ++ ',' :: (d.system.str T ++ ',' :: d.experiment.str T)

/-- A `TrialDescriptor` together with its `campaign_spend_fractions_generator`,
system_parameters.py:62; `DS` is the type of data sets. -/
structure TrialTemplate (DS : Type) where
  /-- everything but the generator of spend fractions -/
  desc : TrialDesc
  /-- `campaign_spend_fractions_generator` (`none` for `None`) -/
  spendsGenerator : Option (DS → List ℚ)

/-- `test_point_strategy_kwargs["npublishers"] = dataset.publisher_count` if the key is present,
experiment_parameters.py:98-100. -/
def fillPublishers (count : Nat) (d : Kwargs) : Kwargs :=
  d.map (fun kv => if kv.1 = "npublishers".toList then (kv.1, showNat count) else kv)

/-- `TrialDescriptor.update_from_dataset`, trial_descriptor.py:55-61, with
`SystemParameters.update_from_dataset`, system_parameters.py:71-79 (the result has no generator of
spend fractions), and `ExperimentParameters.update_from_dataset`, experiment_parameters.py:96-107. -/
def TrialTemplate.update {DS : Type} (count : DS → Nat) (t : TrialTemplate DS) (ds : DS) :
    TrialTemplate DS where
  desc :=
    { strategy := t.desc.strategy
      system :=
        { t.desc.system with
          spends := match t.spendsGenerator with
            | some g => g ds
            | none => t.desc.system.spends }
      experiment :=
        { t.desc.experiment with
          testPointKwargs := fillPublishers (count ds) t.desc.experiment.testPointKwargs } }
  spendsGenerator := none

/-! ## Data sets -/

/-- `GeneratorParameters`, data_set_parameters.py:28-41; the class is represented by a number. -/
structure GeneratorParams where
  /-- `name` -/
  name : Text
  /-- `generator` -/
  generator : Int
  /-- `params` -/
  params : Kwargs
  deriving DecidableEq, Repr

/-- `GeneratorParameters.__str__`, data_set_parameters.py:43-48. -/
def GeneratorParams.str (g : GeneratorParams) : Text := dictToString g.name g.params

/-- `DataSetParameters`, data_set_parameters.py:65-92. -/
structure DataSetParams where
  /-- `name` -/
  name : Text
  /-- `num_publishers` -/
  numPublishers : Int
  /-- `largest_publisher_size` -/
  largestSize : Int
  /-- `largest_to_smallest_publisher_ratio` -/
  ratio : ℚ
  /-- `pricing_generator_params` -/
  pricing : GeneratorParams
  /-- `impression_generator_params` -/
  impressions : GeneratorParams
  /-- `overlap_generator_params` -/
  overlaps : GeneratorParams
  /-- `id` -/
  id : Text
  deriving DecidableEq, Repr

/-- `DataSetParameters.__str__`, data_set_parameters.py:94-106. -/
def DataSetParams.str (T : FloatText) (p : DataSetParams) : Text :=
  if p.name ≠ [] then p.name
  else
    "P=".toList ++ (showInt p.numPublishers ++ ',' ::
      ("N=".toList ++ (showInt p.largestSize ++ ',' ::
        ("pub_ratio=".toList ++ (T.fmt p.ratio ++ ',' ::
          ("pricing=".toList ++ (p.pricing.str ++ ',' ::
            ("impressions=".toList ++ (p.impressions.str ++ ',' ::
              ("overlaps=".toList ++ (p.overlaps.str ++
                (if p.id ≠ [] then ",id=".toList ++ p.id else []))))))))))))

end Verif
