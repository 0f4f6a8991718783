import Verif.Model.Designs
import Verif.Model.ReachCurve
import Verif.Model.Strategy
import Verif.Model.TestPoints
import Verif.Model.TrialRow

/-!
# Model of a whole trial

`src/driver/experimental_trial.py`, lines 173-238, from the trial descriptor and the data set to the
result row; `src/driver/modeling_strategy_descriptor.py` and `experiment_parameters.py` as far as they
choose classes by name; the trials of `src/driver/single_publisher_design.py`,
`sample_experimental_design.py` and `analysis_example_experimental_design.py`.
-/

namespace Verif

/-! ## Names and classes -/

/-- The classes of `SINGLE_PUB_MODELS`, modeling_strategy_descriptor.py:48-52. -/
inductive SingleModel where
  | goerg
  | gammaPoisson
  | kInflated
  deriving DecidableEq, Repr

/-- The classes of `MULTI_PUB_MODELS`, modeling_strategy_descriptor.py:56-64. -/
inductive MultiModel where
  | pairwise
  | restricted
  deriving DecidableEq, Repr

/-- The classes of `MODELING_STRATEGIES`, modeling_strategy_descriptor.py:68-71. -/
inductive StrategyClass where
  | m3
  | singlePublisher
  deriving DecidableEq, Repr

/-- `SINGLE_PUB_MODELS`, modeling_strategy_descriptor.py:48-52. -/
def singlePubModels : Dict Text SingleModel :=
  [("goerg".toList, .goerg), ("gamma_poisson".toList, .gammaPoisson),
   ("kinflated_gamma_poisson".toList, .kInflated)]

/-- `MULTI_PUB_MODELS`, modeling_strategy_descriptor.py:56-64: the value of `"none"` is `None`. -/
def multiPubModels : Dict Text (Option MultiModel) :=
  [("pairwise_union".toList, some .pairwise), ("restricted_pairwise_union".toList, some .restricted),
   ("none".toList, none)]

/-- `MODELING_STRATEGIES`, modeling_strategy_descriptor.py:68-71. -/
def modelingStrategies : Dict Text StrategyClass :=
  [("m3strategy".toList, .m3), ("single_publisher".toList, .singlePublisher)]

/-- The keyword arguments that the constructors of strategies know besides the four given by position:
m3_strategy.py:41-48 and modeling_strategy.py:33-39. -/
def StrategyClass.keywords : StrategyClass → List Text
  | .m3 => ["use_ground_truth_for_reach_curves".toList]
  | .singlePublisher => []

/-- The keyword arguments that the constructors of single publisher models know besides `data`:
goerg_model.py:32, gamma_poisson_model.py:116-118, kinflated_gamma_poisson_model.py:239-245. -/
def SingleModel.keywords : SingleModel → List Text
  | .goerg => []
  | .gammaPoisson => ["max_reach".toList, "extrapolation_multiplier".toList]
  | .kInflated => ["kmax".toList, "debug".toList, "extrapolation_multiplier".toList]

/-- `f(**kwargs)` is possible for a function whose optional keyword arguments are `names`. -/
def acceptsKwargs (names : List Text) (kwargs : Kwargs) : Bool :=
  kwargs.all (fun kv => decide (kv.1 ∈ names))

/-- Truth of a value, given the text that `str` prints for it. -/
def truthyText (v : Text) : Bool :=
  !(["False".toList, "None".toList, "0".toList, "0.0".toList, [], "[]".toList, "()".toList,
    "{}".toList].contains v)

/-- Attributes of a `ModelingStrategy` object, modeling_strategy.py:41-44 and m3_strategy.py:56. -/
structure StrategyObject where
  /-- the class of the object -/
  cls : StrategyClass
  /-- `_single_pub_model` -/
  single : SingleModel
  /-- `_single_pub_model_kwargs` -/
  singleKwargs : Kwargs
  /-- `_multi_pub_model` -/
  multi : Option MultiModel
  /-- `_multi_pub_model_kwargs` -/
  multiKwargs : Kwargs
  /-- `_use_ground_truth_for_reach_curves` -/
  useGroundTruth : Bool
  deriving DecidableEq, Repr

/-- `instantiate_strategy`, modeling_strategy_descriptor.py:99-107: `KeyError` for a name that is
not registered, `TypeError` for an unknown keyword argument of the strategy. -/
def StrategyDescriptor.instantiate (d : StrategyDescriptor) : Except PyErr StrategyObject := do
  let cls ← dictLookup modelingStrategies d.strategy
  let single ← dictLookup singlePubModels d.singlePub
  let multi ← dictLookup multiPubModels d.multiPub
  if acceptsKwargs cls.keywords d.strategyKwargs then
    return {
      cls := cls
      single := single
      singleKwargs := d.singlePubKwargs
      multi := multi
      multiKwargs := d.multiPubKwargs
      useGroundTruth :=
        match d.strategyKwargs.lookup "use_ground_truth_for_reach_curves".toList with
        | some v => truthyText v
        | none => false }
  else .error .typeError

/-! ## Fitting -/

/-- A reach curve in a trial. -/
inductive TrialCurve (C : Type) where
  /-- a `GoergModel` and its `_data` -/
  | goerg (m : GoergModel) (data : List ReachPoint)
  /-- one of the models of `ModelLib` -/
  | fitted (c : C)
  /-- a `GroundTruthReachCurveModel` -/
  | truth (g : GroundTruthCurve)

/-- The models fitted by numerical optimisation, as parameters: constructing such a model and
calling `_fit`. -/
structure ModelLib (C : Type) where
  /-- gamma_poisson_model.py and kinflated_gamma_poisson_model.py -/
  single : SingleModel → Kwargs → List ReachPoint → Except PyErr C
  /-- what a trial uses of such a model -/
  view : C → Surface
  /-- pairwise_union_reach_surface.py and restricted_pairwise_union_reach_surface.py, from the
  curves and the training points -/
  multi : MultiModel → List (TrialCurve C) → List ReachPoint → Except PyErr Surface

variable {S C : Type}

/-- What a trial uses of a reach curve.  A `GroundTruthReachCurveModel` has no attribute `_data`
(ground_truth_reach_curve_model.py:27-38 does not call the constructor of its base class). -/
def ModelLib.curveView (M : ModelLib C) : TrialCurve C → Surface
  | .goerg m data => ⟨fun s f => m.bySpend s f, .ok data⟩
  | .fitted c => M.view c
  | .truth g => ⟨fun s f => g.bySpend s f, .error .attributeError⟩

/-- Construct and fit a single publisher model, m3_strategy.py:115-118 and
single_publisher_strategy.py:63-64.  Fitting a `GoergModel` again does not change it
(goerg_model.py:54-62). -/
def ModelLib.fitCurve (M : ModelLib C) (m : SingleModel) (kwargs : Kwargs)
    (data : List ReachPoint) : Except PyErr (TrialCurve C) :=
  if acceptsKwargs m.keywords kwargs then
    match m with
    | .goerg => do
      let g ← GoergModel.new data
      return .goerg g data
    | _ => do
      let c ← M.single m kwargs data
      return .fitted c
  else .error .typeError

/-- Construct and fit a multi publisher model, m3_strategy.py:125-128: `None(...)` is a `TypeError`,
and neither class knows further keyword arguments (pairwise_union_reach_surface.py:49-51;
restricted_pairwise_union_reach_surface.py has no constructor of its own). -/
def ModelLib.fitSurface (M : ModelLib C) (m : Option MultiModel) (kwargs : Kwargs)
    (curves : List (TrialCurve C)) (data : List ReachPoint) : Except PyErr Surface :=
  match m with
  | none => .error .typeError
  | some m => if acceptsKwargs [] kwargs then M.multi m curves data else .error .typeError

/-- The strategy object with its models.  `GroundTruthReachCurveModel(halo._data_set, i)` is built
for `i` below the number of publishers only (m3_strategy.py:110-113); its `_max_reach` for other
indices is chosen arbitrarily here. -/
def ModelLib.strategy (M : ModelLib C) (o : StrategyObject) : Strategy (TrialCurve C) Surface where
  single := M.fitCurve o.single o.singleKwargs
  multi := fun curves data => M.fitSurface o.multi o.multiKwargs curves data
  groundTruth := fun ds i => .truth ⟨ds, i, ((ds.data[i]?).map (·.maxReach)).getD 0⟩
  useGroundTruth := o.useGroundTruth

/-- What a trial uses of the result of `fit`. -/
def ModelLib.fittedView (M : ModelLib C) : Fitted (TrialCurve C) Surface → Surface
  | .curve c => M.curveView c
  | .surface s => s

/-- `modeling_strategy.fit(halo, system_params, privacy_budget)`, experimental_trial.py:185-187. -/
def ModelLib.fit (M : ModelLib C) (o : StrategyObject) (h : HaloSimulator S)
    (budget : PrivacyBudget ℚ) : HaloM Surface := do
  let f ← match o.cls with
    | .m3 => (M.strategy o).fitM3 h budget
    | .singlePublisher => (M.strategy o).fitSingle h budget
  return M.fittedView f

/-! ## Test points -/

/-- The random sources of the test point generators. -/
structure PointSource where
  /-- the `i`-th vector of a uniformly random design -/
  uniform : Nat → List ℚ
  /-- `lhs(n, samples, criterion)` of pyDOE -/
  lhs : Nat → Nat → List (List ℚ)
  /-- `rng.permutation` -/
  perm : Nat → Nat → List Nat

/-- An integer keyword argument with its default; another kind of value makes the arithmetic of the
constructor fail (a simplification: floats are not modelled as values of these arguments). -/
def kwInt (kwargs : Kwargs) (key : Text) (default : Int) : Except PyErr Int :=
  match kwargs.lookup key with
  | none => .ok default
  | some v => match parseInt v with
    | some n => .ok n
    | none => .error .typeError

/-- The arguments of the two random generators, latin_hypercube_random_test_point_generator.py:41-48
and uniformly_random_test_point_generator.py:38-45. -/
def randomPointArgs (kwargs : Kwargs) : Except PyErr (Int × Int × Int) :=
  if acceptsKwargs ["npoints".toList, "npublishers".toList, "minimum_points_per_publisher".toList]
      kwargs then do
    let n ← kwInt kwargs "npoints".toList minTestPoints
    let p ← kwInt kwargs "npublishers".toList 1
    let m ← kwInt kwargs "minimum_points_per_publisher".toList minTestPointsPerPublisher
    return (n, p, m)
  else .error .typeError

/-- The argument of the grid generator, grid_test_point_generator.py:32: it has no default. -/
def gridPointArg (kwargs : Kwargs) : Except PyErr Int :=
  if acceptsKwargs ["grid_size".toList] kwargs then
    match kwargs.lookup "grid_size".toList with
    | none => .error .typeError
    | some v => match parseInt v with
      | some n => .ok n
      | none => .error .typeError
  else .error .typeError

/-- `generate_test_points`, experiment_parameters.py:66-77, with `TEST_POINT_STRATEGIES`, lines
40-44. -/
def ExperimentParams.generateTestPoints (e : ExperimentParams) (src : PointSource) (ds : DataSet) :
    Except PyErr (List (List ℚ)) :=
  if e.testPointStrategy = "latin_hypercube".toList then do
    let (n, p, m) ← randomPointArgs e.testPointKwargs
    return latinTestPoints ds n p m src.lhs src.perm
  else if e.testPointStrategy = "uniformly_random".toList then do
    let (n, p, m) ← randomPointArgs e.testPointKwargs
    return uniformTestPoints ds n p m src.uniform
  else if e.testPointStrategy = "grid".toList then do
    let g ← gridPointArg e.testPointKwargs
    return gridTestPoints ds g
  else .error .valueError

/-! ## The trial -/

/-- What surrounds a trial: external libraries, random sources, texts. -/
structure TrialEnv (S C : Type) where
  /-- the sketch library, configured with decay rate, sketch size and seed -/
  lib : ℚ → ℚ → Int → SketchLib S
  /-- further random sources of Halo -/
  rand : RandomLib
  /-- the optimised models -/
  models : ModelLib C
  /-- random sources of the test points (they depend on the seed of the trial) -/
  points : PointSource
  /-- texts of floats -/
  text : FloatText
  /-- `traceback.format_exc()` -/
  traceback : PyErr → String

/-- What the trial knows when the `try` block begins, experimental_trial.py:173-184, together with
the result of `fit`. -/
def trialInputs (E : TrialEnv S C) (name : String) (ds : DataSet) (d : TrialDesc)
    (analysisType : String) (h : HaloSimulator S) (fit : Except PyErr Surface)
    (tracker : PrivacyTracker ℚ) : TrialInputs where
  dataSetName := name
  descriptor := String.ofList (d.str E.text)
  replicaId := d.experiment.replicaId
  singlePubModel := String.ofList d.strategy.singlePub
  multiPubModel := String.ofList d.strategy.multiPub
  strategy := String.ofList d.strategy.strategy
  sketchSize := d.system.sketchSize
  decayRate := d.system.decayRate
  maximumReach := ds.maximumReach
  publisherReaches := ds.data.map (fun p => (p.maxReach : Int))
  maxFrequency := d.experiment.maxFrequency
  spendFractions := d.system.spends
  budget := d.experiment.budget
  fit := fit
  tracker := tracker
  testPoints := d.experiment.generateTestPoints E.points ds
  trueReach := fun s f => h.trueReachBySpend s f
  campaignSpends := h.campaignSpends
  analysisType := analysisType
  traceback := E.traceback

/-- experimental_trial.py:173-238: the row of a trial on the data set `ds`, or an exception that
leaves `evaluate`, and the new state of the random generator of the system parameters.  Halo and the
strategy are built before the `try` block. -/
def trialOutcome (E : TrialEnv S C) (name : String) (ds : DataSet) (d : TrialDesc)
    (analysisType : String) (draws : Nat) : Except PyErr Row × Nat :=
  match HaloSimulator.new ds d.system.spends
      (E.lib d.system.decayRate d.system.sketchSize d.system.randomSeed) E.rand with
  | .error e => (.error e, draws)
  | .ok h =>
    match d.strategy.instantiate with
    | .error e => (.error e, draws)
    | .ok o =>
      let r := E.models.fit o h d.experiment.budget ⟨PrivacyTracker.new, draws⟩
      (trialRow (trialInputs E name ds d analysisType h r.1 r.2.tracker), r.2.draws)

/-- A trial of a design on a data set: the descriptor is completed with the data set first,
experiment.py:77-95 and trial_descriptor.py:55-61. -/
def designOutcome (E : TrialEnv S C) (name : String) (ds : DataSet) (t : TrialTemplate Nat)
    (analysisType : String) (draws : Nat) : Except PyErr Row × Nat :=
  trialOutcome E name ds (t.update id ds.publisherCount).desc analysisType draws

/-! ## Further designs -/

/-- `LEVELS` of analysis_example_experimental_design.py:42-82; a data set is represented by its number
of publishers. -/
def analysisTrialLevels : TrialLevels Nat where
  strategies :=
    [⟨"m3strategy".toList, [], "goerg".toList, [], "restricted_pairwise_union".toList, []⟩,
     ⟨"m3strategy".toList, [], "gamma_poisson".toList, [], "restricted_pairwise_union".toList, []⟩]
  spends :=
    [fun n => List.replicate n (3/5),
     fun n => (List.range n).map (fun i => [2/5, 4/5].getD (i % 2) 0)]
  liquidLegions := [(10, 8000)]
  budgets := [⟨2, 1/1000000000⟩, ⟨1/2, 1/1000000000⟩]
  replicas := [1, 2, 3]
  maxFrequencies := [3, 6]
  testPoints :=
    [("latin_hypercube".toList,
        [("npublishers".toList, "1".toList), ("minimum_points_per_publisher".toList, "10".toList)]),
     ("uniformly_random".toList,
        [("npublishers".toList, "1".toList), ("minimum_points_per_publisher".toList, "10".toList)])]

/-- `np.arange(1, 10) * 0.1`, driver/single_publisher_design.py:51, sample_experimental_design.py:54. -/
def tenths : List ℚ := (List.range 9).map (fun i : Nat => ((i : ℚ) + 1) / 10)

/-- `MODELING_STRATEGIES`, driver/single_publisher_design.py:43-49. -/
def singlePublisherModels : List (Text × Kwargs) :=
  [("goerg".toList, []),
   ("gamma_poisson".toList, []),
   ("gamma_poisson".toList, [("extrapolation_multiplier".toList, "2.0".toList)]),
   ("kinflated_gamma_poisson".toList, []),
   ("kinflated_gamma_poisson".toList, [("extrapolation_multiplier".toList, "2.0".toList)])]

/-- One iteration of the loop, driver/single_publisher_design.py:76-104, where only the model, the
spend fraction and the epsilon vary. -/
def singlePublisherTrial (seed : Int) (m : Text × Kwargs) (x eps : ℚ) : TrialTemplate Nat where
  desc :=
    { strategy := ⟨"single_publisher".toList, [], m.1, m.2, "none".toList, []⟩
      system := ⟨[x], 10, 100000, 1, seed⟩
      experiment := ⟨⟨eps, 1/1000000000⟩, 1, 10, "grid".toList,
        [("grid_size".toList, "20".toList)]⟩ }
  spendsGenerator := none

/-- `generate_experimental_design_config`, driver/single_publisher_design.py:72-104. -/
def singlePublisherTrials (seed : Int) : List (TrialTemplate Nat) :=
  singlePublisherModels.flatMap fun m => tenths.flatMap fun x =>
    ([1/20, 1/10, 3/20, 1/5, 100] : List ℚ).map fun eps => singlePublisherTrial seed m x eps

/-- `LEVELS` of sample_experimental_design.py:44-92, where the spend fractions are fixed pairs. -/
structure SampleLevels where
  /-- `MODELING_STRATEGIES` -/
  strategies : List StrategyDescriptor
  /-- `CAMPAIGN_SPEND_FRACTIONS` -/
  spends : List (List ℚ)
  /-- `LIQUID_LEGIONS_PARAMS` -/
  liquidLegions : List (ℚ × ℚ)
  /-- `PRIVACY_BUDGETS` -/
  budgets : List (PrivacyBudget ℚ)
  /-- `REPLICA_IDS` -/
  replicas : List Int
  /-- `MAX_FREQUENCIES` -/
  maxFrequencies : List Int
  /-- `TEST_POINT_STRATEGIES` -/
  testPoints : List (Text × Kwargs)

/-- The values of sample_experimental_design.py:44-92. -/
def sampleLevels : SampleLevels where
  strategies :=
    [⟨"m3strategy".toList, [], "goerg".toList, [], "restricted_pairwise_union".toList, []⟩,
     ⟨"m3strategy".toList, [], "gamma_poisson".toList, [], "restricted_pairwise_union".toList, []⟩]
  spends := tenths.flatMap fun a => tenths.map fun b => [a, b]
  liquidLegions :=
    [(10, 100000), (12, 100000), (17, 100000), (10, 200000), (12, 200000), (17, 200000)]
  budgets :=
    [⟨1, 1/10000000⟩, ⟨1, 1/100000000⟩, ⟨1/10, 1/10000000⟩, ⟨1/10, 1/100000000⟩]
  replicas := [1, 2, 3]
  maxFrequencies := [5, 10, 20]
  testPoints :=
    [("latin_hypercube".toList, [("npoints".toList, "100".toList)]),
     ("uniformly_random".toList, [("npoints".toList, "500".toList)]),
     ("grid".toList, [("grid_size".toList, "5".toList)])]

/-- The body of the loop, sample_experimental_design.py:109-128. -/
def sampleTrial (L : SampleLevels) (seed : Int) (sample : Fin 7 → ℚ) :
    Except PyErr (TrialTemplate Nat) := do
  let m ← pickLevel L.strategies (sample 0)
  let s ← pickLevel L.spends (sample 1)
  let l ← pickLevel L.liquidLegions (sample 2)
  let b ← pickLevel L.budgets (sample 3)
  let r ← pickLevel L.replicas (sample 4)
  let f ← pickLevel L.maxFrequencies (sample 5)
  let t ← pickLevel L.testPoints (sample 6)
  return ⟨⟨m, ⟨s, l.1, l.2, 1, seed⟩, ⟨b, r, f, t.1, t.2⟩⟩, none⟩

/-- `generate_experimental_design_config`, sample_experimental_design.py:98-128.  `samples` are the
rows of the design drawn by pyDOE. -/
def sampleTrials (L : SampleLevels) (seed : Int) (samples : List (Fin 7 → ℚ)) :
    Except PyErr (List (TrialTemplate Nat)) :=
  samples.mapM (sampleTrial L seed)

end Verif
