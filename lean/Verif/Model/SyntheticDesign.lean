import Verif.Model.DataDesign
import Verif.Model.Descriptor
import Verif.Model.Generators

/-!
# Model of `src/data_generators/synthetic_data_design_generator.py`
-/

namespace Verif

/-- The classes named in a configuration, and Python's order of sets and random names.  All randomness
is a parameter: what is drawn depends on the number `k` of the data set and the number `i` of the
publisher, that is, on everything drawn before. -/
structure GeneratorClasses where
  /-- `impression_generator_params.generator(n=n, random_generator=…, **params)()`,
  synthetic_data_design_generator.py:149-155 -/
  impressions : GeneratorParams → Nat → Nat → Int → List Int
  /-- `pricing_generator_params.generator(**params)`, synthetic_data_design_generator.py:156-158 -/
  price : GeneratorParams → List Int → Log
  /-- `overlap_generator_params.generator`: `none` is the class `DataSet`; `some g` is a subclass of
  `OverlapDataSet` whose set generator yields `g sizes`
  (independent_overlap_data_set.py:37-67, sequentially_correlated_overlap_data_set.py:52-98) -/
  overlap : GeneratorParams → Nat → Option (List Nat → List (List Int))
  /-- the order in which Python iterates over `set(l)` -/
  setOrder : List Int → List Int
  /-- a random name, publisher_data.py:82 -/
  rnd : String

/-- The overlap generator called with publishers and name,
synthetic_data_design_generator.py:164-170. -/
def GeneratorClasses.overlapped (G : GeneratorClasses) (p : DataSetParams) (k : Nat) (name : String)
    (pubs : List PublisherData) : Except PyErr DataSet :=
  match G.overlap p.overlaps k with
  | none => DataSet.new pubs name
  | some g => overlapDataSet G.setOrder g pubs name G.rnd

/-- `_generate_data_set`, synthetic_data_design_generator.py:135-170, for the `k`-th entry of the
configuration. -/
noncomputable def GeneratorClasses.generate (G : GeneratorClasses) (T : FloatText) (k : Nat)
    (p : DataSetParams) : Except PyErr DataSet :=
  generateDataSet p.numPublishers p.largestSize ((p.ratio : ℚ) : ℝ) (G.impressions p.impressions k)
    (G.price p.pricing) (G.overlapped p k (String.ofList (p.str T))) G.rnd

/-- The loop of `__call__`, synthetic_data_design_generator.py:122-123, from the `k`-th entry on: how it
ends, and the design and the files it leaves. -/
noncomputable def GeneratorClasses.fill (G : GeneratorClasses) (T : FloatText) :
    Nat → List DataSetParams → DataDesign × Process → Except PyErr Unit × (DataDesign × Process)
  | _, [], st => (.ok (), st)
  | k, p :: ps, st =>
    match G.generate T k p with
    | .error e => (.error e, st)
    | .ok ds =>
      match st.1.add T st.2 ds with
      | .error e => (.error e, st)
      | .ok st' => G.fill T (k + 1) ps st'

/-- `SyntheticDataDesignGenerator.__call__`, synthetic_data_design_generator.py:120-124.  Simplified:
the configuration, which may be a Python generator, is the list of what it yields (lines 126-133 load
it from a file). -/
noncomputable def GeneratorClasses.call (G : GeneratorClasses) (T : FloatText) (outputDir : String)
    (config : List DataSetParams) (pr : Process) :
    Except PyErr (Except PyErr Unit × (DataDesign × Process)) := do
  let d ← DataDesign.new outputDir pr.fs
  return G.fill T 0 config (d.1, ⟨d.2, pr.cache⟩)

/-- `NUM_PUBLISHERS`, `LARGEST_PUBLISHER` and `PUBLISHER_RATIOS` of the designs that come with the code:
m3_data_design.py, lhs_data_design_example.py, simple_data_design_example.py,
analysis_example_data_design.py, and, with the defaults of data_set_parameters.py:50-52,
single_publisher_design.py:149-163. -/
def shippedSizes : List (List Int × List Int × List ℚ) :=
  [([1, 2, 5, 10, 20, 100], [10000, 100000, 1000000, 10000000], [1, 1/2, 3/10, 1/10, 1/100]),
   ([1, 2, 5], [100, 200, 300, 400, 500], [9/10, 1/2, 1/10]),
   ([1, 2, 5], [100, 500, 1000], [9/10, 1/2, 1/10]),
   ([1, 2, 3], [4000, 8000], [1, 1/2]),
   ([1], [10000, 20000, 30000, 40000, 50000], [9/10])]

end Verif
