import Mathlib.Analysis.SpecialFunctions.Pow.Real
import Verif.Model.DataSet
import Verif.Model.Storage

/-!
# Model of the synthetic data generators

`src/data_generators/`: the impression generators, `fixed_price_generator.py`,
`publisher_data.py:195-214`, `overlap_data_set.py` and `synthetic_data_design_generator.py`.
Random draws are parameters.
-/

namespace Verif

/-! ## Impressions -/

/-- `for i in range(n): impressions.extend([i] * freq(i))`, the loop shared by the three impression
generators (homogeneous_impression_generator.py:61-65, heterogeneous_impression_generator.py:69-76,
heavy_tailed_impression_generator.py:58-60).  `range` of a negative number is empty and a negative
multiplicity gives the empty list. -/
def extendLoop (n : Int) (freq : Nat → Int) : List Int :=
  (List.range n.toNat).foldl (fun acc (i : Nat) => acc ++ pyRepeat (i : Int) (freq i)) []

/-- `HomogeneousImpressionGenerator.__call__`, homogeneous_impression_generator.py:54-67.
`poisson lam i` is the `i`-th draw from the Poisson distribution and `shuffle` the effect of
`Generator.shuffle`. -/
def homogeneousImpressions (n : Int) (lam : ℚ) (poisson : ℚ → Nat → Int)
    (shuffle : List Int → List Int) : List Int :=
  shuffle (extendLoop n (fun i => 1 + poisson lam i))

/-- `HeterogeneousImpressionGenerator.__call__`, heterogeneous_impression_generator.py:61-78.
`gamma shape scale i` is the rate drawn for user `i`. -/
def heterogeneousImpressions (n : Int) (shape scale : ℚ) (gamma : ℚ → ℚ → Nat → ℚ)
    (poisson : ℚ → Nat → Int) (shuffle : List Int → List Int) : List Int :=
  shuffle (extendLoop n (fun i => 1 + poisson (gamma shape scale i) i))

/-- `HeavyTailedImpressionGenerator.__init__` and `__call__`,
heavy_tailed_impression_generator.py:27-62: the zeta parameter must exceed one. -/
def heavyTailedImpressions (n : Int) (zetaS : ℚ) (zipf : ℚ → Nat → Int)
    (shuffle : List Int → List Int) : Except PyErr (List Int) :=
  if 1 < zetaS then .ok (shuffle (extendLoop n (fun i => zipf zetaS i)))
  else .error .assertionError

/-- `FixedPriceGenerator.__call__`, fixed_price_generator.py:38-51. -/
def fixedPrice (cpi : ℚ) (impressions : List Int) : Log :=
  impressions.zipIdx.map (fun e => (e.1, ((e.2 : ℚ) + 1) * cpi))

/-- `PublisherData.generate_publisher_data`, publisher_data.py:195-214. -/
def generatePublisherData (impressions : List Int) (price : List Int → Log) (name rnd : String) :
    Except PyErr PublisherData :=
  PublisherData.new (price impressions) name rnd

/-! ## Overlap -/

/-- One round of the loop of `_label_ids`, overlap_data_set.py:99-107.  `setOrder` is the order in
which Python iterates over `set(l)`.  The keys of `id_map` are distinct, so the first pair with a
key is the only one. -/
def labelOne (setOrder : List Int → List Int) (setIds : List Int) (p : PublisherData)
    (rnd : String) : Except PyErr PublisherData :=
  if setIds.length ≠ p.maxReach then .error .assertionError
  else do
    let idMap : Dict Int Int := (setOrder (p.data.map (·.1))).zip setIds
    let newLog ← p.data.mapM (fun e => do
      let u ← dictLookup idMap e.1
      return (u, e.2))
    PublisherData.new newLog p.name rnd

/-- `OverlapDataSet._label_ids`, overlap_data_set.py:76-108: `zip` stops at the shorter list. -/
def labelIds (setOrder : List Int → List Int) (setIds : List (List Int))
    (pubs : List PublisherData) (rnd : String) : Except PyErr (List PublisherData) :=
  (setIds.zip pubs).mapM (fun sp => labelOne setOrder sp.1 sp.2 rnd)

/-- `OverlapDataSet.__init__`, overlap_data_set.py:40-74.  `overlap` is the set generator, an
external class: it receives the reaches of the publishers and yields their ids. -/
def overlapDataSet (setOrder : List Int → List Int) (overlap : List Nat → List (List Int))
    (pubs : List PublisherData) (name rnd : String) : Except PyErr DataSet := do
  let labeled ← labelIds setOrder (overlap (pubs.map (·.maxReach))) pubs rnd
  DataSet.new labeled name

/-! ## The design generator -/

/-- `publisher_size_decay_rate`, synthetic_data_design_generator.py:140-145.  Floats are real
numbers here. -/
noncomputable def decayRate (numPublishers : Int) (ratio : ℝ) : ℝ :=
  if numPublishers = 1 then 1 else ratio ^ ((1 : ℝ) / ((numPublishers : ℝ) - 1))

/-- The values of `publisher_size` in the rounds of the loop at
synthetic_data_design_generator.py:146-162. -/
noncomputable def sizesFrom (decay : ℝ) : Nat → Int → List Int
  | 0, _ => []
  | rounds + 1, size => size :: sizesFrom decay rounds ⌊(size : ℝ) * decay⌋

/-- Sizes of the generated publishers, synthetic_data_design_generator.py:139-162. -/
noncomputable def publisherSizes (numPublishers largest : Int) (ratio : ℝ) : List Int :=
  sizesFrom (decayRate numPublishers ratio) numPublishers.toNat largest

/-- `SyntheticDataDesignGenerator._generate_data_set`, synthetic_data_design_generator.py:135-170.
`impressions i n` is what the impression generator of the `i`-th publisher returns for `n` users,
`price` the pricing generator, `overlap` the overlap generator called with the data set's name. -/
noncomputable def generateDataSet (numPublishers largest : Int) (ratio : ℝ)
    (impressions : Nat → Int → List Int) (price : List Int → Log)
    (overlap : List PublisherData → Except PyErr DataSet) (rnd : String) :
    Except PyErr DataSet := do
  let pubs ← (publisherSizes numPublishers largest ratio).zipIdx.mapM (fun si =>
    generatePublisherData (impressions si.2 si.1) price
      (String.ofList (showInt ((si.2 : Int) + 1))) rnd)
  overlap pubs

end Verif
