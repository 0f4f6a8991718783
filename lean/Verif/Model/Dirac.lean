import Verif.Model.Py
import Verif.Model.ReachPoint
import Mathlib.Analysis.SpecialFunctions.Exp
import Mathlib.Data.Nat.Factorial.Basic

/-!
# Model of `src/models/dirac_mixture_single_publisher_model.py`

The Poisson probabilities of scipy are the exact real numbers. The convex optimization of the weights
(`solve_optimal_weights`, lines 225-260, with the objectives of lines 183-223) is a parameter. Means are
assumed to be non-negative: for negative means scipy returns NaN, which is not modelled.
-/

namespace Verif.Dirac

/-! ## The optimizer -/

/-- `validate_frequency_histogram`, lines 66-80. -/
def validateFrequencyHistogram (hist : List ℚ) : Except PyErr Unit :=
  if hist.length < 2 then .error .valueError
  else if ¬ hist.all (fun x => decide (0 ≤ x)) then .error .valueError
  else if hist.sum ≤ 0 then .error .valueError
  else .ok ()

/-- `frequency_histogram / sum(frequency_histogram)`, line 58. -/
def observedPmf (hist : List ℚ) : List ℚ := hist.map (· / hist.sum)

/-- `np.linspace(f, f + 1, n, endpoint=False)`, lines 134 and 142; empty for `n = 0`. (A negative `n`
is a `ValueError`; it cannot occur for non-negative probabilities.) -/
def linspaceUnit (f n : Nat) : List ℚ := (List.range n).map (fun i : Nat => (f : ℚ) + i / n)

/-- The loop and the remainder of `in_bound_grid`, lines 128-144: `nLeft` components are still to be
drawn, `pmf` are the probabilities not yet looked at, `f` is the first frequency of those. -/
def inBoundLoop (ncomponents : Nat) : Nat → ℤ → List ℚ → List ℚ
  | f, nLeft, [] => if 0 < nLeft then linspaceUnit f nLeft.toNat else []
  | f, nLeft, p :: pmf =>
    if 0 < nLeft then
      let n := (pyRound (ncomponents * p)).toNat
      linspaceUnit f n ++ inBoundLoop ncomponents (f + 1) (nLeft - n) pmf
    else []

/-- The weights mixed with the uniform distribution, lines 125-127. -/
def dilute (pmf : List ℚ) (dilusion : ℚ) : List ℚ :=
  if 0 < dilusion then pmf.map (fun p => p * (1 - dilusion) + dilusion / pmf.length) else pmf

/-- `in_bound_grid`, lines 82-145. -/
def inBoundGrid (ncomponents : Nat) (pmf : List ℚ) (dilusion : ℚ := 0) : List ℚ :=
  inBoundLoop ncomponents 0 ncomponents (dilute pmf dilusion)

/-- `in_bound_purely_weighted_grid`, lines 147-155. -/
def purelyWeightedGrid (ncomponents : Nat) (pmf : List ℚ) : List ℚ := inBoundGrid ncomponents pmf 0

/-- `in_bound_uniform_grid`, lines 157-163. -/
def uniformGrid (ncomponents : Nat) (pmf : List ℚ) : List ℚ := inBoundGrid ncomponents pmf 1

/-- `stats.poisson.pmf(n, mean)`, line 179. -/
noncomputable def poissonPmf (mean : ℝ) (n : Nat) : ℝ := Real.exp (-mean) * mean ^ n / n.factorial

/-- `stats.poisson.sf(n - 1, mean)`, line 180: the probability of at least `n`. -/
noncomputable def poissonSf (mean : ℝ) (n : Nat) : ℝ :=
  1 - ((List.range n).map (poissonPmf mean)).sum

/-- `truncated_poisson_pmf_vec`, lines 165-181. For a negative maximum frequency `v[-1]` of the empty
array is an `IndexError`. -/
noncomputable def truncatedPoissonPmfVec (mean : ℝ) (maxFreq : Int) : Except PyErr (List ℝ) :=
  if maxFreq < 0 then .error .indexError
  else .ok ((List.range maxFreq.toNat).map (poissonPmf mean) ++ [poissonSf mean maxFreq.toNat])

/-- Attributes of a `UnivariateMixedPoissonOptimizer`, lines 57-64 and 266-275. `ws` is `none` as long
as it is not fitted. -/
structure Optimizer where
  observed : List ℚ
  maxFreq : Nat
  components : List ℚ
  ws : Option (List ℝ)

/-- `UnivariateMixedPoissonOptimizer.__init__`, lines 41-64. -/
def Optimizer.new (hist : List ℚ) (ncomponents : Nat) : Except PyErr Optimizer := do
  validateFrequencyHistogram hist
  return {
    observed := observedPmf hist
    maxFreq := hist.length - 1
    components := purelyWeightedGrid ncomponents (observedPmf hist)
    ws := none }

/-- `solve_optimal_weights(observed_pmf, component_pmfs, cross_entropy)`, lines 225-260: the weights,
or the exception of cvxpy. (That `ws.value` may be `None` is not modelled.) -/
abbrev Solve := List ℚ → List (List ℝ) → Except PyErr (List ℝ)

/-- `fit`, lines 262-275. -/
noncomputable def Optimizer.fit (solve : Solve) (o : Optimizer) : Except PyErr Optimizer :=
  match o.ws with
  | some _ => .ok o
  | none => do
    let pmfs ← o.components.mapM (fun c : ℚ => truncatedPoissonPmfVec c o.maxFreq)
    let ws ← solve o.observed pmfs
    return { o with ws := some ws }

/-- `sum([w * pmf for w, pmf in zip(self.ws, scaled_component_pmfs)])`, line 318. The sum of no arrays
is the number `0`, which cannot be sliced at line 406: a `TypeError`. -/
noncomputable def weightedSum (ws : List ℝ) (pmfs : List (List ℝ)) : Except PyErr (List ℝ) :=
  match List.zipWith (fun w pmf => pmf.map (w * ·)) ws pmfs with
  | [] => .error .typeError
  | v :: vs => .ok (vs.foldl (List.zipWith (· + ·)) v)

/-- `predict`, lines 277-318, with a customized maximum frequency: the histogram and the optimizer,
which is fitted if it was not. -/
noncomputable def Optimizer.predict (solve : Solve) (o : Optimizer) (scalingFactor : ℝ)
    (maxFreq : Int) : Except PyErr (List ℝ) := do
  let o ← o.fit solve
  let pmfs ← o.components.mapM (fun c : ℚ => truncatedPoissonPmfVec (c * scalingFactor) maxFreq)
  weightedSum (o.ws.getD []) pmfs

/-! ## The model -/

/-- Attributes of a `DiracMixtureSinglePublisherModel`, lines 344-357. -/
structure Model where
  point : ReachPoint
  hist : List ℚ
  cpi : Option ℚ
  ncomponents : Nat
  optimizer : Option Optimizer
  fitComputed : Bool

/-- `__init__`, lines 322-357. The attribute `universe_size`, line 351, raises a `ValueError` by itself
if it is not known, as does `zero_included_histogram`, line 346. The division at line 348 is by at
least 0.001. -/
def Model.new (data : List ReachPoint) (ncomponents : Nat := 200) : Except PyErr Model := do
  match data with
  | [point] =>
    let I0 ← pyIndex point.impressions 0
    if I0 < 1 / 1000 then throw .valueError
    let R ← point.reach 1
    if I0 < R then throw .valueError
    let hist ← point.zeroIncludedHistogram
    let cpi ← match point.spends with
      | some (s :: _) => pure (some (s / I0))
      | _ => pure none
    let _ ← point.universeSize
    return ⟨point, hist, cpi, ncomponents, none, false⟩
  | _ => throw .valueError

/-- The loop of `_fit`, lines 363-378: the number of components and the last optimizer. Each failure
halves the number of components, so `fuel` = number of components is enough. -/
noncomputable def fitLoop (solve : Solve) (hist : List ℚ) :
    Nat → Nat → Option Optimizer → Except PyErr (Nat × Option Optimizer)
  | 0, n, o => .ok (n, o)
  | fuel + 1, n, o =>
    if n = 0 then .ok (n, o)
    else do
      let opt ← Optimizer.new hist n
      match opt.fit solve with
      | .ok opt' => return (n, some opt')
      | .error _ => fitLoop solve hist fuel (n / 2) (some opt)

/-- `_fit`, lines 359-379. -/
noncomputable def Model.fit (solve : Solve) (m : Model) : Except PyErr Model :=
  if m.fitComputed then .ok m
  else do
    let r ← fitLoop solve m.hist m.ncomponents m.ncomponents m.optimizer
    return { m with ncomponents := r.1, optimizer := r.2, fitComputed := true }

/-- `ndarray.round(0)`: halves go to the even neighbour, line 410. -/
noncomputable def npRound (x : ℝ) : ℤ :=
  if x - ⌊x⌋ < 1 / 2 then ⌊x⌋
  else if 1 / 2 < x - ⌊x⌋ then ⌊x⌋ + 1
  else if ⌊x⌋ % 2 = 0 then ⌊x⌋
  else ⌊x⌋ + 1

/-- `astype("int32")`, line 411. The conversion of a number out of range is undefined in C; the value
is that of x86 processors. -/
def toInt32 (n : ℤ) : ℤ := if -2 ^ 31 ≤ n ∧ n < 2 ^ 31 then n else -2 ^ 31

/-- `np.cumsum(v[::-1])[::-1]`, lines 405-407. -/
noncomputable def reverseCumsum : List ℝ → List ℝ
  | [] => []
  | a :: l => (a :: l).sum :: reverseCumsum l

/-- `if self._cpi`, lines 414 and 438. -/
def Model.truthyCpi (m : Model) : Option ℚ :=
  match m.cpi with
  | some c => if c = 0 then none else some c
  | none => none

/-- `by_impressions`, lines 381-417. Without any components (`ncomponents <= 0`) there is no attribute
`optimizer`. The returned model is the one that has been fitted. -/
noncomputable def Model.byImpressions (solve : Solve) (m : Model) (impressions : List ℚ)
    (maxFrequency : Int := 1) : Except PyErr (ReachPoint × Model) :=
  match impressions with
  | [x] => do
    let m ← m.fit solve
    match m.optimizer with
    | none => throw .attributeError
    | some opt => do
      let I0 ← pyIndex m.point.impressions 0
      let hist ← opt.predict solve ((x / I0 : ℚ) : ℝ) maxFrequency
      let U ← m.point.universeSize
      let kplus := (reverseCumsum hist).tail.map (fun s : ℝ => ((toInt32 (npRound (U * s)) : ℤ) : ℚ))
      let point ← match m.truthyCpi with
        | some cpi => ReachPoint.new [x] kplus (some [x * cpi])
        | none => ReachPoint.new [x] kplus
      return (point, m)
  | _ => .error .valueError

/-- `impressions_for_spend`, lines 436-440. -/
def Model.impressionsForSpend (m : Model) (spend : ℚ) : Except PyErr ℚ :=
  match m.truthyCpi with
  | none => .error .valueError
  | some cpi => .ok (spend / cpi)

/-- `by_spend`, lines 419-434. -/
noncomputable def Model.bySpend (solve : Solve) (m : Model) (spends : List ℚ)
    (maxFrequency : Int := 1) : Except PyErr (ReachPoint × Model) :=
  match spends with
  | [s] => do
    let x ← m.impressionsForSpend s
    m.byImpressions solve [x] maxFrequency
  | _ => .error .valueError

end Verif.Dirac
