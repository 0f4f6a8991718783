import Verif.Model.Thinning
import Verif.Model.ReachCurve

/-!
# Model of `src/models/gamma_poisson_model.py`
-/

namespace Verif

namespace GammaPoisson

/-- `MAXIMUM_COMPUTATIONAL_FREQUENCY`, gamma_poisson_model.py:25. -/
def maxComputationalFrequency : Nat := 1000

/-- The values of `exp(_logpmf(n, alpha, beta))`, lines 154-170, for `n` from 0 to
`MAXIMUM_COMPUTATIONAL_FREQUENCY` (line 233).  `gp alpha beta n` is scipy's
`nbinom.pmf(n - 1, alpha, 1 / (1 + beta))`, which is zero at `n = 0`. -/
def inventoryPmf (M : Nat) (gp : ℚ → ℚ → Nat → ℚ) (alpha beta : ℚ) : List ℚ :=
  0 :: (List.range' 1 M).map (gp alpha beta)

/-- `_expected_impressions`, lines 247-261; the mean of scipy's negative binomial distribution with
parameters `alpha` and `1 / (1 + beta)` is `alpha * beta`. -/
def expectedImpressions (N alpha beta : ℚ) : ℚ := N * (1 + alpha * beta)

/-- `_expected_histogram`, lines 263-277, with `p` for `I / Imax`. -/
def expectedHistogram (M : Nat) (gp : ℚ → ℚ → Nat → ℚ) (p N alpha beta : ℚ) (maxFreq : Nat) :
    Except PyErr (List ℚ) := do
  let l ← kreach (inventoryPmf M gp alpha beta) (List.range' 1 maxFreq) p
  return l.map (fun x => N * x)

/-- `_histogram_from_reach_point`, lines 283-296. -/
def histogramFromReachPoint (point : ReachPoint) : Except PyErr (List ℚ) :=
  (List.range' 1 (point.maxFrequency - 1)).mapM (fun i : Nat => point.frequency i)

/-- `_histogram_with_kplus_bucket`, lines 298-321. -/
def histogramWithKplusBucket (point : ReachPoint) : Except PyErr (List ℚ) := do
  let h ← histogramFromReachPoint point
  let kplus ← point.reach (h.length + 1)
  return h ++ [kplus]

/-- `np.sum(np.array(h) ** 2)`, lines 361 and 366. -/
def sumSquares (h : List ℚ) : ℚ := (h.map (fun x => x ^ 2)).sum

/-- Lines 368-375: the expected number of people per frequency, the last entry for all higher
frequencies. -/
def expectedBuckets (M : Nat) (gp : ℚ → ℚ → Nat → ℚ) (p N alpha beta : ℚ) (n : Nat) :
    Except PyErr (List ℚ) := do
  let hbar ← expectedHistogram M gp p N alpha beta (n - 1)
  let low ← kreach (inventoryPmf M gp alpha beta) (List.range n) p
  return hbar ++ [(1 - low.sum) * N]

/-- `_chi2_distance_with_one_plus_reach`, lines 323-399.  `ext` is `_extrapolation_value`.  The
exception for NaN (line 393) does not occur with exact arithmetic. -/
def chi2Distance (M : Nat) (gp : ℚ → ℚ → Nat → ℚ) (ext : ℚ) (h : List ℚ) (I N alpha beta : ℚ)
    (onePlusReachWeight : ℚ := 1) : Except PyErr ℚ :=
  if alpha ≤ 0 ∨ beta ≤ 0 ∨ N ≤ 0 then .ok (sumSquares h)
  else
    let Imax := expectedImpressions N alpha beta
    if Imax ≤ I then .ok (sumSquares h)
    else do
      let hbar ← expectedBuckets M gp (I / Imax) N alpha beta h.length
      let oneplusError := onePlusReachWeight * (h.sum - hbar.sum) ^ 2
      let penalty := if Imax < ext then (ext - Imax) ^ 2 else 0
      return (List.zipWith (fun b x => (b - x) ^ 2 / (b + 1 / 1000000)) hbar h).sum +
        oneplusError + penalty

/-! ## Search for a starting point -/

/-- Lines 514-519; `sqrt` is numpy's. -/
def searchStart (sqrt : ℚ → ℚ) (I0 N : ℚ) : ℚ :=
  if I0 > N then 11 / 10 * sqrt (I0 / N - 1) + 1 / 20 else 1 / 10

/-- The directions of line 525. -/
def gridDeltas : List (ℚ × ℚ) := [(-1, -1), (-1, 1), (1, -1), (1, 1)]

/-- The inner loop, lines 525-535: the best point found that is better than `score`, with its score.
`f` is the objective. -/
def gridBest (f : ℚ → ℚ → ℚ) (alpha beta width score : ℚ) : Option (ℚ × ℚ × ℚ) :=
  gridDeltas.foldl (fun best d =>
    let a := alpha + d.1 * width
    let b := beta + d.2 * width
    let t := f a b
    let bestScore := match best with
      | none => score
      | some x => x.2.2
    if t < bestScore then some (a, b, t) else best) none

/-- The outer loop, lines 522-541; `none` if it has not ended after `fuel` rounds. -/
def gridLoop (f : ℚ → ℚ → ℚ) : Nat → ℚ → ℚ → ℚ → ℚ → Option (ℚ × ℚ)
  | 0, _, _, _, _ => none
  | fuel + 1, alpha, beta, width, score =>
    if width > 1 / 100 then
      match gridBest f alpha beta width score with
      | some x => gridLoop f fuel x.1 x.2.1 width x.2.2
      | none => gridLoop f fuel alpha beta (width / 2) score
    else some (alpha, beta)

/-- `_find_starting_point_for_fixed_N`, lines 482-541, with at most `fuel` rounds. -/
def findStartingPoint (f : ℚ → ℚ → ℚ) (sqrt : ℚ → ℚ) (fuel : Nat) (I0 N : ℚ) : Option (ℚ × ℚ) :=
  gridLoop f fuel (searchStart sqrt I0 N) (searchStart sqrt I0 N) (1 / 20) (10 ^ 99)

/-! ## Fitting -/

/-- What the model takes from scipy; the search for a starting point (modelled by
`findStartingPoint`) is not known to end and therefore also a parameter. -/
structure Solver where
  /-- `nbinom.pmf(n - 1, alpha, 1 / (1 + beta))`, line 170 -/
  gp : ℚ → ℚ → Nat → ℚ
  /-- `_find_starting_point_for_fixed_N`, lines 571-573 -/
  start : List ℚ → ℚ → ℚ → ℚ × ℚ
  /-- `scipy.optimize.minimize(...).x`, lines 583-588, for a fixed number of people: from the
  histogram, the impressions, the number of people and the start to `(alpha, beta)` -/
  minimizeFixed : List ℚ → ℚ → ℚ → ℚ × ℚ → ℚ × ℚ
  /-- `scipy.optimize.minimize(...)`, lines 465-470: `fun` and `x = (alpha, beta, N)` -/
  minimize : List ℚ → ℚ → ℚ × ℚ × ℚ → ℚ × ℚ × ℚ × ℚ
  /-- `chi2.ppf(0.98, n)`, line 450 -/
  threshold : Nat → ℚ

/-- `_fit_histogram_fixed_N`, lines 543-592: `(Imax, alpha, beta)`. -/
def fitFixedN (S : Solver) (point : ReachPoint) (N : ℚ) : Except PyErr (ℚ × ℚ × ℚ) := do
  let I0 ← pyIndex point.impressions 0
  let h ← histogramWithKplusBucket point
  let x := S.minimizeFixed h I0 N (S.start h I0 N)
  return (expectedImpressions N x.1 x.2, x.1, x.2)

/-- `Nvalues`, line 445. -/
def startingSizes (Nmin : ℚ) (nstartingPoints : Nat) : List ℚ :=
  (List.range' 1 nstartingPoints).map (fun j : Nat => Nmin / ((j : ℚ) / ((nstartingPoints : ℚ) + 1)))

/-- The loop of lines 452-477.  `best` is `(score, alpha, beta, N)` of the best run; `none` as long as
the variables are not set. -/
def fitLoop (S : Solver) (point : ReachPoint) (h : List ℚ) (I0 : ℚ) :
    List ℚ → ℚ → Option (ℚ × ℚ × ℚ) → Except PyErr (Option (ℚ × ℚ × ℚ))
  | [], _, best => .ok best
  | N0 :: rest, bestScore, best => do
    let x ← fitFixedN S point N0
    let r := S.minimize h I0 (x.2.1, x.2.2, N0)
    let score' := if r.1 < bestScore then r.1 else bestScore
    let best' := if r.1 < bestScore then some r.2 else best
    if score' < S.threshold h.length then .ok best'
    else fitLoop S point h I0 rest score' best'

/-- `_fit_histogram_chi2_distance`, lines 401-480: `(Imax, N, alpha, beta)`.  If no run is below the
initial score, `best_N` is not bound (an `UnboundLocalError`, which is a `NameError`). -/
def fitChi2 (S : Solver) (point : ReachPoint) (nstartingPoints : Nat := 10) :
    Except PyErr (ℚ × ℚ × ℚ × ℚ) := do
  let Nmin ← point.reach 1
  let I0 ← pyIndex point.impressions 0
  let h ← histogramWithKplusBucket point
  let best ← fitLoop S point h I0 (startingSizes Nmin nstartingPoints) (10 ^ 99) none
  match best with
  | none => .error .nameError
  | some x => .ok (expectedImpressions x.2.2 x.1 x.2.1, x.2.2, x.1, x.2.1)

/-- Attributes of `GammaPoissonModel`, lines 142-150, and those set by `_fit`, lines 597-609. -/
structure Model where
  /-- `_reach_point` -/
  point : ReachPoint
  /-- `_max_reach` -/
  maxReach : Option ℚ
  /-- `_extrapolation_value` -/
  extrapolationValue : ℚ
  /-- `_cpi` -/
  cpi : Option ℚ
  /-- `(_max_impressions, _alpha, _beta)`; `none` before `_fit` is called -/
  params : Option (ℚ × ℚ × ℚ)
  deriving DecidableEq, Repr

/-- `GammaPoissonModel.__init__`, lines 116-152. -/
def Model.new (data : List ReachPoint) (maxReach : Option ℚ := none)
    (extrapolationMultiplier : ℚ := 1) : Except PyErr Model := do
  checkCurveData data
  match data with
  | [d] => do
    let i ← pyIndex d.impressions 0
    if i < 1 / 1000 then .error .valueError
    else do
      let r ← d.reach 1
      if i < r then .error .valueError
      else do
        let cpi ← GoergModel.costPerImpression d.spends i
        return { point := d, maxReach := maxReach, extrapolationValue := extrapolationMultiplier * i,
                 cpi := cpi, params := none }
  | _ => .error .valueError

/-- `_fit`, lines 594-609. -/
def Model.fit (S : Solver) (m : Model) : Except PyErr Model :=
  match m.maxReach with
  | none => do
    let x ← fitChi2 S m.point
    return { m with maxReach := some x.2.1, params := some (x.1, x.2.2.1, x.2.2.2) }
  | some N => do
    let x ← fitFixedN S m.point N
    return { m with params := some x }

/-- `min(impressions[0], Imax - 1) / Imax`, lines 627-628 and 193.  `none` if the quotient is not a
number between 0 and 1, for which scipy's probabilities are NaN. -/
def servedShare (I Imax : ℚ) : Option ℚ :=
  if Imax = 0 then none
  else
    let p := min I (Imax - 1) / Imax
    if 0 ≤ p ∧ p ≤ 1 then some p else none

/-- The k+ reaches of lines 626-634; `none` is an array of NaN. -/
def predict (M : Nat) (gp : ℚ → ℚ → Nat → ℚ) (N Imax alpha beta I : ℚ) :
    Except PyErr (Option (List ℚ)) :=
  match servedShare I Imax with
  | none => .ok none
  | some p => do
    let hist ← expectedHistogram M gp p N alpha beta M
    return some (kplusFromHist hist)

/-- `if self._cpi`: neither `None` nor zero. -/
def Model.truthyCpi (m : Model) : Option ℚ :=
  match m.cpi with
  | none => none
  | some c => if c = 0 then none else some c

/-- The point returned at lines 635-640; `none` if its reaches are NaN. -/
def Model.toPoint (m : Model) (I : ℚ) (maxFrequency : Int) :
    Option (List ℚ) → Except PyErr (Option ReachPoint)
  | none => .ok none
  | some l =>
    match m.truthyCpi with
    | some c => do
      let r ← ReachPoint.new [I] (pySliceTo l maxFrequency) (some [I * c])
      return some r
    | none => do
      let r ← ReachPoint.new [I] (pySliceTo l maxFrequency)
      return some r

/-- `by_impressions`, lines 611-640.  Without a call of `_fit` the attribute `_max_impressions` is
missing. -/
def Model.byImpressions (M : Nat) (gp : ℚ → ℚ → Nat → ℚ) (m : Model) (impressions : List ℚ)
    (maxFrequency : Int := 1) : Except PyErr (Option ReachPoint) :=
  match impressions with
  | [I] =>
    match m.params, m.maxReach with
    | some x, some N => do
      let l ← predict M gp N x.1 x.2.1 x.2.2 I
      m.toPoint I maxFrequency l
    | _, _ => .error .attributeError
  | _ => .error .valueError

/-- `impressions_for_spend`, lines 658-661. -/
def Model.impressionsForSpend (m : Model) (spend : ℚ) : Except PyErr ℚ :=
  match m.truthyCpi with
  | none => .error .valueError
  | some c => .ok (spend / c)

/-- `by_spend`, lines 642-656. -/
def Model.bySpend (M : Nat) (gp : ℚ → ℚ → Nat → ℚ) (m : Model) (spends : List ℚ)
    (maxFrequency : Int := 1) : Except PyErr (Option ReachPoint) :=
  match spends with
  | [s] => do
    let I ← m.impressionsForSpend s
    m.byImpressions M gp [I] maxFrequency
  | _ => .error .valueError

end GammaPoisson

end Verif
