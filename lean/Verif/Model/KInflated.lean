import Verif.Model.Thinning
import Verif.Model.ReachCurve
import Mathlib.Algebra.Order.Floor.Semiring
import Mathlib.Data.Rat.Floor

/-!
# Model of `src/models/kinflated_gamma_poisson_model.py`
-/

namespace Verif

namespace KInflated

/-- `MAXIMUM_COMPUTATIONAL_FREQUENCY`, kinflated_gamma_poisson_model.py:30. -/
def maxComputationalFrequency : Nat := 1000

/-- Attributes of `KInflatedGammaPoissonDistribution`. -/
structure Dist where
  /-- `_alpha`, line 61 -/
  alpha : ℚ
  /-- `_beta`, line 62 -/
  beta : ℚ
  /-- `_a`, line 63 -/
  a : List ℚ
  /-- `_pmf`, lines 79-81 -/
  pmf : List ℚ
  deriving DecidableEq, Repr

/-- Lines 55-59: an inflation vector of sum above one is scaled to sum one. -/
def scaleDown (a : List ℚ) : List ℚ := if a.sum > 1 then a.map (fun x => x / a.sum) else a

/-- `self._pmf[-1] = 1.0 - np.sum(self._pmf[:-1])`, line 81. -/
def closeSum (l : List ℚ) : List ℚ := l.dropLast ++ [1 - l.dropLast.sum]

/-- Lines 65-81: the probabilities.  `g n` stands for `_gamma_poisson_pmf(n, alpha, beta)`
(lines 85-106), which is computed by scipy; `M` for `MAXIMUM_COMPUTATIONAL_FREQUENCY`. -/
def distPmf (M : Nat) (g : Nat → ℚ) (a : List ℚ) : List ℚ :=
  let n := a.length
  let s := a.sum
  let t := ((List.range' 1 n).map g).sum
  let u := (List.range' (n + 1) (M - (n + 1))).map g
  let tail := if t ≥ 1 then u.map (fun x => 0 * x) else u.map (fun x => (1 - s) / (1 - t) * x)
  closeSum ([0] ++ a ++ tail)

/-- `KInflatedGammaPoissonDistribution.__init__`, lines 53-83.  `gp alpha beta n` is scipy's
`nbinom.pmf(n - 1, alpha, 1 / (1 + beta))`. -/
def Dist.new (M : Nat) (gp : ℚ → ℚ → Nat → ℚ) (alpha beta : ℚ) (a : List ℚ) : Dist :=
  { alpha := alpha, beta := beta, a := scaleDown a, pmf := distPmf M (gp alpha beta) (scaleDown a) }

/-- `kplusreach`, lines 180-196 (a negative `k` behaves like 0). -/
def kplusreach (pmf : List ℚ) (k : Nat) (p : ℚ) : Except PyErr ℚ :=
  if k = 0 then .ok 1
  else do
    let l ← kreach pmf (List.range k) p
    return 1 - l.sum

/-- `expected_value`, lines 198-200. -/
def expectedValue (pmf : List ℚ) : ℚ := (pmf.zipIdx.map (fun x => (x.2 : ℚ) * x.1)).sum

/-! ## Exponential-Poisson closed forms -/

/-- `_exponential_poisson_reach`, lines 335-368. -/
def expReach (I N beta : ℚ) : ℚ :=
  if I ≥ (beta + 1) * N then N else N * I * (beta + 1) / (N + beta * (N + I))

/-- `_exponential_poisson_beta`, lines 370-387. -/
def expBeta (I N R : ℚ) : ℚ :=
  if I * R - N * (I - R) ≤ 0 then 1000 else N * (I - R) / (I * R - N * (I - R))

/-- `_exponential_poisson_N_from_beta`, lines 389-408. -/
def expNFromBeta (I R beta : ℚ) : Except PyErr ℚ :=
  if I < R + 1 / 1000 then .ok (100 * R)
  else if (beta + 1) * (R - I) = 0 then .error .zeroDivision
  else .ok (-(I * beta * R) / ((beta + 1) * (R - I)))

/-- `_exponential_poisson_N`, lines 410-423. -/
def expN (I R : ℚ) (muScaleFactor : ℚ := 3 / 2) : Except PyErr ℚ :=
  if muScaleFactor < 1 then .error .valueError
  else if I < R + 1 / 1000 then .ok (100 * R)
  else .ok (R * (muScaleFactor * I - R) / (muScaleFactor * (I - R)))

/-- The loop of lines 464-467, with a bound on the number of rounds (`C72_terminates` shows that
the bound used below is never reached). -/
def expLoop (I R : ℚ) : Nat → ℚ → ℚ → ℚ × ℚ
  | 0, N, beta => (N, beta)
  | fuel + 1, N, beta =>
    if N * (beta + 1) < I then
      let N' := max 1 (11 / 10 * N)
      expLoop I R fuel N' (expBeta I N' R)
    else (N, beta)

/-- Lines 452-459: audience size and rate before the adjustment.  Dividing by zero raises as for Python
numbers; a reach that is a numpy zero, as the simulator measures it, gives infinity and then `nan`, and
the fit ends with the `RuntimeError` of line 331 instead. -/
def expStart (frequencies : Nat) (I R : ℚ) : Except PyErr (ℚ × ℚ) :=
  if frequencies > 1 then
    if min R (I - 1) = 0 then .error .zeroDivision
    else
      let mu := I / min R (I - 1)
      let beta := (mu - 1) * (6 / 5)
      do
        let N ← expNFromBeta I R beta
        return (N, beta)
  else do
    let N ← expN I R
    return (N, expBeta I N R)

/-- Lines 448-450: the number of impressions used for the fit. -/
def fitImpressions (impressions : ℚ) (Imin : Option ℚ) : ℚ :=
  match Imin with
  | some m => if impressions < m then m else impressions
  | none => impressions

/-- `_fit_exponential_poisson_model`, lines 425-469, without building the distribution: the audience
size and the rate. -/
def fitExponentialPoisson (point : ReachPoint) (Imin : Option ℚ) : Except PyErr (ℚ × ℚ) := do
  let i ← pyIndex point.impressions 0
  let r ← point.reach 1
  let I := fitImpressions i Imin
  let Nb ← expStart point.frequencies.length I r
  return expLoop I r (10 * ⌈I⌉₊ + 3) Nb.1 Nb.2

/-! ## The model -/

/-- What the model takes from scipy. -/
structure Solver where
  /-- `nbinom.pmf(n - 1, alpha, 1 / (1 + beta))`, line 106 -/
  gp : ℚ → ℚ → Nat → ℚ
  /-- `scipy.optimize.minimize(...).x`, lines 481-507: from the histogram, the impressions, the
  minimal inventory and the start `(N, alpha, beta, a)` to the best `(N, alpha, beta, a)` -/
  minimize : List ℚ → ℚ → ℚ → ℚ × ℚ × ℚ × List ℚ → ℚ × ℚ × ℚ × List ℚ
  /-- `chi2.cdf(score, len(h)) > 0.95`, line 577, where the score is `_chi2_distance` of the fit -/
  poor : List ℚ → ℚ → ℚ → Dist → Bool

/-- `_fit_histogram_fixed_length_a`, lines 471-511, without the score. -/
def fitFixedLength (S : Solver) (M : Nat) (h : List ℚ) (I Imin : ℚ)
    (start : ℚ × ℚ × ℚ × List ℚ) : ℚ × Dist :=
  let x := S.minimize h I Imin start
  (x.1, Dist.new M S.gp x.2.1 x.2.2.1 x.2.2.2)

/-- The loop of lines 577-582; `fuel` bounds the number of rounds (the inflation vector grows in
every round). -/
def inflateLoop (S : Solver) (M kmax : Nat) (h : List ℚ) (I Imin : ℚ) :
    Nat → ℚ × Dist → Except PyErr (ℚ × Dist)
  | 0, nd => .ok nd
  | fuel + 1, nd =>
    if S.poor h I nd.1 nd.2 ∧ nd.2.a.length < kmax then do
      let x ← pyIndex nd.2.pmf (nd.2.a.length + 1)
      inflateLoop S M kmax h I Imin fuel
        (fitFixedLength S M h I Imin (nd.1, nd.2.alpha, nd.2.beta, nd.2.a ++ [x]))
    else .ok nd

/-- `_fit_point`, lines 539-584 (without the debugging output).  `I = point.impressions` (line 563) is a
tuple of one entry, which numpy broadcasts like the number. -/
def fitPoint (S : Solver) (M kmax : Nat) (point : ReachPoint) (Imin : ℚ) :
    Except PyErr (ℚ × Dist) := do
  let Nb ← fitExponentialPoisson point (some Imin)
  let d := Dist.new M S.gp 1 Nb.2 []
  let h ← point.frequenciesWithKplusBucket
  let i ← pyIndex point.impressions 0
  if point.maxFrequency = 1 then .ok (Nb.1, d)
  else
    inflateLoop S M kmax h i Imin kmax
      (fitFixedLength S M h i Imin (Nb.1, d.alpha, d.beta, []))

/-- Attributes set by `_fit`, lines 605-606. -/
structure Fitted where
  /-- `_max_reach` -/
  maxReach : ℚ
  /-- `_dist` -/
  dist : Dist
  deriving DecidableEq, Repr

/-- `_max_impressions`, line 607. -/
def Fitted.maxImpressions (f : Fitted) : ℚ := f.maxReach * expectedValue f.dist.pmf

/-- Attributes of `KInflatedGammaPoissonModel`, lines 267-277. -/
structure Model where
  /-- `_reach_point` -/
  point : ReachPoint
  /-- `_kmax` -/
  kmax : Nat
  /-- `_extrapolation_value` -/
  extrapolationValue : ℚ
  /-- `_cpi` -/
  cpi : Option ℚ
  /-- the attributes set by `_fit`; `none` if `_fit_computed` is false -/
  fitted : Option Fitted
  deriving DecidableEq, Repr

/-- `KInflatedGammaPoissonModel.__init__`, lines 239-277. -/
def Model.new (data : List ReachPoint) (kmax : Nat := 10) (extrapolationMultiplier : ℚ := 1) :
    Except PyErr Model :=
  match data with
  | [d] => do
    let i ← pyIndex d.impressions 0
    if i < 1 / 1000 then .error .valueError
    else do
      let r ← d.reach 1
      if i < r then .error .valueError
      else do
        let cpi ← GoergModel.costPerImpression d.spends i
        return { point := d, kmax := kmax, extrapolationValue := extrapolationMultiplier * i,
                 cpi := cpi, fitted := none }
  | _ => .error .valueError

/-- `_fit`, lines 586-608: does nothing if there is a fit already. -/
def Model.fit (S : Solver) (M : Nat) (m : Model) (Imin : Option ℚ := none) : Except PyErr Model :=
  match m.fitted with
  | some _ => .ok m
  | none => do
    let nd ← fitPoint S M m.kmax m.point (Imin.getD m.extrapolationValue)
    return { m with fitted := some { maxReach := nd.1, dist := nd.2 } }

/-- `p = min(impressions[0] / self._max_impressions, 1.0)`, line 628.  `none` is NaN, or a negative
share, for which scipy's probabilities are NaN.  `_max_impressions` is a numpy float, so dividing by
zero gives infinity or NaN. -/
def servedShare (I Imax : ℚ) : Option ℚ :=
  if Imax = 0 then (if 0 < I then some 1 else none)
  else if I / Imax < 0 then none else some (min (I / Imax) 1)

/-- The k+ reaches of lines 629-632; `none` is an array of NaN. -/
def predict (f : Fitted) (I : ℚ) (maxFrequency : Int) : Except PyErr (Option (List ℚ)) :=
  match servedShare I f.maxImpressions with
  | none => .ok none
  | some p => do
    let freqs ← kreach f.dist.pmf (List.range' 1 (maxFrequency.toNat - 1)) p
    let kplus ← kplusreach f.dist.pmf maxFrequency.toNat p
    return some (kplusFromHist
      ((freqs.map (fun x => f.maxReach * x)) ++ [f.maxReach * kplus]))

/-- `if self._cpi`: neither `None` nor zero. -/
def Model.truthyCpi (m : Model) : Option ℚ :=
  match m.cpi with
  | none => none
  | some c => if c = 0 then none else some c

/-- The point returned at lines 633-636; `none` if its reaches are NaN. -/
def Model.toPoint (m : Model) (I : ℚ) : Option (List ℚ) → Except PyErr (Option ReachPoint)
  | none => .ok none
  | some l =>
    match m.truthyCpi with
    | some c => do
      let r ← ReachPoint.new [I] l (some [I * c])
      return some r
    | none => do
      let r ← ReachPoint.new [I] l
      return some r

/-- `by_impressions`, lines 610-636: the model afterwards and the answer. -/
def Model.byImpressions (S : Solver) (M : Nat) (m : Model) (impressions : List ℚ)
    (maxFrequency : Int := 1) : Except PyErr (Model × Option ReachPoint) :=
  match impressions with
  | [I] => do
    let m' ← m.fit S M (some (I + 1))
    match m'.fitted with
    | none => .error .attributeError
    | some f => do
      let l ← predict f I maxFrequency
      let r ← m'.toPoint I l
      return (m', r)
  | _ => .error .valueError

/-- `impressions_for_spend`, lines 654-657. -/
def Model.impressionsForSpend (m : Model) (spend : ℚ) : Except PyErr ℚ :=
  match m.truthyCpi with
  | none => .error .valueError
  | some c => .ok (spend / c)

/-- `by_spend`, lines 638-652. -/
def Model.bySpend (S : Solver) (M : Nat) (m : Model) (spends : List ℚ) (maxFrequency : Int := 1) :
    Except PyErr (Model × Option ReachPoint) :=
  match spends with
  | [s] => do
    let I ← m.impressionsForSpend s
    m.byImpressions S M [I] maxFrequency
  | _ => .error .valueError

/-- The model after the query `by_impressions([I], F)`, also if the query raises an exception: the
attributes are set by `_fit` (lines 605-608) once the fit has been found, and nothing else is
changed (line 626). -/
def Model.after (S : Solver) (M : Nat) (m : Model) (q : ℚ × Int) : Model :=
  match m.fit S M (some (q.1 + 1)) with
  | .ok m' => m'
  | .error _ => m

end KInflated

end Verif
