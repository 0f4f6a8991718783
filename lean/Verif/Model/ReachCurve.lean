import Verif.Model.DataSet

/-!
# Model of `src/models/reach_curve.py`, `src/models/reach_surface.py` (constructor),
`src/models/ground_truth_reach_curve_model.py` and `src/models/goerg_model.py`
-/

namespace Verif

/-- `ReachSurface.__init__`, reach_surface.py:27-41: at least one training point, all of the same
dimension.  `_data` and `_max_reach` are stored unchanged, so only the checks are modelled. -/
def checkSurfaceData (data : List ReachPoint) : Except PyErr Unit :=
  match data with
  | [] => .error .valueError
  | d :: _ =>
    if data.all (fun pt => pt.impressions.length = d.impressions.length) then .ok ()
    else .error .valueError

/-- `ReachCurve.__init__`, reach_curve.py:31-41: in addition the points are one-dimensional. -/
def checkCurveData (data : List ReachPoint) : Except PyErr Unit := do
  checkSurfaceData data
  match data with
  | [] => .error .valueError
  | d :: _ => if d.impressions.length ≠ 1 then .error .valueError else .ok ()

namespace ReachCurve

/-- First loop of `_by_quantile`, reach_curve.py:63-70.  `reachAt n` stands for
`reach_function([n]).reach()`. -/
def doublingLoop (reachAt : Nat → Except PyErr ℚ) (target : ℚ) (lower upper niter : Nat) :
    Except PyErr (Nat × Nat) :=
  match reachAt upper with
  | .error e => .error e
  | .ok r =>
    if r ≤ target then
      if _h : niter + 1 > 60 then .error .overflowError
      else doublingLoop reachAt target upper (2 * upper) (niter + 1)
    else .ok (lower, upper)
  termination_by 61 - niter
  decreasing_by omega

/-- Second loop of `_by_quantile`, reach_curve.py:72-78. -/
def bisectLoop (reachAt : Nat → Except PyErr ℚ) (target : ℚ) (lower upper : Nat) :
    Except PyErr Nat :=
  if _h : upper - lower > 1 then
    let mid := (upper + lower) / 2
    match reachAt mid with
    | .error e => .error e
    | .ok r =>
      if r ≤ target then bisectLoop reachAt target mid upper
      else bisectLoop reachAt target lower mid
  else .ok lower
  termination_by upper - lower
  decreasing_by all_goals omega

/-- `_by_quantile`, reach_curve.py:43-78. -/
def byQuantile (maxReach : ℚ) (reachAt : Nat → Except PyErr ℚ) (quantile : ℚ) :
    Except PyErr Nat :=
  if ¬ (0 < quantile ∧ quantile < 1) then .error .valueError
  else do
    let (lower, upper) ← doublingLoop reachAt (maxReach * quantile) 0 1 0
    bisectLoop reachAt (maxReach * quantile) lower upper

/-- `np.cumsum(l)`, starting from the partial sum `acc`. -/
def cumsum (acc : Int) : List Int → List Int
  | [] => []
  | a :: l => (acc + a) :: cumsum (acc + a) l

/-- `_kplus_reaches_from_frequencies`, reach_curve.py:110-112. -/
def kplusReachesFromFrequencies (hist : List Int) : List Int := (cumsum 0 hist.reverse).reverse

end ReachCurve

/-! ## Ground truth curve -/

/-- Attributes of `GroundTruthReachCurveModel`, ground_truth_reach_curve_model.py:36-38. -/
structure GroundTruthCurve where
  dataSet : DataSet
  publisherIndex : Int
  maxReach : Nat

namespace GroundTruthCurve

/-- `__init__`, ground_truth_reach_curve_model.py:27-38. -/
def new (ds : DataSet) (publisherIndex : Int) : Except PyErr GroundTruthCurve := do
  let p ← pyIndex ds.data publisherIndex
  return { dataSet := ds, publisherIndex := publisherIndex, maxReach := p.maxReach }

/-- `by_impressions`, ground_truth_reach_curve_model.py:40-55. -/
def byImpressions (m : GroundTruthCurve) (impressions : List Int) (maxFrequency : Int := 1) :
    Except PyErr ReachPoint :=
  match impressions with
  | [n] => do
    let v ← pyModify (List.replicate m.dataSet.publisherCount (0 : Int)) m.publisherIndex (fun _ => n)
    m.dataSet.reachByImpressions v maxFrequency
  | _ => .error .valueError

/-- `by_spend`, ground_truth_reach_curve_model.py:57-71. -/
def bySpend (m : GroundTruthCurve) (spends : List ℚ) (maxFrequency : Int := 1) :
    Except PyErr ReachPoint :=
  match spends with
  | [s] => do
    let v ← pyModify (List.replicate m.dataSet.publisherCount (0 : ℚ)) m.publisherIndex (fun _ => s)
    m.dataSet.reachBySpend v maxFrequency
  | _ => .error .valueError

/-- `impressions_for_spend`, ground_truth_reach_curve_model.py:73-74. -/
def impressionsForSpend (m : GroundTruthCurve) (spend : ℚ) : Except PyErr Nat := do
  let p ← pyIndex m.dataSet.data m.publisherIndex
  return p.impressionsBySpend spend

/-- `impressions_at_reach_quantile`, reach_curve.py:80-91. -/
def impressionsAtReachQuantile (m : GroundTruthCurve) (quantile : ℚ) : Except PyErr Nat :=
  ReachCurve.byQuantile m.maxReach
    (fun n => do let r ← m.byImpressions [(n : Int)]; r.reach 1) quantile

/-- `spend_at_reach_quantile`, reach_curve.py:93-104. -/
def spendAtReachQuantile (m : GroundTruthCurve) (quantile : ℚ) : Except PyErr Nat :=
  ReachCurve.byQuantile m.maxReach
    (fun n => do let r ← m.bySpend [(n : ℚ)]; r.reach 1) quantile

end GroundTruthCurve

/-! ## Goerg's one-point model -/

/-- Attributes set by `GoergModel.__init__` and `_fit`, goerg_model.py:45-62. -/
structure GoergModel where
  /-- `_impressions`, line 45 -/
  impressions : ℚ
  /-- `_reach`, line 46 -/
  reach : ℚ
  /-- `_rho`, lines 59-61; also `_max_reach`, line 48 -/
  rho : ℚ
  /-- `_beta`, line 62 -/
  beta : ℚ
  /-- `_cpi`, lines 49-52 -/
  cpi : Option ℚ
  deriving DecidableEq, Repr

namespace GoergModel

/-- `if data[0].spends: ... else None`, goerg_model.py:49-52. -/
def costPerImpression (spends : Option (List ℚ)) (impressions : ℚ) : Except PyErr (Option ℚ) :=
  if ReachPoint.truthySpends spends then do
    let s ← pyIndex (spends.getD []) 0
    return some (s / impressions)
  else .ok none

/-- `GoergModel.__init__`, goerg_model.py:32-52, with `_fit` (54-62) inlined at line 47. -/
def new (data : List ReachPoint) : Except PyErr GoergModel := do
  checkCurveData data
  match data with
  | [d] =>
    let i ← pyIndex d.impressions 0
    if i < 1 / 1000 then .error .valueError
    else do
      let r ← d.reach 1
      if i ≤ r then .error .valueError
      else do
        let cpi ← costPerImpression d.spends i
        return { impressions := i, reach := r, rho := i * r / (i - r), beta := i * r / (i - r),
                 cpi := cpi }
  | _ => .error .valueError

/-- `max_reach`, goerg_model.py:48 and reach_surface.py:62-65. -/
def maxReach (m : GoergModel) : ℚ := m.rho

/-- `if self._cpi`: neither `None` nor zero. -/
def truthyCpi (m : GoergModel) : Option ℚ :=
  match m.cpi with
  | none => none
  | some c => if c = 0 then none else some c

/-- The k+ reaches of goerg_model.py:77-82. -/
def kplus (m : GoergModel) (x : ℚ) (maxFrequency : Int) : List ℚ :=
  (List.range maxFrequency.toNat).map (fun k => m.rho * (x / (x + m.beta)) ^ (k + 1))

/-- `by_impressions`, goerg_model.py:64-87.  The division raises as soon as one frequency is asked
for and the denominator is zero.  (So it is for Python numbers; if the training reach is a numpy
number, as in the points that the simulator measures, numpy warns and all reaches are `nan`.) -/
def byImpressions (m : GoergModel) (impressions : List ℚ) (maxFrequency : Int := 1) :
    Except PyErr ReachPoint :=
  match impressions with
  | [x] =>
    if 1 ≤ maxFrequency ∧ x + m.beta = 0 then .error .zeroDivision
    else match m.truthyCpi with
      | some c => ReachPoint.new impressions (m.kplus x maxFrequency) (some [x * c])
      | none => ReachPoint.new impressions (m.kplus x maxFrequency)
  | _ => .error .valueError

/-- `by_spend`, goerg_model.py:89-103. -/
def bySpend (m : GoergModel) (spends : List ℚ) (maxFrequency : Int := 1) :
    Except PyErr ReachPoint :=
  match m.truthyCpi with
  | none => .error .valueError
  | some c =>
    match spends with
    | [s] => m.byImpressions [s / c] maxFrequency
    | _ => .error .valueError

/-- `impressions_for_spend`, goerg_model.py:105-108. -/
def impressionsForSpend (m : GoergModel) (spend : ℚ) : Except PyErr ℚ :=
  match m.truthyCpi with
  | none => .error .valueError
  | some c => .ok (spend / c)

/-- `impressions_at_reach_quantile`, reach_curve.py:80-91. -/
def impressionsAtReachQuantile (m : GoergModel) (quantile : ℚ) : Except PyErr Nat :=
  ReachCurve.byQuantile m.maxReach
    (fun n => do let r ← m.byImpressions [(n : ℚ)]; r.reach 1) quantile

end GoergModel

end Verif
