import Verif.Model.Pairwise
import Verif.Model.Mixture
import Verif.Model.Strategy
import Verif.Model.ReachCurve

/-!
# Model of `src/simulator/planner_simulator.py` and `ReachSurface.by_spend`
-/

namespace Verif

/-- A single-publisher curve as `ReachSurface.by_spend` uses it: `impressions_for_spend`, and what
`by_impressions` of the surface needs. -/
structure PlannerCurve where
  /-- `max_reach` and `by_impressions([x]).reach()` -/
  surface : SurfaceCurve
  /-- `impressions_for_spend` -/
  impressionsForSpend : ℚ → Except PyErr ℚ

/-- `ReachSurface.by_spend`, reach_surface.py:53-60; `byImpressions` is the method of the subclass. -/
def surfaceBySpend (curves : List PlannerCurve)
    (byImpressions : List ℚ → Int → Except PyErr ReachPoint) (spend : List ℚ)
    (maxFrequency : Int := 1) : Except PyErr ReachPoint := do
  let impressions ← (curves.zip spend).mapM (fun cs => cs.1.impressionsForSpend cs.2)
  byImpressions impressions maxFrequency

/-- `PairwiseUnionReachSurface.by_spend`: `by_impressions` does not use `max_frequency`,
pairwise_union_reach_surface.py:90-110. -/
def PairwiseSurface.bySpend (curves : List PlannerCurve) (s : PairwiseSurface) (spend : List ℚ)
    (maxFrequency : Int := 1) : Except PyErr ReachPoint :=
  surfaceBySpend curves (fun v _ => s.byImpressions v) spend maxFrequency

/-- `GeneralizedMixtureReachSurface.by_spend`: `by_impressions` does not use `max_frequency`,
generalized_mixture_reach_surface.py:283-295. -/
def MixtureSurface.bySpend (curves : List PlannerCurve) (s : MixtureSurface) (spend : List ℚ)
    (maxFrequency : Int := 1) : Except PyErr ReachPoint :=
  surfaceBySpend curves (fun v _ => s.byImpressions v) spend maxFrequency

/-- A Goerg curve as a part of a surface, goerg_model.py:54-108. -/
def GoergModel.plannerCurve (m : GoergModel) : PlannerCurve where
  surface :=
    { maxReach := m.maxReach
      reachAt := fun x => do let r ← m.byImpressions [x]; r.reach 1 }
  impressionsForSpend := m.impressionsForSpend

/-- Constructor and `_fit` of `PairwiseUnionReachSurface`, pairwise_union_reach_surface.py:49-72;
`solve` is `solvers.qp`. -/
def PairwiseSurface.fit (solve : PairwiseSurface.QP → List ℚ) (curves : List SurfaceCurve)
    (points : List ReachPoint) : Except PyErr PairwiseSurface := do
  let first ← pyIndex points 0
  checkSurfaceData points
  let s : PairwiseSurface := { curves := curves, p := first.impressions.length, data := points, a := [] }
  let qp ← s.quadraticProgram
  return { s with a := solve qp }

/-- A fitted surface over Goerg curves. -/
structure GoergSurface where
  curves : List GoergModel
  surface : PairwiseSurface

/-- The M3 strategy with Goerg curves and the pairwise union surface
(driver/modeling_strategy_descriptor.py:46-65, "goerg" and "pairwise_union"). -/
def goergPairwise (solve : PairwiseSurface.QP → List ℚ) (groundTruth : DataSet → Nat → GoergModel) :
    Strategy GoergModel GoergSurface where
  single := GoergModel.new
  multi := fun curves points => do
    let s ← PairwiseSurface.fit solve (curves.map (fun m => m.plannerCurve.surface)) points
    return ⟨curves, s⟩
  groundTruth := groundTruth
  useGroundTruth := false

/-- Attributes of `PlannerSimulator`, planner_simulator.py:53-56, 64: `_model` does not exist before
`fit_model`.  `M` are the fitted models, `fit` is the modeling strategy. -/
structure Planner (S M : Type) where
  halo : HaloSimulator S
  fit : HaloSimulator S → PrivacyBudget ℚ → HaloM M
  model : Option M

namespace Planner

variable {S M : Type}

/-- `PlannerSimulator.__init__`, planner_simulator.py:36-56. -/
def new (halo : HaloSimulator S) (fit : HaloSimulator S → PrivacyBudget ℚ → HaloM M) : Planner S M :=
  ⟨halo, fit, none⟩

/-- `fit_model`, planner_simulator.py:58-64. -/
def fitModel (p : Planner S M) (budget : PrivacyBudget ℚ) : HaloM (Planner S M) := do
  let m ← p.fit p.halo budget
  return { p with model := some m }

/-- `true_reach_by_spend`, planner_simulator.py:66-80. -/
def trueReachBySpend (p : Planner S M) (spends : List ℚ) (maxFrequency : Int := 1) :
    Except PyErr ReachPoint :=
  p.halo.trueReachBySpend spends maxFrequency

/-- `modeled_reach_by_spend`, planner_simulator.py:82-97; `bySpend` is the method of the model. -/
def modeledReachBySpend (bySpend : M → List ℚ → Int → Except PyErr ReachPoint) (p : Planner S M)
    (spends : List ℚ) (maxFrequency : Int := 1) : Except PyErr ReachPoint :=
  match p.model with
  | none => .error .attributeError
  | some m => bySpend m spends maxFrequency

end Planner

/-- `by_spend` of what the M3 strategy with Goerg curves and the pairwise union surface returns. -/
def goergPairwiseBySpend : Fitted GoergModel GoergSurface → List ℚ → Int → Except PyErr ReachPoint
  | .curve m, spends, maxFrequency => m.bySpend spends maxFrequency
  | .surface s, spends, maxFrequency =>
    s.surface.bySpend (s.curves.map GoergModel.plannerCurve) spends maxFrequency

end Verif
