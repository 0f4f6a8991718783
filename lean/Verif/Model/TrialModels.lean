import Verif.Model.GammaPoisson
import Verif.Model.KInflated
import Verif.Model.Planner
import Verif.Model.RestrictedFit
import Verif.Model.WholeTrial

/-!
# The registered models as a trial uses them

`src/driver/modeling_strategy_descriptor.py`, lines 48-64, names three single publisher models and two
multi publisher models.  `Verif.Model.WholeTrial` leaves those fitted by numerical optimisation as
parameters (`ModelLib`); here they are the models of `Verif.Model.GammaPoisson`,
`Verif.Model.KInflated`, `Verif.Model.Planner` and `Verif.Model.RestrictedFit`, and only what they take
from scipy, cvxopt and numpy's random generator is left.
-/

namespace Verif

/-- A model fitted by numerical optimisation, after `_fit`. -/
inductive OptimisedCurve where
  /-- gamma_poisson_model.py -/
  | gamma (m : GammaPoisson.Model)
  /-- kinflated_gamma_poisson_model.py -/
  | inflated (m : KInflated.Model)

/-- What the models take from external libraries. -/
structure Solvers where
  /-- scipy for gamma_poisson_model.py; the objective function depends on `_extrapolation_value` -/
  gamma : ℚ → GammaPoisson.Solver
  /-- scipy for kinflated_gamma_poisson_model.py -/
  inflated : KInflated.Solver
  /-- `solvers.qp` of cvxopt, pairwise_union_reach_surface.py:212 -/
  qp : PairwiseSurface.QP → List ℚ
  /-- the vectors of the sampler for a number of publishers,
  restricted_pairwise_union_reach_surface.py:344-400 -/
  starts : Nat → Nat → Nat → ℚ
  /-- the permutations of restricted_pairwise_union_reach_surface.py:291 -/
  orders : Nat → Nat → Nat → List Nat
  /-- the number that is printed as a text; `none` for texts of other values -/
  number : Text → Option ℚ

/-- A NaN in place of a reach is represented by an exception.  (The code goes on with the NaN, which
then appears in the row; the theorems about these models show that no NaN arises.) -/
def orNan : Except PyErr (Option ReachPoint) → Except PyErr ReachPoint
  | .ok (some r) => .ok r
  | .ok none => .error .runtimeError
  | .error e => .error e

namespace Solvers

/-- A keyword argument that is a number, with its default; a value that is not a number is taken to
make the arithmetic of the constructor fail. -/
def kwNumber (L : Solvers) (kwargs : Kwargs) (key : Text) (default : ℚ) : Except PyErr ℚ :=
  match kwargs.lookup key with
  | none => .ok default
  | some v => match L.number v with
    | some x => .ok x
    | none => .error .typeError

/-- `max_reach=None`, gamma_poisson_model.py:117. -/
def kwMaxReach (L : Solvers) (kwargs : Kwargs) : Except PyErr (Option ℚ) :=
  match kwargs.lookup "max_reach".toList with
  | none => .ok none
  | some v => if v = "None".toList then .ok none else
    match L.number v with
    | some x => .ok (some x)
    | none => .error .typeError

/-- `self._single_pub_model([point], **kwargs)` and `curve._fit()`, m3_strategy.py:115-118 and
single_publisher_strategy.py:63-64.  `debug` only prints; a negative `kmax` behaves like zero
(kinflated_gamma_poisson_model.py:577).  `GoergModel` is part of `ModelLib.fitCurve`, which does not
ask for it here. -/
def fitCurve (L : Solvers) (m : SingleModel) (kwargs : Kwargs) (data : List ReachPoint) :
    Except PyErr OptimisedCurve :=
  match m with
  | .goerg => .error .typeError
  | .gammaPoisson => do
    let maxReach ← L.kwMaxReach kwargs
    let ext ← L.kwNumber kwargs "extrapolation_multiplier".toList 1
    let g ← GammaPoisson.Model.new data maxReach ext
    let f ← g.fit (L.gamma g.extrapolationValue)
    return .gamma f
  | .kInflated => do
    let kmax ← kwInt kwargs "kmax".toList 10
    let ext ← L.kwNumber kwargs "extrapolation_multiplier".toList 1
    let k ← KInflated.Model.new data kmax.toNat ext
    let f ← k.fit L.inflated KInflated.maxComputationalFrequency
    return .inflated f

/-- `by_spend`, gamma_poisson_model.py:642-656 and kinflated_gamma_poisson_model.py:638-652.  The
k-inflated model has been fitted before, so that a query does not change it (line 594). -/
def bySpend (L : Solvers) : OptimisedCurve → List ℚ → Int → Except PyErr ReachPoint
  | .gamma m, s, F => orNan (m.bySpend GammaPoisson.maxComputationalFrequency
      (L.gamma m.extrapolationValue).gp s F)
  | .inflated m, s, F => orNan ((m.bySpend L.inflated KInflated.maxComputationalFrequency s F).map
      (·.2))

/-- `_data`, reach_surface.py:40 (through reach_curve.py:36) and
kinflated_gamma_poisson_model.py:264. -/
def data : OptimisedCurve → List ReachPoint
  | .gamma m => [m.point]
  | .inflated m => [m.point]

/-- `by_impressions([x]).reach()`, pairwise_union_reach_surface.py:86. -/
def reachAt (L : Solvers) (c : OptimisedCurve) (x : ℚ) : Except PyErr ℚ := do
  let r ← match c with
    | .gamma m => orNan (m.byImpressions GammaPoisson.maxComputationalFrequency
        (L.gamma m.extrapolationValue).gp [x])
    | .inflated m => orNan ((m.byImpressions L.inflated KInflated.maxComputationalFrequency [x]).map
        (·.2))
  r.reach 1

/-- `max_reach`, reach_surface.py:62-65.  Both models set the attribute in `_fit`
(gamma_poisson_model.py:600; kinflated_gamma_poisson_model.py:605); before, it is taken to be zero. -/
def maxReach : OptimisedCurve → ℚ
  | .gamma m => m.maxReach.getD 0
  | .inflated m => (m.fitted.map (·.maxReach)).getD 0

/-- A curve of a trial as a surface uses it.  `by_impressions` of true reach cuts lists at the number of
impressions, which is a `TypeError` for other numbers than ints
(data_set.py:162-166, publisher_data.py:96). -/
def plannerCurve (L : Solvers) : TrialCurve OptimisedCurve → PlannerCurve
  | .goerg m _ => m.plannerCurve
  | .fitted c =>
    { surface := { maxReach := maxReach c, reachAt := L.reachAt c }
      impressionsForSpend := match c with
        | .gamma m => m.impressionsForSpend
        | .inflated m => m.impressionsForSpend }
  | .truth g =>
    { surface :=
        { maxReach := g.maxReach
          reachAt := fun x => if x.den = 1 then do
              let r ← g.byImpressions [x.num]
              r.reach 1
            else .error .typeError }
      impressionsForSpend := fun s => (g.impressionsForSpend s).map (fun n : Nat => (n : ℚ)) }

/-- The constructor of both surfaces, pairwise_union_reach_surface.py:49-68. -/
def newSurface (L : Solvers) (curves : List (TrialCurve OptimisedCurve)) (points : List ReachPoint) :
    Except PyErr PairwiseSurface := do
  let first ← pyIndex points 0
  checkSurfaceData points
  return { curves := curves.map (fun c => (L.plannerCurve c).surface),
           p := first.impressions.length, data := points, a := [] }

/-- The surface and `by_spend`, pairwise_union_reach_surface.py:90-110 and reach_surface.py:53-60. -/
def surfaceView (L : Solvers) (curves : List (TrialCurve OptimisedCurve)) (s : PairwiseSurface) :
    Surface :=
  ⟨fun spends F => s.bySpend (curves.map L.plannerCurve) spends F, .ok s.data⟩

/-- `self._multi_pub_model(curves, points)` and `_fit()`, m3_strategy.py:125-128. -/
def fitSurface (L : Solvers) (m : MultiModel) (curves : List (TrialCurve OptimisedCurve))
    (points : List ReachPoint) : Except PyErr Surface := do
  match m with
  | .pairwise => do
    let s ← PairwiseSurface.fit L.qp (curves.map (fun c => (L.plannerCurve c).surface)) points
    return L.surfaceView curves s
  | .restricted => do
    let s ← L.newSurface curves points
    let r ← Restricted.fit s (L.starts s.p) (L.orders s.p)
    match r with
    | none => return ⟨fun _ _ => orNan (.ok none), .ok points⟩
    | some s => return L.surfaceView curves s

/-- The models of a trial. -/
def modelLib (L : Solvers) : ModelLib OptimisedCurve where
  single := L.fitCurve
  view := fun c => ⟨L.bySpend c, .ok (data c)⟩
  multi := L.fitSurface

end Solvers

end Verif
