import Verif.Model.Pairwise

/-!
# Model of `src/models/generalized_mixture_reach_surface.py`

The quadratic program solver is not modelled; `a` is any vector.  Where numpy divides zero by zero
(`get_theta` of a cluster in which nobody is reached) the result is `none` for `nan`.
-/

namespace Verif

/-- Attributes of `GeneralizedMixtureReachSurface`, generalized_mixture_reach_surface.py:79-88. -/
structure MixtureSurface where
  /-- `_reach_curves` -/
  curves : List SurfaceCurve
  /-- `_p` -/
  p : Nat
  /-- `_c` -/
  c : Nat
  /-- `_N` -/
  N : ℚ
  /-- `_data` -/
  data : List ReachPoint
  /-- `a` -/
  a : List ℚ

namespace MixtureSurface

/-- `__init__`, generalized_mixture_reach_surface.py:56-88, with the checks of
reach_surface.py:35-41.  `initialA` is the random vector of line 85; the attribute `a` is only set by
`_fit` (parameter). -/
def new (curves : List SurfaceCurve) (points : List ReachPoint) (numClusters : Nat) (a : List ℚ) :
    Except PyErr MixtureSurface :=
  match points with
  | [] => .error .indexError
  | pt :: pts => do
    let m ← pyMax (curves.map (·.maxReach))
    if ¬ (pt :: pts).all (fun q => q.impressions.length == pt.impressions.length) then
      .error .valueError
    else
      return { curves := curves, p := pt.impressions.length, c := numClusters, N := m * 2,
               data := pt :: pts, a := a }

/-- The loop over publishers, generalized_mixture_reach_surface.py:290-292: the probability `w` that
a person of cluster `j` is not reached.  For `N = 0` (every curve of maximum reach 0) numpy only warns
and `w`, hence the reach, is `nan`; here the computation stops instead. -/
def notReached (s : MixtureSurface) (r : List ℚ) (j : Nat) : Except PyErr ℚ := do
  let factors ← (List.range s.p).mapM (fun i => do
    let a ← pyIndex s.a ((j + i * s.c : Nat) : Int)
    let ri ← pyIndex r i
    if s.N = 0 then .error .zeroDivision else .ok (1 - a * ri / s.N))
  return factors.prod

/-- `by_impressions`, generalized_mixture_reach_surface.py:283-295. -/
def byImpressions (s : MixtureSurface) (impressions : List ℚ) : Except PyErr ReachPoint := do
  let r ← PairwiseSurface.getReachVector s.curves impressions
  let ws ← (List.range s.c).mapM (s.notReached r)
  ReachPoint.new impressions [(ws.map (fun w => 1 - w)).sum * s.N]

/-- Entry `[j][i]` of `get_x`, generalized_mixture_reach_surface.py:109-115.  Simplified: vectors of other
lengths than `p * c` and `p`, for which numpy raises a `ValueError`, are filled up with zeros here. -/
def getX (s : MixtureSurface) (a r : List ℚ) (j i : Nat) : ℚ :=
  a.getD (j + i * s.c) 0 * r.getD i 0 / s.N

/-- Entry `j` of `get_theta(get_x(a, r))`, generalized_mixture_reach_surface.py:106-107; `none` is
`nan` (a zero divisor comes with a zero dividend if no reach is negative). -/
def getTheta (s : MixtureSurface) (a r : List ℚ) (j : Nat) : Option ℚ :=
  if ((List.range s.p).map (s.getX a r j)).sum = 0 then none
  else some ((1 - ((List.range s.p).map (fun i => 1 - s.getX a r j i)).prod)
    / ((List.range s.p).map (s.getX a r j)).sum)

/-- `theta` for one training point: a `nan` in one entry makes the later sums `nan`. -/
def thetas (s : MixtureSurface) (a r : List ℚ) : Option (List ℚ) :=
  (List.range s.c).mapM (s.getTheta a r)

/-- One vector of `get_z_from_theta`, generalized_mixture_reach_surface.py:192-196: the flattened
outer product of reaches and thetas, divided by `N`. -/
def zFromTheta (s : MixtureSurface) (theta r : List ℚ) : List ℚ :=
  (List.range s.p).flatMap (fun i => (List.range s.c).map (fun j =>
    r.getD i 0 * theta.getD j 0 / s.N))

/-- `P` and `q` of `solve_a_given_z`, generalized_mixture_reach_surface.py:156-169. -/
def quadraticTerm (z : List (List ℚ)) (i j : Nat) : ℚ :=
  (z.map (fun zk => zk.getD i 0 * zk.getD j 0)).sum

/-- `q` of `solve_a_given_z`, generalized_mixture_reach_surface.py:167-169; `ys` are the observed
reaches. -/
def linearTerm (s : MixtureSurface) (z : List (List ℚ)) (ys : List ℚ) (i : Nat) : ℚ :=
  - ((ys.zip z).map (fun yz => yz.1 / s.N * yz.2.getD i 0)).sum

/-- Entry `[i][k]` of `np.kron(np.eye(p), np.ones(c))`, generalized_mixture_reach_surface.py:172. -/
def equalityMatrix (s : MixtureSurface) (i k : Nat) : ℚ := if k / s.c = i then 1 else 0

/-- The constraints handed to the solver, generalized_mixture_reach_surface.py:170-174: `G a ≤ h`
with `G = -eye`, `h = 0`, and `A a = b` with `b` all ones. -/
def Feasible (s : MixtureSurface) (a : List ℚ) : Prop :=
  (∀ k < s.p * s.c,
    ((List.range (s.p * s.c)).map (fun l => (if l = k then -1 else 0) * a.getD l 0)).sum ≤ 0) ∧
  (∀ i < s.p,
    ((List.range (s.p * s.c)).map (fun k => s.equalityMatrix i k * a.getD k 0)).sum = 1)

/-- `_loss`, generalized_mixture_reach_surface.py:213-217, for the `P` and `q` of the last round. -/
def loss (n : Nat) (P : Nat → Nat → ℚ) (q : Nat → ℚ) (a : List ℚ) : ℚ :=
  ((List.range n).map (fun i => ((List.range n).map (fun j => a.getD i 0 * P i j * a.getD j 0)).sum)).sum
    + ((List.range n).map (fun i => q i * a.getD i 0)).sum

end MixtureSurface

end Verif
