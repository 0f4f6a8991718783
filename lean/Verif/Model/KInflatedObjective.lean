import Verif.Model.KInflated

/-!
# Model of the fit criterion of `src/models/kinflated_gamma_poisson_model.py`

`Verif.Model.KInflated` leaves the optimizer and the test for a poor fit as parameters (`Solver`).
Here they are built from what the code passes to scipy.
-/

namespace Verif

namespace KInflated

/-- `_chi2_distance`, kinflated_gamma_poisson_model.py:279-333.  A zero denominator gives NaN, for
which the code raises `RuntimeError`, or infinity, which is not distinguished here.  `I` is at least
0.001 (line 258), so that the division of line 317 is by a positive number. -/
def chi2Distance (h : List ℚ) (I N : ℚ) (d : Dist) : Except PyErr ℚ :=
  let Imax := N * expectedValue d.pmf
  if Imax ≤ I then .ok (h.map (fun x => x ^ 2)).sum
  else do
    let freqs ← kreach d.pmf (List.range' 1 (h.length - 1)) (I / Imax)
    let kplus ← kplusreach d.pmf h.length (I / Imax)
    let hbar := freqs.map (fun x => N * x) ++ [N * kplus]
    if hbar.any (fun x => x + 1 / 1000000 = 0) then .error .runtimeError
    else .ok (List.zipWith (fun x y => (x - y) ^ 2 / (x + 1 / 1000000)) hbar h).sum

/-- `bounds`, lines 485-488, for `n` inflated values. -/
def paramBounds (h : List ℚ) (n : Nat) : List (ℚ × ℚ) :=
  [(1 / 10000, 1000), (1 / 10000, 10000), (h.sum, 100 * h.sum)] ++ List.replicate n (0, 1)

/-- `objective`, lines 490-503, for parameters as many as `bounds` (scipy keeps their number). -/
def objective (gp : ℚ → ℚ → Nat → ℚ) (M : Nat) (h : List ℚ) (I Imin : ℚ)
    (bounds : List (ℚ × ℚ)) (params : List ℚ) : Except PyErr ℚ :=
  match params with
  | alpha :: beta :: N :: a =>
    if (params.zip bounds).any (fun x => x.1 < x.2.1 ∨ x.2.2 < x.1) then
      .ok ((h.map (fun x => x ^ 2)).sum + Imin ^ 2)
    else if a.length ≠ 0 ∧ 1 < a.sum then
      .ok ((h.map (fun x => x ^ 2)).sum + Imin ^ 2)
    else do
      let d := Dist.new M gp alpha beta a
      let score ← chi2Distance h I N d
      let Imax := N * expectedValue d.pmf
      if Imax < Imin then return score + (Imin - Imax) ^ 2 else return score
  | _ => .error .valueError

/-- What the model takes from scipy, one function each. -/
structure Scipy where
  /-- `nbinom.pmf(n - 1, alpha, 1 / (1 + beta))`, line 106 -/
  gp : ℚ → ℚ → Nat → ℚ
  /-- `scipy.optimize.minimize(f, p0, method="Nelder-Mead").x`, line 505 -/
  nelderMead : (List ℚ → ℚ) → List ℚ → List ℚ
  /-- `scipy.stats.chi2.cdf(x, df)`, line 577 -/
  chi2cdf : ℚ → Nat → ℚ

/-- The value of a computation that raises no exception (`C87_objective` shows that the objective
function raises none). -/
def valueOf : Except PyErr ℚ → ℚ
  | .ok v => v
  | .error _ => 0

/-- Lines 483-508 (start and result of the optimization) and the test of line 577. -/
def Scipy.solver (L : Scipy) (M : Nat) : Solver :=
  { gp := L.gp
    minimize := fun h I Imin start =>
      let x := L.nelderMead
        (fun params => valueOf (objective L.gp M h I Imin
          (paramBounds h start.2.2.2.length) params))
        ([start.2.1, start.2.2.1, start.1] ++ start.2.2.2)
      (x.getD 2 0, x.getD 0 0, x.getD 1 0, x.drop 3)
    poor := fun h I N d => 95 / 100 < L.chi2cdf (valueOf (chi2Distance h I N d)) h.length }

end KInflated

end Verif
