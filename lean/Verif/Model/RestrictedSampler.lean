import Verif.Model.Restricted
import Mathlib.Analysis.SpecialFunctions.Sqrt

/-!
# Model of the starting point samplers of the restricted surface

The square root takes us out of the rationals, so this file works with real numbers.
-/

namespace Verif

noncomputable section

namespace RestrictedSampler

/-- `nu = np.append(u, 1) - np.append(0, u)`, restricted_pairwise_union_reach_surface.py:398. -/
def simplexPoint (u : List ℝ) : List ℝ := (u ++ [1]).zipWith (· - ·) (0 :: u)

/-- `max(nu)` for a list of non-negative numbers. -/
def maxOf (l : List ℝ) : ℝ := l.foldr max 0

/-- `_scaled_from_simplex_initial_lbd`, restricted_pairwise_union_reach_surface.py:368-400.  `u` are
the sorted `p - 1` uniform draws and `t` is the draw of line 400. -/
def scaledFromSimplex (u : List ℝ) (t : ℝ) (tol : ℝ) : List ℝ :=
  let nu := simplexPoint u
  let sMax := 1 / max (Real.sqrt (maxOf nu * nu.sum)) tol
  nu.map (fun x => t * sMax * x)

end RestrictedSampler

end

/-- `_truncated_uniform_initial_lbd`, restricted_pairwise_union_reach_surface.py:344-366: the first
acceptable one among the successive draws of line 364.  `none`: not found within the given number of
draws (the loop of the code has no bound). -/
def Restricted.truncatedUniform (p : Nat) (draws : Nat → Nat → ℚ) : (fuel : Nat) → (n : Nat) →
    Option (Nat → ℚ)
  | 0, _ => none
  | fuel + 1, n =>
    if Restricted.checkFeasibility p (draws n) Restricted.defaultTol then some (draws n)
    else Restricted.truncatedUniform p draws fuel (n + 1)

end Verif
