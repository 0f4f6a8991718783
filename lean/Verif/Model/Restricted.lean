import Verif.Model.Pairwise
import Mathlib.Algebra.BigOperators.Group.Finset.Basic
import Mathlib.Logic.Function.Basic

/-!
# Model of `src/models/restricted_pairwise_union_reach_surface.py`

A numpy vector `lbd` of length `p` is a function on indices (only indices below `p` matter); a
matrix `D` likewise.  The only way the arithmetic of a step leaves the rationals is `0 / 0` in
line 230, which numpy turns into `nan` with a warning; a vector containing a `nan` is `none`, and
every later step, loss and comparison with it is `nan`, respectively false, in numpy and Python.
(Without training points the loss of such a vector is zero; see `Restricted.startRun`.)
-/

namespace Verif

open Finset

/-- One element of `_ys` together with the element of `_Ds` at the same position,
restricted_pairwise_union_reach_surface.py:169-183. -/
structure RestrictedPoint where
  y : ℚ
  D : Nat → Nat → ℚ

namespace Restricted

/-- `_construct_D_from_r_and_m`, restricted_pairwise_union_reach_surface.py:185-203. -/
def constructD (r m : List ℚ) (i j : Nat) : ℚ :=
  r.getD i 0 * r.getD j 0 / 2 / max (m.getD j 0) (m.getD i 0)

/-- One iteration of the loop of `_setup_predictor_response`,
restricted_pairwise_union_reach_surface.py:177-183: `none` for the excluded single-publisher
points.  `0.0001` is the exact rational. -/
def setupPoint (s : PairwiseSurface) (pt : ReachPoint) : Except PyErr (Option RestrictedPoint) :=
  if (pt.impressions.count 0 : Int) < (s.p : Int) - 1 then do
    let r ← PairwiseSurface.getReachVector s.curves pt.impressions
    let reach ← pt.reach 1
    return some { y := max (1 / 10000) (r.sum - reach),
                  D := constructD r (s.curves.map (·.maxReach)) }
  else .ok none

/-- `_setup_predictor_response`, restricted_pairwise_union_reach_surface.py:157-183. -/
def setup (s : PairwiseSurface) : Except PyErr (List RestrictedPoint) := do
  let pts ← s.data.mapM (setupPoint s)
  return pts.filterMap id

/-- `sum(lbd)`. -/
def total (p : Nat) (lbd : Nat → ℚ) : ℚ := ∑ j ∈ range p, lbd j

/-- `_check_lbd_feasiblity`, restricted_pairwise_union_reach_surface.py:205-214. -/
def checkFeasibility (p : Nat) (lbd : Nat → ℚ) (tol : ℚ) : Bool :=
  (List.range p).all (fun j => ! (lbd j < 0 ∨ lbd j * (total p lbd - lbd j) > 1 + tol))

/-- `_compute_u`, restricted_pairwise_union_reach_surface.py:236-245 (`x ** 2` written `x * x`). -/
def computeU (p : Nat) (lbd : Nat → ℚ) (i : Nat) (D : Nat → Nat → ℚ) : ℚ :=
  let res := ∑ j ∈ range p, ∑ k ∈ range p, lbd j * lbd k * D j k
  let res := res - 2 * lbd i * ∑ j ∈ range p, lbd j * D j i
  let res := res - ∑ j ∈ range p, lbd j * lbd j * D j j
  (res + 2 * (lbd i * lbd i) * D i i) / 2

/-- `_compute_v`, restricted_pairwise_union_reach_surface.py:247-253. -/
def computeV (p : Nat) (lbd : Nat → ℚ) (i : Nat) (D : Nat → Nat → ℚ) : ℚ :=
  ∑ j ∈ range p, lbd j * D j i - lbd i * D i i

/-- `_get_feasible_bound`, restricted_pairwise_union_reach_surface.py:255-278. -/
def feasibleBound (p : Nat) (lbd : Nat → ℚ) (i : Nat) (tol : ℚ) : ℚ :=
  (List.range p).foldl
    (fun res j => if j ≠ i then
        min res (1 / max (lbd j) tol - total p lbd + lbd i + lbd j) else res)
    (1 / max (total p lbd - lbd i) tol)

/-- The default `tol = 1e-6` of lines 206 and 256. -/
def defaultTol : ℚ := 1 / 1000000

/-- `_step`, restricted_pairwise_union_reach_surface.py:218-234.  `none` is `nan`: if
`inner(vs, vs)` is zero so is `inner(ys - us, vs)`. -/
def step (p : Nat) (pts : List RestrictedPoint) (lbd : Nat → ℚ) (i : Nat) : Option ℚ :=
  let num := (pts.map (fun pt => (pt.y - computeU p lbd i pt.D) * computeV p lbd i pt.D)).sum
  let den := (pts.map (fun pt => computeV p lbd i pt.D * computeV p lbd i pt.D)).sum
  if den = 0 then none
  else if num / den < 0 then some 0
  else some (min (num / den) (feasibleBound p lbd i defaultTol))

/-- `_round`, restricted_pairwise_union_reach_surface.py:280-295.  `order` is the random
permutation of line 291. -/
def round (p : Nat) (pts : List RestrictedPoint) (lbd : Nat → ℚ) : List Nat → Option (Nat → ℚ)
  | [] => some lbd
  | i :: order =>
    match step p pts lbd i with
    | none => none
    | some l => round p pts (Function.update lbd i l) order

/-- The value `fitted` of restricted_pairwise_union_reach_surface.py:301-303. -/
def fitted (p : Nat) (lbd : Nat → ℚ) (D : Nat → Nat → ℚ) : ℚ :=
  (∑ j ∈ range p, ∑ k ∈ range p, lbd j * lbd k * D j k - ∑ j ∈ range p, lbd j * lbd j * D j j) / 2

/-- `_loss`, restricted_pairwise_union_reach_surface.py:297-305. -/
def loss (p : Nat) (pts : List RestrictedPoint) (lbd : Nat → ℚ) : ℚ :=
  (pts.map (fun pt => (pt.y - fitted p lbd pt.D) ^ 2)).sum

/-- The outcome of `_fit_one_init_lbd`, with the number of rounds added. -/
structure LocalFit where
  lbd : Nat → ℚ
  loss : ℚ
  converge : Bool
  rounds : Nat

/-- The loop of `_fit_one_init_lbd`, restricted_pairwise_union_reach_surface.py:334-342.
`orders n` is the permutation drawn in round `n`; `left` is
`_max_num_rounds - num_rounds`. -/
def fitLoop (p : Nat) (pts : List RestrictedPoint) (minImprovement : ℚ) (orders : Nat → List Nat) :
    (left : Nat) → (lbd : Nat → ℚ) → (prev cur : ℚ) → (n : Nat) → Option LocalFit
  | 0, lbd, prev, cur, n => some ⟨lbd, cur, decide (cur ≥ prev - minImprovement), n⟩
  | left + 1, lbd, prev, cur, n =>
    if cur < prev - minImprovement then
      match round p pts lbd (orders n) with
      | none => none
      | some lbd' => fitLoop p pts minImprovement orders left lbd' cur (loss p pts lbd') (n + 1)
    else some ⟨lbd, cur, decide (cur ≥ prev - minImprovement), n⟩

/-- `_fit_one_init_lbd`, restricted_pairwise_union_reach_surface.py:307-342: the loop is entered
with `cur_loss = prev_loss - 1`.  `none`: the run ended with a `nan` loss. -/
def fitOneInit (p : Nat) (pts : List RestrictedPoint) (minImprovement : ℚ) (maxRounds : Nat)
    (orders : Nat → List Nat) (lbd : Nat → ℚ) : Option LocalFit :=
  fitLoop p pts minImprovement orders maxRounds lbd (loss p pts lbd) (loss p pts lbd - 1) 0

/-- `_construct_a_from_lambda`, restricted_pairwise_union_reach_surface.py:452-464. -/
def constructA (p : Nat) (lbd : Nat → ℚ) : List ℚ :=
  (List.range (p * p)).map (fun c =>
    (lbd (c / p) * lbd (c % p) - if c / p = c % p then lbd (c / p) * lbd (c / p) else 0) / 2)

end Restricted

end Verif
