import Verif.Model.Restricted
import Verif.Model.MultiStart

/-!
# Model of `_fit` of `src/models/restricted_pairwise_union_reach_surface.py`
-/

namespace Verif

namespace Restricted

/-- The outcome of `_fit_one_init_lbd` as the loop of `_fit_multi_init_lbds` sees it,
restricted_pairwise_union_reach_surface.py:441.  A vector with a `nan` is `none`.  Its loss is `nan`,
except if there are no training points: then it is the empty sum (lines 299-305), and the run
stops after one round with `0 >= -1 - _min_improvement`. -/
def startRun (pts : List RestrictedPoint) : Option LocalFit → StartRun (Option (Nat → ℚ))
  | some f => ⟨some f.lbd, some f.loss, f.converge⟩
  | none => if pts.isEmpty then ⟨none, some 0, true⟩ else ⟨none, none, false⟩

/-- `MIN_IMPROVEMENT_PER_ROUND`, restricted_pairwise_union_reach_surface.py:34. -/
def defaultMinImprovement : ℚ := 1 / 1000

/-- `MAX_NUM_ROUNDS`, restricted_pairwise_union_reach_surface.py:35. -/
def defaultMaxRounds : Nat := 1000

/-- `_fit`, restricted_pairwise_union_reach_surface.py:82-93, with the default criteria of lines
95-155.  `starts n` is the `n`-th vector returned by the sampler and `orders n k` the permutation
drawn in round `k` of run `n`.  The result is `none` if the parameters are `nan`; if no run ended with
a number, `_fitted_lbd` does not exist in line 462. -/
def fit (s : PairwiseSurface) (starts : Nat → Nat → ℚ) (orders : Nat → Nat → List Nat) :
    Except PyErr (Option PairwiseSurface) := do
  let pts ← setup s
  let res ← MultiStart.fit restrictedCriteria (fun n => startRun pts
    (fitOneInit s.p pts defaultMinImprovement defaultMaxRounds (orders n) (starts n)))
  match res.best with
  | none => .error .attributeError
  | some (none, _) => .ok none
  | some (some lbd, _) => .ok (some { s with a := constructA s.p lbd })

end Restricted

end Verif
