import Verif.Model.Float64
import Verif.Model.Pairwise

/-!
# Floats in the prediction of the pairwise union surface

`by_impressions` of `src/models/pairwise_union_reach_surface.py` with every result rounded by `rnd` (see
`Model/Float64`); with `id` it is the function of `Model/Pairwise`.
-/

namespace Verif

namespace PairwiseSurface

/-- One summand of the overlap on floats, pairwise_union_reach_surface.py:98-104. -/
def overlapTermFl (rnd : ℚ → ℚ) (s : PairwiseSurface) (r : List ℚ) (ij : Nat × Nat) :
    Except PyErr ℚ := do
  let a ← pyIndex s.a ((ij.1 * s.p + ij.2 : Nat) : Int)
  let ri ← pyIndex r ij.1
  let rj ← pyIndex r ij.2
  let d ← pairDivisor s.curves ij.1 ij.2
  return rnd (rnd (rnd (a * ri) * rj) / rnd d)

/-- `sum` of a list of floats: from the left, rounding after every addition.  (Python adds floats in this
way before version 3.12 and always if they are numpy floats.) -/
def sumFl (rnd : ℚ → ℚ) (l : List ℚ) : ℚ := l.foldl (fun acc x => rnd (acc + x)) 0

/-- The reach predicted from the reaches of the publishers on floats,
pairwise_union_reach_surface.py:95-110. -/
def predictFl (rnd : ℚ → ℚ) (s : PairwiseSurface) (r : List ℚ) : Except PyErr ℚ := do
  let terms ← (indexPairs s.p).mapM (s.overlapTermFl rnd r)
  return rnd (sumFl rnd r - sumFl rnd terms)

end PairwiseSurface

end Verif
