import Verif.Model.Float64
import Verif.Model.ReachCurve
import Verif.Model.Pairwise

/-!
# Floats in the Goerg model

`src/models/goerg_model.py` with every result rounded by `rnd` (see `Model/Float64`); with `id` and the
exact power it is the model of `Model/ReachCurve`.  The power of two floats is the function `pw` of the C
library.
-/

namespace Verif

namespace GoergModel

/-- `_rho` on floats, goerg_model.py:59-61, from the impressions and the reach of the training point. -/
def rhoFl (rnd : ℚ → ℚ) (i r : ℚ) : ℚ := rnd (rnd (i * r) / rnd (i - r))

/-- The k+ reach at `x` impressions on floats, goerg_model.py:79-81; `_beta` is `_rho` (line 62). -/
def kplusFl (rnd : ℚ → ℚ) (pw : ℚ → Nat → ℚ) (i r x : ℚ) (k : Nat) : ℚ :=
  rnd (rhoFl rnd i r * pw (rnd (x / rnd (x + rhoFl rnd i r))) k)

/-- The impressions for a spend on floats, goerg_model.py:50 and 103, from the spend `s` of the training
point. -/
def spendImpressionsFl (rnd : ℚ → ℚ) (i s spend : ℚ) : ℚ := rnd (spend / rnd (s / i))

/-- A Goerg curve on floats as a part of a surface, goerg_model.py:54-87 (`max_reach` and
`by_impressions([x]).reach(1)`).  Simplified: a positive reach, so that no division is by zero. -/
def surfaceCurveFl (rnd : ℚ → ℚ) (pw : ℚ → Nat → ℚ) (m : GoergModel) : SurfaceCurve where
  maxReach := rhoFl rnd m.impressions m.reach
  reachAt := fun x => .ok (kplusFl rnd pw m.impressions m.reach x 1)

end GoergModel

end Verif
