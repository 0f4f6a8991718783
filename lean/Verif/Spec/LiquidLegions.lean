import Mathlib.MeasureTheory.Integral.IntervalIntegral.Basic
import Mathlib.Analysis.SpecialFunctions.Exp

/-!
# Specification: the exponential integral
-/

namespace Verif.Spec

open MeasureTheory

/-- `scipy.special.expi` for negative arguments: minus the integral of `exp (-t) / t` from `x` on. -/
def IsExpi (expi : ℝ → ℝ) : Prop :=
  ∀ x, 0 < x → expi (-x) = -∫ t in Set.Ioi x, Real.exp (-t) / t

end Verif.Spec
