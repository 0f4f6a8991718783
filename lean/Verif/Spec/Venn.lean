import Verif.Spec.Exposure
import Mathlib.Data.Nat.Bitwise

/-!
# Specification: who is reached by which publishers

A spend of zero means that the publisher takes no part in the campaign.
-/

namespace Verif.Spec

/-- Publisher `i` takes part in the campaign. -/
def isActive (spends : List ℚ) (i : Nat) : Prop := ∃ s, spends[i]? = some s ∧ s ≠ 0

/-- Number of publishers taking part. -/
def numActive (spends : List ℚ) : Nat := spends.countP (fun s => s ≠ 0)

/-- Publisher `i` takes part and shows user `u` at least one impression. -/
def reachedBy (logs : List RawLog) (spends : List ℚ) (i : Nat) (u : Int) : Prop :=
  ∃ log s, logs[i]? = some log ∧ spends[i]? = some s ∧ s ≠ 0 ∧ 1 ≤ exposuresAtSpend log s u

/-- Total exposures of user `u` over the publishers taking part. -/
def activeExposures (logs : List RawLog) (spends : List ℚ) (u : Int) : Nat :=
  (((logs.zip spends).filter (fun ls => ls.2 ≠ 0)).map (fun ls => exposuresAtSpend ls.1 ls.2 u)).sum

/-- User `u` belongs to the region with bit mask `m`: the bits of `m` are exactly the publishers
that reached `u`. -/
def inRegion (logs : List RawLog) (spends : List ℚ) (m : Nat) (u : Int) : Prop :=
  ∀ i, m.testBit i = true ↔ reachedBy logs spends i u

end Verif.Spec
