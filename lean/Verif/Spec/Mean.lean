import Verif.Spec.VennLaw

/-!
# Specification: mean values

The mean of a number that depends on a random outcome, and the number a Venn diagram request reports
for a set of publishers.
-/

namespace Verif.Spec

/-- The mean of `f` exists and is `m`. -/
def HasMean {X : Type} (p : PMF X) (f : X → ℝ) (m : ℝ) : Prop :=
  HasSum (fun x => (p x).toReal * f x) m

/-- The spends of the campaign in which only the publishers in `t` take part. -/
def onlySpends (t : Finset Nat) (spends : List ℚ) : List ℚ :=
  spends.zipIdx.map (fun si => if si.2 ∈ t then si.1 else 0)

/-- The reach reported for the campaign in which only the publishers in `t` take part: zero if the
request fails. -/
noncomputable def reportedReach (spends : List ℚ) (t : Finset Nat)
    (out : Except PyErr (List ReachPoint) × HaloState) : ℝ :=
  match out.1 with
  | .ok pts =>
    match pts.find? (fun pt => pt.spends = some (onlySpends t spends)) with
    | some pt => ((pt.kplusReaches.headD 0 : ℚ) : ℝ)
    | none => 0
  | .error _ => 0

/-- Number of users reached by one of the publishers in `t`. -/
noncomputable def reachedByAny (logs : List RawLog) (spends : List ℚ) (t : Finset Nat) : Nat :=
  Set.ncard {u | ∃ i ∈ t, reachedBy logs spends i u}

/-- Probability that a request succeeds. -/
noncomputable def successProb (p : PMF (Except PyErr (List ReachPoint) × HaloState)) : ℝ :=
  (p.toOuterMeasure {out | ∃ pts, out.1 = .ok pts}).toReal

end Verif.Spec
