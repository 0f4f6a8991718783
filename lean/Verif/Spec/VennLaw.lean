import Verif.Spec.Venn
import Verif.Spec.Noise
import Mathlib.Probability.Distributions.Uniform
import Mathlib.Data.Fintype.BigOperators

/-!
# Specification: the random draws of the Venn diagram request

Distribution of the draws of `simulated_venn_diagram_reach_by_spend`, halo_simulator.py:275-342: the
registers of the users, the sample, the noise and the error of the cardinality estimate.
-/

namespace Verif.Spec

open Finset

/-- Every user gets a register, independently, with distribution `p`. -/
noncomputable def registersLaw {R : Type} [Fintype R] (p : PMF R) (n : Nat) : PMF (Fin n → R) :=
  PMF.ofFintype (fun a => ∏ i, p (a i)) (by
    classical
    rw [← Fintype.piFinset_univ, Finset.sum_prod_piFinset Finset.univ (fun _ r => p r)]
    have : ∑ r, p r = 1 := by have := p.tsum_coe; rwa [tsum_fintype] at this
    simp [this])

/-- Number of registers with exactly one user. -/
def activeRegs {R : Type} [Fintype R] [DecidableEq R] {n : Nat} (a : Fin n → R) : Nat :=
  #{r | #{i | a i = r} = 1}

/-- An urn with `pops[j]` balls of colour `j`. -/
def urn (pops : List Int) : List Nat :=
  pops.zipIdx.flatMap (fun ci => List.replicate ci.1.toNat ci.2)

/-- How many elements of `T` have each of the first `L` colours. -/
def countsOf {n : Nat} (colour : Fin n → Nat) (L : Nat) (T : Finset (Fin n)) : List Int :=
  (List.range L).map (fun j => ((#{i ∈ T | colour i = j} : Nat) : Int))

/-- The multivariate hypergeometric distribution: colours of `k` balls drawn from the urn. -/
noncomputable def hyperLaw (pops : List Int) (k : Nat) : PMF (List Int) :=
  if h : (powersetCard k (univ : Finset (Fin (urn pops).length))).Nonempty then
    (PMF.uniformOfFinset _ h).map (countsOf (fun i => (urn pops)[i]) pops.length)
  else PMF.pure (List.replicate pops.length 0)

/-- What the generators return during one request. -/
structure Draws where
  /-- number of active registers -/
  active : Nat
  /-- sampled counts -/
  sample : List Int
  /-- noise for the regions -/
  noise : List ℤ
  /-- normally distributed estimate of the cardinality -/
  estimate : ℚ
  /-- noise for the estimate -/
  cardinalityNoise : ℤ

/-- A generator that returns these draws to a request that begins with draw number `first` and asks
for the registers of `n` users, for a sample of the counts `pops`, for noise with `ε₁` and for noise
with `ε₂`.  Whatever else it is asked, it returns without any randomness. -/
def answers (first n : Nat) (pops : List Int) (ε₁ ε₂ : ℚ) (d : Draws) : RandomLib where
  activeRegisters i m := if i = first ∧ m = n then d.active else m.floor
  hypergeometric i pp k :=
    if i = first + 1 ∧ pp = pops ∧ k = d.active then d.sample else pp
  noiser seed ε k v :=
    if seed = first + 2 ∧ ε = ε₁ then v + ((d.noise.getD k 0 : ℤ) : ℚ)
    else if seed = first + 3 ∧ ε = ε₂ ∧ k = 0 then v + ((d.cardinalityNoise : ℤ) : ℚ) else v
  normalEstimate i m := if i = first + 4 ∧ m = n then d.estimate else m

/-- What is random: the distribution of a register, of the noise on a region, of the normal estimate
for a given cardinality, and of the noise on this estimate. -/
structure Laws (R : Type) where
  register : PMF R
  noise : PMF ℤ
  estimate : Nat → PMF ℚ
  cardinalityNoise : PMF ℤ

/-- Distribution of the draws for `n` users in regions with counts `pops`. -/
noncomputable def drawsLaw {R : Type} [Fintype R] [DecidableEq R] (l : Laws R) (n : Nat)
    (pops : List Int) : PMF Draws :=
  (registersLaw l.register n).bind fun a =>
  (hyperLaw pops (activeRegs a)).bind fun s =>
  (iid l.noise pops.length).bind fun z =>
  (l.estimate n).bind fun e =>
  l.cardinalityNoise.map fun y => ⟨activeRegs a, s, z, e, y⟩

/-- Numbers of users in the regions of the Venn diagram. -/
def regionCounts (d : Dict Nat (List Int)) : List Int := d.map (fun rv => rv.2.getD 0 0)

/-- Distribution of everything a Venn diagram request does: reach points or exception, and the new
state. -/
noncomputable def vennLaw {S R : Type} [Fintype R] [DecidableEq R] (l : Laws R) (h : HaloSimulator S)
    (spends : List ℚ) (budget : PrivacyBudget ℚ) (split : ℚ) (st : HaloState) :
    PMF (Except PyErr (List ReachPoint) × HaloState) :=
  match h.formVennDiagramRegions spends 1 with
  | .error e => PMF.pure (.error e, st)
  | .ok d =>
    (drawsLaw l (regionCounts d).sum.toNat (regionCounts d)).map fun dr =>
      HaloSimulator.simulatedVenn { h with
          rand := answers st.draws (regionCounts d).sum.toNat (regionCounts d)
            (budget.epsilon * split) (budget.epsilon * (1 - split)) dr }
        spends budget split 1 st

/-- What somebody who knows the impressions learns from a request: the reaches or the exception, and
the new state. -/
def seen (out : Except PyErr (List ReachPoint) × HaloState) :
    Except PyErr (List (List ℚ)) × HaloState :=
  (match out.1 with
    | .ok pts => .ok (pts.map (·.kplusReaches))
    | .error e => .error e, out.2)

/-- Distribution of the noised estimate of the cardinality. -/
noncomputable def cardinalityLaw {R : Type} (l : Laws R) (n : Nat) : PMF ℚ :=
  (l.estimate n).bind fun e => l.cardinalityNoise.map fun y => e + ((y : ℤ) : ℚ)

/-- Probability that no register has exactly one of `n` users. -/
noncomputable def noActive {R : Type} [Fintype R] [DecidableEq R] (l : Laws R) (n : Nat) : ℝ :=
  ((registersLaw l.register n).toOuterMeasure {a | activeRegs a = 0}).toReal

/-- The logs without the impressions of one user. -/
def withoutUser (u : Int) (logs : List RawLog) : List RawLog :=
  logs.map (fun log => log.filter (fun e => e.1 ≠ u))

/-- Number of users reached by some publisher that takes part. -/
noncomputable def reachedCount (logs : List RawLog) (spends : List ℚ) : Nat :=
  Set.ncard {u | ∃ i, reachedBy logs spends i u}

end Verif.Spec
