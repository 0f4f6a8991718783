import Verif.Lemmas.Noise
import Mathlib.Tactic.IntervalCases

/-!
# C91: the noise added to the regions of the Venn diagram
-/

namespace Verif

open Verif.Spec

variable {S : Type}

/-- The event recorded by the noise step. -/
def noiseEvent (budget : PrivacyBudget ℚ) (split : ℚ) : NoisingEvent ℚ :=
  { budget := ⟨budget.epsilon * split, budget.delta * split⟩,
    mechanism := "Discrete Laplace", samplingBuckets := ⟨0, 1⟩ }

/-- C91 (a): noise with steps of at most `exp (ε split)` protects a table: whoever sees the noised
table can tell two tables apart only as far as their entries differ. -/
theorem C91_protects (ν : PMF ℤ) (h : HaloSimulator S) (a b : Dict Nat Int)
    (budget : PrivacyBudget ℚ) (split : ℚ) (st : HaloState)
    (hν : StepLaw ((budget.epsilon * split : ℚ) : ℝ) ν) (hk : dictKeys a = dictKeys b) :
    DpClose ((tableDistance a b : ℝ) * ((budget.epsilon * split : ℚ) : ℝ)) 0
      (noiseLaw ν h a budget split st) (noiseLaw ν h b budget split st) := by
  rw [noiseLaw_eq, noiseLaw_eq]
  exact (tableLaw_close hν a b hk).map _

/-- C91 (b): if only one region differs, by one person, the noised tables are as close as the
budget of the event says that every run of the step records. -/
theorem C91_one_person (ν : PMF ℤ) (h : HaloSimulator S) (a b : Dict Nat Int)
    (budget : PrivacyBudget ℚ) (split : ℚ) (st : HaloState) (hs : 0 ≤ budget.epsilon * split)
    (hd : 0 ≤ budget.delta * split)
    (hν : StepLaw ((budget.epsilon * split : ℚ) : ℝ) ν) (hk : dictKeys a = dictKeys b)
    (h1 : tableDistance a b ≤ 1) :
    ∃ event : NoisingEvent ℚ,
      (∀ table, ∀ out ∈ (noiseLaw ν h table budget split st).support,
        out.2.tracker = st.tracker.append event) ∧
      DpClose (event.budget.epsilon : ℝ) (event.budget.delta : ℝ)
        (noiseLaw ν h a budget split st) (noiseLaw ν h b budget split st) := by
  refine ⟨noiseEvent budget split, ?_, ?_⟩
  · intro table out hout
    rw [noiseLaw_eq, PMF.mem_support_map_iff] at hout
    obtain ⟨t, _, rfl⟩ := hout
    rfl
  · refine (C91_protects ν h a b budget split st hν hk).mono ?_ ?_
    · have h1' : (tableDistance a b : ℝ) ≤ 1 := by exact_mod_cast h1
      have hs' : (0 : ℝ) ≤ ((budget.epsilon * split : ℚ) : ℝ) := by exact_mod_cast hs
      calc (tableDistance a b : ℝ) * ((budget.epsilon * split : ℚ) : ℝ)
          ≤ 1 * ((budget.epsilon * split : ℚ) : ℝ) := by gcongr
        _ = _ := one_mul _
    · exact_mod_cast hd

/-- C91 (c): discrete Laplace noise is such a noise. -/
theorem C91_laplace {ε : ℝ} (hε : 0 < ε) : StepLaw ε (discreteLaplace ε hε) :=
  discreteLaplace_step hε

/-- C91 (d): with discrete Laplace noise the loss is exactly the distance of the tables times
`ε split`; the cut at zero does not make it smaller. -/
theorem C91_exact (h : HaloSimulator S) (a b : Dict Nat Int) (budget : PrivacyBudget ℚ) (split : ℚ)
    (st : HaloState) (hs : (0 : ℝ) < ((budget.epsilon * split : ℚ) : ℝ)) (hk : dictKeys a = dictKeys b)
    (ha : ∀ r ∈ a, 0 ≤ r.2) (hb : ∀ r ∈ b, 0 ≤ r.2) (c : ℝ) :
    DpClose c 0 (noiseLaw (discreteLaplace _ hs) h a budget split st)
        (noiseLaw (discreteLaplace _ hs) h b budget split st)
      ↔ (tableDistance a b : ℝ) * ((budget.epsilon * split : ℚ) : ℝ) ≤ c := by
  constructor
  · intro hc
    have h2 := hc.map (fun out => match out.1 with | .ok t => t | .error _ => [])
    rw [noiseLaw_eq, noiseLaw_eq, PMF.map_comp, PMF.map_comp] at h2
    have h3 : DpClose c 0 ((tableLaw (discreteLaplace _ hs) a).map id)
        ((tableLaw (discreteLaplace _ hs) b).map id) := h2
    rw [PMF.map_id, PMF.map_id] at h3
    exact tableLaw_tight hs a b hk ha hb h3
  · intro hc
    exact (C91_protects _ h a b budget split st (C91_laplace hs) hk).mono hc le_rfl

/-- C91 (e): a person who moves from one region to another - as one impression more can do - loses
twice what the event says, whatever (positive) budget is used. -/
theorem C91_moved (h : HaloSimulator S) (a b : Dict Nat Int) (budget : PrivacyBudget ℚ) (split : ℚ)
    (st : HaloState) (hs : (0 : ℝ) < ((budget.epsilon * split : ℚ) : ℝ)) (hk : dictKeys a = dictKeys b)
    (ha : ∀ r ∈ a, 0 ≤ r.2) (hb : ∀ r ∈ b, 0 ≤ r.2) (h2 : tableDistance a b = 2) :
    ¬ DpClose ((budget.epsilon * split : ℚ) : ℝ) 0
      (noiseLaw (discreteLaplace _ hs) h a budget split st)
      (noiseLaw (discreteLaplace _ hs) h b budget split st) := by
  rw [C91_exact h a b budget split st hs hk ha hb, h2, not_le]
  push_cast at hs ⊢
  linarith

/-- Two tables over three regions that differ by one person, and two that differ by a move. -/
example : dictKeys [(1, 4), (2, 0), (3, (7 : Int))] = dictKeys [(1, 4), (2, (1 : Int)), (3, 7)] ∧
    tableDistance [(1, 4), (2, 0), (3, 7)] [(1, 4), (2, 1), (3, 7)] = 1 ∧
    tableDistance [(1, 4), (2, 0), (3, 7)] [(1, 3), (2, 0), (3, 8)] = 2 ∧
    (0 : ℝ) < (((1 : ℚ) / 10 * (1 / 2) : ℚ) : ℝ) := by
  refine ⟨by decide, by decide, by decide, by norm_num⟩

end Verif
