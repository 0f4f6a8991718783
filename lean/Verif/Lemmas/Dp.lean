import Verif.Spec.Dp
import Mathlib.Probability.ProbabilityMassFunction.Constructions
import Mathlib.Tactic.Linarith
import Mathlib.Tactic.Positivity

/-!
# Rules of differential privacy
-/

namespace Verif.Spec

open ENNReal

variable {O O' : Type}

/-- The defining inequality extends from events to functions with values between 0 and 1. -/
theorem DpClose.fun_le {ε δ : ℝ} {p q : PMF O} (h : DpClose ε δ p q) (g : O → ℝ≥0∞)
    (hg : ∀ o, g o ≤ 1) :
    ∑' o, p o * g o ≤ ENNReal.ofReal (Real.exp ε) * ∑' o, q o * g o + ENNReal.ofReal δ := by
  set c := ENNReal.ofReal (Real.exp ε) with hc
  set A : Set O := {o | c * q o < p o} with hA
  have h1 := h A
  rw [PMF.toOuterMeasure_apply, PMF.toOuterMeasure_apply] at h1
  have hcq : ∑' o, A.indicator (fun o => c * q o) o ≠ ∞ := by
    have : ∑' o, A.indicator (fun o => c * q o) o = c * ∑' o, A.indicator q o := by
      rw [← ENNReal.tsum_mul_left]
      congr 1
      funext o
      by_cases ho : o ∈ A <;> simp [ho]
    rw [this]
    exact ENNReal.mul_ne_top ENNReal.ofReal_ne_top (q.tsum_coe_indicator_ne_top A)
  have h2 : ∑' o, A.indicator (fun o => p o - c * q o) o ≤ ENNReal.ofReal δ := by
    have e : ∑' o, A.indicator p o
        = ∑' o, A.indicator (fun o => p o - c * q o) o + ∑' o, A.indicator (fun o => c * q o) o := by
      rw [← ENNReal.tsum_add]
      congr 1
      funext o
      by_cases ho : o ∈ A
      · simp only [Set.indicator_of_mem ho]
        exact (tsub_add_cancel_of_le (le_of_lt ho)).symm
      · simp [ho]
    have e2 : c * ∑' o, A.indicator q o = ∑' o, A.indicator (fun o => c * q o) o := by
      rw [← ENNReal.tsum_mul_left]
      congr 1
      funext o
      by_cases ho : o ∈ A <;> simp [ho]
    rw [e, e2, add_comm] at h1
    exact (ENNReal.add_le_add_iff_left hcq).1 h1
  calc ∑' o, p o * g o
      ≤ ∑' o, (c * (q o * g o) + A.indicator (fun o => p o - c * q o) o) := by
        apply ENNReal.tsum_le_tsum
        intro o
        by_cases ho : o ∈ A
        · simp only [Set.indicator_of_mem ho]
          calc p o * g o = (c * q o + (p o - c * q o)) * g o := by
                rw [add_tsub_cancel_of_le (le_of_lt ho)]
            _ = c * (q o * g o) + (p o - c * q o) * g o := by rw [add_mul, mul_assoc]
            _ ≤ c * (q o * g o) + (p o - c * q o) * 1 := by gcongr; exact hg o
            _ = _ := by rw [mul_one]
        · have : p o ≤ c * q o := not_lt.1 ho
          simp only [Set.indicator_of_notMem ho, add_zero]
          rw [← mul_assoc]
          gcongr
    _ = c * ∑' o, q o * g o + ∑' o, A.indicator (fun o => p o - c * q o) o := by
        rw [ENNReal.tsum_add, ENNReal.tsum_mul_left]
    _ ≤ _ := by gcongr

theorem outer_le_one (p : PMF O) (S : Set O) : p.toOuterMeasure S ≤ 1 := by
  calc p.toOuterMeasure S ≤ p.toOuterMeasure Set.univ := p.toOuterMeasure.mono (Set.subset_univ S)
    _ = 1 := by rw [PMF.toOuterMeasure_apply]; simp

/-- Basic composition. -/
theorem DpClose.bind {ε₁ ε₂ δ₁ δ₂ : ℝ} (h₁ : 0 ≤ δ₁) (h₂ : 0 ≤ δ₂) {p q : PMF O}
    (h : DpClose ε₁ δ₁ p q) {f g : O → PMF O'} (hf : ∀ o, DpClose ε₂ δ₂ (f o) (g o)) :
    DpClose (ε₁ + ε₂) (δ₁ + δ₂) (p.bind f) (q.bind g) := by
  intro S
  rw [PMF.toOuterMeasure_bind_apply, PMF.toOuterMeasure_bind_apply]
  set k : O → ℝ≥0∞ := fun o => min 1 (ENNReal.ofReal (Real.exp ε₂) * (g o).toOuterMeasure S) with hk
  have e1 : ∀ o, (f o).toOuterMeasure S ≤ k o + ENNReal.ofReal δ₂ := by
    intro o
    rw [hk]
    simp only
    rcases le_total 1 (ENNReal.ofReal (Real.exp ε₂) * (g o).toOuterMeasure S) with hm | hm
    · rw [min_eq_left hm]
      exact le_trans (outer_le_one _ _) le_self_add
    · rw [min_eq_right hm]; exact hf o S
  calc ∑' o, p o * (f o).toOuterMeasure S
      ≤ ∑' o, (p o * k o + p o * ENNReal.ofReal δ₂) := by
        apply ENNReal.tsum_le_tsum
        intro o
        rw [← mul_add]
        gcongr
        exact e1 o
    _ = ∑' o, p o * k o + ENNReal.ofReal δ₂ := by
        rw [ENNReal.tsum_add, ENNReal.tsum_mul_right, PMF.tsum_coe, one_mul]
    _ ≤ (ENNReal.ofReal (Real.exp ε₁) * ∑' o, q o * k o + ENNReal.ofReal δ₁)
          + ENNReal.ofReal δ₂ := by
        gcongr
        exact h.fun_le k (fun o => min_le_left _ _)
    _ ≤ (ENNReal.ofReal (Real.exp ε₁) *
          ∑' o, q o * (ENNReal.ofReal (Real.exp ε₂) * (g o).toOuterMeasure S)
          + ENNReal.ofReal δ₁) + ENNReal.ofReal δ₂ := by
        gcongr with o
        exact min_le_right _ _
    _ = _ := by
        have e : ∀ o, q o * (ENNReal.ofReal (Real.exp ε₂) * (g o).toOuterMeasure S)
            = ENNReal.ofReal (Real.exp ε₂) * (q o * (g o).toOuterMeasure S) := by
          intro o; ring
        simp only [e]
        rw [ENNReal.tsum_mul_left, ← mul_assoc, ← ENNReal.ofReal_mul (Real.exp_nonneg _),
          ← Real.exp_add, ENNReal.ofReal_add h₁ h₂, add_assoc]

theorem DpClose.refl {ε δ : ℝ} (hε : 0 ≤ ε) (p : PMF O) : DpClose ε δ p p := by
  intro S
  calc p.toOuterMeasure S = 1 * p.toOuterMeasure S := (one_mul _).symm
    _ ≤ ENNReal.ofReal (Real.exp ε) * p.toOuterMeasure S := by
        gcongr
        rw [← ENNReal.ofReal_one]
        exact ENNReal.ofReal_le_ofReal (Real.one_le_exp hε)
    _ ≤ _ := le_self_add

theorem DpClose.mono {ε ε' δ δ' : ℝ} (hε : ε ≤ ε') (hδ : δ ≤ δ') {p q : PMF O}
    (h : DpClose ε δ p q) : DpClose ε' δ' p q := by
  intro S
  refine le_trans (h S) ?_
  gcongr

/-- Computations on the result alone lose nothing. -/
theorem DpClose.map {ε δ : ℝ} {p q : PMF O} (h : DpClose ε δ p q) (f : O → O') :
    DpClose ε δ (p.map f) (q.map f) := by
  intro S
  rw [PMF.toOuterMeasure_map_apply, PMF.toOuterMeasure_map_apply]
  exact h _

theorem DpClose.trans {ε₁ ε₂ : ℝ} {p q r : PMF O} (h₁ : DpClose ε₁ 0 p q) (h₂ : DpClose ε₂ 0 q r) :
    DpClose (ε₁ + ε₂) 0 p r := by
  intro S
  have a := h₁ S
  have b := h₂ S
  simp only [ENNReal.ofReal_zero, add_zero] at a b ⊢
  calc p.toOuterMeasure S ≤ ENNReal.ofReal (Real.exp ε₁) * q.toOuterMeasure S := a
    _ ≤ ENNReal.ofReal (Real.exp ε₁) * (ENNReal.ofReal (Real.exp ε₂) * r.toOuterMeasure S) := by
        gcongr
    _ = _ := by
        rw [← mul_assoc, ← ENNReal.ofReal_mul (Real.exp_nonneg _), ← Real.exp_add]

/-- It is enough to compare single results. -/
theorem DpClose.of_pointwise {ε : ℝ} {p q : PMF O}
    (h : ∀ o, p o ≤ ENNReal.ofReal (Real.exp ε) * q o) : DpClose ε 0 p q := by
  intro S
  rw [PMF.toOuterMeasure_apply, PMF.toOuterMeasure_apply, ENNReal.ofReal_zero, add_zero,
    ← ENNReal.tsum_mul_left]
  apply ENNReal.tsum_le_tsum
  intro o
  by_cases ho : o ∈ S
  · simp only [Set.indicator_of_mem ho]; exact h o
  · simp [ho]

theorem DpClose.pointwise {ε : ℝ} {p q : PMF O} (h : DpClose ε 0 p q) (o : O) :
    p o ≤ ENNReal.ofReal (Real.exp ε) * q o := by
  have := h {o}
  rwa [PMF.toOuterMeasure_apply_singleton, PMF.toOuterMeasure_apply_singleton, ENNReal.ofReal_zero,
    add_zero] at this

end Verif.Spec
