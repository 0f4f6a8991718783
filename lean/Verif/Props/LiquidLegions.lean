import Verif.Model.LiquidLegions
import Verif.Spec.LiquidLegions
import Verif.Lemmas.VennLaw
import Mathlib.MeasureTheory.Integral.IntegralEqImproper
import Mathlib.Analysis.SpecialFunctions.ImproperIntegrals
import Mathlib.Analysis.SpecialFunctions.Integrals.Basic

/-!
# C93: the LiquidLegions formulas
-/

namespace Verif

open Verif.Spec MeasureTheory intervalIntegral

theorem expi_integrable {x : ℝ} (hx : 0 < x) :
    IntegrableOn (fun t => Real.exp (-t) / t) (Set.Ioi x) := by
  have h1 : IntegrableOn (fun t : ℝ => x⁻¹ * Real.exp (-t)) (Set.Ioi x) :=
    (integrableOn_exp_neg_Ioi x).const_mul _
  refine h1.mono' ?_ ?_
  · apply Measurable.aestronglyMeasurable
    exact (Real.measurable_exp.comp measurable_neg).div measurable_id
  · rw [ae_restrict_iff' measurableSet_Ioi]
    refine Filter.Eventually.of_forall (fun t ht => ?_)
    have ht' : x < t := ht
    have htp : 0 < t := hx.trans ht'
    rw [Real.norm_eq_abs, abs_of_nonneg (by positivity), div_eq_inv_mul]
    gcongr

theorem expi_sub {expi : ℝ → ℝ} (he : IsExpi expi) {x y : ℝ} (hx : 0 < x) (hxy : x ≤ y) :
    expi (-y) - expi (-x) = ∫ t in x..y, Real.exp (-t) / t := by
  rw [he y (hx.trans_le hxy), he x hx]
  have := integral_interval_add_Ioi (expi_integrable hx) (expi_integrable (hx.trans_le hxy))
  linarith

theorem pos_continuousOn {f : ℝ → ℝ} {x y : ℝ} (hx : 0 < x) (hf : Continuous f) :
    ContinuousOn (fun t => f t / t) (Set.Icc x y) :=
  hf.continuousOn.div continuousOn_id (fun _ ht => (hx.trans_le ht.1).ne')

theorem pos_intervalIntegrable {f : ℝ → ℝ} {x y : ℝ} (hx : 0 < x) (hxy : x ≤ y) (hf : Continuous f) :
    IntervalIntegrable (fun t => f t / t) volume x y := by
  apply ContinuousOn.intervalIntegrable
  rw [Set.uIcc_of_le hxy]
  exact pos_continuousOn hx hf

/-- The bracket of the code is one integral. -/
theorem bracket_eq {expi : ℝ → ℝ} (he : IsExpi expi) {x y : ℝ} (hx : 0 < x) (hxy : x ≤ y) :
    expi (-y) - expi (-x) - expi (-(2 * y)) + expi (-(2 * x))
      = ∫ t in x..y, (Real.exp (-t) - Real.exp (-(2 * t))) / t := by
  have h1 := expi_sub he hx hxy
  have h2 := expi_sub he (x := 2 * x) (y := 2 * y) (by linarith) (by linarith)
  have h3 : ∫ t in x..y, Real.exp (-(2 * t)) / t = ∫ t in (2 * x)..(2 * y), Real.exp (-t) / t := by
    have := intervalIntegral.integral_comp_mul_left (fun t => Real.exp (-t) / t) (a := x) (b := y)
      (c := 2) (by norm_num)
    rw [smul_eq_mul] at this
    have h4 : ∫ t in x..y, Real.exp (-(2 * t)) / t = 2 * ∫ t in x..y, Real.exp (-(2 * t)) / (2 * t) := by
      rw [← intervalIntegral.integral_const_mul]
      apply intervalIntegral.integral_congr
      intro t ht
      rw [Set.uIcc_of_le hxy] at ht
      have : t ≠ 0 := (hx.trans_le ht.1).ne'
      field_simp
    rw [h4, this]
    ring
  have h5 : ∫ t in x..y, (Real.exp (-t) - Real.exp (-(2 * t))) / t
      = (∫ t in x..y, Real.exp (-t) / t) - ∫ t in x..y, Real.exp (-(2 * t)) / t := by
    rw [← intervalIntegral.integral_sub
      (pos_intervalIntegrable hx hxy (f := fun t => Real.exp (-t)) (by fun_prop))
      (pos_intervalIntegrable hx hxy (f := fun t => Real.exp (-(2 * t))) (by fun_prop))]
    congr 1
    funext t
    ring
  rw [h5, h3, ← h1, ← h2]
  ring

/-- Cauchy and Schwarz for this integral: `D² < B · (y - x)`. -/
theorem square_lt {x y : ℝ} (hx : 0 < x) (hxy : x < y) :
    (Real.exp (-x) - Real.exp (-y)) ^ 2
      < (∫ t in x..y, (Real.exp (-t) - Real.exp (-(2 * t))) / t) * (y - x) := by
  set B := ∫ t in x..y, (Real.exp (-t) - Real.exp (-(2 * t))) / t with hB
  set D := Real.exp (-x) - Real.exp (-y) with hD
  have hDint : ∫ t in x..y, Real.exp (-t) = D := by
    rw [intervalIntegral.integral_comp_neg (fun t => Real.exp t), integral_exp]
  have hf : ∀ t, 0 < t → Real.exp (-(2 * t)) < (Real.exp (-t) - Real.exp (-(2 * t))) / t := by
    intro t ht
    rw [lt_div_iff₀ ht]
    have h1 : t + 1 < Real.exp t := Real.add_one_lt_exp ht.ne'
    have h2 : Real.exp (-t) = Real.exp (-(2 * t)) * Real.exp t := by rw [← Real.exp_add]; congr 1; ring
    have h3 := Real.exp_pos (-(2 * t))
    rw [h2]
    nlinarith
  have hint := pos_intervalIntegrable hx hxy.le (f := fun t => Real.exp (-t) - Real.exp (-(2 * t)))
    (by fun_prop)
  have hBpos : 0 < B := by
    apply intervalIntegral_pos_of_pos_on hint _ hxy
    intro t ht
    exact (Real.exp_pos _).trans (hf t (hx.trans ht.1))
  have key : ∀ k : ℝ, 0 < k ^ 2 * B - 2 * k * D + (y - x) := by
    intro k
    have h1 : k ^ 2 * B - 2 * k * D + (y - x) = ∫ t in x..y,
        (k ^ 2 * ((Real.exp (-t) - Real.exp (-(2 * t))) / t) - 2 * k * Real.exp (-t) + 1) := by
      rw [intervalIntegral.integral_add, intervalIntegral.integral_sub,
        intervalIntegral.integral_const_mul, intervalIntegral.integral_const_mul, hDint, ← hB]
      · simp
      · exact hint.const_mul _
      · exact (Continuous.intervalIntegrable (by fun_prop) _ _)
      · exact (hint.const_mul _).sub (Continuous.intervalIntegrable (by fun_prop) _ _)
      · exact (Continuous.intervalIntegrable (by fun_prop) _ _)
    rw [h1]
    apply intervalIntegral_pos_of_pos_on _ _ hxy
    · exact ((hint.const_mul _).sub (Continuous.intervalIntegrable (by fun_prop) _ _)).add
        (Continuous.intervalIntegrable (by fun_prop) _ _)
    · intro t ht
      have htp := hx.trans ht.1
      have h2 := hf t htp
      have h3 : Real.exp (-(2 * t)) = Real.exp (-t) ^ 2 := by
        rw [pow_two, ← Real.exp_add]; congr 1; ring
      rcases eq_or_ne k 0 with rfl | hk
      · norm_num
      · have hk2 : 0 < k ^ 2 := by positivity
        have h4 : k ^ 2 * Real.exp (-(2 * t)) < k ^ 2 * ((Real.exp (-t) - Real.exp (-(2 * t))) / t) := by
          gcongr
        nlinarith [sq_nonneg (k * Real.exp (-t) - 1)]
  have h1 := key (D / B)
  have h2 : (D / B) ^ 2 * B - 2 * (D / B) * D + (y - x) = (y - x) - D ^ 2 / B := by
    field_simp
    ring
  rw [h2, sub_pos, div_lt_iff₀ hBpos] at h1
  linarith

/-- C93: the variance of the cardinality estimate is positive, so that its square root is a number,
and the formula divides by nothing that is zero. -/
theorem C93_variance_pos {expi : ℝ → ℝ} (he : IsExpi expi) {a m n : ℝ} (ha : 0 < a) (hm : 0 < m)
    (hn : 0 < n) :
    1 - Real.exp (-a) ≠ 0 ∧
    Real.exp (-legionsLoad a m n) - Real.exp (-legionsLoad a m n * Real.exp (-a)) ≠ 0 ∧
    0 < cardinalityVariance expi a m n := by
  have h1 : Real.exp (-a) < 1 := by rw [Real.exp_lt_one_iff]; linarith
  have h1' : 0 < 1 - Real.exp (-a) := by linarith
  have hea := Real.exp_pos (-a)
  set c := legionsLoad a m n with hc
  have hcp : 0 < c := by rw [hc]; unfold legionsLoad; positivity
  have hcn : c * (1 - Real.exp (-a)) = a * n / m := by
    rw [hc]; unfold legionsLoad; field_simp
  have hx : 0 < c * Real.exp (-a) := by positivity
  have hxy : c * Real.exp (-a) < c := by nlinarith
  have hD : Real.exp (-c) < Real.exp (-(c * Real.exp (-a))) := by
    apply Real.exp_lt_exp.2; linarith
  have e1 : -c * Real.exp (-a) = -(c * Real.exp (-a)) := by ring
  refine ⟨h1'.ne', by rw [e1]; exact (sub_neg.2 hD).ne, ?_⟩
  have hlt := square_lt hx hxy
  have hbr := bracket_eq he hx hxy.le
  unfold cardinalityVariance
  simp only
  rw [← hc, e1, show -2 * c = -(2 * c) by ring,
    show -(2 * c) * Real.exp (-a) = -(2 * (c * Real.exp (-a))) by ring, hbr]
  set B := ∫ t in (c * Real.exp (-a))..c, (Real.exp (-t) - Real.exp (-(2 * t))) / t
  have e2 : (Real.exp (-c) - Real.exp (-(c * Real.exp (-a)))) ^ 2
      = (Real.exp (-(c * Real.exp (-a))) - Real.exp (-c)) ^ 2 := by ring
  rw [e2]
  set D := Real.exp (-(c * Real.exp (-a))) - Real.exp (-c)
  have hDp : 0 < D := by simp only [D]; linarith
  have e3 : c - c * Real.exp (-a) = a * n / m := by rw [← hcn]; ring
  rw [e3] at hlt
  have : n < B * (a * n ^ 2 / m / D ^ 2) := by
    rw [show B * (a * n ^ 2 / m / D ^ 2) = n * (B * (a * n / m)) / D ^ 2 by ring,
      lt_div_iff₀ (by positivity)]
    nlinarith
  linarith

/-- C93: the estimate gets exact as the sketch grows: with `c` the load of the fullest register, the
variance is at most `n (exp c - 1)`, and the load is inversely proportional to the number of
registers. -/
theorem C93_variance_le {expi : ℝ → ℝ} (he : IsExpi expi) {a m n : ℝ} (ha : 0 < a) (hm : 0 < m)
    (hn : 0 < n) :
    cardinalityVariance expi a m n ≤ n * (Real.exp (a * n / (1 - Real.exp (-a)) / m) - 1) := by
  have h1 : Real.exp (-a) < 1 := by rw [Real.exp_lt_one_iff]; linarith
  have h1' : 0 < 1 - Real.exp (-a) := by linarith
  have hea := Real.exp_pos (-a)
  have hc' : a * n / (1 - Real.exp (-a)) / m = legionsLoad a m n := by
    unfold legionsLoad; rw [div_right_comm]
  rw [hc']
  set c := legionsLoad a m n with hc
  have hcp : 0 < c := by rw [hc]; unfold legionsLoad; positivity
  have hcn : c * (1 - Real.exp (-a)) = a * n / m := by
    rw [hc]; unfold legionsLoad; field_simp
  have hx : 0 < c * Real.exp (-a) := by positivity
  have hxy : c * Real.exp (-a) < c := by nlinarith
  have e1 : -c * Real.exp (-a) = -(c * Real.exp (-a)) := by ring
  have hbr := bracket_eq he hx hxy.le
  unfold cardinalityVariance
  simp only
  rw [← hc, e1, show -2 * c = -(2 * c) by ring,
    show -(2 * c) * Real.exp (-a) = -(2 * (c * Real.exp (-a))) by ring, hbr]
  have e3 : c - c * Real.exp (-a) = a * n / m := by rw [← hcn]; ring
  set x := c * Real.exp (-a) with hxdef
  have hBD : (∫ t in x..c, (Real.exp (-t) - Real.exp (-(2 * t))) / t)
      ≤ Real.exp (-x) - Real.exp (-c) := by
    have hDint : ∫ t in x..c, Real.exp (-t) = Real.exp (-x) - Real.exp (-c) := by
      rw [intervalIntegral.integral_comp_neg (fun t => Real.exp t), integral_exp]
    rw [← hDint]
    refine intervalIntegral.integral_mono_on hxy.le (pos_intervalIntegrable hx hxy.le
      (f := fun t => Real.exp (-t) - Real.exp (-(2 * t))) (by fun_prop))
      (Continuous.intervalIntegrable (by fun_prop) _ _) ?_
    intro t ht
    have htp : 0 < t := hx.trans_le ht.1
    rw [div_le_iff₀ htp]
    have h2 : Real.exp (-(2 * t)) = Real.exp (-t) * Real.exp (-t) := by
      rw [← Real.exp_add]; congr 1; ring
    have h3 : 1 - t ≤ Real.exp (-t) := by have := Real.add_one_le_exp (-t); linarith
    have h4 := Real.exp_pos (-t)
    rw [h2]
    nlinarith
  have hDL : (c - x) * Real.exp (-c) ≤ Real.exp (-x) - Real.exp (-c) := by
    have h2 : Real.exp (-x) = Real.exp (-c) * Real.exp (c - x) := by
      rw [← Real.exp_add]; congr 1; ring
    have h3 := Real.add_one_le_exp (c - x)
    have h4 := Real.exp_pos (-c)
    rw [h2]
    nlinarith
  rw [e3] at hDL
  set B := ∫ t in x..c, (Real.exp (-t) - Real.exp (-(2 * t))) / t
  have e2 : (Real.exp (-c) - Real.exp (-x)) ^ 2 = (Real.exp (-x) - Real.exp (-c)) ^ 2 := by ring
  rw [e2]
  set D := Real.exp (-x) - Real.exp (-c)
  have hL : 0 < a * n / m := by positivity
  have hDp : 0 < D := lt_of_lt_of_le (by positivity) hDL
  have h5 : B * (a * n ^ 2 / m / D ^ 2) ≤ n * ((a * n / m) / D) := by
    calc B * (a * n ^ 2 / m / D ^ 2) ≤ D * (a * n ^ 2 / m / D ^ 2) :=
          mul_le_mul_of_nonneg_right hBD (by positivity)
      _ = n * ((a * n / m) / D) := by field_simp
  have h6 : (a * n / m) / D ≤ Real.exp c := by
    rw [div_le_iff₀ hDp]
    have h7 : Real.exp c * Real.exp (-c) = 1 := by rw [← Real.exp_add]; simp
    calc a * n / m = Real.exp c * (a * n / m * Real.exp (-c)) := by
          rw [mul_left_comm, h7, mul_one]
      _ ≤ Real.exp c * D := mul_le_mul_of_nonneg_left hDL (Real.exp_pos c).le
  have h8 := mul_le_mul_of_nonneg_left h6 hn.le
  linarith

/-- The integral itself is such an `expi`; 1000 people in a sketch of 100000 registers with decay
rate 12, the defaults of system_parameters.py:37-38. -/
example : IsExpi (fun x => -∫ t in Set.Ioi (-x), Real.exp (-t) / t) ∧ (0 : ℝ) < 12 ∧
    (0 : ℝ) < 100000 ∧ (0 : ℝ) < 1000 := by
  refine ⟨fun x _ => by simp, by norm_num, by norm_num, by norm_num⟩

/-! ## The registers -/

theorem registerWeight_sum_pos (a : ℝ) {m : ℕ} (hm : 0 < m) :
    0 < ∑ j ∈ Finset.range m, registerWeight a m j :=
  Finset.sum_pos (fun _ _ => Real.exp_pos _) ⟨0, Finset.mem_range.2 hm⟩

/-- C93: the probabilities of the registers are positive, add up to one and fall by the same factor
`exp (-a/m)` from each register to the next. -/
theorem C93_registers (a : ℝ) {m : ℕ} (hm : 0 < m) :
    (∀ k, 0 < registerProb a m k) ∧ ∑ k ∈ Finset.range m, registerProb a m k = 1 ∧
    ∀ k, registerProb a m (k + 1) = Real.exp (-a / m) * registerProb a m k := by
  have hs := registerWeight_sum_pos a hm
  refine ⟨fun k => div_pos (Real.exp_pos _) hs, ?_, fun k => ?_⟩
  · unfold registerProb
    rw [← Finset.sum_div, div_self hs.ne']
  · unfold registerProb
    rw [← mul_div_assoc]
    congr 1
    unfold registerWeight
    rw [← Real.exp_add]
    congr 1
    push_cast
    ring

/-- The register of one user. -/
noncomputable def registerLaw (a : ℝ) (m : ℕ) (hm : 0 < m) : PMF (Fin m) :=
  PMF.ofFintype (fun k => ENNReal.ofReal (registerProb a m k)) (by
    rw [Fin.sum_univ_eq_sum_range (fun k => ENNReal.ofReal (registerProb a m k)) m,
      ← ENNReal.ofReal_sum_of_nonneg (fun k _ => ((C93_registers a hm).1 k).le),
      (C93_registers a hm).2.1, ENNReal.ofReal_one])

section
open scoped ENNReal
open Finset
variable {R : Type} [Fintype R] [DecidableEq R]

theorem outer_fintype {A : Type} [Fintype A] (p : PMF A) (P : A → Prop) [DecidablePred P] :
    p.toOuterMeasure {x | P x} = ∑ x with P x, p x := by
  rw [PMF.toOuterMeasure_apply_fintype, Finset.sum_filter]
  apply Finset.sum_congr rfl
  intro x _
  by_cases h : P x
  · rw [Set.indicator_of_mem (by exact h), if_pos h]
  · rw [Set.indicator_of_notMem (by exact h), if_neg h]

theorem sum_erase (p : PMF R) (r : R) : ∑ x ∈ univ.erase r, p x = 1 - p r := by
  have h := p.tsum_coe
  rw [tsum_fintype, ← Finset.add_sum_erase _ _ (Finset.mem_univ r)] at h
  rw [← h]
  rw [ENNReal.add_sub_cancel_left (p.apply_ne_top r)]

theorem miss_prob (p : PMF R) (n : ℕ) (r : R) :
    (registersLaw p n).toOuterMeasure {b | ∀ j, b j ≠ r} = (1 - p r) ^ n := by
  rw [outer_fintype, ← sum_erase p r]
  have : (∑ x ∈ univ.erase r, p x) ^ n = ∏ _i : Fin n, ∑ x ∈ univ.erase r, p x := by simp
  rw [this, Finset.prod_univ_sum]
  apply Finset.sum_congr
  · ext b; simp [Fintype.mem_piFinset]
  · intro b _; rfl

theorem single_prob_zero (p : PMF R) (n : ℕ) :
    (registersLaw p (n + 1)).toOuterMeasure {a | 0 ∈ single a} = ∑ r, p r * (1 - p r) ^ n := by
  rw [registersLaw_succ, PMF.toOuterMeasure_bind_apply, tsum_fintype]
  apply Finset.sum_congr rfl
  intro r _
  congr 1
  rw [PMF.toOuterMeasure_map_apply, ← miss_prob]
  congr 1
  ext b
  simp only [Set.mem_preimage, Set.mem_ofPred_eq, mem_single]
  constructor
  · intro h j hj
    have := h j.succ (by simpa using hj)
    exact absurd this (Fin.succ_ne_zero j)
  · intro h j
    refine Fin.cases (fun _ => rfl) (fun j hj => ?_) j
    exact absurd (by simpa using hj) (h j)

theorem single_prob (p : PMF R) (n : ℕ) (i : Fin (n + 1)) :
    (registersLaw p (n + 1)).toOuterMeasure {a | i ∈ single a} = ∑ r, p r * (1 - p r) ^ n := by
  rw [← single_prob_zero, ← registersLaw_perm p (Equiv.swap 0 i), PMF.toOuterMeasure_map_apply,
    registersLaw_perm]
  congr 1
  ext a
  have h := single_perm a (Equiv.swap 0 i)
  simp only [Set.mem_preimage, Set.mem_ofPred_eq]
  rw [← h]
  simp

/-- C93: the expected number of active registers for `n + 1` users. -/
theorem C93_expected_active (p : PMF R) (n : ℕ) :
    ∑ a, registersLaw p (n + 1) a * (activeRegs a : ℝ≥0∞)
      = (n + 1) * ∑ r, p r * (1 - p r) ^ n := by
  have h1 : ∀ a : Fin (n + 1) → R, (activeRegs a : ℝ≥0∞) = ∑ i, if i ∈ single a then 1 else 0 := by
    intro a
    rw [← card_single]
    simp
  simp only [h1, Finset.mul_sum]
  rw [Finset.sum_comm]
  have h2 : ∀ i : Fin (n + 1), (∑ a, registersLaw p (n + 1) a * if i ∈ single a then 1 else 0)
      = ∑ r, p r * (1 - p r) ^ n := by
    intro i
    rw [← single_prob p n i, outer_fintype, Finset.sum_filter]
    simp
  rw [Finset.sum_congr rfl (fun i _ => h2 i)]
  simp [Finset.mul_sum]

/-- C93: a request fails for lack of active registers at most with the probability that one given
user shares the register with somebody. -/
theorem C93_failure (l : Laws R) (n : ℕ) :
    noActive l (n + 1) ≤ 1 - ∑ r, (l.register r).toReal * (1 - (l.register r).toReal) ^ n := by
  have hle : ∀ r, l.register r ≤ 1 := fun r => l.register.coe_le_one r
  have h0 : (registersLaw l.register (n + 1)).toOuterMeasure {a | activeRegs a = 0}
      + (registersLaw l.register (n + 1)).toOuterMeasure {a | 0 ∈ single a} ≤ 1 := by
    rw [outer_fintype, outer_fintype, ← Finset.sum_union]
    · rw [← (registersLaw l.register (n + 1)).tsum_coe, tsum_fintype]
      exact Finset.sum_le_sum_of_subset (Finset.subset_univ _)
    · rw [Finset.disjoint_left]
      intro a h1 h2
      simp only [Finset.mem_filter, Finset.mem_univ, true_and] at h1 h2
      rw [← card_single, Finset.card_eq_zero] at h1
      rw [h1] at h2
      simp at h2
  rw [single_prob_zero] at h0
  have h3 := ENNReal.toReal_mono ENNReal.one_ne_top h0
  have hfin : ∀ r, l.register r * (1 - l.register r) ^ n ≠ ⊤ := fun r =>
    ENNReal.mul_ne_top (l.register.apply_ne_top r)
      (ENNReal.pow_ne_top (ENNReal.sub_ne_top ENNReal.one_ne_top))
  rw [ENNReal.toReal_add (ne_top_of_le_ne_top ENNReal.one_ne_top (outer_le_one _ _))
    (ENNReal.sum_ne_top.2 fun r _ => hfin r), ENNReal.toReal_sum (fun r _ => hfin r)] at h3
  have h4 : ∀ r, (l.register r * (1 - l.register r) ^ n).toReal
      = (l.register r).toReal * (1 - (l.register r).toReal) ^ n := by
    intro r
    rw [ENNReal.toReal_mul, ENNReal.toReal_pow, ENNReal.toReal_sub_of_le (hle r) ENNReal.one_ne_top]
    simp
  simp only [h4, ENNReal.toReal_one] at h3
  unfold noActive
  linarith

/-- The registers of the code, for three users. -/
example : ∑ b, registersLaw (registerLaw 12 100000 (by norm_num)) 3 b * (activeRegs b : ℝ≥0∞)
    = 3 * ∑ r, registerLaw 12 100000 (by norm_num) r
        * (1 - registerLaw 12 100000 (by norm_num) r) ^ 2 := by
  rw [C93_expected_active (registerLaw 12 100000 (by norm_num)) 2]
  congr 1
  norm_num

end

end Verif
