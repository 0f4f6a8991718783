import Verif.Props.LiquidLegions
import Mathlib.MeasureTheory.Integral.IntervalIntegral.FundThmCalculus
import Mathlib.MeasureTheory.Integral.IntervalIntegral.IntegrationByParts

/-!
# C93: where the variance formula comes from
-/

namespace Verif

open Verif.Spec MeasureTheory intervalIntegral

/-- The expected number of users in the register at position `x` of the sketch, when `n` users are spread
over `m` registers at positions between zero and one with density proportional to `exp (-a x)`. -/
noncomputable def registerLoad (a m n x : ℝ) : ℝ :=
  n / m * (a * Real.exp (-(a * x)) / (1 - Real.exp (-a)))

/-- The expected number of occupied registers when the numbers of users in the registers are Poisson. -/
noncomputable def occupiedMean (a m n : ℝ) : ℝ :=
  m * ∫ x in (0 : ℝ)..1, (1 - Real.exp (-registerLoad a m n x))

/-- The variance of the number of occupied registers: every register is occupied or not. -/
noncomputable def occupiedVariance (a m n : ℝ) : ℝ :=
  m * ∫ x in (0 : ℝ)..1, (1 - Real.exp (-registerLoad a m n x)) * Real.exp (-registerLoad a m n x)

theorem registerLoad_eq (a m n x : ℝ) :
    registerLoad a m n x = legionsLoad a m n * Real.exp (-(a * x)) := by
  unfold registerLoad legionsLoad
  ring

/-- The loads of all registers together are the users. -/
theorem registerLoad_total {a m n : ℝ} (ha : 0 < a) (hm : 0 < m) :
    m * ∫ x in (0 : ℝ)..1, registerLoad a m n x = n := by
  have h1 : Real.exp (-a) < 1 := by rw [Real.exp_lt_one_iff]; linarith
  have h1' : 1 - Real.exp (-a) ≠ 0 := by linarith
  have h2 : ∫ x in (0 : ℝ)..1, Real.exp (-(a * x)) = (1 - Real.exp (-a)) / a := by
    have := intervalIntegral.integral_comp_mul_left (fun t => Real.exp (-t)) (a := 0) (b := 1) (c := a)
      ha.ne'
    rw [this, intervalIntegral.integral_comp_neg (fun t => Real.exp t), integral_exp, smul_eq_mul]
    simp
    ring
  simp only [registerLoad_eq]
  rw [intervalIntegral.integral_const_mul, h2]
  unfold legionsLoad
  field_simp

/-- Substitution of the load for the position. -/
theorem load_integral {a c : ℝ} (ha : 0 < a) (hc : 0 < c) (f : ℝ → ℝ) (hf : Continuous f) :
    ∫ x in (0 : ℝ)..1, f (c * Real.exp (-(a * x)))
      = 1 / a * ∫ t in (c * Real.exp (-a))..c, f t / t := by
  have hpos : ∀ x : ℝ, 0 < c * Real.exp (-(a * x)) := fun x => by positivity
  have hd : ∀ x ∈ Set.uIcc (0 : ℝ) 1, HasDerivAt (fun x => c * Real.exp (-(a * x)))
      (c * (Real.exp (-(a * x)) * -(a * 1))) x := by
    intro x _
    exact ((((hasDerivAt_id x).const_mul a).neg).exp).const_mul c
  have key := intervalIntegral.integral_comp_mul_deriv' (a := 0) (b := 1)
    (f := fun x => c * Real.exp (-(a * x))) (f' := fun x => c * (Real.exp (-(a * x)) * -(a * 1)))
    (g := fun t => f t / t) hd (by fun_prop) (by
      refine hf.continuousOn.div continuousOn_id ?_
      rintro t ⟨x, -, rfl⟩
      exact (hpos x).ne')
  have e0 : c * Real.exp (-(a * 0)) = c := by simp
  have e1 : c * Real.exp (-(a * 1)) = c * Real.exp (-a) := by simp
  simp only [e0, e1] at key
  have h3 : ∫ x in (0 : ℝ)..1, f (c * Real.exp (-(a * x))) =
      1 / a * -∫ x in (0 : ℝ)..1, ((fun t => f t / t) ∘ fun x => c * Real.exp (-(a * x))) x *
        (c * (Real.exp (-(a * x)) * -(a * 1))) := by
    rw [← intervalIntegral.integral_neg, ← intervalIntegral.integral_const_mul]
    apply intervalIntegral.integral_congr
    intro x _
    have := (hpos x).ne'
    simp only [Function.comp]
    field_simp
  rw [h3, key, intervalIntegral.integral_symm (c * Real.exp (-a)) c, neg_neg]

theorem occupiedVariance_eq {expi : ℝ → ℝ} (he : IsExpi expi) {a m n : ℝ} (ha : 0 < a) (hm : 0 < m)
    (hn : 0 < n) :
    occupiedVariance a m n = m / a * (expi (-legionsLoad a m n)
      - expi (-legionsLoad a m n * Real.exp (-a)) - expi (-2 * legionsLoad a m n)
      + expi (-2 * legionsLoad a m n * Real.exp (-a))) := by
  have h1 : Real.exp (-a) < 1 := by rw [Real.exp_lt_one_iff]; linarith
  have h1' : 0 < 1 - Real.exp (-a) := by linarith
  have hea := Real.exp_pos (-a)
  set c := legionsLoad a m n with hc
  have hcp : 0 < c := by rw [hc]; unfold legionsLoad; positivity
  have hx : 0 < c * Real.exp (-a) := by positivity
  have hxy : c * Real.exp (-a) < c := by nlinarith
  have hbr := bracket_eq he hx hxy.le
  have hsub := load_integral ha hcp (fun t => Real.exp (-t) - Real.exp (-(2 * t))) (by fun_prop)
  unfold occupiedVariance
  simp only [registerLoad_eq, ← hc]
  have : (fun x : ℝ => (1 - Real.exp (-(c * Real.exp (-(a * x))))) * Real.exp (-(c * Real.exp (-(a * x)))))
      = fun x => Real.exp (-(c * Real.exp (-(a * x)))) - Real.exp (-(2 * (c * Real.exp (-(a * x))))) := by
    funext x
    rw [sub_mul, one_mul, ← Real.exp_add]
    congr 2
    ring
  rw [this, hsub, show -c * Real.exp (-a) = -(c * Real.exp (-a)) by ring,
    show -2 * c = -(2 * c) by ring,
    show -(2 * c) * Real.exp (-a) = -(2 * (c * Real.exp (-a))) by ring, hbr]
  ring

theorem occupiedMean_eq {a m n : ℝ} (ha : 0 < a) (hm : 0 < m) (hn : 0 < n) :
    occupiedMean a m n = m / a * ((∫ t in (1 : ℝ)..legionsLoad a m n, (1 - Real.exp (-t)) / t)
      - ∫ t in (1 : ℝ)..(legionsLoad a m n * Real.exp (-a)), (1 - Real.exp (-t)) / t) := by
  have h1 : Real.exp (-a) < 1 := by rw [Real.exp_lt_one_iff]; linarith
  have h1' : 0 < 1 - Real.exp (-a) := by linarith
  set c := legionsLoad a m n with hc
  have hcp : 0 < c := by rw [hc]; unfold legionsLoad; positivity
  have hii : ∀ {x y : ℝ}, 0 < x → 0 < y →
      IntervalIntegrable (fun t => (1 - Real.exp (-t)) / t) volume x y := by
    intro x y hx hy
    apply ContinuousOn.intervalIntegrable
    refine ContinuousOn.div (by fun_prop) continuousOn_id ?_
    intro t ht
    exact ((lt_min hx hy).trans_le ht.1).ne'
  have hsub := load_integral ha hcp (fun t => 1 - Real.exp (-t)) (by fun_prop)
  unfold occupiedMean
  simp only [registerLoad_eq, ← hc]
  rw [hsub, intervalIntegral.integral_interval_sub_left (hii one_pos hcp)
    (hii one_pos (by positivity))]
  ring

/-- The expected number of occupied registers grows with the users at this rate. -/
theorem occupiedMean_deriv {a m n : ℝ} (ha : 0 < a) (hm : 0 < m) (hn : 0 < n) :
    HasDerivAt (occupiedMean a m) (m / (a * n) * (Real.exp (-(legionsLoad a m n * Real.exp (-a)))
      - Real.exp (-legionsLoad a m n))) n := by
  have h1 : Real.exp (-a) < 1 := by rw [Real.exp_lt_one_iff]; linarith
  have h1' : 0 < 1 - Real.exp (-a) := by linarith
  have hea := Real.exp_pos (-a)
  set κ := a / m / (1 - Real.exp (-a)) with hκ
  have hκp : 0 < κ := by rw [hκ]; positivity
  have hload : ∀ z, legionsLoad a m z = κ * z := by
    intro z; rw [hκ]; unfold legionsLoad; ring
  have hF : ∀ z : ℝ, 0 < z → HasDerivAt (fun u => ∫ t in (1 : ℝ)..u, (1 - Real.exp (-t)) / t)
      ((1 - Real.exp (-z)) / z) z := by
    intro z hz
    refine intervalIntegral.integral_hasDerivAt_right ?_ ?_ ?_
    · apply ContinuousOn.intervalIntegrable
      refine ContinuousOn.div (by fun_prop) continuousOn_id ?_
      intro t ht
      exact ((lt_min one_pos hz).trans_le ht.1).ne'
    · refine ContinuousOn.stronglyMeasurableAtFilter (s := Set.Ioi 0) isOpen_Ioi ?_ z hz
      exact ContinuousOn.div (by fun_prop) continuousOn_id (fun t ht => (ne_of_gt ht))
    · exact ContinuousAt.div (by fun_prop) continuousAt_id hz.ne'
  have hcn : 0 < κ * n := by positivity
  have d1 := (hF (κ * n) hcn).comp n ((hasDerivAt_id n).const_mul κ)
  have d2 := (hF (κ * n * Real.exp (-a)) (by positivity)).comp n
    (((hasDerivAt_id n).const_mul κ).mul_const (Real.exp (-a)))
  have d3 := ((d1.sub d2).const_mul (m / a))
  have heq : occupiedMean a m =ᶠ[nhds n] fun z => m / a *
      ((∫ t in (1 : ℝ)..(κ * z), (1 - Real.exp (-t)) / t)
        - ∫ t in (1 : ℝ)..(κ * z * Real.exp (-a)), (1 - Real.exp (-t)) / t) := by
    filter_upwards [lt_mem_nhds hn] with z hz
    rw [occupiedMean_eq ha hm hz, hload]
  refine (d3.congr_of_eventuallyEq heq).congr_deriv ?_
  rw [hload]
  field_simp
  ring

/-- **C93 (the delta method).** The variance formula of the code is the variance of the number of
occupied registers, carried over to the number of users by the derivative of the expected number of
occupied registers, less the variance `n` of a Poisson number of users. -/
theorem C93_delta_method {expi : ℝ → ℝ} (he : IsExpi expi) {a m n : ℝ} (ha : 0 < a) (hm : 0 < m)
    (hn : 0 < n) :
    ∃ d, HasDerivAt (occupiedMean a m) d n ∧ 0 < d ∧
      cardinalityVariance expi a m n = occupiedVariance a m n / d ^ 2 - n := by
  refine ⟨_, occupiedMean_deriv ha hm hn, ?_, ?_⟩
  · have h1 : Real.exp (-a) < 1 := by rw [Real.exp_lt_one_iff]; linarith
    have h1' : 0 < 1 - Real.exp (-a) := by linarith
    have hcp : 0 < legionsLoad a m n := by unfold legionsLoad; positivity
    have : Real.exp (-legionsLoad a m n) < Real.exp (-(legionsLoad a m n * Real.exp (-a))) := by
      apply Real.exp_lt_exp.2
      nlinarith
    have h2 : 0 < m / (a * n) := by positivity
    exact mul_pos h2 (by linarith)
  · rw [occupiedVariance_eq he ha hm hn]
    have hne := (C93_variance_pos he ha hm hn).2.1
    unfold cardinalityVariance
    simp only
    rw [show -legionsLoad a m n * Real.exp (-a) = -(legionsLoad a m n * Real.exp (-a)) by ring] at hne ⊢
    set D := Real.exp (-legionsLoad a m n) - Real.exp (-(legionsLoad a m n * Real.exp (-a))) with hD
    rw [show Real.exp (-(legionsLoad a m n * Real.exp (-a))) - Real.exp (-legionsLoad a m n) = -D by
      rw [hD]; ring]
    field_simp

/-- The defaults of system_parameters.py:37-38, a sketch of 100000 registers with decay rate 12, and
1000 people. -/
example : IsExpi (fun x => -∫ t in Set.Ioi (-x), Real.exp (-t) / t) ∧ (0 : ℝ) < 12 ∧
    (0 : ℝ) < 100000 ∧ (0 : ℝ) < 1000 ∧
    100000 * ∫ x in (0 : ℝ)..1, registerLoad 12 100000 1000 x = 1000 :=
  ⟨fun x _ => by simp, by norm_num, by norm_num, by norm_num,
    registerLoad_total (by norm_num) (by norm_num)⟩

end Verif
