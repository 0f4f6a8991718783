import Verif.Lemmas.Zeta
import Verif.Model.GammaPoisson

/-!
# C44, C54: laws of the generated impressions and of the gamma-Poisson inventory
-/

namespace Verif
open Spec

/-! ## Impression generators -/

/-- **C44** A user of the homogeneous generator has `lam + 1` impressions in the mean, with variance
`lam` (comments at single_publisher_design.py:43-46). -/
theorem C44_homogeneous_law (lam : ℝ) (h : 0 ≤ lam) :
    IsLaw (homogeneousLaw lam) ∧ LawMean (homogeneousLaw lam) (lam + 1) ∧
      LawVariance (homogeneousLaw lam) (lam + 1) lam := by
  have h1 : HasSum (fun j : ℕ => (j : ℝ) * poissonLaw lam j) lam := by
    simpa using mean_of_step (poissonLaw_step lam) (poisson_sum lam)
  have h2 : HasSum (fun j : ℕ => (j : ℝ) * (((j : ℝ) - 1) * poissonLaw lam j)) (lam * lam) := by
    refine mean_of_step (q := fun j : ℕ => ((j : ℝ) - 1) * poissonLaw lam j)
      (q' := fun j : ℕ => (j : ℝ) * poissonLaw lam j) (fun j => ?_) h1
    have := poissonLaw_step lam j
    push_cast
    linear_combination (j : ℝ) * this
  have := plusOne_moments (poissonLaw_nonneg lam h) (poisson_sum lam) h1 h2
  rw [add_comm lam 1]
  refine ⟨this.1, this.2.1, ?_⟩
  have h3 := this.2.2
  rwa [show lam * lam + lam - lam ^ 2 = lam by ring] at h3

example : LawMean (homogeneousLaw (1 / 2)) (3 / 2) := by
  have := (C44_homogeneous_law (1 / 2) (by norm_num)).2.1
  norm_num at this
  exact this

/-- **C54** The inventory of a user in the gamma-Poisson model: a law on 1, 2, ... with mean
`1 + alpha * beta` and variance `alpha * beta * (beta + 1)` (comments at
single_publisher_design.py:62-69 and gamma_poisson_model.py:260). -/
theorem C54_gamma_poisson_law (alpha beta : ℝ) (ha : 0 < alpha) (hb : 0 ≤ beta) :
    IsLaw (gammaPoissonPmf alpha beta) ∧
    LawMean (gammaPoissonPmf alpha beta) (1 + alpha * beta) ∧
    LawVariance (gammaPoissonPmf alpha beta) (1 + alpha * beta) (alpha * beta * (beta + 1)) := by
  have hp0 : 0 < 1 / (1 + beta) := by positivity
  have hp1 : 1 / (1 + beta) ≤ 1 := by rw [div_le_one (by positivity)]; linarith
  have hodds : (1 - 1 / (1 + beta)) / (1 / (1 + beta)) = beta := by
    have : 1 + beta ≠ 0 := by positivity
    field_simp
    ring
  have step := fun (r : ℝ) (hr : 0 < r) (j : ℕ) =>
    nbinomPmf_step r (1 / (1 + beta)) hr hp0 j
  rw [hodds] at step
  have h1 : ∀ r : ℝ, 0 < r → HasSum (fun j : ℕ => (j : ℝ) * nbinomPmf r (1 / (1 + beta)) j)
      (r * beta) := by
    intro r hr
    have := mean_of_step (step r hr) (nbinom_sum (r + 1) _ (by positivity) hp0 hp1)
    rwa [mul_one] at this
  have h2 : HasSum (fun j : ℕ => (j : ℝ) * (((j : ℝ) - 1) * nbinomPmf alpha (1 / (1 + beta)) j))
      (alpha * beta * ((alpha + 1) * beta)) := by
    refine mean_of_step (q := fun j : ℕ => ((j : ℝ) - 1) * nbinomPmf alpha (1 / (1 + beta)) j)
      (q' := fun j : ℕ => (j : ℝ) * nbinomPmf (alpha + 1) (1 / (1 + beta)) j) (fun j => ?_)
      (h1 (alpha + 1) (by positivity))
    have := step alpha ha j
    push_cast
    linear_combination (j : ℝ) * this
  have := plusOne_moments (nbinomPmf_nonneg alpha _ ha hp0 hp1)
    (nbinom_sum alpha _ ha hp0 hp1) (h1 alpha ha) h2
  refine ⟨this.1, this.2.1, ?_⟩
  have h3 := this.2.2
  rwa [show alpha * beta * ((alpha + 1) * beta) + alpha * beta - (alpha * beta) ^ 2 =
    alpha * beta * (beta + 1) by ring] at h3

example : LawMean (gammaPoissonPmf 2 3) 7 ∧ LawVariance (gammaPoissonPmf 2 3) 7 24 := by
  have := C54_gamma_poisson_law 2 3 (by norm_num) (by norm_num)
  norm_num at this
  exact this.2

/-- **C44** The heterogeneous generator draws from the law of the gamma-Poisson model with the same
parameters: drawing a rate from the gamma distribution and then a Poisson number is a negative
binomial draw (claimed at heterogeneous_impression_generator.py:44 and
gamma_poisson_model.py:157-160). -/
theorem C44_heterogeneous_law (shape scale : ℝ) (ha : 0 < shape) (hb : 0 < scale) (n : ℕ) :
    heterogeneousLaw shape scale n = gammaPoissonPmf shape scale n := by
  unfold heterogeneousLaw gammaPoissonPmf plusOne
  rcases n with _ | j
  · simp
  · simp only [Nat.add_eq_zero_iff, one_ne_zero, and_false, if_false, Nat.add_sub_cancel]
    have hr : 0 < 1 + 1 / scale := by positivity
    have hs : 0 < shape + j := by positivity
    have hi := Real.integral_rpow_mul_exp_neg_mul_Ioi hs hr
    have hc : ∀ x ∈ Set.Ioi (0 : ℝ), gammaDensity shape scale x * poissonLaw x j =
        (1 / (scale ^ shape * Real.Gamma shape * Nat.factorial j)) *
          (x ^ (shape + j - 1) * Real.exp (-((1 + 1 / scale) * x))) := by
      intro x hx
      have hx0 : (0 : ℝ) < x := hx
      unfold gammaDensity poissonLaw
      rw [show shape + (j : ℝ) - 1 = (shape - 1) + j by ring, Real.rpow_add hx0, Real.rpow_natCast,
        show -((1 + 1 / scale) * x) = -x / scale + -x by field_simp; ring, Real.exp_add]
      have hg : Real.Gamma shape ≠ 0 := (Real.Gamma_pos_of_pos ha).ne'
      have hf : ((Nat.factorial j : ℕ) : ℝ) ≠ 0 := by exact_mod_cast Nat.factorial_ne_zero j
      have hsp : scale ^ shape ≠ 0 := (Real.rpow_pos_of_pos hb shape).ne'
      field_simp
    rw [MeasureTheory.setIntegral_congr_fun measurableSet_Ioi hc, MeasureTheory.integral_const_mul, hi]
    unfold nbinomPmf
    have h1b : 0 < 1 + scale := by positivity
    have e1 : 1 / (1 + 1 / scale) = scale * (1 / (1 + scale)) := by field_simp; ring
    have e2 : 1 - 1 / (1 + scale) = scale * (1 / (1 + scale)) := by field_simp; ring
    rw [e1, e2, Real.rpow_add (by positivity), Real.rpow_natCast,
      Real.mul_rpow hb.le (by positivity)]
    have hg : Real.Gamma shape ≠ 0 := (Real.Gamma_pos_of_pos ha).ne'
    have hf : ((Nat.factorial j : ℕ) : ℝ) ≠ 0 := by exact_mod_cast Nat.factorial_ne_zero j
    have hsp : scale ^ shape ≠ 0 := (Real.rpow_pos_of_pos hb shape).ne'
    field_simp

example : LawMean (heterogeneousLaw (1 / 2) 6) 4 := by
  have h : heterogeneousLaw (1 / 2) 6 = gammaPoissonPmf (1 / 2) 6 :=
    funext (C44_heterogeneous_law (1 / 2) 6 (by norm_num) (by norm_num))
  have := (C54_gamma_poisson_law (1 / 2) 6 (by norm_num) (by norm_num)).2.1
  rw [h]
  norm_num at this
  exact this

/-- **C44** The heavy-tailed generator draws from a law for every parameter it accepts.  Its mean is
finite for parameters above 2 only and its variance for parameters above 3 only. -/
theorem C44_heavy_tailed_law (s : ℝ) (hs : 1 < s) :
    IsLaw (heavyTailedLaw s) ∧
    ((∃ m, LawMean (heavyTailedLaw s) m) ↔ 2 < s) ∧
    (2 < s → LawMean (heavyTailedLaw s) (zetaNorm (s - 1) / zetaNorm s)) ∧
    ((∃ c v, LawVariance (heavyTailedLaw s) c v) ↔ 3 < s) := by
  obtain ⟨hz, hsum⟩ := zetaNorm_pos s hs
  have hnn : ∀ n, 0 ≤ heavyTailedLaw s n := by
    intro n
    unfold heavyTailedLaw
    split
    · exact le_refl _
    · positivity
  have hlaw : HasSum (heavyTailedLaw s) 1 := by
    rw [← hasSum_nat_add_iff' 1]
    have h1 := hsum.hasSum.mul_right (zetaNorm s)⁻¹
    have e0 : heavyTailedLaw s 0 = 0 := rfl
    simp only [Finset.range_one, Finset.sum_singleton, e0, sub_zero]
    have h2 : (∑' n : ℕ, ((n : ℝ) + 1) ^ (-s)) * (zetaNorm s)⁻¹ = 1 := mul_inv_cancel₀ hz.ne'
    rw [h2] at h1
    have he : (fun n : ℕ => heavyTailedLaw s (n + 1)) =
        fun n : ℕ => ((n : ℝ) + 1) ^ (-s) * (zetaNorm s)⁻¹ := by
      funext n
      unfold heavyTailedLaw
      rw [if_neg (by omega)]
      push_cast
      rfl
    rw [he]
    exact h1
  have hmean : Summable (fun n : ℕ => (n : ℝ) * heavyTailedLaw s n) ↔ 2 < s := by
    have := heavyTailed_summable s hs 1
    simp only [Real.rpow_one] at this
    rw [this]
    constructor <;> intro h <;> linarith
  have hsq : Summable (fun n : ℕ => (n : ℝ) ^ 2 * heavyTailedLaw s n) ↔ 3 < s := by
    have := heavyTailed_summable s hs 2
    simp only [Real.rpow_two] at this
    rw [this]
    constructor <;> intro h <;> linarith
  refine ⟨⟨hnn, hlaw⟩, ?_, ?_, ?_⟩
  · rw [← hmean]
    exact ⟨fun ⟨m, hm⟩ => hm.summable, fun h => ⟨_, h.hasSum⟩⟩
  · intro h2
    obtain ⟨-, hsum1⟩ := zetaNorm_pos (s - 1) (by linarith)
    unfold LawMean
    rw [← hasSum_nat_add_iff' 1]
    have h1 := hsum1.hasSum.mul_right (zetaNorm s)⁻¹
    simp only [Finset.range_one, Finset.sum_singleton, Nat.cast_zero, zero_mul, sub_zero]
    rw [div_eq_mul_inv]
    have he : (fun n : ℕ => ((n + 1 : ℕ) : ℝ) * heavyTailedLaw s (n + 1)) =
        fun n : ℕ => ((n : ℝ) + 1) ^ (-(s - 1)) * (zetaNorm s)⁻¹ := by
      funext n
      unfold heavyTailedLaw
      have hn : (0 : ℝ) < (n : ℝ) + 1 := by positivity
      rw [if_neg (by omega), show -(s - 1) = 1 + -s by ring, Real.rpow_add hn, Real.rpow_one]
      push_cast
      ring
    rw [he]
    exact h1
  · rw [← hsq]
    constructor
    · rintro ⟨c, v, hv⟩
      have h1 := (hv.summable.mul_left 2).add (hlaw.summable.mul_left (2 * c ^ 2))
      refine Summable.of_nonneg_of_le (fun n => mul_nonneg (sq_nonneg _) (hnn n)) (fun n => ?_) h1
      have : (n : ℝ) ^ 2 ≤ 2 * ((n : ℝ) - c) ^ 2 + 2 * c ^ 2 := by
        nlinarith [sq_nonneg ((n : ℝ) - 2 * c)]
      have h3 := mul_le_mul_of_nonneg_right this (hnn n)
      calc _ ≤ _ := h3
        _ = _ := by ring
    · intro h
      exact ⟨0, _, by
        have := h.hasSum
        unfold LawVariance
        simpa using this⟩

/-- With the default `zeta_s=2` of the constructor (heavy_tailed_impression_generator.py:28) the mean
number of impressions is infinite. -/
theorem C44_default_has_no_mean : ¬ ∃ m, LawMean (heavyTailedLaw 2) m := by
  rw [(C44_heavy_tailed_law 2 (by norm_num)).2.1]
  norm_num

example : IsLaw (heavyTailedLaw (5 / 2)) ∧ (∃ m, LawMean (heavyTailedLaw (5 / 2)) m) ∧
    ¬ ∃ c v, LawVariance (heavyTailedLaw (5 / 2)) c v := by
  have h := C44_heavy_tailed_law (5 / 2) (by norm_num)
  exact ⟨h.1, h.2.1.2 (by norm_num), fun h' => absurd (h.2.2.2.1 h') (by norm_num)⟩

/-! ## The shipped generators -/

/-- What the comments of single_publisher_design.py:41-146 say of each generator: mean and variance,
`none` for an infinite variance. -/
noncomputable def documentedMoments : List (ℝ × Option ℝ) :=
  [(3 / 2, some (1 / 2)), (3 / 2, some (3 / 4)), (3 / 2, some 6), (3 / 2, none),
   (3, some 2), (3, some 6), (3, some 12), (3, none),
   (5, some 4), (5, some 20), (5, some 40), (5, none),
   (10, some 9), (10, some 90), (10, some 200), (10, none)]

/-- The law has the mean and the variance up to half a percent; where the variance is infinite, the mean
squared distance from every number is. -/
def HasMoments (f : ℕ → ℝ) (d : ℝ × Option ℝ) : Prop :=
  IsLaw f ∧ ∃ m, LawMean f m ∧ |m - d.1| ≤ d.1 / 200 ∧
    match d.2 with
    | some v => ∃ w, LawVariance f m w ∧ |w - v| ≤ v / 200
    | none => ∀ c w, ¬ LawVariance f c w

theorem homogeneous_moments (lam : ℚ) (m v : ℝ) (h : 0 ≤ lam) (hm : (lam : ℝ) + 1 = m)
    (hv : (lam : ℝ) = v) : HasMoments (ImpressionParams.homogeneous lam).law (m, some v) := by
  have h0 : (0 : ℝ) ≤ (lam : ℝ) := by exact_mod_cast h
  obtain ⟨h1, h2, h3⟩ := C44_homogeneous_law (lam : ℝ) h0
  refine ⟨h1, _, h2, ?_, _, h3, ?_⟩
  · rw [hm, sub_self, abs_zero, ← hm]
    positivity
  · rw [hv, sub_self, abs_zero, ← hv]
    positivity

theorem heterogeneous_moments (a b : ℚ) (m v : ℝ) (ha : 0 < a) (hb : 0 < b)
    (hm : |1 + (a : ℝ) * b - m| ≤ m / 200) (hv : |(a : ℝ) * b * (b + 1) - v| ≤ v / 200) :
    HasMoments (ImpressionParams.heterogeneous a b).law (m, some v) := by
  have ha' : (0 : ℝ) < (a : ℝ) := by exact_mod_cast ha
  have hb' : (0 : ℝ) < (b : ℝ) := by exact_mod_cast hb
  have he : (ImpressionParams.heterogeneous a b).law = gammaPoissonPmf a b :=
    funext (C44_heterogeneous_law (a : ℝ) b ha' hb')
  rw [he]
  obtain ⟨h1, h2, h3⟩ := C54_gamma_poisson_law (a : ℝ) b ha' hb'.le
  exact ⟨h1, _, h2, hm, _, h3, hv⟩

theorem heavyTailed_moments (s : ℚ) (m : ℝ) (h2 : 2 < s) (h3 : s ≤ 3) (l u l' u' : ℝ)
    (hl : 0 < l) (hs : l ≤ zetaNorm s ∧ zetaNorm s ≤ u)
    (hs' : l' ≤ zetaNorm (s - 1) ∧ zetaNorm (s - 1) ≤ u')
    (hlow : (m - m / 200) * u ≤ l') (hm : 0 < m) (hupp : u' ≤ (m + m / 200) * l) :
    HasMoments (ImpressionParams.heavyTailed s).law (m, none) := by
  have h2' : (2 : ℝ) < (s : ℝ) := by exact_mod_cast h2
  have h3' : (s : ℝ) ≤ 3 := by exact_mod_cast h3
  obtain ⟨i1, -, i3, i4⟩ := C44_heavy_tailed_law (s : ℝ) (by linarith)
  have hz : 0 < zetaNorm s := lt_of_lt_of_le hl hs.1
  refine ⟨i1, _, i3 h2', ?_, fun c w h => ?_⟩
  · rw [abs_le]
    constructor
    · have : m - m / 200 ≤ zetaNorm (s - 1) / zetaNorm s := by
        rw [le_div_iff₀ hz]
        have := mul_le_mul_of_nonneg_left hs.2 (show 0 ≤ m - m / 200 by linarith)
        linarith [hs'.1]
      show -(m / 200) ≤ _ - m
      linarith
    · have : zetaNorm (s - 1) / zetaNorm s ≤ m + m / 200 := by
        rw [div_le_iff₀ hz]
        have := mul_le_mul_of_nonneg_left hs.1 (show 0 ≤ m + m / 200 by linarith)
        linarith [hs'.2]
      show _ - m ≤ m / 200
      linarith
  · exact absurd (i4.1 ⟨c, w, h⟩) (by linarith)

/-- **C44** Every generator of the single publisher design has the mean and the variance that the
comments beside it say. -/
theorem C44_documented_moments :
    List.Forall₂ (fun g d => HasMoments g.law d) singlePublisherImpressions documentedMoments := by
  unfold singlePublisherImpressions documentedMoments
  refine .cons (homogeneous_moments _ _ _ (by norm_num) (by norm_num) (by norm_num)) <|
    .cons (heterogeneous_moments _ _ _ _ (by norm_num) (by norm_num) (by norm_num) (by norm_num)) <|
    .cons (heterogeneous_moments _ _ _ _ (by norm_num) (by norm_num) ?_ ?_) <|
    .cons ?_ <|
    .cons (homogeneous_moments _ _ _ (by norm_num) (by norm_num) (by norm_num)) <|
    .cons (heterogeneous_moments _ _ _ _ (by norm_num) (by norm_num) (by norm_num) (by norm_num)) <|
    .cons (heterogeneous_moments _ _ _ _ (by norm_num) (by norm_num) ?_ ?_) <|
    .cons ?_ <|
    .cons (homogeneous_moments _ _ _ (by norm_num) (by norm_num) (by norm_num)) <|
    .cons (heterogeneous_moments _ _ _ _ (by norm_num) (by norm_num) (by norm_num) (by norm_num)) <|
    .cons (heterogeneous_moments _ _ _ _ (by norm_num) (by norm_num) ?_ ?_) <|
    .cons ?_ <|
    .cons (homogeneous_moments _ _ _ (by norm_num) (by norm_num) (by norm_num)) <|
    .cons (heterogeneous_moments _ _ _ _ (by norm_num) (by norm_num) (by norm_num) (by norm_num)) <|
    .cons (heterogeneous_moments _ _ _ _ (by norm_num) (by norm_num) ?_ ?_) <|
    .cons ?_ .nil
  · rw [abs_le]; norm_num
  · rw [abs_le]; norm_num
  · have h1 := zeta_14053_5000
    have h2 := zeta_9053_5000
    refine heavyTailed_moments _ _ (by norm_num) (by norm_num) _ _ _ _ ?_
      (by norm_num at h1 ⊢; exact h1) (by norm_num at h2 ⊢; exact h2) ?_ ?_ ?_ <;> norm_num
  · rw [abs_le]; norm_num
  · rw [abs_le]; norm_num
  · have h1 := zeta_11331_5000
    have h2 := zeta_6331_5000
    refine heavyTailed_moments _ _ (by norm_num) (by norm_num) _ _ _ _ ?_
      (by norm_num at h1 ⊢; exact h1) (by norm_num at h2 ⊢; exact h2) ?_ ?_ ?_ <;> norm_num
  · rw [abs_le]; norm_num
  · rw [abs_le]; norm_num
  · have h1 := zeta_2677_1250
    have h2 := zeta_1427_1250
    refine heavyTailed_moments _ _ (by norm_num) (by norm_num) _ _ _ _ ?_
      (by norm_num at h1 ⊢; exact h1) (by norm_num at h2 ⊢; exact h2) ?_ ?_ ?_ <;> norm_num
  · rw [abs_le]; norm_num
  · rw [abs_le]; norm_num
  · have h1 := zeta_206539_100000
    have h2 := zeta_106539_100000
    refine heavyTailed_moments _ _ (by norm_num) (by norm_num) _ _ _ _ ?_
      (by norm_num at h1 ⊢; exact h1) (by norm_num at h2 ⊢; exact h2) ?_ ?_ ?_ <;> norm_num

/-! ## The gamma-Poisson model -/

/-- **C54** `_expected_impressions` is the number of people times the mean inventory. -/
theorem C54_expected_impressions (N alpha beta : ℚ) (ha : 0 < alpha) (hb : 0 ≤ beta) (m : ℝ)
    (hm : LawMean (gammaPoissonPmf alpha beta) m) :
    (GammaPoisson.expectedImpressions N alpha beta : ℝ) = N * m := by
  have h := (C54_gamma_poisson_law alpha beta (by exact_mod_cast ha) (by exact_mod_cast hb)).2.1
  rw [hm.unique h]
  unfold GammaPoisson.expectedImpressions
  push_cast
  ring

example : (GammaPoisson.expectedImpressions 100 2 3 : ℝ) = 100 * 7 := by
  refine C54_expected_impressions 100 2 3 (by norm_num) (by norm_num) 7 ?_
  have := (C54_gamma_poisson_law 2 3 (by norm_num) (by norm_num)).2.1
  norm_num at this ⊢
  exact this

/-- The class documentation says otherwise (gamma_poisson_model.py:81-89): the mean inventory would be
`alpha / beta`. -/
def C54_documented_mean_full : Prop :=
  ∀ alpha beta : ℝ, 0 < alpha → 0 < beta → LawMean (gammaPoissonPmf alpha beta) (alpha / beta)

theorem C54_documented_mean_full_is_false : ¬ C54_documented_mean_full := by
  intro h
  have h1 := h 1 1 one_pos one_pos
  have h2 := (C54_gamma_poisson_law 1 1 one_pos zero_le_one).2.1
  have := h1.unique h2
  norm_num at this

/-- **C54** Showing every impression with the same probability gives a law again, whose mean is reduced
by this probability. -/
theorem C54_shown_law (f : ℕ → ℝ) (m p : ℝ) (hf : IsLaw f) (hm : LawMean f m) (h0 : 0 ≤ p)
    (h1 : p ≤ 1) : IsLaw (Shown f p) ∧ LawMean (Shown f p) (p * m) := by
  have hq : 0 ≤ 1 - p := by linarith
  refine ⟨⟨fun k => ?_, ?_⟩, ?_⟩
  · unfold Shown
    exact tsum_nonneg (fun n => by have := hf.1 n; positivity)
  · have := shown_weighted hf.1 h0 h1 (fun _ => 1) (fun _ => zero_le_one) (fun _ => 1)
      (fun n => by simpa using binom_moment0 n p) (s := 1) (by simpa using hf.2)
    simpa using this
  · unfold LawMean
    refine shown_weighted hf.1 h0 h1 (fun k => (k : ℝ)) (fun k => Nat.cast_nonneg k)
      (fun n => (n : ℝ) * p) (fun n => binom_moment1 n p) ?_
    have := HasSum.mul_left p hm
    have he : (fun n : ℕ => (n : ℝ) * p * f n) = fun n : ℕ => p * ((n : ℝ) * f n) := by
      funext n; ring
    rw [he]
    exact this

/-- **C54** The model shows as many impressions as were bought: if `I` of the expected inventory of
`N` people are shown, the mean number shown per person is `I / N`. -/
theorem C54_shown_impressions (N alpha beta I : ℚ) (hN : 0 < N) (ha : 0 < alpha) (hb : 0 ≤ beta)
    (hI : 0 ≤ I) (hmax : I ≤ GammaPoisson.expectedImpressions N alpha beta) :
    LawMean (Shown (gammaPoissonPmf alpha beta)
      ((I / GammaPoisson.expectedImpressions N alpha beta : ℚ) : ℝ)) ((I : ℝ) / N) := by
  have ha' : (0 : ℝ) < (alpha : ℝ) := by exact_mod_cast ha
  have hb' : (0 : ℝ) ≤ (beta : ℝ) := by exact_mod_cast hb
  have hN' : (N : ℝ) ≠ 0 := by exact_mod_cast hN.ne'
  obtain ⟨h1, h2, -⟩ := C54_gamma_poisson_law (alpha : ℝ) beta ha' hb'
  have hpos : 0 < GammaPoisson.expectedImpressions N alpha beta := by
    unfold GammaPoisson.expectedImpressions
    positivity
  have h := (C54_shown_law _ _ ((I / GammaPoisson.expectedImpressions N alpha beta : ℚ) : ℝ) h1 h2
    (by exact_mod_cast div_nonneg hI hpos.le)
    (by exact_mod_cast (div_le_one hpos).2 hmax)).2
  have he : ((I / GammaPoisson.expectedImpressions N alpha beta : ℚ) : ℝ) *
      (1 + (alpha : ℝ) * beta) = (I : ℝ) / N := by
    unfold GammaPoisson.expectedImpressions
    push_cast
    have : (1 : ℝ) + alpha * beta ≠ 0 := by positivity
    field_simp
  rwa [he] at h

example : LawMean (Shown (gammaPoissonPmf 2 3) (1 / 2)) (7 / 2) := by
  have h := C54_gamma_poisson_law 2 3 (by norm_num) (by norm_num)
  have := (C54_shown_law _ _ (1 / 2) h.1 h.2.1 (by norm_num) (by norm_num)).2
  norm_num at this ⊢
  exact this

/-- **C54** What the model loses by adding up to `MAXIMUM_COMPUTATIONAL_FREQUENCY` only
(gamma_poisson_model.py:233-240): the probability of a larger inventory. -/
theorem C54_truncation (alpha beta : ℝ) (ha : 0 < alpha) (hb : 0 ≤ beta) (M : ℕ)
    (hM : alpha * beta < M) :
    0 ≤ 1 - ∑ n ∈ Finset.range (M + 1), gammaPoissonPmf alpha beta n ∧
    1 - ∑ n ∈ Finset.range (M + 1), gammaPoissonPmf alpha beta n ≤
      alpha * beta * (beta + 1) / (M - alpha * beta) ^ 2 := by
  obtain ⟨hl, hm, hv⟩ := C54_gamma_poisson_law alpha beta ha hb
  refine ⟨?_, ?_⟩
  · have := sum_le_hasSum (Finset.range (M + 1)) (fun n _ => hl.1 n) hl.2
    linarith
  · have := law_tail hl hv M (by linarith)
    rwa [show (M : ℝ) + 1 - (1 + alpha * beta) = M - alpha * beta by ring] at this

/-- With the limit of 1000 and a mean inventory of eleven, less than one user in 8900 is lost. -/
example : 1 - ∑ n ∈ Finset.range (GammaPoisson.maxComputationalFrequency + 1),
    gammaPoissonPmf 1 10 n ≤ 1 / 8900 := by
  have h := (C54_truncation 1 10 (by norm_num) (by norm_num)
    GammaPoisson.maxComputationalFrequency
    (by norm_num [GammaPoisson.maxComputationalFrequency])).2
  refine le_trans h ?_
  norm_num [GammaPoisson.maxComputationalFrequency]

/-- **C54** For `alpha = 1` the probability lost is known exactly. -/
theorem C54_exponential_tail (beta : ℝ) (hb : 0 ≤ beta) (M : ℕ) :
    1 - ∑ n ∈ Finset.range (M + 1), gammaPoissonPmf 1 beta n = (beta / (1 + beta)) ^ M := by
  have h1 : 1 + beta ≠ 0 := by positivity
  induction M with
  | zero => simp [gammaPoissonPmf, plusOne]
  | succ M ih =>
    rw [Finset.sum_range_succ, gammaPoisson_one beta hb, pow_succ]
    have : (1 : ℝ) / (1 + beta) = 1 - beta / (1 + beta) := by field_simp; ring
    rw [this]
    linear_combination ih

/-- The limit cannot be ignored for every parameter the fit may return: with `alpha = 1` and
`beta = 1000` more than a third of the users have a larger inventory. -/
theorem C54_truncation_matters :
    1 / 3 < 1 - ∑ n ∈ Finset.range (GammaPoisson.maxComputationalFrequency + 1),
      gammaPoissonPmf 1 1000 n := by
  rw [C54_exponential_tail 1000 (by norm_num)]
  have h : (1 / 3 : ℚ) < (1000 / (1 + 1000)) ^ 1000 := by decide +kernel
  have h' : (((1 / 3 : ℚ) : ℚ) : ℝ) < (((1000 / (1 + 1000)) ^ 1000 : ℚ) : ℝ) := by exact_mod_cast h
  unfold GammaPoisson.maxComputationalFrequency
  push_cast at h'
  exact h'

/-- **C54** The assumptions that the other theorems make about the values `gp` hold of the exact
ones: not negative, with a sum of at most one. -/
theorem C54_assumption (alpha beta : ℝ) (ha : 0 < alpha) (hb : 0 ≤ beta) (M : ℕ) :
    (∀ n, 0 ≤ gammaPoissonPmf alpha beta n) ∧
    ∑ n ∈ Finset.Icc 1 M, gammaPoissonPmf alpha beta n ≤ 1 ∧
    ∀ n, gammaPoissonPmf alpha beta n = 0 ↔ n = 0 ∨ (beta = 0 ∧ n ≠ 1) := by
  obtain ⟨hl, -, -⟩ := C54_gamma_poisson_law alpha beta ha hb
  refine ⟨hl.1, sum_le_hasSum _ (fun n _ => hl.1 n) hl.2, fun n => ?_⟩
  rcases n with _ | j
  · simp [gammaPoissonPmf, plusOne]
  · have h1 : gammaPoissonPmf alpha beta (j + 1) = nbinomPmf alpha (1 / (1 + beta)) j := by
      simp [gammaPoissonPmf, plusOne]
    have hb1 : 0 < 1 + beta := by positivity
    have hg : Real.Gamma (alpha + j) ≠ 0 := (Real.Gamma_pos_of_pos (by positivity)).ne'
    have hg' : Real.Gamma alpha ≠ 0 := (Real.Gamma_pos_of_pos ha).ne'
    have hf : ((Nat.factorial j : ℕ) : ℝ) ≠ 0 := by exact_mod_cast Nat.factorial_ne_zero j
    have hr : (1 / (1 + beta)) ^ alpha ≠ 0 := (Real.rpow_pos_of_pos (by positivity) _).ne'
    rw [h1]
    unfold nbinomPmf
    rw [show 1 - 1 / (1 + beta) = beta / (1 + beta) by field_simp; ring]
    simp only [mul_eq_zero, div_eq_zero_iff, hg, hg', hf, hr, pow_eq_zero_iff', hb1.ne', or_false,
      false_or, Nat.add_eq_zero_iff, one_ne_zero, and_false, ne_eq, Nat.add_eq_right]

example : 0 < gammaPoissonPmf 2 3 5 := by
  have h := C54_assumption 2 3 (by norm_num) (by norm_num) 10
  refine lt_of_le_of_ne (h.1 5) (fun h' => ?_)
  have := (h.2.2 5).1 h'.symm
  norm_num at this

end Verif
