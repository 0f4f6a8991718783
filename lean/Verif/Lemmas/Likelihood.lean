import Mathlib.Analysis.SpecialFunctions.Log.Basic
import Mathlib.Analysis.SpecialFunctions.Log.Deriv
import Mathlib.Analysis.Convex.StdSimplex
import Mathlib.Topology.Order.Compact
import Mathlib.Algebra.Order.BigOperators.Ring.Finset

/-!
# Mixtures of greatest likelihood

Finite mixtures of `n` vectors of `L` probabilities: conditions for a mixture of greatest likelihood
with respect to observed shares, uniqueness of its probabilities, existence.  A constant `e > 0` is
added to all probabilities before logarithms are taken.
-/

namespace Verif.Likelihood

open Finset

variable (n L : ℕ) (o : ℕ → ℝ) (p : ℕ → ℕ → ℝ) (e : ℝ)

/-- The mixture of the vectors with the given weights. -/
def mixed (w : ℕ → ℝ) (f : ℕ) : ℝ := ∑ i ∈ range n, w i * p i f

/-- The logarithm of the likelihood. -/
noncomputable def logLik (w : ℕ → ℝ) : ℝ := ∑ f ∈ range L, o f * Real.log (mixed n p w f + e)

/-- The weights are a distribution. -/
def Weights (w : ℕ → ℝ) : Prop := (∀ i < n, 0 ≤ w i) ∧ ∑ i ∈ range n, w i = 1

/-- The likelihood gained per weight moved to component `i`. -/
noncomputable def gain (w : ℕ → ℝ) (i : ℕ) : ℝ := ∑ f ∈ range L, o f * p i f / (mixed n p w f + e)

variable {n L o p e}

theorem mixed_nonneg (hp : ∀ i < n, ∀ f < L, 0 ≤ p i f) {w : ℕ → ℝ} (hw : Weights n w) {f : ℕ}
    (hf : f < L) : 0 ≤ mixed n p w f :=
  sum_nonneg (fun i hi => mul_nonneg (hw.1 i (mem_range.1 hi)) (hp i (mem_range.1 hi) f hf))

theorem sum_gain (w w' : ℕ → ℝ) : ∑ i ∈ range n, w' i * gain n L o p e w i =
    ∑ f ∈ range L, o f * mixed n p w' f / (mixed n p w f + e) := by
  unfold gain
  simp only [mul_sum]
  rw [sum_comm]
  refine sum_congr rfl (fun f _ => ?_)
  unfold mixed
  rw [div_eq_mul_inv, mul_sum, sum_mul]
  exact sum_congr rfl (fun i _ => by ring)

theorem sum_gain_le_one (he : 0 < e) (ho : ∀ f < L, 0 ≤ o f) (hs : ∑ f ∈ range L, o f = 1)
    (hp : ∀ i < n, ∀ f < L, 0 ≤ p i f) {w : ℕ → ℝ} (hw : Weights n w) :
    ∑ i ∈ range n, w i * gain n L o p e w i ≤ 1 := by
  rw [sum_gain, ← hs]
  refine sum_le_sum (fun f hf => ?_)
  have h0 := mixed_nonneg hp hw (mem_range.1 hf)
  rw [mul_div_assoc]
  exact mul_le_of_le_one_right (ho f (mem_range.1 hf)) ((div_le_one (by linarith)).2 (by linarith))

/-- Difference of likelihoods, bounded by the gains. -/
theorem logLik_sub_le (he : 0 < e) (ho : ∀ f < L, 0 ≤ o f) (hp : ∀ i < n, ∀ f < L, 0 ≤ p i f)
    {w w' : ℕ → ℝ} (hw : Weights n w) (hw' : Weights n w') :
    logLik n L o p e w' - logLik n L o p e w ≤
      ∑ i ∈ range n, w' i * gain n L o p e w i - ∑ i ∈ range n, w i * gain n L o p e w i := by
  rw [sum_gain, sum_gain]
  unfold logLik
  rw [← sum_sub_distrib, ← sum_sub_distrib]
  refine sum_le_sum (fun f hf => ?_)
  have h0 := mixed_nonneg hp hw (mem_range.1 hf)
  have h1 := mixed_nonneg hp hw' (mem_range.1 hf)
  have a0 : 0 < mixed n p w f + e := by linarith
  have a1 : 0 < mixed n p w' f + e := by linarith
  rw [← mul_sub, ← Real.log_div a1.ne' a0.ne', mul_div_assoc, mul_div_assoc, ← mul_sub, ← sub_div]
  refine mul_le_mul_of_nonneg_left ?_ (ho f (mem_range.1 hf))
  refine (Real.log_le_sub_one_of_pos (div_pos a1 a0)).trans (le_of_eq ?_)
  rw [div_sub_one a0.ne']
  congr 1
  ring

/-- If the gains do not tell weights apart, equally good weights mix to the same probabilities at all
observed places. -/
theorem mixed_eq_of_le (he : 0 < e) (ho : ∀ f < L, 0 ≤ o f) (hp : ∀ i < n, ∀ f < L, 0 ≤ p i f)
    {w w' : ℕ → ℝ} (hw : Weights n w) (hw' : Weights n w')
    (hg : ∑ i ∈ range n, w' i * gain n L o p e w i ≤ ∑ i ∈ range n, w i * gain n L o p e w i)
    (hl : logLik n L o p e w ≤ logLik n L o p e w') {f : ℕ} (hf : f < L) (hof : 0 < o f) :
    mixed n p w' f = mixed n p w f := by
  by_contra hne
  have hlt : logLik n L o p e w' - logLik n L o p e w <
      ∑ i ∈ range n, w' i * gain n L o p e w i - ∑ i ∈ range n, w i * gain n L o p e w i := by
    rw [sum_gain, sum_gain]
    unfold logLik
    rw [← sum_sub_distrib, ← sum_sub_distrib]
    have key : ∀ g < L, 0 < mixed n p w g + e ∧ 0 < mixed n p w' g + e := fun g hg =>
      ⟨by linarith [mixed_nonneg hp hw hg], by linarith [mixed_nonneg hp hw' hg]⟩
    have hr : ∀ g < L, (mixed n p w' g + e) / (mixed n p w g + e) - 1 =
        (mixed n p w' g - mixed n p w g) / (mixed n p w g + e) := fun g hg => by
      rw [div_sub_one (key g hg).1.ne']
      congr 1
      ring
    refine sum_lt_sum (fun g hg => ?_) ⟨f, mem_range.2 hf, ?_⟩
    · obtain ⟨a0, a1⟩ := key g (mem_range.1 hg)
      rw [← mul_sub, ← Real.log_div a1.ne' a0.ne', mul_div_assoc, mul_div_assoc, ← mul_sub, ← sub_div,
        ← hr g (mem_range.1 hg)]
      exact mul_le_mul_of_nonneg_left (Real.log_le_sub_one_of_pos (div_pos a1 a0))
        (ho g (mem_range.1 hg))
    · obtain ⟨a0, a1⟩ := key f hf
      rw [← mul_sub, ← Real.log_div a1.ne' a0.ne', mul_div_assoc, mul_div_assoc, ← mul_sub, ← sub_div,
        ← hr f hf]
      refine mul_lt_mul_of_pos_left (Real.log_lt_sub_one_of_pos (div_pos a1 a0) ?_) hof
      intro h1
      rw [div_eq_one_iff_eq a0.ne'] at h1
      exact hne (by linarith)
  linarith

/-- Weights moved towards others. -/
theorem weights_toward {w w' : ℕ → ℝ} (hw : Weights n w) (hw' : Weights n w') {t : ℝ} (h0 : 0 ≤ t)
    (h1 : t ≤ 1) : Weights n (fun i => w i + t * (w' i - w i)) := by
  constructor
  · intro i hi
    have a := hw.1 i hi
    have b := hw'.1 i hi
    show 0 ≤ w i + t * (w' i - w i)
    nlinarith
  · rw [sum_add_distrib, ← mul_sum, sum_sub_distrib, hw.2, hw'.2]
    ring

theorem mixed_toward (w w' : ℕ → ℝ) (t : ℝ) (f : ℕ) :
    mixed n p (fun i => w i + t * (w' i - w i)) f =
      mixed n p w f + t * (mixed n p w' f - mixed n p w f) := by
  unfold mixed
  rw [← sum_sub_distrib, mul_sum, ← sum_add_distrib]
  exact sum_congr rfl (fun i _ => by ring)

theorem log_one_add_ge {x : ℝ} (h : -(1 / 2) ≤ x) : x - 2 * x ^ 2 ≤ Real.log (1 + x) := by
  have hx : 0 < 1 + x := by linarith
  have h1 := Real.one_sub_inv_le_log_of_pos hx
  refine le_trans ?_ h1
  have h2 : 1 - (1 + x)⁻¹ = x / (1 + x) := by
    field_simp
    ring
  rw [h2, le_div_iff₀ hx]
  nlinarith [mul_nonneg (sq_nonneg x) (by linarith : 0 ≤ x + 1 / 2)]

/-- A limit argument. -/
theorem nonpos_of_small {a b : ℝ} (T : ℝ) (hT : 0 < T) (h : ∀ t, 0 < t → t ≤ T → t * a - t ^ 2 * b ≤ 0) :
    a ≤ 0 := by
  by_contra ha
  push Not at ha
  have hb : 0 < |b| + 1 := by positivity
  set t := min T (a / (2 * (|b| + 1))) with ht
  have t0 : 0 < t := lt_min hT (by positivity)
  have t1 : t ≤ a / (2 * (|b| + 1)) := min_le_right _ _
  have h2 := h t t0 (min_le_left _ _)
  rw [le_div_iff₀ (by positivity)] at t1
  have h3 : b ≤ |b| := le_abs_self b
  nlinarith [mul_pos t0 ha, mul_pos t0 t0, mul_le_mul_of_nonneg_left h3 (mul_pos t0 t0).le,
    mul_le_mul_of_nonneg_left t1 t0.le]

/-- **Weights have the greatest likelihood exactly if no component promises a gain.** -/
theorem optimal_iff (he : 0 < e) (ho : ∀ f < L, 0 ≤ o f) (hp : ∀ i < n, ∀ f < L, 0 ≤ p i f)
    {w : ℕ → ℝ} (hw : Weights n w) :
    (∀ w', Weights n w' → logLik n L o p e w' ≤ logLik n L o p e w) ↔
      ∀ i < n, gain n L o p e w i ≤ ∑ j ∈ range n, w j * gain n L o p e w j := by
  constructor
  · intro h i hi
    set w' : ℕ → ℝ := fun j => if j = i then 1 else 0 with hw'
    have W' : Weights n w' := by
      constructor
      · intro j _
        simp only [hw']
        split <;> norm_num
      · simp [hw', hi]
    have hg : ∑ j ∈ range n, w' j * gain n L o p e w j = gain n L o p e w i := by
      simp [hw', hi]
    rw [← hg, ← sub_nonpos, sum_gain, sum_gain, ← sum_sub_distrib]
    set d : ℕ → ℝ := fun f => (mixed n p w' f - mixed n p w f) / (mixed n p w f + e) with hd
    have hsum : ∑ f ∈ range L, (o f * mixed n p w' f / (mixed n p w f + e) -
        o f * mixed n p w f / (mixed n p w f + e)) = ∑ f ∈ range L, o f * d f :=
      sum_congr rfl (fun f _ => by simp only [hd]; ring)
    rw [hsum]
    have key : ∀ f < L, 0 < mixed n p w f + e := fun f hf => by linarith [mixed_nonneg hp hw hf]
    set B := ∑ f ∈ range L, |d f| with hB
    have hB0 : 0 ≤ B := sum_nonneg (fun _ _ => abs_nonneg _)
    refine nonpos_of_small (b := ∑ f ∈ range L, 2 * (o f * d f ^ 2)) (min 1 (1 / (2 * (B + 1))))
      (lt_min one_pos (by positivity)) (fun t t0 tT => ?_)
    have t1 : t ≤ 1 := tT.trans (min_le_left _ _)
    have t2 : t * (2 * (B + 1)) ≤ 1 := by
      have := tT.trans (min_le_right _ _)
      rwa [le_div_iff₀ (by positivity)] at this
    have hl := h _ (weights_toward hw W' t0.le t1)
    rw [← sub_nonpos] at hl
    refine le_trans ?_ hl
    unfold logLik
    rw [← sum_sub_distrib, mul_sum, mul_sum, ← sum_sub_distrib]
    refine sum_le_sum (fun f hf => ?_)
    have hf' := mem_range.1 hf
    have a0 := key f hf'
    have habs : |d f| ≤ B := single_le_sum (f := fun f => |d f|) (fun _ _ => abs_nonneg _) hf
    have hlow : -(1 / 2) ≤ t * d f := by
      have h3 := neg_abs_le (d f)
      nlinarith
    have a1 : 0 < mixed n p (fun i => w i + t * (w' i - w i)) f + e := by
      linarith [mixed_nonneg hp (weights_toward hw W' t0.le t1) hf']
    rw [← mul_sub, ← Real.log_div a1.ne' a0.ne']
    have hq : (mixed n p (fun i => w i + t * (w' i - w i)) f + e) / (mixed n p w f + e) = 1 + t * d f := by
      rw [mixed_toward]
      simp only [hd]
      field_simp
      ring
    rw [hq]
    have h5 := mul_le_mul_of_nonneg_left (log_one_add_ge hlow) (ho f hf')
    refine le_trans (le_of_eq ?_) h5
    ring
  · intro h w' W'
    have h1 := logLik_sub_le he ho hp hw W'
    have h2 : ∑ i ∈ range n, w' i * gain n L o p e w i ≤ ∑ j ∈ range n, w j * gain n L o p e w j := by
      calc ∑ i ∈ range n, w' i * gain n L o p e w i
          ≤ ∑ i ∈ range n, w' i * ∑ j ∈ range n, w j * gain n L o p e w j :=
            sum_le_sum (fun i hi => mul_le_mul_of_nonneg_left (h i (mem_range.1 hi))
              (W'.1 i (mem_range.1 hi)))
        _ = _ := by rw [← sum_mul, W'.2, one_mul]
    linarith

/-- The probabilities of best weights are determined wherever something was observed. -/
theorem optimal_unique (he : 0 < e) (ho : ∀ f < L, 0 ≤ o f) (hp : ∀ i < n, ∀ f < L, 0 ≤ p i f)
    {w w' : ℕ → ℝ} (hw : Weights n w) (hw' : Weights n w')
    (h : ∀ v, Weights n v → logLik n L o p e v ≤ logLik n L o p e w)
    (h' : ∀ v, Weights n v → logLik n L o p e v ≤ logLik n L o p e w') {f : ℕ} (hf : f < L)
    (hof : 0 < o f) : mixed n p w' f = mixed n p w f := by
  refine mixed_eq_of_le he ho hp hw hw' ?_ (h' w hw) hf hof
  have hk := (optimal_iff he ho hp hw).1 h
  calc ∑ i ∈ range n, w' i * gain n L o p e w i
      ≤ ∑ i ∈ range n, w' i * ∑ j ∈ range n, w j * gain n L o p e w j :=
        sum_le_sum (fun i hi => mul_le_mul_of_nonneg_left (hk i (mem_range.1 hi))
          (hw'.1 i (mem_range.1 hi)))
    _ = _ := by rw [← sum_mul, hw'.2, one_mul]

/-- A component that covers nothing but place `g` bounds the probability of `g` from below. -/
theorem optimal_ge (he : 0 < e) (ho : ∀ f < L, 0 ≤ o f) (hs : ∑ f ∈ range L, o f = 1)
    (hp : ∀ i < n, ∀ f < L, 0 ≤ p i f) {w : ℕ → ℝ} (hw : Weights n w)
    (h : ∀ v, Weights n v → logLik n L o p e v ≤ logLik n L o p e w) {i g : ℕ} (hi : i < n)
    (hg : g < L) (hpg : p i g = 1) : o g ≤ mixed n p w g + e := by
  have hk := (optimal_iff he ho hp hw).1 h i hi
  have h1 := hk.trans (sum_gain_le_one he ho hs hp hw)
  have key : ∀ f < L, 0 < mixed n p w f + e := fun f hf => by linarith [mixed_nonneg hp hw hf]
  have h2 : o g * p i g / (mixed n p w g + e) ≤ gain n L o p e w i :=
    single_le_sum (f := fun f => o f * p i f / (mixed n p w f + e))
      (fun f hf => div_nonneg (mul_nonneg (ho f (mem_range.1 hf)) (hp i hi f (mem_range.1 hf)))
        (key f (mem_range.1 hf)).le) (mem_range.2 hg)
  have h3 := h2.trans h1
  rwa [hpg, mul_one, div_le_one (key g hg)] at h3

/-- Best weights exist. -/
theorem optimal_exists (he : 0 < e) (hp : ∀ i < n, ∀ f < L, 0 ≤ p i f) (hn : 0 < n) :
    ∃ w, Weights n w ∧ ∀ v, Weights n v → logLik n L o p e v ≤ logLik n L o p e w := by
  have ext : ∀ x : Fin n → ℝ, x ∈ stdSimplex ℝ (Fin n) →
      Weights n (fun i => if h : i < n then x ⟨i, h⟩ else 0) := by
    intro x hx
    constructor
    · intro i hi
      simp only [hi, dif_pos]
      exact hx.1 _
    · rw [← hx.2, ← Fin.sum_univ_eq_sum_range (fun i => if h : i < n then x ⟨i, h⟩ else 0) n]
      refine Fintype.sum_congr _ _ (fun i => ?_)
      simp
  have hmix : ∀ (x : Fin n → ℝ) (f : ℕ),
      mixed n p (fun i => if h : i < n then x ⟨i, h⟩ else 0) f = ∑ i : Fin n, x i * p i f := by
    intro x f
    unfold mixed
    rw [← Fin.sum_univ_eq_sum_range (fun i => (if h : i < n then x ⟨i, h⟩ else 0) * p i f) n]
    refine Fintype.sum_congr _ _ (fun i => ?_)
    simp
  have hne : (stdSimplex ℝ (Fin n)).Nonempty := by
    have : Nonempty (Fin n) := ⟨⟨0, hn⟩⟩
    exact ⟨_, single_mem_stdSimplex ℝ (⟨0, hn⟩ : Fin n)⟩
  have hc : ContinuousOn (fun x : Fin n → ℝ =>
      ∑ f ∈ range L, o f * Real.log ((∑ i : Fin n, x i * p i f) + e)) (stdSimplex ℝ (Fin n)) := by
    refine continuousOn_finsetSum _ (fun f hf => ?_)
    refine continuousOn_const.mul (ContinuousOn.log ?_ ?_)
    · exact Continuous.continuousOn (by fun_prop)
    · intro x hx
      have := mixed_nonneg hp (ext x hx) (mem_range.1 hf)
      rw [hmix] at this
      linarith
  obtain ⟨x, hx, hmax⟩ := (isCompact_stdSimplex ℝ (Fin n)).exists_isMaxOn hne hc
  refine ⟨_, ext x hx, fun v hv => ?_⟩
  have hy : (fun i : Fin n => v i) ∈ stdSimplex ℝ (Fin n) := by
    constructor
    · intro i
      exact hv.1 i i.2
    · rw [← hv.2, ← Fin.sum_univ_eq_sum_range]
  have h1 := hmax hy
  have e1 : logLik n L o p e v =
      ∑ f ∈ range L, o f * Real.log ((∑ i : Fin n, v i * p i f) + e) := by
    unfold logLik mixed
    refine sum_congr rfl (fun f _ => ?_)
    rw [← Fin.sum_univ_eq_sum_range (fun i => v i * p i f) n]
  have e2 : logLik n L o p e (fun i => if h : i < n then x ⟨i, h⟩ else 0) =
      ∑ f ∈ range L, o f * Real.log ((∑ i : Fin n, x i * p i f) + e) := by
    unfold logLik
    refine sum_congr rfl (fun f _ => ?_)
    rw [hmix]
  rw [e1, e2]
  exact h1

/-- If the observed shares are a mixture themselves, best weights reproduce them. -/
theorem optimal_near (he : 0 < e) (ho : ∀ f < L, 0 ≤ o f) (hs : ∑ f ∈ range L, o f = 1)
    (hp : ∀ i < n, ∀ f < L, 0 ≤ p i f) (hp1 : ∀ i < n, ∑ f ∈ range L, p i f = 1) {w w0 : ℕ → ℝ}
    (hw : Weights n w) (h : ∀ v, Weights n v → logLik n L o p e v ≤ logLik n L o p e w)
    (hw0 : Weights n w0) (h0 : ∀ f < L, mixed n p w0 f = o f) (hsmall : L * e ≤ 1 / 4) {f : ℕ}
    (hf : f < L) : |mixed n p w f - o f| ≤ 3 * Real.sqrt (L * e) := by
  set q : ℕ → ℝ := fun f => mixed n p w f + e with hq
  have q0 : ∀ f < L, 0 < q f := fun f hf => by simp only [hq]; linarith [mixed_nonneg hp hw hf]
  have hqs : ∑ f ∈ range L, q f = 1 + L * e := by
    simp only [hq]
    rw [sum_add_distrib, sum_const, card_range, nsmul_eq_mul]
    congr 1
    unfold mixed
    rw [sum_comm, ← hw.2]
    refine sum_congr rfl (fun i hi => ?_)
    rw [← mul_sum, hp1 i (mem_range.1 hi), mul_one]
  have hH : 1 ≤ ∑ f ∈ range L, Real.sqrt (q f) * Real.sqrt (o f) := by
    have h1 := h w0 hw0
    have h2 : 0 ≤ ∑ f ∈ range L, (2 * (Real.sqrt (q f) * Real.sqrt (o f)) - 2 * o f) := by
      refine le_trans (sub_nonneg.2 h1) ?_
      unfold logLik
      rw [← sum_sub_distrib]
      refine sum_le_sum (fun f hf => ?_)
      have hf' := mem_range.1 hf
      rw [h0 f hf']
      rcases (ho f hf').eq_or_lt with hz | hz
      · rw [← hz]
        simp
      · have a1 : 0 < o f + e := by linarith
        have hlog : Real.log (o f) ≤ Real.log (o f + e) := Real.log_le_log hz (by linarith)
        have hs1 : 0 < Real.sqrt (q f) := Real.sqrt_pos.2 (q0 f hf')
        have hs2 : 0 < Real.sqrt (o f) := Real.sqrt_pos.2 hz
        have h3 := Real.log_le_sub_one_of_pos (div_pos hs1 hs2)
        rw [Real.log_div hs1.ne' hs2.ne', Real.log_sqrt (q0 f hf').le, Real.log_sqrt hz.le] at h3
        have h4 : o f * (Real.sqrt (q f) / Real.sqrt (o f)) = Real.sqrt (q f) * Real.sqrt (o f) := by
          nth_rewrite 1 [← Real.mul_self_sqrt hz.le]
          field_simp
        have h5 : o f * (Real.log (q f) - Real.log (o f)) ≤
            2 * (Real.sqrt (q f) * Real.sqrt (o f)) - 2 * o f := by
          rw [← h4]
          nlinarith [mul_le_mul_of_nonneg_left h3 hz.le]
        calc o f * Real.log (mixed n p w f + e) - o f * Real.log (o f + e)
            = o f * (Real.log (q f) - Real.log (o f + e)) := by simp only [hq]; ring
          _ ≤ o f * (Real.log (q f) - Real.log (o f)) :=
            mul_le_mul_of_nonneg_left (by linarith) hz.le
          _ ≤ _ := h5
    rw [sum_sub_distrib, ← mul_sum, ← mul_sum, hs] at h2
    linarith
  have hsq : ∑ f ∈ range L, (Real.sqrt (q f) - Real.sqrt (o f)) ^ 2 ≤ L * e := by
    have hx : ∑ f ∈ range L, (Real.sqrt (q f) - Real.sqrt (o f)) ^ 2 =
        ∑ f ∈ range L, (q f + o f - 2 * (Real.sqrt (q f) * Real.sqrt (o f))) := by
      refine sum_congr rfl (fun f hf => ?_)
      have hf' := mem_range.1 hf
      nlinarith [Real.mul_self_sqrt (q0 f hf').le, Real.mul_self_sqrt (ho f hf')]
    rw [hx, sum_sub_distrib, sum_add_distrib, ← mul_sum, hqs, hs]
    linarith
  have h1 : (Real.sqrt (q f) - Real.sqrt (o f)) ^ 2 ≤ L * e :=
    (single_le_sum (f := fun f => (Real.sqrt (q f) - Real.sqrt (o f)) ^ 2)
      (fun _ _ => sq_nonneg _) (mem_range.2 hf)).trans hsq
  have hL : (1 : ℝ) ≤ L := by exact_mod_cast Nat.one_le_of_lt hf
  have hLe : 0 < L * e := by positivity
  set r := Real.sqrt (L * e) with hr
  have r0 : 0 < r := Real.sqrt_pos.2 hLe
  have rr : r * r = L * e := Real.mul_self_sqrt hLe.le
  have r2 : r ≤ 1 / 2 := by nlinarith
  have h2 : |Real.sqrt (q f) - Real.sqrt (o f)| ≤ r := Real.abs_le_sqrt h1
  obtain ⟨b1, b2⟩ := abs_le.1 h2
  have ho1 : o f ≤ 1 := by
    rw [← hs]
    exact single_le_sum (f := o) (fun g hg => ho g (mem_range.1 hg)) (mem_range.2 hf)
  have so1 : Real.sqrt (o f) ≤ 1 := Real.sqrt_le_one.2 ho1
  have so0 := Real.sqrt_nonneg (o f)
  have sq0 := Real.sqrt_nonneg (q f)
  have m1 := Real.mul_self_sqrt (q0 f hf).le
  have m2 := Real.mul_self_sqrt (ho f hf)
  have hle : e ≤ L * e := by nlinarith
  have hmq : mixed n p w f = q f - e := by simp only [hq]; ring
  rw [hmq, abs_le]
  constructor
  · nlinarith
  · nlinarith

end Verif.Likelihood
