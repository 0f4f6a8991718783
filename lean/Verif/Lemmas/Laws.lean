import Mathlib.Analysis.Analytic.Binomial
import Mathlib.Analysis.SpecialFunctions.Exponential
import Mathlib.Tactic.FieldSimp
import Verif.Model.Laws
import Verif.Spec.Laws

/-!
# Sums of Poisson, negative binomial and thinned laws
-/

namespace Verif
open Spec

theorem choose_gamma (r : ℝ) (hr : 0 < r) (j : ℕ) :
    Ring.choose (r + j - 1) j = Real.Gamma (r + j) / (Real.Gamma r * (Nat.factorial j)) := by
  have hg : Real.Gamma r ≠ 0 := (Real.Gamma_pos_of_pos hr).ne'
  have hf : ((Nat.factorial j : ℕ) : ℝ) ≠ 0 := by exact_mod_cast Nat.factorial_ne_zero j
  have h1 : Ring.choose (r + j - 1) j = Ring.multichoose r j := by
    unfold Ring.choose
    congr 1
    ring
  have h2 := Ring.factorial_nsmul_multichoose_eq_ascPochhammer r j
  have h3 : (ascPochhammer ℕ j).smeval r * Real.Gamma r = Real.Gamma (r + j) := by
    rw [Polynomial.ascPochhammer_smeval_eq_eval]
    clear h1 h2 hf
    induction j with
    | zero => simp
    | succ j ih =>
      rw [ascPochhammer_succ_right]
      simp only [Polynomial.eval_mul, Polynomial.eval_add, Polynomial.eval_X,
        Polynomial.eval_natCast]
      have hrj : r + j ≠ 0 := by positivity
      rw [Nat.cast_succ, ← add_assoc, Real.Gamma_add_one hrj, ← ih]
      ring
  rw [h1, eq_div_iff (mul_ne_zero hg hf), ← h3, ← h2, nsmul_eq_mul]
  ring

theorem nbinom_sum (r p : ℝ) (hr : 0 < r) (h0 : 0 < p) (h1 : p ≤ 1) :
    HasSum (nbinomPmf r p) 1 := by
  have hs := Real.one_div_one_sub_rpow_hasFPowerSeriesOnBall_zero r
  have hy : (1 - p) ∈ Metric.eball (0 : ℝ) 1 := by
    rw [Metric.mem_eball, edist_zero_right, Real.enorm_eq_ofReal_abs]
    rw [abs_of_nonneg (by linarith), ENNReal.ofReal_lt_one]
    linarith
  have := hs.hasSum hy
  simp only [zero_add, sub_sub_cancel] at this
  have h2 := this.mul_left (p ^ r)
  rw [mul_one_div_cancel (Real.rpow_pos_of_pos h0 r).ne'] at h2
  have he : nbinomPmf r p = fun i => p ^ r *
      (FormalMultilinearSeries.ofScalars ℝ (fun n : ℕ => Ring.choose (r + (n : ℝ) - 1) n) i)
        fun _ => 1 - p := by
    funext j
    rw [FormalMultilinearSeries.ofScalars_apply_eq]
    unfold nbinomPmf
    rw [choose_gamma r hr, smul_eq_mul]
    ring
  rw [he]
  exact h2

theorem nbinomPmf_nonneg (r p : ℝ) (hr : 0 < r) (h0 : 0 < p) (h1 : p ≤ 1) (j : ℕ) :
    0 ≤ nbinomPmf r p j := by
  unfold nbinomPmf
  have h2 : 0 < Real.Gamma (r + j) := Real.Gamma_pos_of_pos (by positivity)
  have h3 : 0 < Real.Gamma r := Real.Gamma_pos_of_pos hr
  have h4 : 0 ≤ (1 - p) ^ j := pow_nonneg (by linarith) j
  have h5 : 0 < p ^ r := Real.rpow_pos_of_pos h0 r
  positivity

/-- Falling weights by one step. -/
theorem nbinomPmf_step (r p : ℝ) (hr : 0 < r) (h0 : 0 < p) (j : ℕ) :
    ((j : ℝ) + 1) * nbinomPmf r p (j + 1) = r * ((1 - p) / p) * nbinomPmf (r + 1) p j := by
  unfold nbinomPmf
  have h3 : Real.Gamma r ≠ 0 := (Real.Gamma_pos_of_pos hr).ne'
  have hf : ((Nat.factorial j : ℕ) : ℝ) ≠ 0 := by exact_mod_cast Nat.factorial_ne_zero j
  have h5 : p ^ r ≠ 0 := (Real.rpow_pos_of_pos h0 r).ne'
  have h6 : ((j : ℝ) + 1) ≠ 0 := by positivity
  rw [Real.rpow_add_one h0.ne', Real.Gamma_add_one hr.ne', Nat.factorial_succ, pow_succ,
    show r + ((j + 1 : ℕ) : ℝ) = r + 1 + j by push_cast; ring]
  push_cast
  field_simp

theorem poisson_sum (lam : ℝ) : HasSum (poissonLaw lam) 1 := by
  have h := (NormedSpace.expSeries_div_hasSum_exp (𝔸 := ℝ) lam).mul_left (Real.exp (-lam))
  rw [← Real.exp_eq_exp_ℝ, ← Real.exp_add, neg_add_cancel, Real.exp_zero] at h
  have he : poissonLaw lam = fun i => Real.exp (-lam) * (lam ^ i / (Nat.factorial i : ℝ)) := by
    funext j
    unfold poissonLaw
    ring
  rw [he]
  exact h

theorem poissonLaw_nonneg (lam : ℝ) (h : 0 ≤ lam) (j : ℕ) : 0 ≤ poissonLaw lam j := by
  unfold poissonLaw
  positivity

theorem poissonLaw_step (lam : ℝ) (j : ℕ) :
    ((j : ℝ) + 1) * poissonLaw lam (j + 1) = lam * poissonLaw lam j := by
  unfold poissonLaw
  have hf : ((Nat.factorial j : ℕ) : ℝ) ≠ 0 := by exact_mod_cast Nat.factorial_ne_zero j
  have h6 : ((j : ℝ) + 1) ≠ 0 := by positivity
  rw [Nat.factorial_succ, pow_succ]
  push_cast
  field_simp

/-- The mean from a rule for going down by one. -/
theorem mean_of_step {q q' : ℕ → ℝ} {c : ℝ} (h : ∀ j : ℕ, ((j : ℝ) + 1) * q (j + 1) = c * q' j)
    {s : ℝ} (hs : HasSum q' s) : HasSum (fun j : ℕ => (j : ℝ) * q j) (c * s) := by
  have h1 := hs.mul_left c
  rw [← hasSum_nat_add_iff' 1]
  simp only [Finset.range_one, Finset.sum_singleton, Nat.cast_zero, zero_mul, sub_zero]
  have he : (fun n : ℕ => ((n + 1 : ℕ) : ℝ) * q (n + 1)) = fun i => c * q' i := by
    funext j
    rw [← h j]
    push_cast
    ring
  rw [he]
  exact h1

/-- Mean and variance of a number that is one more than another. -/
theorem plusOne_moments {q : ℕ → ℝ} {m1 m2 : ℝ} (h0 : ∀ j, 0 ≤ q j) (hs : HasSum q 1)
    (h1 : HasSum (fun j : ℕ => (j : ℝ) * q j) m1)
    (h2 : HasSum (fun j : ℕ => (j : ℝ) * (((j : ℝ) - 1) * q j)) m2) :
    IsLaw (plusOne q) ∧ LawMean (plusOne q) (1 + m1) ∧
      LawVariance (plusOne q) (1 + m1) (m2 + m1 - m1 ^ 2) := by
  have hz : plusOne q 0 = 0 := rfl
  have hsucc : ∀ j, plusOne q (j + 1) = q j := fun j => by simp [plusOne]
  refine ⟨⟨?_, ?_⟩, ?_, ?_⟩
  · intro n
    rcases n with _ | n
    · exact le_of_eq hz.symm
    · rw [hsucc]; exact h0 n
  · rw [← hasSum_nat_add_iff' 1]
    simpa [hz, hsucc] using hs
  · unfold LawMean
    rw [← hasSum_nat_add_iff' 1]
    simp only [Finset.range_one, Finset.sum_singleton, hz, mul_zero, sub_zero, hsucc]
    have he : (fun n : ℕ => ((n + 1 : ℕ) : ℝ) * q n) = fun j : ℕ => q j + (j : ℝ) * q j := by
      funext j; push_cast; ring
    rw [he]
    exact hs.add h1
  · unfold LawVariance
    rw [← hasSum_nat_add_iff' 1]
    simp only [Finset.range_one, Finset.sum_singleton, hz, mul_zero, sub_zero, hsucc]
    have he : (fun n : ℕ => (((n + 1 : ℕ) : ℝ) - (1 + m1)) ^ 2 * q n) = fun j : ℕ =>
        (j : ℝ) * (((j : ℝ) - 1) * q j) + ((1 - 2 * m1) * ((j : ℝ) * q j) + m1 ^ 2 * q j) := by
      funext j; push_cast; ring
    rw [he]
    have := h2.add ((h1.mul_left (1 - 2 * m1)).add (hs.mul_left (m1 ^ 2)))
    rwa [show m2 + ((1 - 2 * m1) * m1 + m1 ^ 2 * 1) = m2 + m1 - m1 ^ 2 by ring] at this

theorem binom_moment0 (n : ℕ) (p : ℝ) :
    ∑ k ∈ Finset.range (n + 1), (n.choose k : ℝ) * p ^ k * (1 - p) ^ (n - k) = 1 := by
  have := add_pow p (1 - p) n
  rw [show p + (1 - p) = 1 by ring, one_pow] at this
  exact (Finset.sum_congr rfl (fun k _ => by ring)).trans this.symm

theorem binom_moment1 (n : ℕ) (p : ℝ) :
    ∑ k ∈ Finset.range (n + 1), (k : ℝ) * ((n.choose k : ℝ) * p ^ k * (1 - p) ^ (n - k)) = n * p := by
  rcases n with _ | n
  · simp
  · rw [Finset.sum_range_succ']
    simp only [Nat.cast_zero, zero_mul, add_zero]
    have h : ∀ k ∈ Finset.range (n + 1), ((k + 1 : ℕ) : ℝ) *
        (((n + 1).choose (k + 1) : ℝ) * p ^ (k + 1) * (1 - p) ^ (n + 1 - (k + 1))) =
        ((n + 1 : ℕ) : ℝ) * p * ((n.choose k : ℝ) * p ^ k * (1 - p) ^ (n - k)) := by
      intro k _
      have hc : (((n + 1 : ℕ) : ℝ)) * (n.choose k : ℝ) =
          ((n + 1).choose (k + 1) : ℝ) * ((k + 1 : ℕ) : ℝ) := by
        exact_mod_cast Nat.add_one_mul_choose_eq n k
      rw [show n + 1 - (k + 1) = n - k by omega, pow_succ]
      linear_combination (-(p ^ k * p * (1 - p) ^ (n - k))) * hc
    rw [Finset.sum_congr rfl h, ← Finset.mul_sum, binom_moment0, mul_one]

/-- Weighted sums over shown impressions may be taken user by user. -/
theorem shown_weighted {f : ℕ → ℝ} {p : ℝ} (hf : ∀ n, 0 ≤ f n) (h0 : 0 ≤ p) (h1 : p ≤ 1)
    (w : ℕ → ℝ) (hw : ∀ k, 0 ≤ w k) (W : ℕ → ℝ)
    (hW : ∀ n, ∑ k ∈ Finset.range (n + 1), w k * ((n.choose k : ℝ) * p ^ k * (1 - p) ^ (n - k)) = W n)
    {s : ℝ} (hs : HasSum (fun n => W n * f n) s) :
    HasSum (fun k => w k * Shown f p k) s := by
  have hq : 0 ≤ 1 - p := by linarith
  let F : ℕ × ℕ → ℝ := fun x => w x.2 * ((x.1.choose x.2 : ℝ) * p ^ x.2 * (1 - p) ^ (x.1 - x.2) * f x.1)
  have hF : ∀ x, 0 ≤ F x := fun x => by
    have h2 := hf x.1
    have h3 := hw x.2
    show 0 ≤ w x.2 * ((x.1.choose x.2 : ℝ) * p ^ x.2 * (1 - p) ^ (x.1 - x.2) * f x.1)
    positivity
  have hrow : ∀ n, HasSum (fun k => F (n, k)) (W n * f n) := by
    intro n
    have h2 : HasSum (fun k => F (n, k)) (∑ k ∈ Finset.range (n + 1), F (n, k)) := by
      refine hasSum_sum_of_ne_finset_zero (fun k hk => ?_)
      show w k * ((n.choose k : ℝ) * p ^ k * (1 - p) ^ (n - k) * f n) = 0
      rw [Nat.choose_eq_zero_of_lt (by simpa using hk)]
      simp
    have h3 : ∑ k ∈ Finset.range (n + 1), F (n, k) = W n * f n := by
      rw [← hW n, Finset.sum_mul]
      exact Finset.sum_congr rfl (fun k _ => by show w k * _ = _; ring)
    rwa [h3] at h2
  have hsum : Summable F := by
    rw [summable_prod_of_nonneg hF]
    refine ⟨fun n => (hrow n).summable, ?_⟩
    have : (fun n => ∑' k, F (n, k)) = fun n => W n * f n := by
      funext n; exact (hrow n).tsum_eq
    rw [this]
    exact hs.summable
  have htot : HasSum F s := by
    have h2 := hsum.hasSum.prod_fiberwise hrow
    have h3 := hsum.hasSum
    rwa [h2.unique hs] at h3
  have hswap : HasSum (fun x : ℕ × ℕ => F (x.2, x.1)) s :=
    (Equiv.prodComm ℕ ℕ).hasSum_iff.2 htot
  have hcol : ∀ k, HasSum (fun n => F (n, k)) (w k * Shown f p k) := by
    intro k
    have h2 : Summable (fun n => F (n, k)) := hswap.summable.prod_factor k
    have h3 := h2.hasSum
    have h4 : ∑' n, F (n, k) = w k * Shown f p k := by
      show ∑' n, w k * _ = _
      rw [tsum_mul_left]
      rfl
    rwa [h4] at h3
  exact hswap.prod_fiberwise hcol

/-- Chebyshev. -/
theorem law_tail {f : ℕ → ℝ} {m v : ℝ} (hf : IsLaw f) (hv : LawVariance f m v) (M : ℕ)
    (hM : m < (M : ℝ) + 1) :
    1 - ∑ n ∈ Finset.range (M + 1), f n ≤ v / ((M : ℝ) + 1 - m) ^ 2 := by
  have hd : 0 < (M : ℝ) + 1 - m := by linarith
  have h1 : HasSum (fun n => f (n + (M + 1))) (1 - ∑ n ∈ Finset.range (M + 1), f n) :=
    (hasSum_nat_add_iff' (M + 1)).2 hf.2
  have h2 := (hasSum_nat_add_iff' (M + 1)).2 hv
  rw [le_div_iff₀ (by positivity)]
  have h3 : v - ∑ n ∈ Finset.range (M + 1), ((n : ℝ) - m) ^ 2 * f n ≤ v := by
    have : 0 ≤ ∑ n ∈ Finset.range (M + 1), ((n : ℝ) - m) ^ 2 * f n :=
      Finset.sum_nonneg (fun n _ => mul_nonneg (sq_nonneg _) (hf.1 n))
    linarith
  refine le_trans (hasSum_le (fun n => ?_) (h1.mul_right _) h2) h3
  rw [mul_comm]
  refine mul_le_mul_of_nonneg_right ?_ (hf.1 _)
  have : (M : ℝ) + 1 - m ≤ ((n + (M + 1) : ℕ) : ℝ) - m := by push_cast; linarith [(Nat.cast_nonneg n : (0 : ℝ) ≤ n)]
  exact pow_le_pow_left₀ hd.le this 2

theorem gammaPoisson_one (beta : ℝ) (hb : 0 ≤ beta) (j : ℕ) :
    gammaPoissonPmf 1 beta (j + 1) = 1 / (1 + beta) * (beta / (1 + beta)) ^ j := by
  unfold gammaPoissonPmf plusOne nbinomPmf
  have h1 : 1 + beta ≠ 0 := by positivity
  have hf : ((Nat.factorial j : ℕ) : ℝ) ≠ 0 := by exact_mod_cast Nat.factorial_ne_zero j
  rw [if_neg (by omega), Nat.add_sub_cancel, add_comm (1 : ℝ) (j : ℝ), Real.Gamma_nat_eq_factorial,
    Real.Gamma_one, Real.rpow_one, show 1 - 1 / (1 + beta) = beta / (1 + beta) by field_simp; ring]
  field_simp

end Verif
