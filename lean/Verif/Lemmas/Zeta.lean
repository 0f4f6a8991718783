import Mathlib.Analysis.SpecialFunctions.Pow.Deriv
import Mathlib.Analysis.Calculus.Deriv.MeanValue
import Verif.Lemmas.Laws

/-!
# Bounds of the zeta series
-/

namespace Verif

theorem zetaNorm_pos (s : ℝ) (hs : 1 < s) :
    0 < zetaNorm s ∧ Summable (fun n : ℕ => ((n : ℝ) + 1) ^ (-s)) := by
  have h : Summable (fun n : ℕ => ((n : ℝ) + 1) ^ (-s)) := by
    have := (Real.summable_nat_rpow (p := -s)).2 (by linarith)
    have h2 := (summable_nat_add_iff 1).2 this
    simpa using h2
  refine ⟨?_, h⟩
  unfold zetaNorm
  refine h.tsum_pos (fun n => by positivity) 0 (by positivity)

theorem heavyTailed_summable (s : ℝ) (hs : 1 < s) (t : ℝ) :
    Summable (fun n : ℕ => (n : ℝ) ^ t * heavyTailedLaw s n) ↔ t + 1 < s := by
  obtain ⟨hz, -⟩ := zetaNorm_pos s hs
  rw [← summable_nat_add_iff 1]
  have he : (fun n : ℕ => ((n + 1 : ℕ) : ℝ) ^ t * heavyTailedLaw s (n + 1)) =
      fun n : ℕ => (((n + 1 : ℕ) : ℝ) ^ (t - s)) * (zetaNorm s)⁻¹ := by
    funext n
    unfold heavyTailedLaw
    have hn : (0 : ℝ) < ((n + 1 : ℕ) : ℝ) := by positivity
    rw [if_neg (by omega), sub_eq_add_neg, Real.rpow_add hn]
    ring
  rw [he, summable_mul_right_iff (inv_ne_zero hz.ne'),
    summable_nat_add_iff (f := fun n : ℕ => (n : ℝ) ^ (t - s)) 1, Real.summable_nat_rpow]
  constructor <;> intro h <;> linarith

/-- The middle rule for the integral of an inverse power around one. -/
theorem midpoint_rule (s : ℝ) (hs : 1 < s) (t : ℝ) (h0 : 0 ≤ t) (h1 : t < 1) :
    2 * t * (s - 1) ≤ (1 - t) ^ (1 - s) - (1 + t) ^ (1 - s) := by
  let g : ℝ → ℝ := fun x => (1 - x) ^ (1 - s) - (1 + x) ^ (1 - s) - 2 * x * (s - 1)
  have hd : ∀ x ∈ Set.Ico (0 : ℝ) 1, HasDerivAt g
      ((s - 1) * ((1 - x) ^ (-s) + (1 + x) ^ (-s) - 2)) x := by
    intro x hx
    have e1 : HasDerivAt (fun x : ℝ => (1 - x) ^ (1 - s)) (-1 * (1 - s) * (1 - x) ^ (1 - s - 1)) x :=
      HasDerivAt.rpow_const ((hasDerivAt_id x).const_sub 1) (Or.inl (by linarith [hx.2]))
    have e2 : HasDerivAt (fun x : ℝ => (1 + x) ^ (1 - s)) (1 * (1 - s) * (1 + x) ^ (1 - s - 1)) x :=
      HasDerivAt.rpow_const ((hasDerivAt_id x).const_add 1) (Or.inl (by linarith [hx.1]))
    have e3 : HasDerivAt (fun x : ℝ => 2 * x * (s - 1)) (2 * 1 * (s - 1)) x :=
      ((hasDerivAt_id x).const_mul 2).mul_const (s - 1)
    have := (e1.sub e2).sub e3
    rw [show 1 - s - 1 = -s by ring] at this
    rwa [show (s - 1) * ((1 - x) ^ (-s) + (1 + x) ^ (-s) - 2) =
      -1 * (1 - s) * (1 - x) ^ (-s) - 1 * (1 - s) * (1 + x) ^ (-s) - 2 * 1 * (s - 1) by ring]
  have hm : MonotoneOn g (Set.Ico 0 1) := by
    refine monotoneOn_of_deriv_nonneg (convex_Ico 0 1)
      (fun x hx => (hd x hx).continuousAt.continuousWithinAt)
      (fun x hx => (hd x (interior_subset hx)).differentiableAt.differentiableWithinAt) ?_
    intro x hx
    have hx' := interior_subset hx
    rw [(hd x hx').deriv]
    refine mul_nonneg (by linarith) ?_
    have a : 0 < 1 - x := by linarith [hx'.2]
    have b : 0 < 1 + x := by linarith [hx'.1]
    have hprod : 1 ≤ (1 - x) ^ (-s) * (1 + x) ^ (-s) := by
      rw [← Real.mul_rpow a.le b.le]
      refine Real.one_le_rpow_of_pos_of_le_one_of_nonpos (by positivity)
        (by nlinarith [sq_nonneg x]) (by linarith)
    have pa := Real.rpow_pos_of_pos a (-s)
    have pb := Real.rpow_pos_of_pos b (-s)
    nlinarith [sq_nonneg ((1 - x) ^ (-s) - (1 + x) ^ (-s))]
  have := hm (Set.left_mem_Ico.2 one_pos) ⟨h0, h1⟩ h0
  have g0 : g 0 = 0 := by simp [g]
  rw [g0] at this
  have h2 : 0 ≤ (1 - t) ^ (1 - s) - (1 + t) ^ (1 - s) - 2 * t * (s - 1) := this
  linarith

/-- The trapezoid rule for the same integral. -/
theorem trapezoid_rule (s : ℝ) (hs : 1 < s) (t : ℝ) (h0 : 0 ≤ t) (h1 : t < 1) :
    (1 - t) ^ (1 - s) - (1 + t) ^ (1 - s) ≤ (s - 1) * (t * ((1 - t) ^ (-s) + (1 + t) ^ (-s))) := by
  let g : ℝ → ℝ := fun x => (s - 1) * (x * ((1 - x) ^ (-s) + (1 + x) ^ (-s))) -
    ((1 - x) ^ (1 - s) - (1 + x) ^ (1 - s))
  have hd : ∀ x ∈ Set.Ico (0 : ℝ) 1, HasDerivAt g
      ((s - 1) * (x * s * ((1 - x) ^ (-s - 1) - (1 + x) ^ (-s - 1)))) x := by
    intro x hx
    have e1 : HasDerivAt (fun x : ℝ => (1 - x) ^ (1 - s)) (-1 * (1 - s) * (1 - x) ^ (1 - s - 1)) x :=
      HasDerivAt.rpow_const ((hasDerivAt_id x).const_sub 1) (Or.inl (by linarith [hx.2]))
    have e2 : HasDerivAt (fun x : ℝ => (1 + x) ^ (1 - s)) (1 * (1 - s) * (1 + x) ^ (1 - s - 1)) x :=
      HasDerivAt.rpow_const ((hasDerivAt_id x).const_add 1) (Or.inl (by linarith [hx.1]))
    have f1 : HasDerivAt (fun x : ℝ => (1 - x) ^ (-s)) (-1 * (-s) * (1 - x) ^ (-s - 1)) x :=
      HasDerivAt.rpow_const ((hasDerivAt_id x).const_sub 1) (Or.inl (by linarith [hx.2]))
    have f2 : HasDerivAt (fun x : ℝ => (1 + x) ^ (-s)) (1 * (-s) * (1 + x) ^ (-s - 1)) x :=
      HasDerivAt.rpow_const ((hasDerivAt_id x).const_add 1) (Or.inl (by linarith [hx.1]))
    have := (((hasDerivAt_id x).mul (f1.add f2)).const_mul (s - 1)).sub (e1.sub e2)
    rw [show 1 - s - 1 = -s by ring] at this
    convert! this using 1
    simp
    ring
  have hm : MonotoneOn g (Set.Ico 0 1) := by
    refine monotoneOn_of_deriv_nonneg (convex_Ico 0 1)
      (fun x hx => (hd x hx).continuousAt.continuousWithinAt)
      (fun x hx => (hd x (interior_subset hx)).differentiableAt.differentiableWithinAt) ?_
    intro x hx
    have hx' := interior_subset hx
    rw [(hd x hx').deriv]
    have a : 0 < 1 - x := by linarith [hx'.2]
    have hle : (1 + x) ^ (-s - 1) ≤ (1 - x) ^ (-s - 1) :=
      Real.rpow_le_rpow_of_nonpos a (by linarith [hx'.1]) (by linarith)
    exact mul_nonneg (by linarith) (mul_nonneg (mul_nonneg hx'.1 (by linarith)) (by linarith))
  have := hm (Set.left_mem_Ico.2 one_pos) ⟨h0, h1⟩ h0
  have g0 : g 0 = 0 := by simp [g]
  rw [g0] at this
  have h2 : 0 ≤ (s - 1) * (t * ((1 - t) ^ (-s) + (1 + t) ^ (-s))) -
    ((1 - t) ^ (1 - s) - (1 + t) ^ (1 - s)) := this
  linarith

theorem midpoint_at (s : ℝ) (hs : 1 < s) (c : ℝ) (hc : 1 / 2 < c) :
    (s - 1) * c ^ (-s) ≤ (c - 1 / 2) ^ (1 - s) - (c + 1 / 2) ^ (1 - s) := by
  have hc0 : 0 < c := by linarith
  have h := midpoint_rule s hs (1 / (2 * c)) (by positivity)
    (by rw [div_lt_one (by positivity)]; linarith)
  have hk : 0 < c ^ (1 - s) := Real.rpow_pos_of_pos hc0 _
  have h2 := mul_le_mul_of_nonneg_left h hk.le
  rw [mul_sub (c ^ (1 - s)), ← Real.mul_rpow hc0.le (by rw [sub_nonneg, div_le_one (by positivity)]; linarith),
    ← Real.mul_rpow hc0.le (by positivity)] at h2
  rw [show c * (1 - 1 / (2 * c)) = c - 1 / 2 by field_simp,
    show c * (1 + 1 / (2 * c)) = c + 1 / 2 by field_simp,
    show 1 - s = -s + 1 by ring, Real.rpow_add_one hc0.ne'] at h2
  rw [show 1 - s = -s + 1 by ring]
  refine le_trans (le_of_eq ?_) h2
  field_simp

theorem trapezoid_at (s : ℝ) (hs : 1 < s) (n : ℝ) (hn : 0 < n) :
    n ^ (1 - s) - (n + 1) ^ (1 - s) ≤ (s - 1) * ((n ^ (-s) + (n + 1) ^ (-s)) / 2) := by
  obtain ⟨c, rfl⟩ : ∃ c, n = c - 1 / 2 := ⟨n + 1 / 2, by ring⟩
  have hc0 : 0 < c := by linarith
  have h := trapezoid_rule s hs (1 / (2 * c)) (by positivity)
    (by rw [div_lt_one (by positivity)]; linarith)
  have hk : 0 < c ^ (1 - s) := Real.rpow_pos_of_pos hc0 _
  have h2 := mul_le_mul_of_nonneg_left h hk.le
  have hp : 0 ≤ 1 - 1 / (2 * c) := by rw [sub_nonneg, div_le_one (by positivity)]; linarith
  have hq : 0 ≤ 1 + 1 / (2 * c) := by positivity
  have e1 : c * (1 - 1 / (2 * c)) = c - 1 / 2 := by field_simp
  have e2 : c * (1 + 1 / (2 * c)) = c - 1 / 2 + 1 := by field_simp; ring
  rw [mul_sub, ← Real.mul_rpow hc0.le hp, ← Real.mul_rpow hc0.le hq, e1, e2] at h2
  refine le_trans h2 (le_of_eq ?_)
  rw [← e2, ← e1, Real.mul_rpow hc0.le hp, Real.mul_rpow hc0.le hq,
    show 1 - s = -s + 1 by ring, Real.rpow_add_one hc0.ne']
  field_simp

/-- Bounds of the zeta series: the first terms, and the rest between two rules for integrals. -/
theorem zetaNorm_bounds (s : ℝ) (hs : 1 < s) (N : ℕ) :
    (∑ n ∈ Finset.range N, ((n : ℝ) + 1) ^ (-s)) + ((N : ℝ) + 1) ^ (-s) / 2 +
        ((N : ℝ) + 1) ^ (1 - s) / (s - 1) ≤ zetaNorm s ∧
    zetaNorm s ≤ (∑ n ∈ Finset.range N, ((n : ℝ) + 1) ^ (-s)) +
        ((N : ℝ) + 1 / 2) ^ (1 - s) / (s - 1) := by
  obtain ⟨-, hsum⟩ := zetaNorm_pos s hs
  have hs1 : 0 < s - 1 := by linarith
  have hlim : ∀ a : ℝ, Filter.Tendsto (fun m : ℕ => ((m : ℝ) + a) ^ (1 - s)) Filter.atTop (nhds 0) := by
    intro a
    rw [show 1 - s = -(s - 1) by ring]
    exact (tendsto_rpow_neg_atTop hs1).comp
      (Filter.tendsto_atTop_add_const_right _ a tendsto_natCast_atTop_atTop)
  have htend : Filter.Tendsto (fun m => ∑ n ∈ Finset.range m, ((n : ℝ) + 1) ^ (-s)) Filter.atTop
      (nhds (zetaNorm s)) := hsum.hasSum.tendsto_sum_nat
  constructor
  · have hstep : ∀ m, N ≤ m → (∑ n ∈ Finset.range N, ((n : ℝ) + 1) ^ (-s)) + ((N : ℝ) + 1) ^ (-s) / 2 +
        ((N : ℝ) + 1) ^ (1 - s) / (s - 1) ≤
        (∑ n ∈ Finset.range (m + 1), ((n : ℝ) + 1) ^ (-s)) + ((m : ℝ) + 1) ^ (1 - s) / (s - 1) -
          ((m : ℝ) + 1) ^ (-s) / 2 := by
      intro m hm
      induction m, hm using Nat.le_induction with
      | base => rw [Finset.sum_range_succ]; linarith
      | succ m hm ih =>
        refine le_trans ih ?_
        have h1 := trapezoid_at s hs ((m : ℝ) + 1) (by positivity)
        rw [Finset.sum_range_succ _ (m + 1)]
        push_cast
        have h2 : (((m : ℝ) + 1) ^ (1 - s) - ((m : ℝ) + 1 + 1) ^ (1 - s)) / (s - 1) ≤
            (((m : ℝ) + 1) ^ (-s) + ((m : ℝ) + 1 + 1) ^ (-s)) / 2 := by
          rw [div_le_iff₀ hs1]
          linarith
        rw [sub_div] at h2
        linarith
    have hl : Filter.Tendsto (fun m : ℕ => (∑ n ∈ Finset.range (m + 1), ((n : ℝ) + 1) ^ (-s)) +
        ((m : ℝ) + 1) ^ (1 - s) / (s - 1)) Filter.atTop (nhds (zetaNorm s + 0 / (s - 1))) :=
      (htend.comp (Filter.tendsto_add_atTop_nat 1)).add ((hlim 1).div_const _)
    rw [zero_div, add_zero] at hl
    refine ge_of_tendsto hl (Filter.eventually_atTop.2 ⟨N, fun m hm => ?_⟩)
    have := hstep m hm
    have h3 : 0 ≤ ((m : ℝ) + 1) ^ (-s) := by positivity
    linarith
  · have hstep : ∀ m, N ≤ m → (∑ n ∈ Finset.range m, ((n : ℝ) + 1) ^ (-s)) +
        ((m : ℝ) + 1 / 2) ^ (1 - s) / (s - 1) ≤ (∑ n ∈ Finset.range N, ((n : ℝ) + 1) ^ (-s)) +
        ((N : ℝ) + 1 / 2) ^ (1 - s) / (s - 1) := by
      intro m hm
      induction m, hm using Nat.le_induction with
      | base => exact le_refl _
      | succ m hm ih =>
        refine le_trans ?_ ih
        have h1 := midpoint_at s hs ((m : ℝ) + 1) (by linarith [(Nat.cast_nonneg m : (0 : ℝ) ≤ m)])
        rw [Finset.sum_range_succ]
        push_cast
        rw [show (m : ℝ) + 1 - 1 / 2 = m + 1 / 2 by ring] at h1
        have h2 : ((m : ℝ) + 1) ^ (-s) ≤
            (((m : ℝ) + 1 / 2) ^ (1 - s) - ((m : ℝ) + 1 + 1 / 2) ^ (1 - s)) / (s - 1) := by
          rw [le_div_iff₀ hs1]
          linarith
        rw [sub_div] at h2
        linarith
    refine le_of_tendsto htend (Filter.eventually_atTop.2 ⟨N, fun m hm => ?_⟩)
    have := hstep m hm
    have h3 : 0 ≤ ((m : ℝ) + 1 / 2) ^ (1 - s) / (s - 1) := by positivity
    linarith

/-- A fraction below a fractional power, by comparing integers. -/
theorem rpow_lower (u v A B a b : ℕ) (hu : 0 < u) (hv : 0 < v) (hB : 0 < B) (hb : 0 < b)
    (h : A ^ b * u ^ a ≤ B ^ b * v ^ a) : (A : ℝ) / B ≤ ((u : ℝ) / v) ^ (-((a : ℝ) / b)) := by
  have hu' : (0 : ℝ) < u := by exact_mod_cast hu
  have hv' : (0 : ℝ) < v := by exact_mod_cast hv
  have hB' : (0 : ℝ) < B := by exact_mod_cast hB
  have hb' : (b : ℝ) ≠ 0 := by exact_mod_cast hb.ne'
  rw [← pow_le_pow_iff_left₀ (by positivity) (by positivity) hb.ne', ← Real.rpow_natCast (_ ^ _),
    ← Real.rpow_mul (by positivity), neg_mul, div_mul_cancel₀ _ hb', Real.rpow_neg (by positivity),
    Real.rpow_natCast, ← inv_pow, inv_div, div_pow, div_pow, div_le_div_iff₀ (by positivity)
    (by positivity)]
  have : (A : ℝ) ^ b * (u : ℝ) ^ a ≤ (B : ℝ) ^ b * (v : ℝ) ^ a := by exact_mod_cast h
  linarith

/-- A fraction above a fractional power, by comparing integers. -/
theorem rpow_upper (u v A B a b : ℕ) (hu : 0 < u) (hv : 0 < v) (hB : 0 < B) (hb : 0 < b)
    (h : B ^ b * v ^ a ≤ A ^ b * u ^ a) : ((u : ℝ) / v) ^ (-((a : ℝ) / b)) ≤ (A : ℝ) / B := by
  have hu' : (0 : ℝ) < u := by exact_mod_cast hu
  have hv' : (0 : ℝ) < v := by exact_mod_cast hv
  have hB' : (0 : ℝ) < B := by exact_mod_cast hB
  have hb' : (b : ℝ) ≠ 0 := by exact_mod_cast hb.ne'
  rw [← pow_le_pow_iff_left₀ (by positivity) (by positivity) hb.ne', ← Real.rpow_natCast (_ ^ _),
    ← Real.rpow_mul (by positivity), neg_mul, div_mul_cancel₀ _ hb', Real.rpow_neg (by positivity),
    Real.rpow_natCast, ← inv_pow, inv_div, div_pow, div_pow, div_le_div_iff₀ (by positivity)
    (by positivity)]
  have : (B : ℝ) ^ b * (v : ℝ) ^ a ≤ (A : ℝ) ^ b * (u : ℝ) ^ a := by exact_mod_cast h
  linarith

theorem zeta_14053_5000 : (1243 : ℝ) / 1000 ≤ zetaNorm (14053 / 5000) ∧
    zetaNorm (14053 / 5000) ≤ (623 : ℝ) / 500 := by
  have l2 := rpow_lower 2 1 1425 10000 14053 5000 (by norm_num) (by norm_num) (by norm_num)
    (by norm_num) (by decide +kernel)
  have u2 := rpow_upper 2 1 1426 10000 14053 5000 (by norm_num) (by norm_num) (by norm_num)
    (by norm_num) (by decide +kernel)
  have l3 := rpow_lower 3 1 456 10000 14053 5000 (by norm_num) (by norm_num) (by norm_num)
    (by norm_num) (by decide +kernel)
  have u3 := rpow_upper 3 1 457 10000 14053 5000 (by norm_num) (by norm_num) (by norm_num)
    (by norm_num) (by decide +kernel)
  have l4 := rpow_lower 4 1 203 10000 14053 5000 (by norm_num) (by norm_num) (by norm_num)
    (by norm_num) (by decide +kernel)
  have l4t := rpow_lower 4 1 812 10000 9053 5000 (by norm_num) (by norm_num) (by norm_num)
    (by norm_num) (by decide +kernel)
  have u7t := rpow_upper 7 2 1035 10000 9053 5000 (by norm_num) (by norm_num) (by norm_num)
    (by norm_num) (by decide +kernel)
  have h := zetaNorm_bounds (14053 / 5000) (by norm_num) 3
  simp only [Finset.sum_range_succ, Finset.sum_range_zero] at h
  norm_num at h l2 u2 l3 u3 l4 l4t u7t ⊢
  constructor <;> linarith [h.1, h.2]

theorem zeta_9053_5000 : (1863 : ℝ) / 1000 ≤ zetaNorm (9053 / 5000) ∧
    zetaNorm (9053 / 5000) ≤ (1869 : ℝ) / 1000 := by
  have l2 := rpow_lower 2 1 2850 10000 9053 5000 (by norm_num) (by norm_num) (by norm_num)
    (by norm_num) (by decide +kernel)
  have u2 := rpow_upper 2 1 2851 10000 9053 5000 (by norm_num) (by norm_num) (by norm_num)
    (by norm_num) (by decide +kernel)
  have l3 := rpow_lower 3 1 1368 10000 9053 5000 (by norm_num) (by norm_num) (by norm_num)
    (by norm_num) (by decide +kernel)
  have u3 := rpow_upper 3 1 1369 10000 9053 5000 (by norm_num) (by norm_num) (by norm_num)
    (by norm_num) (by decide +kernel)
  have l4 := rpow_lower 4 1 812 10000 9053 5000 (by norm_num) (by norm_num) (by norm_num)
    (by norm_num) (by decide +kernel)
  have l4t := rpow_lower 4 1 3250 10000 4053 5000 (by norm_num) (by norm_num) (by norm_num)
    (by norm_num) (by decide +kernel)
  have u7t := rpow_upper 7 2 3623 10000 4053 5000 (by norm_num) (by norm_num) (by norm_num)
    (by norm_num) (by decide +kernel)
  have h := zetaNorm_bounds (9053 / 5000) (by norm_num) 3
  simp only [Finset.sum_range_succ, Finset.sum_range_zero] at h
  norm_num at h l2 u2 l3 u3 l4 l4t u7t ⊢
  constructor <;> linarith [h.1, h.2]

theorem zeta_11331_5000 : (181 : ℝ) / 125 ≤ zetaNorm (11331 / 5000) ∧
    zetaNorm (11331 / 5000) ≤ (1453 : ℝ) / 1000 := by
  have l2 := rpow_lower 2 1 2078 10000 11331 5000 (by norm_num) (by norm_num) (by norm_num)
    (by norm_num) (by decide +kernel)
  have u2 := rpow_upper 2 1 2079 10000 11331 5000 (by norm_num) (by norm_num) (by norm_num)
    (by norm_num) (by decide +kernel)
  have l3 := rpow_lower 3 1 829 10000 11331 5000 (by norm_num) (by norm_num) (by norm_num)
    (by norm_num) (by decide +kernel)
  have u3 := rpow_upper 3 1 830 10000 11331 5000 (by norm_num) (by norm_num) (by norm_num)
    (by norm_num) (by decide +kernel)
  have l4 := rpow_lower 4 1 432 10000 11331 5000 (by norm_num) (by norm_num) (by norm_num)
    (by norm_num) (by decide +kernel)
  have l4t := rpow_lower 4 1 1728 10000 6331 5000 (by norm_num) (by norm_num) (by norm_num)
    (by norm_num) (by decide +kernel)
  have u7t := rpow_upper 7 2 2047 10000 6331 5000 (by norm_num) (by norm_num) (by norm_num)
    (by norm_num) (by decide +kernel)
  have h := zetaNorm_bounds (11331 / 5000) (by norm_num) 3
  simp only [Finset.sum_range_succ, Finset.sum_range_zero] at h
  norm_num at h l2 u2 l3 u3 l4 l4t u7t ⊢
  constructor <;> linarith [h.1, h.2]

theorem zeta_6331_5000 : (1087 : ℝ) / 250 ≤ zetaNorm (6331 / 5000) ∧
    zetaNorm (6331 / 5000) ≤ (4357 : ℝ) / 1000 := by
  have l2 := rpow_lower 2 1 4157 10000 6331 5000 (by norm_num) (by norm_num) (by norm_num)
    (by norm_num) (by decide +kernel)
  have u2 := rpow_upper 2 1 4158 10000 6331 5000 (by norm_num) (by norm_num) (by norm_num)
    (by norm_num) (by decide +kernel)
  have l3 := rpow_lower 3 1 2488 10000 6331 5000 (by norm_num) (by norm_num) (by norm_num)
    (by norm_num) (by decide +kernel)
  have u3 := rpow_upper 3 1 2489 10000 6331 5000 (by norm_num) (by norm_num) (by norm_num)
    (by norm_num) (by decide +kernel)
  have l4 := rpow_lower 4 1 1728 10000 6331 5000 (by norm_num) (by norm_num) (by norm_num)
    (by norm_num) (by decide +kernel)
  have l4t := rpow_lower 4 1 6914 10000 1331 5000 (by norm_num) (by norm_num) (by norm_num)
    (by norm_num) (by decide +kernel)
  have u7t := rpow_upper 7 2 7165 10000 1331 5000 (by norm_num) (by norm_num) (by norm_num)
    (by norm_num) (by decide +kernel)
  have h := zetaNorm_bounds (6331 / 5000) (by norm_num) 3
  simp only [Finset.sum_range_succ, Finset.sum_range_zero] at h
  norm_num at h l2 u2 l3 u3 l4 l4t u7t ⊢
  constructor <;> linarith [h.1, h.2]

theorem zeta_2677_1250 : (1527 : ℝ) / 1000 ≤ zetaNorm (2677 / 1250) ∧
    zetaNorm (2677 / 1250) ≤ (383 : ℝ) / 250 := by
  have l2 := rpow_lower 2 1 2266 10000 2677 1250 (by norm_num) (by norm_num) (by norm_num)
    (by norm_num) (by decide +kernel)
  have u2 := rpow_upper 2 1 2267 10000 2677 1250 (by norm_num) (by norm_num) (by norm_num)
    (by norm_num) (by decide +kernel)
  have l3 := rpow_lower 3 1 951 10000 2677 1250 (by norm_num) (by norm_num) (by norm_num)
    (by norm_num) (by decide +kernel)
  have u3 := rpow_upper 3 1 952 10000 2677 1250 (by norm_num) (by norm_num) (by norm_num)
    (by norm_num) (by decide +kernel)
  have l4 := rpow_lower 4 1 513 10000 2677 1250 (by norm_num) (by norm_num) (by norm_num)
    (by norm_num) (by decide +kernel)
  have l4t := rpow_lower 4 1 2054 10000 1427 1250 (by norm_num) (by norm_num) (by norm_num)
    (by norm_num) (by decide +kernel)
  have u7t := rpow_upper 7 2 2393 10000 1427 1250 (by norm_num) (by norm_num) (by norm_num)
    (by norm_num) (by decide +kernel)
  have h := zetaNorm_bounds (2677 / 1250) (by norm_num) 3
  simp only [Finset.sum_range_succ, Finset.sum_range_zero] at h
  norm_num at h l2 u2 l3 u3 l4 l4t u7t ⊢
  constructor <;> linarith [h.1, h.2]

theorem zeta_1427_1250 : (1911 : ℝ) / 250 ≤ zetaNorm (1427 / 1250) ∧
    zetaNorm (1427 / 1250) ≤ (3827 : ℝ) / 500 := by
  have l2 := rpow_lower 2 1 4532 10000 1427 1250 (by norm_num) (by norm_num) (by norm_num)
    (by norm_num) (by decide +kernel)
  have u2 := rpow_upper 2 1 4533 10000 1427 1250 (by norm_num) (by norm_num) (by norm_num)
    (by norm_num) (by decide +kernel)
  have l3 := rpow_lower 3 1 2853 10000 1427 1250 (by norm_num) (by norm_num) (by norm_num)
    (by norm_num) (by decide +kernel)
  have u3 := rpow_upper 3 1 2854 10000 1427 1250 (by norm_num) (by norm_num) (by norm_num)
    (by norm_num) (by decide +kernel)
  have l4 := rpow_lower 4 1 2054 10000 1427 1250 (by norm_num) (by norm_num) (by norm_num)
    (by norm_num) (by decide +kernel)
  have l4t := rpow_lower 4 1 8217 10000 177 1250 (by norm_num) (by norm_num) (by norm_num)
    (by norm_num) (by decide +kernel)
  have u7t := rpow_upper 7 2 8375 10000 177 1250 (by norm_num) (by norm_num) (by norm_num)
    (by norm_num) (by decide +kernel)
  have h := zetaNorm_bounds (1427 / 1250) (by norm_num) 3
  simp only [Finset.sum_range_succ, Finset.sum_range_zero] at h
  norm_num at h l2 u2 l3 u3 l4 l4t u7t ⊢
  constructor <;> linarith [h.1, h.2]

theorem zeta_206539_100000 : (317 : ℝ) / 200 ≤ zetaNorm (206539 / 100000) ∧
    zetaNorm (206539 / 100000) ≤ (159 : ℝ) / 100 := by
  have l2 := rpow_lower 2 1 2389 10000 206539 100000 (by norm_num) (by norm_num) (by norm_num)
    (by norm_num) (by decide +kernel)
  have u2 := rpow_upper 2 1 2390 10000 206539 100000 (by norm_num) (by norm_num) (by norm_num)
    (by norm_num) (by decide +kernel)
  have l3 := rpow_lower 3 1 1034 10000 206539 100000 (by norm_num) (by norm_num) (by norm_num)
    (by norm_num) (by decide +kernel)
  have u3 := rpow_upper 3 1 1035 10000 206539 100000 (by norm_num) (by norm_num) (by norm_num)
    (by norm_num) (by decide +kernel)
  have l4 := rpow_lower 4 1 570 10000 206539 100000 (by norm_num) (by norm_num) (by norm_num)
    (by norm_num) (by decide +kernel)
  have l4t := rpow_lower 4 1 2283 10000 106539 100000 (by norm_num) (by norm_num) (by norm_num)
    (by norm_num) (by decide +kernel)
  have u7t := rpow_upper 7 2 2633 10000 106539 100000 (by norm_num) (by norm_num) (by norm_num)
    (by norm_num) (by decide +kernel)
  have h := zetaNorm_bounds (206539 / 100000) (by norm_num) 3
  simp only [Finset.sum_range_succ, Finset.sum_range_zero] at h
  norm_num at h l2 u2 l3 u3 l4 l4t u7t ⊢
  constructor <;> linarith [h.1, h.2]

theorem zeta_106539_100000 : (15869 : ℝ) / 1000 ≤ zetaNorm (106539 / 100000) ∧
    zetaNorm (106539 / 100000) ≤ (397 : ℝ) / 25 := by
  have l2 := rpow_lower 2 1 4778 10000 106539 100000 (by norm_num) (by norm_num) (by norm_num)
    (by norm_num) (by decide +kernel)
  have u2 := rpow_upper 2 1 4779 10000 106539 100000 (by norm_num) (by norm_num) (by norm_num)
    (by norm_num) (by decide +kernel)
  have l3 := rpow_lower 3 1 3102 10000 106539 100000 (by norm_num) (by norm_num) (by norm_num)
    (by norm_num) (by decide +kernel)
  have u3 := rpow_upper 3 1 3103 10000 106539 100000 (by norm_num) (by norm_num) (by norm_num)
    (by norm_num) (by decide +kernel)
  have l4 := rpow_lower 4 1 2283 10000 106539 100000 (by norm_num) (by norm_num) (by norm_num)
    (by norm_num) (by decide +kernel)
  have l4t := rpow_lower 4 1 9133 10000 6539 100000 (by norm_num) (by norm_num) (by norm_num)
    (by norm_num) (by decide +kernel)
  have u7t := rpow_upper 7 2 9214 10000 6539 100000 (by norm_num) (by norm_num) (by norm_num)
    (by norm_num) (by decide +kernel)
  have h := zetaNorm_bounds (106539 / 100000) (by norm_num) 3
  simp only [Finset.sum_range_succ, Finset.sum_range_zero] at h
  norm_num at h l2 u2 l3 u3 l4 l4t u7t ⊢
  constructor <;> linarith [h.1, h.2]

end Verif
