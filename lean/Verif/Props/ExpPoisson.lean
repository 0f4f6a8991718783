import Verif.Model.KInflated
import Verif.Lemmas.ListExcept
import Verif.Props.ReachCurve
import Mathlib.Analysis.SpecificLimits.Basic
import Mathlib.Tactic.FieldSimp
import Mathlib.Tactic.NormNum

/-!
# C41 and C72: the exponential-Poisson model
-/

namespace Verif

open KInflated

/-! ## C41 -/

/-- **C41 (rate).** If the population is at least the reach and the solution exists, evaluating the
reach formula at the rate found from population, impressions and reach gives that reach. -/
theorem C41_beta (I N R : ℚ) (hR : 0 < R) (hRI : R ≤ I) (hRN : R ≤ N)
    (hsol : 0 < I * R - N * (I - R)) :
    0 ≤ expBeta I N R ∧ expReach I N (expBeta I N R) = R := by
  have hN : 0 < N := lt_of_lt_of_le hR hRN
  have hI : 0 < I := lt_of_lt_of_le hR hRI
  unfold expBeta
  rw [if_neg (not_le.2 hsol)]
  set D := I * R - N * (I - R) with hD
  have hb : 0 ≤ N * (I - R) / D := div_nonneg (mul_nonneg hN.le (by linarith)) hsol.le
  refine ⟨hb, ?_⟩
  have h1 : N * (I - R) / D + 1 = I * R / D := by
    rw [div_add_one hsol.ne']
    congr 1
    rw [hD]; ring
  unfold expReach
  rw [h1]
  split
  · rename_i h
    have h2 : I * R / D * N ≤ I := h
    rw [div_mul_eq_mul_div, div_le_iff₀ hsol] at h2
    have h3 : I * (R * N) ≤ I * D := by nlinarith
    have h4 : R * N ≤ D := le_of_mul_le_mul_left h3 hI
    rw [hD] at h4
    have h5 : N * I ≤ R * I := by nlinarith
    have h6 : N ≤ R := le_of_mul_le_mul_right h5 hI
    linarith
  · have h2 : 0 < N + N * (I - R) / D * (N + I) := by
      have : 0 ≤ N * (I - R) / D * (N + I) := mul_nonneg hb (by linarith)
      linarith
    rw [div_eq_iff h2.ne']
    have hne := hsol.ne'
    field_simp
    rw [hD]
    ring

/-- **C41 (population from rate).** If the rate leaves room for the observed impressions, evaluating
the reach formula at the population found from impressions, reach and rate gives that reach. -/
theorem C41_N_from_beta (I R beta : ℚ) (hR : 0 < R) (hRI : R + 1 / 1000 ≤ I)
    (hb : I - R ≤ beta * R) :
    ∃ N, expNFromBeta I R beta = .ok N ∧ R ≤ N ∧ I ≤ N * (beta + 1) ∧ expReach I N beta = R := by
  have hIR : 0 < I - R := by linarith
  have hI : 0 < I := by linarith
  have hbeta : 0 < beta := by
    by_contra h
    nlinarith [not_lt.1 h]
  have hb1 : 0 < beta + 1 := by linarith
  have hNform : -(I * beta * R) / ((beta + 1) * (R - I)) = I * beta * R / ((beta + 1) * (I - R)) := by
    rw [div_eq_div_iff (by nlinarith [mul_pos hb1 hIR]) (by nlinarith [mul_pos hb1 hIR])]
    ring
  refine ⟨I * beta * R / ((beta + 1) * (I - R)), ?_, ?_, ?_, ?_⟩
  · unfold expNFromBeta
    rw [if_neg (by linarith), if_neg (by nlinarith [mul_pos hb1 hIR]), hNform]
  · rw [le_div_iff₀ (mul_pos hb1 hIR)]
    have : (beta + 1) * (I - R) ≤ I * beta := by nlinarith
    nlinarith
  · have : I * beta * R / ((beta + 1) * (I - R)) * (beta + 1) = I * beta * R / (I - R) := by
      field_simp
    rw [this, le_div_iff₀ hIR]
    nlinarith
  · unfold expReach
    split
    · rename_i h
      have h2 : (beta + 1) * (I * beta * R / ((beta + 1) * (I - R))) = I * beta * R / (I - R) := by
        field_simp
      rw [h2] at h
      have h3 : I * beta * R ≤ I * (I - R) := by
        have h4 : I * beta * R / (I - R) ≤ I := h
        rwa [div_le_iff₀ hIR] at h4
      have h5 : beta * R ≤ I - R := by
        have : I * (beta * R) ≤ I * (I - R) := by linarith
        exact le_of_mul_le_mul_left this hI
      have h6 : beta * R = I - R := le_antisymm h5 hb
      rw [div_eq_iff (mul_pos hb1 hIR).ne']
      have : I * beta * R = I * (beta * R) := by ring
      rw [this, h6]
      have : R * ((beta + 1) * (I - R)) = (beta * R + R) * (I - R) := by ring
      rw [this, h6]; ring
    · have hN : 0 < I * beta * R / ((beta + 1) * (I - R)) :=
        div_pos (mul_pos (mul_pos hI hbeta) hR) (mul_pos hb1 hIR)
      have hden : 0 < I * beta * R / ((beta + 1) * (I - R)) +
          beta * (I * beta * R / ((beta + 1) * (I - R)) + I) :=
        add_pos hN (mul_pos hbeta (by linarith))
      rw [div_eq_iff hden.ne']
      field_simp
      ring

/-- **C41 (population).** The population found from impressions and reach alone is at least the
reach; the rate belonging to it has mean `s * I / R` (the comment in the code says `1 + s * (I / R - 1)`),
and evaluating the reach formula gives the observed reach. -/
theorem C41_N (I R s : ℚ) (hs : 1 ≤ s) (hR : 0 < R) (hRI : R + 1 / 1000 ≤ I) :
    ∃ N, expN I R s = .ok N ∧ R ≤ N ∧ expBeta I N R + 1 = s * I / R ∧
      I ≤ N * (expBeta I N R + 1) ∧ expReach I N (expBeta I N R) = R := by
  have hIR : 0 < I - R := by linarith
  have hI : 0 < I := by linarith
  have hs0 : 0 < s := by linarith
  set N := R * (s * I - R) / (s * (I - R)) with hN
  have hNR : N * (I - R) = R * I - R ^ 2 / s := by
    rw [hN]; field_simp
  have hD : I * R - N * (I - R) = R ^ 2 / s := by rw [hNR]; ring
  have hpos : 0 < R ^ 2 / s := by positivity
  have hle : R ≤ N := by
    rw [hN, le_div_iff₀ (mul_pos hs0 hIR)]
    nlinarith [mul_nonneg hR.le (mul_nonneg (sub_nonneg.2 hs) hR.le)]
  have hbeta : expBeta I N R + 1 = s * I / R := by
    unfold expBeta
    rw [hD, if_neg (not_le.2 hpos), hNR]
    field_simp
    ring
  have hfin := (C41_beta I N R hR (by linarith) hle (by rw [hD]; exact hpos)).2
  refine ⟨N, ?_, hle, hbeta, ?_, hfin⟩
  · unfold expN
    rw [if_neg (not_lt.2 hs), if_neg (by linarith)]
  · rw [hbeta, hN]
    have : R * (s * I - R) / (s * (I - R)) * (s * I / R) = I * ((s * I - R) / (I - R)) := by
      field_simp
    rw [this]
    have : 1 ≤ (s * I - R) / (I - R) := by
      rw [le_div_iff₀ hIR]; nlinarith
    nlinarith

/-- **C41 (curve).** The reach formula is non-decreasing in the impressions, at most the population,
and zero without impressions. -/
theorem C41_curve (N beta : ℚ) (hN : 0 < N) (hb : 0 ≤ beta) :
    (∀ I I', 0 ≤ I → I ≤ I' → expReach I N beta ≤ expReach I' N beta) ∧
    (∀ I, 0 ≤ I → 0 ≤ expReach I N beta ∧ expReach I N beta ≤ N) ∧
    expReach 0 N beta = 0 ∧
    (∀ I, (beta + 1) * N ≤ I → expReach I N beta = N) := by
  have hden : ∀ I, 0 ≤ I → 0 < N + beta * (N + I) := by
    intro I hI
    have := mul_nonneg hb (add_nonneg hN.le hI)
    linarith
  have hle : ∀ I, 0 ≤ I → expReach I N beta ≤ N := by
    intro I hI
    unfold expReach
    split
    · exact le_refl _
    · rename_i h
      rw [div_le_iff₀ (hden I hI)]
      have : I ≤ (beta + 1) * N := by linarith [not_le.1 h]
      nlinarith
  refine ⟨?_, ?_, ?_, ?_⟩
  · intro I I' hI hII
    have hI' := le_trans hI hII
    by_cases h' : I' ≥ (beta + 1) * N
    · have : expReach I' N beta = N := by unfold expReach; rw [if_pos h']
      rw [this]; exact hle I hI
    · have h : ¬ I ≥ (beta + 1) * N := fun h => h' (le_trans h hII)
      unfold expReach
      rw [if_neg h, if_neg h', div_le_div_iff₀ (hden I hI) (hden I' hI')]
      have e : N * I' * (beta + 1) * (N + beta * (N + I)) - N * I * (beta + 1) * (N + beta * (N + I'))
          = (I' - I) * (N * N * (beta + 1) * (beta + 1)) := by ring
      have : 0 ≤ (I' - I) * (N * N * (beta + 1) * (beta + 1)) := by
        apply mul_nonneg (by linarith)
        have : 0 ≤ beta + 1 := by linarith
        positivity
      linarith
  · intro I hI
    refine ⟨?_, hle I hI⟩
    unfold expReach
    split
    · exact hN.le
    · have : 0 ≤ beta + 1 := by linarith
      exact div_nonneg (mul_nonneg (mul_nonneg hN.le hI) this) (hden I hI).le
  · unfold expReach
    rw [if_neg (by
      have : 0 < (beta + 1) * N := mul_pos (by linarith) hN
      linarith)]
    simp
  · intro I hI
    unfold expReach
    rw [if_pos hI]

/-- **C41 (meaning).** The formula is the population times the probability of being reached: a user
has `n ≥ 1` impressions with probability `(1 - p) * p ^ (n - 1)`, where `p = beta / (beta + 1)`, and
each is shown with probability `q = I / ((beta + 1) * N)`. -/
theorem C41_series (I N beta : ℚ) (hN : 0 < N) (hb : 0 ≤ beta) (hI : 0 ≤ I)
    (hsat : I < (beta + 1) * N) :
    HasSum (fun n : ℕ => (1 - (1 - (I : ℝ) / ((beta + 1) * N)) ^ (n + 1)) *
      ((1 - (beta : ℝ) / (beta + 1)) * ((beta : ℝ) / (beta + 1)) ^ n))
      (((expReach I N beta : ℚ) : ℝ) / N) := by
  have hN' : (0 : ℝ) < N := by exact_mod_cast hN
  have hb' : (0 : ℝ) ≤ beta := by exact_mod_cast hb
  have hI' : (0 : ℝ) ≤ I := by exact_mod_cast hI
  have hsat' : (I : ℝ) < (beta + 1) * N := by exact_mod_cast hsat
  have hval : ((expReach I N beta : ℚ) : ℝ) =
      (N : ℝ) * I * (beta + 1) / (N + beta * (N + I)) := by
    unfold expReach
    rw [if_neg (not_le.2 hsat)]
    push_cast
    ring
  rw [hval]
  generalize (N : ℝ) = n at *
  generalize (beta : ℝ) = b at *
  generalize (I : ℝ) = i at *
  have hb1 : 0 < b + 1 := by linarith
  have hp0 : 0 ≤ b / (b + 1) := div_nonneg hb' hb1.le
  have hp1 : b / (b + 1) < 1 := by rw [div_lt_one hb1]; linarith
  have hq1 : i / ((b + 1) * n) < 1 := by rw [div_lt_one (mul_pos hb1 hN')]; exact hsat'
  have hq0 : 0 ≤ i / ((b + 1) * n) := div_nonneg hI' (mul_pos hb1 hN').le
  set p := b / (b + 1) with hp
  set q := i / ((b + 1) * n) with hq
  have hr0 : 0 ≤ (1 - q) * p := mul_nonneg (by linarith) hp0
  have hr1 : (1 - q) * p < 1 := by nlinarith
  have h1 := (hasSum_geometric_of_lt_one hp0 hp1).mul_left (1 - p)
  have h2 := (hasSum_geometric_of_lt_one hr0 hr1).mul_left ((1 - p) * (1 - q))
  have h3 := h1.sub h2
  have hfun : (fun k : ℕ => (1 - (1 - q) ^ (k + 1)) * ((1 - p) * p ^ k)) =
      fun k : ℕ => (1 - p) * p ^ k - (1 - p) * (1 - q) * ((1 - q) * p) ^ k := by
    funext k
    rw [mul_pow, pow_succ]
    ring
  have hpe : 1 - p = 1 / (b + 1) := by rw [hp]; field_simp; ring
  have hne1 : 1 - p ≠ 0 := by rw [hpe]; positivity
  have hne2 : 1 - (1 - q) * p ≠ 0 := by linarith
  have hden : 0 < n + b * (n + i) := by positivity
  have hkey : 1 - (1 - q) * p = (n + b * (n + i)) / (n * (b + 1) ^ 2) := by
    rw [hp, hq]; field_simp; ring
  have hvalue : n * i * (b + 1) / (n + b * (n + i)) / n =
      (1 - p) * (1 - p)⁻¹ - (1 - p) * (1 - q) * (1 - (1 - q) * p)⁻¹ := by
    have e : (1 - p) * (1 - p)⁻¹ - (1 - p) * (1 - q) * (1 - (1 - q) * p)⁻¹ =
        q / (1 - (1 - q) * p) := by
      rw [mul_inv_cancel₀ hne1, ← div_eq_mul_inv, eq_div_iff hne2, sub_mul, div_mul_cancel₀ _ hne2]
      ring
    rw [e, hkey, hq]
    have h4 := hden.ne'
    have h5 := hN'.ne'
    have h6 := hb1.ne'
    field_simp
  rw [hfun, hvalue]
  exact h3

/-- 100 impressions reach 50 of 80 people at rate 4. -/
example : expBeta 100 80 50 = 4 ∧ expReach 100 80 4 = 50 ∧
    (0 : ℚ) < 100 * 50 - 80 * (100 - 50) := by decide +kernel

/-- A mean of 4 impressions leaves room for 100 impressions with reach 50. -/
example : expNFromBeta 100 50 3 = .ok 75 ∧ expReach 100 75 3 = 50 ∧
    (100 : ℚ) - 50 ≤ 3 * 50 := by decide +kernel

/-- The population estimated from 100 impressions and reach 50. -/
example : expN 100 50 = .ok (200 / 3) ∧ expBeta 100 (200 / 3) 50 = 2 ∧
    (50 : ℚ) + 1 / 1000 ≤ 100 := by decide +kernel

/-- Half of the saturation point reaches two thirds. -/
example : expReach 50 50 1 = 100 / 3 ∧ expReach 100 50 1 = 50 ∧ expReach 1000 50 1 = 50 := by
  decide +kernel

/-! ## C72 -/

theorem expBeta_nonneg {I N R : ℚ} (hN : 0 ≤ N) (hR : R ≤ I) : 0 ≤ expBeta I N R := by
  unfold expBeta
  split
  · norm_num
  · rename_i h
    exact div_nonneg (mul_nonneg hN (by linarith)) (not_le.1 h).le

/-- The loop comes to an end within the bound, and the inventory is then large enough. -/
theorem expLoop_done {I R : ℚ} (hRI : R ≤ I) : ∀ (fuel : Nat) (N beta : ℚ), 1 ≤ N → 0 ≤ beta →
    I ≤ N + (fuel : ℚ) / 10 →
    1 ≤ (expLoop I R fuel N beta).1 ∧ 0 ≤ (expLoop I R fuel N beta).2 ∧
      I ≤ (expLoop I R fuel N beta).1 * ((expLoop I R fuel N beta).2 + 1) := by
  intro fuel
  induction fuel with
  | zero =>
    intro N beta hN hb h
    simp only [expLoop]
    refine ⟨hN, hb, ?_⟩
    simp at h
    nlinarith
  | succ fuel ih =>
    intro N beta hN hb h
    unfold expLoop
    split
    · have h1 : max 1 (11 / 10 * N) = 11 / 10 * N := max_eq_right (by linarith)
      simp only [h1]
      apply ih
      · linarith
      · exact expBeta_nonneg (by linarith) hRI
      · push_cast at h
        linarith
    · rename_i h1
      exact ⟨hN, hb, not_lt.1 h1⟩

/-- Whether or not the loop is entered. -/
theorem expLoop_cases {I R : ℚ} (hRI : R ≤ I) (N beta : ℚ) :
    (I ≤ N * (beta + 1) ∧ expLoop I R (10 * ⌈I⌉₊ + 3) N beta = (N, beta)) ∨
    (N * (beta + 1) < I ∧ 1 ≤ (expLoop I R (10 * ⌈I⌉₊ + 3) N beta).1 ∧
      0 ≤ (expLoop I R (10 * ⌈I⌉₊ + 3) N beta).2 ∧
      I ≤ (expLoop I R (10 * ⌈I⌉₊ + 3) N beta).1 *
        ((expLoop I R (10 * ⌈I⌉₊ + 3) N beta).2 + 1)) := by
  by_cases h : N * (beta + 1) < I
  · right
    refine ⟨h, ?_⟩
    rw [show 10 * ⌈I⌉₊ + 3 = (10 * ⌈I⌉₊ + 2) + 1 by omega]
    unfold expLoop
    rw [if_pos h]
    apply expLoop_done hRI
    · exact le_max_left _ _
    · exact expBeta_nonneg (le_trans zero_le_one (le_max_left _ _)) hRI
    · have h1 : (1 : ℚ) ≤ max 1 (11 / 10 * N) := le_max_left _ _
      have h2 : I ≤ (⌈I⌉₊ : ℚ) := Nat.le_ceil I
      push_cast
      linarith
  · left
    refine ⟨not_lt.1 h, ?_⟩
    rw [show 10 * ⌈I⌉₊ + 3 = (10 * ⌈I⌉₊ + 2) + 1 by omega]
    unfold expLoop
    rw [if_neg h]

theorem fitImpressions_eq (i m : ℚ) : fitImpressions i (some m) = max i m := by
  unfold fitImpressions
  simp only
  split
  · rename_i h; rw [max_eq_right h.le]
  · rename_i h; rw [max_eq_left (not_lt.1 h)]

theorem fitExponentialPoisson_eq {point : ReachPoint} {i r : ℚ} (m : ℚ)
    (hi : point.impressions[0]? = some i) (hr : point.kplusReaches[0]? = some r) :
    fitExponentialPoisson point (some m) =
      (expStart point.frequencies.length (max i m) r).map
        (fun Nb => expLoop (max i m) r (10 * ⌈max i m⌉₊ + 3) Nb.1 Nb.2) := by
  unfold fitExponentialPoisson
  have h1 : pyIndex point.impressions 0 = .ok i := (pyIndex_ok_iff _ 0 _).2 hi
  have h2 := (reachPoint_reach_one point r).2 hr
  simp only [h1, h2, bind, Except.bind, fitImpressions_eq]
  cases expStart point.frequencies.length (max i m) r <;> rfl

/-- What the start values are. -/
theorem expStart_spec (n : Nat) {I R : ℚ} (hI : 0 < I) (hR : 0 ≤ R) (hRI : R ≤ I)
    (hne : 1 < n → min R (I - 1) ≠ 0) :
    ∃ N b, expStart n I R = .ok (N, b) ∧ 0 ≤ N ∧ (0 ≤ b ∨ N * (b + 1) ≤ 0) := by
  unfold expStart
  by_cases hn : n > 1
  · rw [if_pos hn, if_neg (hne hn)]
    have hd := hne hn
    set d := min R (I - 1) with hdd
    have hdI : d ≤ I - 1 := min_le_right _ _
    have hdR : d ≤ R := min_le_left _ _
    set b := (I / d - 1) * (6 / 5) with hb
    have hb0 : 0 ≤ b ∨ b ≤ -6 / 5 := by
      rcases lt_or_gt_of_ne hd with h | h
      · right
        have : I / d ≤ 0 := div_nonpos_of_nonneg_of_nonpos hI.le h.le
        rw [hb]; linarith
      · left
        have : 1 ≤ I / d := by rw [le_div_iff₀ h]; linarith
        rw [hb]; nlinarith
    unfold expNFromBeta
    by_cases h1 : I < R + 1 / 1000
    · simp only [if_pos h1, bind, Except.bind, pure, Except.pure]
      refine ⟨100 * R, b, rfl, by linarith, ?_⟩
      rcases hb0 with h | h
      · exact Or.inl h
      · right; nlinarith
    · have hIR : 0 < I - R := by linarith [not_lt.1 h1]
      have hb1 : b + 1 ≠ 0 := by rcases hb0 with h | h <;> intro h' <;> linarith
      simp only [if_neg h1, bind, Except.bind, pure, Except.pure]
      rw [if_neg (mul_ne_zero hb1 (by linarith))]
      have hform : -(I * b * R) / ((b + 1) * (R - I)) = I * b * R / ((b + 1) * (I - R)) := by
        have h3 : (b + 1) * (R - I) = -((b + 1) * (I - R)) := by ring
        rw [h3, neg_div_neg_eq]
      refine ⟨_, b, rfl, ?_, ?_⟩
      · rw [hform]
        rcases hb0 with h | h
        · have : 0 ≤ b + 1 := by linarith
          positivity
        · have h4 : I * b * R ≤ 0 := by nlinarith [mul_nonneg hI.le hR]
          have h5 : (b + 1) * (I - R) ≤ 0 := by nlinarith
          exact div_nonneg_of_nonpos h4 h5
      · rcases hb0 with h | h
        · exact Or.inl h
        · right
          rw [hform]
          have h4 : I * b * R ≤ 0 := by nlinarith [mul_nonneg hI.le hR]
          have h6 : I * b * R / ((b + 1) * (I - R)) * (b + 1) = I * b * R / (I - R) := by
            field_simp
          rw [h6]
          exact div_nonpos_of_nonpos_of_nonneg h4 hIR.le
  · rw [if_neg hn]
    have hN : ∃ N, expN I R = .ok N ∧ 0 ≤ N := by
      unfold expN
      rw [if_neg (by norm_num)]
      by_cases h1 : I < R + 1 / 1000
      · rw [if_pos h1]
        exact ⟨_, rfl, by linarith⟩
      · rw [if_neg h1]
        refine ⟨_, rfl, ?_⟩
        have hIR : 0 < I - R := by linarith [not_lt.1 h1]
        exact div_nonneg (mul_nonneg hR (by linarith)) (by linarith)
    obtain ⟨N, h1, h2⟩ := hN
    simp only [h1, bind, Except.bind, pure, Except.pure]
    exact ⟨N, _, rfl, h2, Or.inl (expBeta_nonneg h2 hRI)⟩

/-- **C72 (terminates).** For every point the class accepts (of non-negative reach) and every minimal
inventory, the start values are found in finitely many rounds unless the mean is undefined; they have
a positive population, a non-negative rate, and an inventory of at least the observed and the minimal
number of impressions. -/
theorem C72_terminates (point : ReachPoint) (i r m : ℚ) (hi : point.impressions[0]? = some i)
    (hr : point.kplusReaches[0]? = some r) (hi0 : 1 / 1000 ≤ i) (hr0 : 0 ≤ r) (hri : r ≤ i)
    (hne : 1 < point.frequencies.length → min r (max i m - 1) ≠ 0) :
    ∃ N b, fitExponentialPoisson point (some m) = .ok (N, b) ∧ 0 < N ∧ 0 ≤ b ∧
      i ≤ N * (b + 1) ∧ m ≤ N * (b + 1) := by
  have hI : 0 < max i m := lt_of_lt_of_le (by linarith) (le_max_left i m)
  have hRI : r ≤ max i m := le_trans hri (le_max_left _ _)
  obtain ⟨N, b, h1, h2, h3⟩ := expStart_spec point.frequencies.length hI hr0 hRI hne
  rw [fitExponentialPoisson_eq m hi hr, h1]
  simp only [Except.map]
  rcases expLoop_cases hRI N b with ⟨h4, h5⟩ | ⟨h4, h5, h6, h7⟩
  · rw [h5]
    have hpos : 0 < N * (b + 1) := lt_of_lt_of_le hI h4
    refine ⟨N, b, rfl, ?_, ?_, le_trans (le_max_left _ _) h4, le_trans (le_max_right _ _) h4⟩
    · rcases eq_or_lt_of_le h2 with h | h
      · rw [← h] at hpos; simp at hpos
      · exact h
    · rcases h3 with h | h
      · exact h
      · exact absurd hpos (not_lt.2 h)
  · exact ⟨_, _, rfl, lt_of_lt_of_le zero_lt_one h5, h6, le_trans (le_max_left _ _) h7, le_trans (le_max_right _ _) h7⟩

/-- **C72 (failure).** With at least three frequencies the fit fails if nobody was reached (and at
least one impression was shown) or if the impressions considered are exactly one. -/
theorem C72_failure (point : ReachPoint) (i r m : ℚ) (hi : point.impressions[0]? = some i)
    (hr : point.kplusReaches[0]? = some r) (hf : 1 < point.frequencies.length)
    (h0 : (r = 0 ∧ 1 ≤ max i m) ∨ (max i m = 1 ∧ 0 ≤ r)) :
    fitExponentialPoisson point (some m) = .error .zeroDivision := by
  rw [fitExponentialPoisson_eq m hi hr]
  unfold expStart
  rw [if_pos hf, if_pos (by
    rcases h0 with ⟨rfl, h⟩ | ⟨h, h'⟩
    · exact min_eq_left (by linarith)
    · rw [h]; simpa using h')]
  rfl

/-- **C72 (full statement, false).** "The fit returned by this function is guaranteed to match the 1+
reach of the input point": the reach formula at the point's impressions gives the point's reach. -/
def C72_full : Prop :=
  ∀ (point : ReachPoint) (i r m N b : ℚ), point.impressions[0]? = some i →
    point.kplusReaches[0]? = some r → 1 / 1000 ≤ i → 0 < r → r ≤ i →
    fitExponentialPoisson point (some m) = .ok (N, b) → expReach i N b = r

/-- **C72 (match, partial).** If more impressions than people are considered (and more than one), the
fit matches the reach of the point at the *larger* of the point's impressions and the minimal
inventory; with a minimal inventory not above the point's impressions this is the documented match.
Missing: a larger minimal inventory (where the match is at the wrong number of impressions) and as
many impressions as people. -/
theorem C72_match_partial (point : ReachPoint) (i r m : ℚ) (hi : point.impressions[0]? = some i)
    (hr : point.kplusReaches[0]? = some r) (hr0 : 0 < r) (hri : r + 1 / 1000 ≤ max i m)
    (hone : 1 < point.frequencies.length → 1 < max i m) :
    ∃ N b, fitExponentialPoisson point (some m) = .ok (N, b) ∧ r ≤ N ∧ 0 ≤ b ∧
      expReach (max i m) N b = r := by
  generalize hI : max i m = I at *
  have hI0 : 0 < I := by linarith
  have hRI : r ≤ I := by linarith
  rw [fitExponentialPoisson_eq m hi hr, hI]
  unfold expStart
  by_cases hf : point.frequencies.length > 1
  · rw [if_pos hf]
    have h1 := hone hf
    have hd : 0 < min r (I - 1) := lt_min hr0 (by linarith)
    rw [if_neg hd.ne']
    set d := min r (I - 1) with hdd
    have hdr : d ≤ r := min_le_left _ _
    have hmu : I / r ≤ I / d := div_le_div_of_nonneg_left hI0.le hd hdr
    have hmu1 : 1 ≤ I / r := by rw [le_div_iff₀ hr0]; linarith
    have hb : I - r ≤ (I / d - 1) * (6 / 5) * r := by
      have h2 : I / r * r = I := div_mul_cancel₀ _ hr0.ne'
      nlinarith
    obtain ⟨N, h3, h4, h5, h6⟩ := C41_N_from_beta I r ((I / d - 1) * (6 / 5)) hr0 hri hb
    simp only [h3, bind, Except.bind, pure, Except.pure, Except.map]
    rcases expLoop_cases hRI N ((I / d - 1) * (6 / 5)) with ⟨-, h7⟩ | ⟨h7, -⟩
    · rw [h7]
      exact ⟨N, _, rfl, h4, by nlinarith, h6⟩
    · linarith
  · rw [if_neg hf]
    obtain ⟨N, h3, h4, -, h5, h6⟩ := C41_N I r (3 / 2) (by norm_num) hr0 hri
    simp only [h3, bind, Except.bind, pure, Except.pure, Except.map]
    rcases expLoop_cases hRI N (expBeta I N r) with ⟨-, h7⟩ | ⟨h7, -⟩
    · rw [h7]
      exact ⟨N, _, rfl, h4, expBeta_nonneg (by linarith) hRI, h6⟩
    · linarith

/-- **C72 (extrapolation).** With a minimal inventory above the point's impressions the fit never
predicts more than the *observed* reach for any number of impressions up to that inventory, however
many more impressions are bought. -/
theorem C72_extrapolation (point : ReachPoint) (i r m : ℚ) (hi : point.impressions[0]? = some i)
    (hr : point.kplusReaches[0]? = some r) (hr0 : 0 < r) (him : i ≤ m) (hri : r + 1 / 1000 ≤ m)
    (hone : 1 < point.frequencies.length → 1 < m) :
    ∃ N b, fitExponentialPoisson point (some m) = .ok (N, b) ∧
      ∀ J, 0 ≤ J → J ≤ m → expReach J N b ≤ r := by
  have hm : max i m = m := max_eq_right him
  obtain ⟨N, b, h1, h2, h3, h4⟩ := C72_match_partial point i r m hi hr hr0 (by rw [hm]; exact hri)
    (by rw [hm]; exact hone)
  refine ⟨N, b, h1, ?_⟩
  intro J hJ0 hJ
  rw [hm] at h4
  rw [← h4]
  exact (C41_curve N b (by linarith) h3).1 J m hJ0 hJ

/-- 100 impressions reached 50 people. -/
def exExpPoint : ReachPoint :=
  { impressions := [100], kplusReaches := [50], frequencies := [], spends := some [10],
    universeSize? := none }

/-- 50 impressions reached 50 people; three frequencies are known. -/
def exExpPoint3 : ReachPoint :=
  { impressions := [50], kplusReaches := [50, 0, 0], frequencies := [50, 0], spends := none,
    universeSize? := none }

/-- Fitted to its own impressions, the point is matched. -/
example : fitExponentialPoisson exExpPoint (some 11) = .ok (200 / 3, 2) ∧
    expReach 100 (200 / 3) 2 = 50 := by decide +kernel

/-- Fitted for a query of 199 impressions, the predicted reach at 100 impressions is too low. -/
example : fitExponentialPoisson exExpPoint (some 200) = .ok (500 / 9, 5) ∧
    expReach 100 (500 / 9) 5 = 40 ∧ expReach 200 (500 / 9) 5 = 50 := by decide +kernel

example : exExpPoint.impressions[0]? = some 100 ∧ exExpPoint.kplusReaches[0]? = some 50 ∧
    exExpPoint3.impressions[0]? = some 50 ∧ exExpPoint3.kplusReaches[0]? = some 50 := by
  decide +kernel

/-- A point for which the loop is entered: nobody was reached by 2000 impressions. -/
example : fitExponentialPoisson { exExpPoint with impressions := [2000], kplusReaches := [0] }
    (some 1) = .ok (214358881 / 100000000, 1000) := by decide +kernel

theorem C72_full_is_false : ¬ C72_full := by
  intro h
  have := h exExpPoint 100 50 200 (500 / 9) 5 (by decide +kernel) (by decide +kernel)
    (by norm_num) (by norm_num) (by norm_num) (by decide +kernel)
  revert this
  decide +kernel

/-- **C72.** The documented match fails also without a minimal inventory, for as many impressions as
people. -/
theorem C72_all_distinct : ∃ N b, fitExponentialPoisson exExpPoint3 none = .ok (N, b) ∧
    expReach 50 N b < 50 := by
  refine ⟨5000, 6 / 245, by decide +kernel, by decide +kernel⟩

end Verif
