import Verif.Model.KInflatedObjective
import Verif.Props.KInflatedFit

/-!
# C87: the fit criterion of the k-inflated gamma-Poisson model
-/

namespace Verif

open Finset KInflated

/-! ## Specification -/

/-- The number of people that the fit `f` expects to see exactly `k` of the `I` impressions shown, or
at least `k` for the last bucket of a histogram of length `len`. -/
def expectedAt (f : Fitted) (I : ℚ) (len k : Nat) : ℚ :=
  if k < len then
    f.maxReach * (shownAtLeast f.dist.pmf k (share f I) - shownAtLeast f.dist.pmf (k + 1) (share f I))
  else f.maxReach * shownAtLeast f.dist.pmf k (share f I)

/-- The documented chi-squared distance, with 10⁻⁶ added to the denominators. -/
def misfit (h : List ℚ) (I : ℚ) (f : Fitted) : ℚ :=
  ∑ j ∈ Finset.range h.length, (expectedAt f I h.length (j + 1) - h.getD j 0) ^ 2 /
    (expectedAt f I h.length (j + 1) + 1 / 1000000)

/-- The sum of the squares of a histogram. -/
def sumSquares (h : List ℚ) : ℚ := ∑ j ∈ Finset.range h.length, h.getD j 0 ^ 2

/-- The criterion: the distance (or the sum of squares if the inventory is used up) plus the square of
what the inventory lacks. -/
def fitScore (h : List ℚ) (I Imin : ℚ) (f : Fitted) : ℚ :=
  (if inventory f ≤ I then sumSquares h else misfit h I f) + (max 0 (Imin - inventory f)) ^ 2

/-- The admissible parameters. -/
def InBounds (h : List ℚ) (alpha beta N : ℚ) (a : List ℚ) : Prop :=
  (1 / 10000 ≤ alpha ∧ alpha ≤ 1000) ∧ (1 / 10000 ≤ beta ∧ beta ≤ 10000) ∧
  (h.sum ≤ N ∧ N ≤ 100 * h.sum) ∧ (∀ x ∈ a, 0 ≤ x ∧ x ≤ 1) ∧ a.sum ≤ 1

/-- What is assumed of scipy's negative binomial probabilities: they are probabilities for all
admissible parameters. -/
def GpOk (gp : ℚ → ℚ → Nat → ℚ) : Prop :=
  ∀ alpha beta, 1 / 10000 ≤ alpha → alpha ≤ 1000 → 1 / 10000 ≤ beta → beta ≤ 10000 →
    IsTail (gp alpha beta)

/-- What is assumed of scipy's Nelder-Mead method: the number of parameters is kept, and the result is
not worse than the start. -/
def Descends (minimize : (List ℚ → ℚ) → List ℚ → List ℚ) : Prop :=
  ∀ f p, (minimize f p).length = p.length ∧ f (minimize f p) ≤ f p

/-! ## The distance -/

theorem sumSquares_eq (h : List ℚ) : (h.map (fun x => x ^ 2)).sum = sumSquares h := by
  unfold sumSquares
  rw [list_sum_getD, List.length_map]
  apply Finset.sum_congr rfl
  intro j hj
  have := Finset.mem_range.1 hj
  rw [List.getD_eq_getElem _ _ (by simpa using this), List.getElem_map,
    List.getD_eq_getElem _ _ this]

theorem sumSquares_nonneg (h : List ℚ) : 0 ≤ sumSquares h :=
  Finset.sum_nonneg (fun _ _ => sq_nonneg _)

theorem expectedAt_nonneg {f : Fitted} (hf : GoodFit f) {I : ℚ} (hI : 0 ≤ I) (len k : Nat) :
    0 ≤ expectedAt f I len k := by
  obtain ⟨h0, h1⟩ := share_bounds hf hI
  unfold expectedAt
  split
  · apply mul_nonneg hf.1.le
    have := shownAtLeast_antitone hf.2.1.1 h0 h1 (show k ≤ k + 1 by omega)
    linarith
  · exact mul_nonneg hf.1.le (shownAtLeast_nonneg hf.2.1.1 h0 h1 _)

theorem misfit_nonneg {f : Fitted} (hf : GoodFit f) {I : ℚ} (hI : 0 ≤ I) (h : List ℚ) :
    0 ≤ misfit h I f := by
  apply Finset.sum_nonneg
  intro j _
  have := expectedAt_nonneg hf hI h.length (j + 1)
  positivity

/-- **C87 (distance).** For every non-empty histogram, non-negative number of impressions and fit,
`_chi2_distance` raises nothing and returns the documented distance, or the sum of the squares of the
histogram if the impressions use up the inventory. -/
theorem C87_distance (h : List ℚ) (hh : h ≠ []) (I : ℚ) (hI : 0 ≤ I) (f : Fitted) (hf : GoodFit f) :
    chi2Distance h I f.maxReach f.dist =
      .ok (if inventory f ≤ I then sumSquares h else misfit h I f) := by
  have hinv : f.maxReach * expectedValue f.dist.pmf = inventory f := maxImpressions_eq f
  have hpos := lt_of_lt_of_le hf.1 (inventory_ge hf)
  unfold chi2Distance
  simp only [hinv]
  by_cases hc : inventory f ≤ I
  · rw [if_pos hc, if_pos hc, sumSquares_eq]
  · rw [if_neg hc, if_neg hc]
    have hs : I / inventory f = share f I := by
      unfold share
      rw [min_eq_left]
      rw [div_le_one hpos]; linarith [not_le.1 hc]
    obtain ⟨n, hn⟩ : ∃ n, h.length = n + 1 :=
      ⟨h.length - 1, by have := List.length_pos_iff.2 hh; omega⟩
    have hk : kplusreach f.dist.pmf h.length (share f I) =
        .ok (shownAtLeast f.dist.pmf h.length (share f I)) := by
      unfold kplusreach
      rw [if_neg (by omega), List.range_eq_range', kreach_range']
      simp only [bind, Except.bind, pure, Except.pure]
      rw [sum_shownExactly, shownAtLeast_zero hf.2.1.2, Nat.zero_add]
      congr 1
      ring
    have hbar : ((List.range' 1 (h.length - 1)).map (fun k => shownExactly f.dist.pmf k (share f I))).map
        (fun x => f.maxReach * x) ++ [f.maxReach * shownAtLeast f.dist.pmf h.length (share f I)] =
        (List.range h.length).map (fun j : Nat => expectedAt f I h.length (j + 1)) := by
      rw [hn, List.range_succ, List.map_append, List.map_map, Nat.add_sub_cancel,
        List.range'_eq_map_range, List.map_map]
      congr 1
      · apply List.map_congr_left
        intro j hj
        have := List.mem_range.1 hj
        simp only [Function.comp_apply, expectedAt]
        rw [if_pos (by omega), shownExactly_eq, show 1 + j = j + 1 by omega]
      · simp [expectedAt]
    rw [hs]
    simp only [kreach_range', hk, bind, Except.bind]
    rw [hbar, if_neg]
    · congr 1
      unfold misfit
      rw [list_sum_getD]
      have hl : (List.zipWith (fun x y => (x - y) ^ 2 / (x + 1 / 1000000))
          ((List.range h.length).map (fun j : Nat => expectedAt f I h.length (j + 1))) h).length =
          h.length := by simp
      rw [hl]
      apply Finset.sum_congr rfl
      intro j hj
      have hj := Finset.mem_range.1 hj
      rw [List.getD_eq_getElem _ _ (by rw [hl]; exact hj), List.getElem_zipWith, List.getElem_map,
        List.getElem_range, List.getD_eq_getElem _ _ hj]
    · intro hany
      rw [List.any_eq_true] at hany
      obtain ⟨x, hx, hx'⟩ := hany
      obtain ⟨j, -, rfl⟩ := List.mem_map.1 hx
      have := expectedAt_nonneg hf hI h.length (j + 1)
      have := of_decide_eq_true hx'
      linarith

/-- **C87 (distance zero).** While there is inventory left, the distance is zero exactly if the expected
histogram is the actual one; it is never negative. -/
theorem C87_distance_zero (h : List ℚ) (hh : h ≠ []) (I : ℚ) (hI : 0 ≤ I) (f : Fitted)
    (hf : GoodFit f) (hinv : I < inventory f) :
    ∃ v, chi2Distance h I f.maxReach f.dist = .ok v ∧ 0 ≤ v ∧
      (v = 0 ↔ ∀ j, j < h.length → expectedAt f I h.length (j + 1) = h.getD j 0) := by
  refine ⟨_, C87_distance h hh I hI f hf, ?_, ?_⟩
  · rw [if_neg (not_le.2 hinv)]
    exact misfit_nonneg hf hI h
  · rw [if_neg (not_le.2 hinv)]
    unfold misfit
    rw [Finset.sum_eq_zero_iff_of_nonneg]
    · constructor
      · intro h0 j hj
        have h1 := h0 j (Finset.mem_range.2 hj)
        have h2 := expectedAt_nonneg hf hI h.length (j + 1)
        rcases div_eq_zero_iff.1 h1 with h3 | h3
        · have := pow_eq_zero_iff (n := 2) (by norm_num) |>.1 h3
          linarith
        · linarith
      · intro h0 j hj
        rw [h0 j (Finset.mem_range.1 hj), sub_self]
        simp
    · intro j _
      have := expectedAt_nonneg hf hI h.length (j + 1)
      positivity

/-! ## The objective function -/

theorem goodFit_of_inBounds {gp : ℚ → ℚ → Nat → ℚ} (hg : GpOk gp) {M : Nat} (hM : 2 ≤ M)
    {h : List ℚ} (hh : 0 < h.sum) {alpha beta N : ℚ} {a : List ℚ} (hb : InBounds h alpha beta N a) :
    GoodFit ⟨N, Dist.new M gp alpha beta a⟩ := by
  obtain ⟨⟨h1, h2⟩, ⟨h3, h4⟩, ⟨h5, -⟩, h6, -⟩ := hb
  exact (fitInv_new hM (lt_of_lt_of_le hh h5) (hg _ _ h1 h2 h3 h4) (fun x hx => (h6 x hx).1)).1.1

theorem inBounds_iff (h : List ℚ) (alpha beta N : ℚ) (a : List ℚ) :
    InBounds h alpha beta N a ↔
      ¬ ((alpha :: beta :: N :: a).zip (paramBounds h a.length)).any
          (fun x => x.1 < x.2.1 ∨ x.2.2 < x.1) = true ∧
      ¬ (a.length ≠ 0 ∧ 1 < a.sum) := by
  have hz : ∀ l : List ℚ, (∀ x ∈ l.zip (List.replicate l.length ((0 : ℚ), (1 : ℚ))),
      ¬ (x.1 < x.2.1 ∨ x.2.2 < x.1)) ↔ ∀ x ∈ l, 0 ≤ x ∧ x ≤ 1 := by
    intro l
    induction l with
    | nil => simp
    | cons y l ih =>
      rw [List.length_cons, List.replicate_succ, List.zip_cons_cons, List.forall_mem_cons, ih,
        List.forall_mem_cons]
      simp
  have h1 : ¬ ((alpha :: beta :: N :: a).zip (paramBounds h a.length)).any
      (fun x => x.1 < x.2.1 ∨ x.2.2 < x.1) = true ↔
      ∀ x ∈ (alpha :: beta :: N :: a).zip (paramBounds h a.length),
        ¬ (x.1 < x.2.1 ∨ x.2.2 < x.1) := by
    rw [List.any_eq_true]
    push Not
    simp
  rw [h1]
  unfold paramBounds
  simp only [List.cons_append, List.nil_append, List.zip_cons_cons, List.forall_mem_cons]
  rw [hz]
  unfold InBounds
  have h2 : a.sum ≤ 1 ↔ ¬ (a.length ≠ 0 ∧ 1 < a.sum) := by
    by_cases hl : a.length = 0
    · rw [List.length_eq_zero_iff.1 hl]; simp
    · simp [hl]
  rw [h2]
  simp only [not_or, not_lt, and_assoc]

theorem shortfall_eq (x Imin Imax : ℚ) :
    (if Imax < Imin then (pure (x + (Imin - Imax) ^ 2) : Except PyErr ℚ) else pure x) =
      .ok (x + (max 0 (Imin - Imax)) ^ 2) := by
  split
  · rename_i h
    rw [max_eq_right (by linarith)]; rfl
  · rename_i h
    rw [max_eq_left (by linarith [not_lt.1 h])]
    simp [pure, Except.pure]

/-- **C87 (objective).** The function given to the optimizer raises nothing: at admissible parameters
it is the criterion, at all others the sum of the squares of the histogram and of the minimal
inventory. -/
theorem C87_objective (gp : ℚ → ℚ → Nat → ℚ) (hg : GpOk gp) (M : Nat) (hM : 2 ≤ M) (h : List ℚ)
    (hh : 0 < h.sum) (I Imin : ℚ) (hI : 0 ≤ I) (alpha beta N : ℚ) (a : List ℚ) :
    (InBounds h alpha beta N a →
      objective gp M h I Imin (paramBounds h a.length) (alpha :: beta :: N :: a) =
        .ok (fitScore h I Imin ⟨N, Dist.new M gp alpha beta a⟩)) ∧
    (¬ InBounds h alpha beta N a →
      objective gp M h I Imin (paramBounds h a.length) (alpha :: beta :: N :: a) =
        .ok (sumSquares h + Imin ^ 2)) := by
  constructor
  · intro hb
    obtain ⟨h1, h2⟩ := (inBounds_iff h alpha beta N a).1 hb
    have hf := goodFit_of_inBounds hg hM hh hb
    have hne : h ≠ [] := by rintro rfl; simp at hh
    have hd := C87_distance h hne I hI _ hf
    unfold objective
    dsimp only
    rw [if_neg h1, if_neg h2]
    simp only at hd
    simp only [hd, bind, Except.bind]
    have hinv : N * expectedValue (Dist.new M gp alpha beta a).pmf =
        inventory ⟨N, Dist.new M gp alpha beta a⟩ :=
      maxImpressions_eq ⟨N, Dist.new M gp alpha beta a⟩
    rw [hinv, shortfall_eq]
    rfl
  · intro hb
    rw [inBounds_iff] at hb
    unfold objective
    dsimp only
    by_cases h1 : ((alpha :: beta :: N :: a).zip (paramBounds h a.length)).any
        (fun x => x.1 < x.2.1 ∨ x.2.2 < x.1) = true
    · rw [if_pos h1, sumSquares_eq]
    · rw [if_neg h1]
      have h2 : a.length ≠ 0 ∧ 1 < a.sum := by
        by_contra h2
        exact hb ⟨h1, h2⟩
      rw [if_pos h2, sumSquares_eq]

/-! ## Rounds -/

theorem scaleDown_of_le {a : List ℚ} (ha : a.sum ≤ 1) : scaleDown a = a := by
  unfold scaleDown
  rw [if_neg (not_lt.2 ha)]

theorem pmf_length {M : Nat} {gp : ℚ → ℚ → Nat → ℚ} {alpha beta : ℚ} {a : List ℚ}
    (hM : a.length + 1 < M) : (Dist.new M gp alpha beta a).pmf.length = M := by
  unfold Dist.new
  simp only [distPmf_eq]
  rw [List.length_append, List.length_dropLast, rawPmf_length, scaleDown_length, List.length_singleton]
  omega

theorem pmf_sum (M : Nat) (gp : ℚ → ℚ → Nat → ℚ) (alpha beta : ℚ) (a : List ℚ) :
    (Dist.new M gp alpha beta a).pmf.sum = 1 := by
  unfold Dist.new
  simp only [distPmf_eq]
  rw [List.sum_append, List.sum_singleton]; ring

theorem pmf_zero {M : Nat} {gp : ℚ → ℚ → Nat → ℚ} {alpha beta : ℚ} {a : List ℚ}
    (hM : a.length + 1 < M) : (Dist.new M gp alpha beta a).pmf.getD 0 0 = 0 := by
  unfold Dist.new
  simp only [distPmf_eq]
  have hl := rawPmf_length M (gp alpha beta) (scaleDown a)
  rw [scaleDown_length] at hl
  rw [List.getD_append _ _ _ _ (by rw [List.length_dropLast]; omega),
    List.getD_eq_getElem _ _ (by rw [List.length_dropLast]; omega), List.getElem_dropLast]
  simp [rawPmf]

/-- Two lists of the same length and sum that agree everywhere but at the end are equal. -/
theorem ext_of_sum {l m : List ℚ} {n : Nat} (hl : l.length = n + 1) (hm : m.length = n + 1)
    (hs : l.sum = m.sum) (h : ∀ i, i < n → l.getD i 0 = m.getD i 0) : l = m := by
  have h1 := list_sum_getD l
  have h2 := list_sum_getD m
  rw [hl, Finset.sum_range_succ] at h1
  rw [hm, Finset.sum_range_succ] at h2
  have h3 : ∑ i ∈ Finset.range n, l.getD i 0 = ∑ i ∈ Finset.range n, m.getD i 0 :=
    Finset.sum_congr rfl (fun i hi => h i (Finset.mem_range.1 hi))
  apply List.ext_getElem (by omega)
  intro i hi hi'
  have h4 : l.getD i 0 = m.getD i 0 := by
    by_cases hc : i < n
    · exact h i hc
    · have : i = n := by omega
      subst this
      linarith
  rwa [List.getD_eq_getElem _ _ hi, List.getD_eq_getElem _ _ hi'] at h4

/-- **C87 (one more inflated value).** Appending the current probability of the next frequency to the
inflation vector, as the code does before every new optimization, changes no probability. -/
theorem C87_append (M : Nat) (gp : ℚ → ℚ → Nat → ℚ) (alpha beta : ℚ) (a : List ℚ)
    (hg : IsTail (gp alpha beta)) (ha : ∀ x ∈ a, 0 ≤ x) (hs : a.sum ≤ 1) (hM : a.length + 2 < M) :
    let p := (Dist.new M gp alpha beta a).pmf.getD (a.length + 1) 0
    (Dist.new M gp alpha beta (a ++ [p])).pmf = (Dist.new M gp alpha beta a).pmf ∧
      0 ≤ p ∧ a.sum + p ≤ 1 := by
  intro p
  obtain ⟨hd, -, -⟩ := C39_distribution M (by omega) gp alpha beta a hg ha
  have hp0 : 0 ≤ p := getD_nonneg hd.1 _
  obtain ⟨v1, v2, v3⟩ := C39_values M gp alpha beta a (by omega)
  have hsg : (∑ i ∈ Finset.range a.length, a.getD i 0) = a.sum := (list_sum_getD a).symm
  rw [hsg] at v1 v2
  have hlen : (Dist.new M gp alpha beta a).pmf.length = M := pmf_length (by omega)
  have hps : a.sum + p ≤ 1 := by
    have h1 := hd.2
    rw [list_sum_getD, hlen, show M = (a.length + 2) + (M - (a.length + 2)) by omega,
      Finset.sum_range_add] at h1
    have h2 : 0 ≤ ∑ x ∈ Finset.range (M - (a.length + 2)),
        (Dist.new M gp alpha beta a).pmf.getD (a.length + 2 + x) 0 :=
      Finset.sum_nonneg (fun x _ => getD_nonneg hd.1 _)
    rw [← show M = (a.length + 2) + (M - (a.length + 2)) by omega] at h1
    rw [show a.length + 2 = (a.length + 1) + 1 by omega, Finset.sum_range_succ,
      Finset.sum_range_succ', pmf_zero (by omega)] at h1
    have h3 : ∑ i ∈ Finset.range a.length, (Dist.new M gp alpha beta a).pmf.getD (i + 1) 0 =
        a.sum := by
      rw [← hsg]
      apply Finset.sum_congr rfl
      intro i hi
      rw [v1 i (Finset.mem_range.1 hi), if_neg (not_lt.2 hs)]
    rw [h3] at h1
    have h4 : (Dist.new M gp alpha beta a).pmf.getD (a.length + 1) 0 = p := rfl
    rw [h4] at h1
    linarith
  have hs' : (a ++ [p]).sum = a.sum + p := by simp
  have hl' : (a ++ [p]).length = a.length + 1 := by simp
  obtain ⟨w1, w2, w3⟩ := C39_values M gp alpha beta (a ++ [p]) (by rw [hl']; omega)
  have hsg' : (∑ i ∈ Finset.range (a ++ [p]).length, (a ++ [p]).getD i 0) = a.sum + p := by
    rw [← list_sum_getD, hs']
  rw [hsg'] at w1 w2
  refine ⟨?_, hp0, hps⟩
  have hM1 : M = (M - 1) + 1 := by omega
  apply ext_of_sum (n := M - 1) ((pmf_length (by rw [hl']; omega)).trans hM1) (hlen.trans hM1)
    (by rw [pmf_sum, pmf_sum])
  intro n hn
  by_cases hn0 : n = 0
  · subst hn0
    rw [pmf_zero (by rw [hl']; omega), pmf_zero (by omega)]
  by_cases hn1 : n ≤ a.length
  · obtain ⟨k, rfl⟩ : ∃ k, n = k + 1 := ⟨n - 1, by omega⟩
    rw [v1 k (by omega), w1 k (by rw [hl']; omega), if_neg (not_lt.2 hs), if_neg (not_lt.2 hps),
      List.getD_append _ _ _ _ (by omega)]
  by_cases hn2 : n = a.length + 1
  · subst hn2
    rw [w1 a.length (by rw [hl']; omega), if_neg (not_lt.2 hps),
      List.getD_append_right _ _ _ _ (le_refl _), Nat.sub_self]
    rfl
  · have hnM : n + 1 < M := by omega
    have hg0 := hg.1
    have hg1 := hg.2
    have hsplit : ∑ i ∈ Finset.Icc 1 (a.length + 1), gp alpha beta i =
        ∑ i ∈ Finset.Icc 1 a.length, gp alpha beta i + gp alpha beta (a.length + 1) := by
      rw [sum_Icc_one, sum_Icc_one, Finset.sum_range_succ, add_comm 1 a.length]
    rw [hl'] at w2 w3
    by_cases ht : 1 ≤ ∑ i ∈ Finset.Icc 1 a.length, gp alpha beta i
    · have ht' : 1 ≤ ∑ i ∈ Finset.Icc 1 (a.length + 1), gp alpha beta i := by
        rw [hsplit]
        have := hg0 (a.length + 1) (by omega)
        linarith
      rw [v3 n (by omega) hnM ht, w3 n (by omega) hnM ht']
    · have ht := not_le.1 ht
      have hpv : p = (1 - a.sum) / (1 - ∑ i ∈ Finset.Icc 1 a.length, gp alpha beta i) *
          gp alpha beta (a.length + 1) := by
        have := v2 (a.length + 1) (by omega) (by omega) ht
        rw [if_neg (not_lt.2 hs)] at this
        exact this
      rw [v2 n (by omega) hnM ht, if_neg (not_lt.2 hs)]
      by_cases ht' : 1 ≤ ∑ i ∈ Finset.Icc 1 (a.length + 1), gp alpha beta i
      · rw [w3 n (by omega) hnM ht']
        have hz : gp alpha beta n = 0 := by
          have h1 := hg1 n
          have h2 : ∑ i ∈ Finset.Icc 1 (a.length + 1), gp alpha beta i + gp alpha beta n ≤
              ∑ i ∈ Finset.Icc 1 n, gp alpha beta i := by
            have hnot : n ∉ Finset.Icc 1 (a.length + 1) := by
              rw [Finset.mem_Icc]; omega
            rw [add_comm, ← Finset.sum_insert hnot]
            apply Finset.sum_le_sum_of_subset_of_nonneg
            · intro x hx
              rcases Finset.mem_insert.1 hx with rfl | hx
              · exact Finset.mem_Icc.2 ⟨by omega, le_refl _⟩
              · have := Finset.mem_Icc.1 hx
                exact Finset.mem_Icc.2 ⟨this.1, by omega⟩
            · intro x hx _
              exact hg0 x (Finset.mem_Icc.1 hx).1
          have h3 := hg0 n (by omega)
          linarith
        rw [hz, mul_zero]
      · have ht' := not_le.1 ht'
        rw [w2 n (by omega) hnM ht', if_neg (not_lt.2 hps)]
        rw [hsplit] at ht' ⊢
        congr 1
        have e1 : (1 - ∑ i ∈ Finset.Icc 1 a.length, gp alpha beta i) ≠ 0 := by linarith
        have e2 : (1 - (∑ i ∈ Finset.Icc 1 a.length, gp alpha beta i +
          gp alpha beta (a.length + 1))) ≠ 0 := by linarith
        rw [div_eq_div_iff e2 e1, hpv]
        field_simp
        ring

/-! ## The fit -/

theorem fitScore_congr {h : List ℚ} {I Imin : ℚ} {f g : Fitted} (hN : f.maxReach = g.maxReach)
    (hp : f.dist.pmf = g.dist.pmf) : fitScore h I Imin f = fitScore h I Imin g := by
  unfold fitScore misfit expectedAt share inventory
  rw [hN, hp]

theorem fitScore_nonneg {h : List ℚ} {I Imin : ℚ} (hI : 0 ≤ I) {f : Fitted} (hf : GoodFit f) :
    0 ≤ fitScore h I Imin f := by
  unfold fitScore
  have h1 := misfit_nonneg hf hI h
  have h2 := sumSquares_nonneg h
  split <;> positivity

/-- What holds after every optimization. -/
def FitWithin (gp : ℚ → ℚ → Nat → ℚ) (M : Nat) (h : List ℚ) (I Imin best : ℚ) (nd : ℚ × Dist) : Prop :=
  InBounds h nd.2.alpha nd.2.beta nd.1 nd.2.a ∧
  nd.2 = Dist.new M gp nd.2.alpha nd.2.beta nd.2.a ∧ fitScore h I Imin ⟨nd.1, nd.2⟩ ≤ best

theorem fixedLength_within {L : Scipy} (hL : Descends L.nelderMead) (hg : GpOk L.gp) {M : Nat}
    (hM : 2 ≤ M) {h : List ℚ} (hh : 0 < h.sum) {I Imin best : ℚ} (hI : 0 ≤ I)
    (hbest : best < sumSquares h + Imin ^ 2) {N alpha beta : ℚ} {a : List ℚ}
    (hb : InBounds h alpha beta N a)
    (hs : fitScore h I Imin ⟨N, Dist.new M L.gp alpha beta a⟩ ≤ best) :
    FitWithin L.gp M h I Imin best
      (fitFixedLength (L.solver M) M h I Imin (N, alpha, beta, a)) ∧
    (fitFixedLength (L.solver M) M h I Imin (N, alpha, beta, a)).2.a.length = a.length := by
  set obj : List ℚ → ℚ := fun params =>
    valueOf (objective L.gp M h I Imin (paramBounds h a.length) params) with hobj
  obtain ⟨h1, h2⟩ := hL obj ([alpha, beta, N] ++ a)
  have hx : (L.solver M).minimize h I Imin (N, alpha, beta, a) =
      ((L.nelderMead obj ([alpha, beta, N] ++ a)).getD 2 0,
       (L.nelderMead obj ([alpha, beta, N] ++ a)).getD 0 0,
       (L.nelderMead obj ([alpha, beta, N] ++ a)).getD 1 0,
       (L.nelderMead obj ([alpha, beta, N] ++ a)).drop 3) := rfl
  unfold fitFixedLength
  rw [hx]
  generalize L.nelderMead obj ([alpha, beta, N] ++ a) = x at h1 h2
  match x, h1, h2 with
  | alpha' :: beta' :: N' :: a', h1, h2 =>
    have hlen : a'.length = a.length := by simpa using h1
    have h3 : obj ([alpha, beta, N] ++ a) = fitScore h I Imin ⟨N, Dist.new M L.gp alpha beta a⟩ := by
      rw [hobj]
      have := (C87_objective L.gp hg M hM h hh I Imin hI alpha beta N a).1 hb
      simp only [List.cons_append, List.nil_append]
      rw [this]; rfl
    obtain ⟨h4, h5⟩ := C87_objective L.gp hg M hM h hh I Imin hI alpha' beta' N' a'
    rw [hlen] at h4 h5
    have hb' : InBounds h alpha' beta' N' a' := by
      by_contra hc
      have h6 : obj (alpha' :: beta' :: N' :: a') = sumSquares h + Imin ^ 2 := by
        rw [hobj]
        simp only
        rw [h5 hc]; rfl
      rw [h3, h6] at h2
      linarith
    have h6 : obj (alpha' :: beta' :: N' :: a') =
        fitScore h I Imin ⟨N', Dist.new M L.gp alpha' beta' a'⟩ := by
      rw [hobj]
      simp only
      rw [h4 hb']; rfl
    have hsc : scaleDown a' = a' := scaleDown_of_le hb'.2.2.2.2
    have ha : (Dist.new M L.gp alpha' beta' a').a = a' := hsc
    have hgp : (L.solver M).gp = L.gp := rfl
    simp only [List.getD_cons_zero, List.getD_cons_succ, List.drop_succ_cons, List.drop_zero, hgp]
    refine ⟨⟨?_, ?_, ?_⟩, ?_⟩
    · rw [ha]; exact hb'
    · rw [ha]; rfl
    · rw [← h6]
      exact le_trans (h3 ▸ h2) hs
    · rw [ha]; exact hlen

theorem inflateLoop_within {L : Scipy} (hL : Descends L.nelderMead) (hg : GpOk L.gp) {M kmax : Nat}
    (hM : 2 ≤ M) (hk : kmax + 1 < M) {h : List ℚ} (hh : 0 < h.sum) {I Imin best : ℚ} (hI : 0 ≤ I)
    (hbest : best < sumSquares h + Imin ^ 2) : ∀ (fuel : Nat) (nd : ℚ × Dist),
    FitWithin L.gp M h I Imin best nd → nd.2.a.length ≤ kmax → kmax ≤ nd.2.a.length + fuel →
    ∃ r, inflateLoop (L.solver M) M kmax h I Imin fuel nd = .ok r ∧
      FitWithin L.gp M h I Imin best r ∧ r.2.a.length ≤ kmax ∧
      ((L.solver M).poor h I r.1 r.2 = false ∨ r.2.a.length = kmax) := by
  intro fuel
  induction fuel with
  | zero => intro nd hnd hl hf; exact ⟨nd, rfl, hnd, hl, Or.inr (by omega)⟩
  | succ fuel ih =>
    intro nd hnd hl hf
    unfold inflateLoop
    by_cases hc : (L.solver M).poor h I nd.1 nd.2 = true ∧ nd.2.a.length < kmax
    · rw [if_pos hc]
      obtain ⟨hb, hd, hs⟩ := hnd
      have hpl : nd.2.pmf.length = M := by
        rw [hd]; exact pmf_length (by omega)
      have hlt : nd.2.a.length + 1 < nd.2.pmf.length := by rw [hpl]; omega
      have hx : pyIndex nd.2.pmf ((nd.2.a.length : Int) + 1) =
          .ok (nd.2.pmf.getD (nd.2.a.length + 1) 0) := by
        have := (pyIndex_ok_iff nd.2.pmf (nd.2.a.length + 1) (nd.2.pmf[nd.2.a.length + 1])).2
          (List.getElem?_eq_getElem hlt)
        rw [List.getD_eq_getElem _ _ hlt]
        simpa using this
      simp only [hx, bind, Except.bind]
      obtain ⟨b1, b2, b3, b4, b5⟩ := hb
      have happ := C87_append M L.gp nd.2.alpha nd.2.beta nd.2.a
        (hg _ _ b1.1 b1.2 b2.1 b2.2) (fun x hx => (b4 x hx).1) b5 (by omega)
      rw [← hd] at happ
      obtain ⟨h1, h2, h3⟩ := happ
      have hsum0 : 0 ≤ nd.2.a.sum := List.sum_nonneg (fun x hx => (b4 x hx).1)
      have hb' : InBounds h nd.2.alpha nd.2.beta nd.1
          (nd.2.a ++ [nd.2.pmf.getD (nd.2.a.length + 1) 0]) := by
        refine ⟨b1, b2, b3, ?_, by simpa using h3⟩
        intro x hx
        rcases List.mem_append.1 hx with hx | hx
        · exact b4 x hx
        · rw [List.mem_singleton.1 hx]
          exact ⟨h2, by linarith⟩
      obtain ⟨h5, h6⟩ := fixedLength_within hL hg hM hh hI hbest hb'
        (le_of_eq_of_le (fitScore_congr (g := ⟨nd.1, nd.2⟩) rfl h1) hs)
      rw [List.length_append, List.length_singleton] at h6
      exact ih _ h5 (by rw [h6]; omega) (by rw [h6]; omega)
    · rw [if_neg hc]
      refine ⟨nd, rfl, hnd, hl, ?_⟩
      by_cases hp : (L.solver M).poor h I nd.1 nd.2 = true
      · right
        by_contra hne
        exact hc ⟨hp, by omega⟩
      · left; simpa using hp

/-- **C87 (test).** A fit counts as poor exactly if the chi-squared distribution, with as many degrees
of freedom as the histogram has entries, gives the distance of the fit a level above 95%. -/
theorem C87_poor (L : Scipy) (M : Nat) (h : List ℚ) (hh : h ≠ []) (I : ℚ) (hI : 0 ≤ I) (f : Fitted)
    (hf : GoodFit f) :
    (L.solver M).poor h I f.maxReach f.dist = true ↔
      95 / 100 < L.chi2cdf (if inventory f ≤ I then sumSquares h else misfit h I f) h.length := by
  unfold Scipy.solver
  simp only [decide_eq_true_eq]
  rw [C87_distance h hh I hI f hf]
  rfl

/-- **C87 (fit, partial).** For every point with several frequencies: if scipy's optimizer never returns
anything worse than its start, and the exponential-Poisson start is admissible and better than the
penalty, then the fit that is found is admissible and, whatever number of values was inflated, not worse
than the start; and the search ends only when the fit passes the chi-squared test or the largest number
of values is inflated.  Missing: starts that are not admissible or worse than the penalty (`C87_full_is_false`,
`C87_penalty_too_low`). -/
theorem C87_fit_partial (L : Scipy) (hL : Descends L.nelderMead) (hg : GpOk L.gp) (M kmax : Nat)
    (hk : kmax + 1 < M) (hM : 2 ≤ M) (point : ReachPoint) (i k Imin N0 b0 : ℚ)
    (hi : point.impressions[0]? = some i) (hi0 : 0 ≤ i)
    (hlast : point.kplusReaches.getLast? = some k) (hl : 1 < point.kplusReaches.length)
    (hh : 0 < (point.frequencies ++ [k]).sum)
    (hexp : fitExponentialPoisson point (some Imin) = .ok (N0, b0))
    (hb : InBounds (point.frequencies ++ [k]) 1 b0 N0 [])
    (hs : fitScore (point.frequencies ++ [k]) i Imin ⟨N0, Dist.new M L.gp 1 b0 []⟩ <
      sumSquares (point.frequencies ++ [k]) + Imin ^ 2) :
    ∃ N d, fitPoint (L.solver M) M kmax point Imin = .ok (N, d) ∧
      InBounds (point.frequencies ++ [k]) d.alpha d.beta N d.a ∧
      d = Dist.new M L.gp d.alpha d.beta d.a ∧
      fitScore (point.frequencies ++ [k]) i Imin ⟨N, d⟩ ≤
        fitScore (point.frequencies ++ [k]) i Imin ⟨N0, Dist.new M L.gp 1 b0 []⟩ ∧
      d.a.length ≤ kmax ∧
      (d.a.length = kmax ∨
        L.chi2cdf (if inventory ⟨N, d⟩ ≤ i then sumSquares (point.frequencies ++ [k])
          else misfit (point.frequencies ++ [k]) i ⟨N, d⟩) (point.frequencies ++ [k]).length
          ≤ 95 / 100) := by
  have hne : point.kplusReaches ≠ [] := by
    intro h; rw [h] at hl; simp at hl
  have hbk : point.frequenciesWithKplusBucket = .ok (point.frequencies ++ [k]) := by
    unfold ReachPoint.frequenciesWithKplusBucket
    rw [List.getLast?_eq_getLast_of_ne_nil hne] at hlast
    cases hlast
    rw [pyIndex_neg_one _ hne]; rfl
  have hix : pyIndex point.impressions 0 = .ok i := (pyIndex_ok_iff _ 0 _).2 hi
  have hf : ¬ point.maxFrequency = 1 := by
    unfold ReachPoint.maxFrequency
    omega
  unfold fitPoint
  simp only [hexp, hbk, hix, bind, Except.bind]
  rw [if_neg hf]
  have hgp : (L.solver M).gp = L.gp := rfl
  obtain ⟨h1, h2⟩ := fixedLength_within hL hg hM hh hi0 hs hb (le_refl _)
  obtain ⟨r, h3, ⟨h4, h5, h6⟩, h7, h8⟩ :=
    inflateLoop_within hL hg hM hk hh hi0 hs kmax _ h1 (by rw [h2]; simp) (by omega)
  refine ⟨r.1, r.2, h3, h4, h5, h6, h7, ?_⟩
  rcases h8 with h8 | h8
  · right
    have hf : GoodFit ⟨r.1, r.2⟩ := by
      rw [h5]; exact goodFit_of_inBounds hg hM hh h4
    by_contra hc
    rw [(C87_poor L M _ (by simp) i hi0 ⟨r.1, r.2⟩ hf).2 (not_le.1 hc)] at h8
    cases h8
  · exact Or.inl h8

/-- **C87 (inventory, partial).** Under the same conditions the inventory of the fit falls short of the documented
minimum by at most the square root of the score of the start; with a perfect start (score zero) the
minimum is met. -/
theorem C87_inventory_partial (L : Scipy) (hL : Descends L.nelderMead) (hg : GpOk L.gp) (M kmax : Nat)
    (hk : kmax + 1 < M) (hM : 2 ≤ M) (point : ReachPoint) (i k Imin N0 b0 x : ℚ)
    (hi : point.impressions[0]? = some i) (hi0 : 0 ≤ i)
    (hlast : point.kplusReaches.getLast? = some k) (hl : 1 < point.kplusReaches.length)
    (hh : 0 < (point.frequencies ++ [k]).sum)
    (hexp : fitExponentialPoisson point (some Imin) = .ok (N0, b0))
    (hb : InBounds (point.frequencies ++ [k]) 1 b0 N0 [])
    (hs : fitScore (point.frequencies ++ [k]) i Imin ⟨N0, Dist.new M L.gp 1 b0 []⟩ <
      sumSquares (point.frequencies ++ [k]) + Imin ^ 2) (hx0 : 0 ≤ x)
    (hx : fitScore (point.frequencies ++ [k]) i Imin ⟨N0, Dist.new M L.gp 1 b0 []⟩ ≤ x ^ 2) :
    ∃ N d, fitPoint (L.solver M) M kmax point Imin = .ok (N, d) ∧
      Imin - x ≤ N * ∑ n ∈ Finset.range d.pmf.length, (n : ℚ) * d.pmf.getD n 0 := by
  obtain ⟨N, d, h1, h2, h3, h4, _⟩ := C87_fit_partial L hL hg M kmax hk hM point i k Imin N0 b0 hi hi0 hlast hl
    hh hexp hb hs
  refine ⟨N, d, h1, ?_⟩
  have hf : GoodFit ⟨N, d⟩ := by
    rw [h3]; exact goodFit_of_inBounds hg hM hh h2
  have h5 : (max 0 (Imin - inventory ⟨N, d⟩)) ^ 2 ≤ x ^ 2 := by
    refine le_trans ?_ (le_trans h4 hx)
    unfold fitScore
    have h6 := misfit_nonneg hf hi0 (point.frequencies ++ [k])
    have h7 := sumSquares_nonneg (point.frequencies ++ [k])
    split <;> linarith
  have h6 := le_trans (le_abs_self _) (abs_le_of_sq_le_sq h5 hx0)
  have h7 := le_trans (le_max_right 0 (Imin - inventory ⟨N, d⟩)) h6
  have h8 : inventory ⟨N, d⟩ = N * ∑ n ∈ Finset.range d.pmf.length, (n : ℚ) * d.pmf.getD n 0 := rfl
  linarith

theorem successiveDifferences_sum : ∀ (x : ℚ) (l : List ℚ) (k : ℚ), (x :: l).getLast? = some k →
    (ReachPoint.successiveDifferences (x :: l) ++ [k]).sum = x := by
  intro x l
  induction l generalizing x with
  | nil =>
    intro k hk
    have : x = k := by simpa using hk
    subst this
    simp [ReachPoint.successiveDifferences]
  | cons y l ih =>
    intro k hk
    rw [List.getLast?_cons_cons] at hk
    have h := ih y k hk
    unfold ReachPoint.successiveDifferences at h ⊢
    simp only [List.tail_cons, List.zipWith_cons_cons, List.cons_append, List.sum_cons] at h ⊢
    rw [h]; ring

theorem new_fields {imps ks : List ℚ} {sp : Option (List ℚ)} {us : Option ℚ} {point : ReachPoint}
    (hp : ReachPoint.new imps ks sp us = .ok point) {i r k : ℚ} (hi : imps[0]? = some i)
    (hr : ks[0]? = some r) (hlast : ks.getLast? = some k) :
    point.impressions[0]? = some i ∧ point.kplusReaches[0]? = some r ∧
    point.frequencies = ReachPoint.successiveDifferences ks ∧ (point.frequencies ++ [k]).sum = r := by
  unfold ReachPoint.new at hp
  split at hp
  · cases hp
  · cases hp
    refine ⟨hi, hr, rfl, ?_⟩
    cases ks with
    | nil => simp at hr
    | cons x l =>
      have : x = r := by simpa using hr
      subst this
      exact successiveDifferences_sum x l k hlast

/-- **C87 (start).** The start is admissible for every point with at least three k+ reaches built by
`ReachPoint`, if the larger of its impressions and the minimal inventory exceeds the people reached by at
least one, by at least one in 12000, and by at most 25000 in 3; its population is between the people
reached and 1.2 times as many. -/
theorem C87_start (imps ks : List ℚ) (sp : Option (List ℚ)) (us : Option ℚ) (point : ReachPoint)
    (hp : ReachPoint.new imps ks sp us = .ok point) (hks : 3 ≤ ks.length) (i r k Imin : ℚ)
    (hi : imps[0]? = some i) (hr : ks[0]? = some r) (hlast : ks.getLast? = some k) (hr0 : 0 < r)
    (hone : r + 1 ≤ max i Imin) (hlow : r * (1 + 1 / 12000) ≤ max i Imin)
    (hhigh : max i Imin ≤ r * (1 + 25000 / 3)) :
    ∃ N b, fitExponentialPoisson point (some Imin) = .ok (N, b) ∧
      InBounds (point.frequencies ++ [k]) 1 b N [] ∧ (point.frequencies ++ [k]).sum = r ∧
      r ≤ N ∧ N ≤ 6 / 5 * r := by
  obtain ⟨h1, h2, h3, h4⟩ := new_fields hp hi hr hlast
  have hfl : 1 < point.frequencies.length := by
    rw [h3]; unfold ReachPoint.successiveDifferences
    simp; omega
  generalize hI : max i Imin = I at *
  rw [fitExponentialPoisson_eq Imin h1 h2, hI]
  have hmin : min r (I - 1) = r := min_eq_left (by linarith)
  have hIr : 0 < I - r := by linarith
  set b := (I / r - 1) * (6 / 5) with hb
  have hbr : b * r = 6 / 5 * (I - r) := by
    rw [hb]; field_simp
  have hblow : 1 / 10000 ≤ b := by
    have : 1 + 1 / 12000 ≤ I / r := by rw [le_div_iff₀ hr0]; linarith
    rw [hb]; linarith
  have hbhigh : b ≤ 10000 := by
    have : I / r ≤ 1 + 25000 / 3 := by rw [div_le_iff₀ hr0]; linarith
    rw [hb]; linarith
  have hN : -(I * b * r) / ((b + 1) * (r - I)) = 6 / 5 * I / (b + 1) := by
    have hb1 : b + 1 ≠ 0 := by linarith
    have hrI : r - I ≠ 0 := by linarith
    rw [div_eq_div_iff (mul_ne_zero hb1 hrI) hb1]
    have : I * b * r = I * (6 / 5 * (I - r)) := by rw [mul_assoc, hbr]
    rw [this]; ring
  have hstart : expStart point.frequencies.length I r = .ok (6 / 5 * I / (b + 1), b) := by
    have hb1 : b + 1 ≠ 0 := by linarith
    have hrI : r - I ≠ 0 := by linarith
    have hNb : expNFromBeta I r b = .ok (6 / 5 * I / (b + 1)) := by
      unfold expNFromBeta
      rw [if_neg (by linarith), if_neg (mul_ne_zero hb1 hrI), hN]
    unfold expStart
    rw [if_pos hfl, hmin, if_neg hr0.ne']
    simp only [← hb, hNb, bind, Except.bind, pure, Except.pure]
  rw [hstart]
  simp only [Except.map]
  have hprod : 6 / 5 * I / (b + 1) * (b + 1) = 6 / 5 * I := div_mul_cancel₀ _ (by linarith)
  have hlo : r ≤ 6 / 5 * I / (b + 1) := by
    rw [le_div_iff₀ (by linarith)]
    nlinarith
  have hhi : 6 / 5 * I / (b + 1) ≤ 6 / 5 * r := by
    rw [div_le_iff₀ (by linarith)]
    nlinarith
  refine ⟨6 / 5 * I / (b + 1), b, ?_, ⟨by norm_num, ⟨hblow, hbhigh⟩, ?_, by simp, by simp⟩, h4, hlo,
    hhi⟩
  · rcases expLoop_cases (I := I) (R := r) (by linarith) (6 / 5 * I / (b + 1)) b with ⟨-, h7⟩ | ⟨h7, -⟩
    · rw [h7]
    · linarith
  · rw [h4]
    exact ⟨hlo, by linarith⟩

/-- **C87 (start, two frequencies).** For a point with two k+ reaches the start is admissible if the
larger of its impressions and the minimal inventory is at least 298/297 times and at most 20002/3 times
the people reached. -/
theorem C87_start_two (imps ks : List ℚ) (sp : Option (List ℚ)) (us : Option ℚ) (point : ReachPoint)
    (hp : ReachPoint.new imps ks sp us = .ok point) (hks : ks.length = 2) (i r k Imin : ℚ)
    (hi : imps[0]? = some i) (hr : ks[0]? = some r) (hlast : ks.getLast? = some k) (hr0 : 0 < r)
    (hone : r + 1 / 1000 ≤ max i Imin) (hlow : 298 / 297 * r ≤ max i Imin)
    (hhigh : max i Imin ≤ 20002 / 3 * r) :
    ∃ N b, fitExponentialPoisson point (some Imin) = .ok (N, b) ∧
      InBounds (point.frequencies ++ [k]) 1 b N [] ∧ (point.frequencies ++ [k]).sum = r := by
  obtain ⟨h1, h2, h3, h4⟩ := new_fields hp hi hr hlast
  have hfl : ¬ 1 < point.frequencies.length := by
    rw [h3]; unfold ReachPoint.successiveDifferences
    simp; omega
  generalize hI : max i Imin = I at *
  rw [fitExponentialPoisson_eq Imin h1 h2, hI]
  have hIr : 0 < I - r := by linarith
  set N := r * (3 / 2 * I - r) / (3 / 2 * (I - r)) with hN
  have hNI : N * (I - r) = r * (3 / 2 * I - r) / (3 / 2) := by
    rw [hN]; field_simp
  have hden : I * r - N * (I - r) = r ^ 2 / (3 / 2) := by rw [hNI]; ring
  have hbeta : expBeta I N r = (3 / 2 * I - r) / r := by
    unfold expBeta
    rw [hden, hNI, if_neg (not_le.2 (by positivity))]
    field_simp
  have hstart : expStart point.frequencies.length I r = .ok (N, (3 / 2 * I - r) / r) := by
    unfold expStart
    rw [if_neg hfl]
    unfold expN
    rw [if_neg (by norm_num), if_neg (by linarith)]
    simp only [bind, Except.bind, pure, Except.pure]
    rw [← hN, hbeta]
  rw [hstart]
  simp only [Except.map]
  have hlo : r ≤ N := by
    rw [hN, le_div_iff₀ (by linarith)]
    nlinarith
  have hhi : N ≤ 100 * r := by
    rw [hN, div_le_iff₀ (by linarith)]
    nlinarith
  have hb1 : 1 / 2 ≤ (3 / 2 * I - r) / r := by
    rw [le_div_iff₀ hr0]; linarith
  have hb2 : (3 / 2 * I - r) / r ≤ 10000 := by
    rw [div_le_iff₀ hr0]; linarith
  refine ⟨N, (3 / 2 * I - r) / r, ?_, ⟨by norm_num, ⟨by linarith, hb2⟩, ?_, by simp, by simp⟩, h4⟩
  · rcases expLoop_cases (I := I) (R := r) (by linarith) N ((3 / 2 * I - r) / r) with
      ⟨-, h7⟩ | ⟨h7, -⟩
    · rw [h7]
    · have h8 : (3 / 2 * I - r) / r + 1 = 3 / 2 * I / r := by field_simp; ring
      rw [h8] at h7
      have h9 : r * (3 / 2 * I / r) = 3 / 2 * I := by field_simp
      have h10 : r * (3 / 2 * I / r) ≤ N * (3 / 2 * I / r) :=
        mul_le_mul_of_nonneg_right hlo (div_nonneg (by linarith) hr0.le)
      linarith
  · rw [h4]
    exact ⟨hlo, hhi⟩

/-! ## Where the bounds do not hold -/

/-- **C87 (full statement, false).** The fit of every accepted point with several frequencies is
admissible. -/
def C87_full : Prop :=
  ∀ (L : Scipy), Descends L.nelderMead → GpOk L.gp → ∀ (kmax : Nat),
    kmax + 1 < maxComputationalFrequency → ∀ (point : ReachPoint) (k Imin N : ℚ) (m : Model) (d : Dist),
    Model.new [point] kmax 1 = .ok m → 1 < point.kplusReaches.length →
    point.kplusReaches.getLast? = some k →
    fitPoint (L.solver maxComputationalFrequency) maxComputationalFrequency kmax point Imin = .ok (N, d) →
    InBounds (point.frequencies ++ [k]) d.alpha d.beta N d.a

/-- An optimizer that returns its start, with the exponential-Poisson probabilities; every fit is good
enough. -/
def idleScipy : Scipy := { gp := geomTail, nelderMead := fun _ p => p, chi2cdf := fun _ _ => 0 }

theorem idleScipy_descends : Descends idleScipy.nelderMead := fun _ _ => ⟨rfl, le_refl _⟩

theorem idleScipy_gp : GpOk idleScipy.gp := fun alpha beta _ _ _ _ => geomTail_isTail alpha beta

/-- 1001 impressions reached 1000 people, one of them twice. -/
def exNearlyDistinct : ReachPoint :=
  { impressions := [1001], kplusReaches := [1000, 1], frequencies := [999], spends := none,
    universeSize? := none }

theorem C87_full_is_false : ¬ C87_full := by
  intro h
  have h1 : fitPoint (idleScipy.solver maxComputationalFrequency) maxComputationalFrequency 10
      exNearlyDistinct 1 =
      .ok (1003000 / 3, Dist.new maxComputationalFrequency geomTail 1 (1003 / 2000) []) := by
    have e1 : fitExponentialPoisson exNearlyDistinct (some 1) = .ok (1003000 / 3, 1003 / 2000) := by
      decide +kernel
    have e2 : exNearlyDistinct.frequenciesWithKplusBucket = .ok [999, 1] := by decide +kernel
    have e3 : pyIndex exNearlyDistinct.impressions 0 = .ok 1001 := by decide +kernel
    unfold fitPoint
    simp only [e1, e2, e3, bind, Except.bind]
    rw [if_neg (by decide +kernel)]
    unfold inflateLoop
    have hp : ∀ h I N d, (idleScipy.solver maxComputationalFrequency).poor h I N d = false := by
      intro h I N d
      simp only [Scipy.solver, idleScipy]
      norm_num
    rw [if_neg (by rw [hp]; simp)]
    rfl
  have h2 := h idleScipy idleScipy_descends idleScipy_gp 10 (by decide) exNearlyDistinct 1 1 _ _ _
    (show Model.new [exNearlyDistinct] 10 1 =
      .ok ⟨exNearlyDistinct, 10, 1001, none, none⟩ by decide +kernel) (by decide) (by decide +kernel) h1
  have h3 := h2.2.2.1.2
  revert h3
  decide +kernel

theorem shownAtLeast_le_tail {pmf : List ℚ} (h : ∀ x ∈ pmf, 0 ≤ x) {p : ℚ} (h0 : 0 ≤ p) (h1 : p ≤ 1) :
    shownAtLeast pmf 3 p ≤ pmf.sum - pmf.getD 0 0 - pmf.getD 1 0 - pmf.getD 2 0 := by
  have h2 : shownAtLeast pmf 3 p ≤
      ∑ n ∈ Finset.range pmf.length, (if n < 3 then 0 else pmf.getD n 0) := by
    apply Finset.sum_le_sum
    intro n _
    split
    · rename_i hn
      rw [binTail_of_lt hn, mul_zero]
    · have := mul_le_mul_of_nonneg_left (binTail_le_one n 3 h0 h1) (getD_nonneg h n)
      linarith
  have h3 : ∀ l : List ℚ, ∑ n ∈ Finset.range l.length, (if n < 3 then 0 else l.getD n 0) =
      l.sum - l.getD 0 0 - l.getD 1 0 - l.getD 2 0 := by
    intro l
    match l with
    | [] => simp
    | [a] => simp
    | [a, b] => simp [Finset.sum_range_succ]
    | a :: b :: c :: l =>
      rw [List.length_cons, List.length_cons, List.length_cons, Finset.sum_range_succ',
        Finset.sum_range_succ', Finset.sum_range_succ', List.sum_cons, List.sum_cons, List.sum_cons,
        list_sum_getD l]
      have h4 : ∀ x, (if x + 1 + 1 + 1 < 3 then 0 else (a :: b :: c :: l).getD (x + 1 + 1 + 1) 0) =
          l.getD x 0 := by
        intro x
        rw [if_neg (by omega)]
        simp
      simp only [h4]
      simp
  rw [h3] at h2
  exact h2

/-- **C87 (the penalty is too low).** Admissible parameters can be worse than the penalty for
inadmissible ones: 103 impressions reached 97 people once and 3 people three or more times, and next to
nobody is expected to be reached three times. -/
theorem C87_penalty_too_low : ∃ (h : List ℚ) (I Imin beta N : ℚ), 0 < h.sum ∧ h.sum ≤ I ∧ I < Imin ∧
    InBounds h 1 beta N [] ∧
    sumSquares h + Imin ^ 2 <
      fitScore h I Imin ⟨N, Dist.new maxComputationalFrequency geomTail 1 beta []⟩ := by
  have hb : InBounds [97, 0, 3] 1 (1 / 10000) 200 [] := by
    unfold InBounds
    norm_num
  refine ⟨[97, 0, 3], 106, 107, 1 / 10000, 200, by norm_num, by norm_num, by norm_num, hb, ?_⟩
  set f : Fitted := ⟨200, Dist.new maxComputationalFrequency geomTail 1 (1 / 10000) []⟩ with hf
  have hgf : GoodFit f := goodFit_of_inBounds (fun _ _ _ _ _ _ => geomTail_isTail _ _) (by decide)
    (by norm_num) hb
  have hinv : 200 ≤ inventory f := inventory_ge hgf
  obtain ⟨h0, h1⟩ := share_bounds hgf (I := 106) (by norm_num)
  obtain ⟨-, v2, -⟩ := C39_values maxComputationalFrequency geomTail 1 (1 / 10000) [] (by decide)
  have p1 := v2 1 (by decide) (by decide) (by simp)
  have p2 := v2 2 (by decide) (by decide) (by simp)
  have htail := shownAtLeast_le_tail hgf.2.1.1 h0 h1
  have e0 : f.dist.pmf.getD 0 0 = 0 := hgf.2.2
  have e1 : f.dist.pmf.getD 1 0 = 10000 / 10001 := by
    rw [hf]; rw [p1]; simp [geomTail]; norm_num
  have e2 : f.dist.pmf.getD 2 0 = 10000 / 10001 * (1 / 10001) := by
    rw [hf]; rw [p2]; simp [geomTail]; norm_num
  rw [e0, e1, e2, hgf.2.1.2] at htail
  have hpos := shownAtLeast_nonneg hgf.2.1.1 h0 h1 3
  have hsq : sumSquares [97, 0, 3] = 9418 := by
    simp [sumSquares, Finset.sum_range_succ]; norm_num
  rw [hsq]
  have hE : expectedAt f 106 3 3 = 200 * shownAtLeast f.dist.pmf 3 (share f 106) := by
    simp [expectedAt, hf]
  clear_value f
  have hterm : 1000000 ≤ (expectedAt f 106 3 3 - 3) ^ 2 / (expectedAt f 106 3 3 + 1 / 1000000) := by
    rw [hE]
    generalize shownAtLeast f.dist.pmf 3 (share f 106) = y at htail hpos
    rw [le_div_iff₀ (by linarith)]
    have : y ≤ 1 / 100000000 := le_trans htail (by norm_num)
    nlinarith
  have hmis : 1000000 ≤ misfit [97, 0, 3] 106 f := by
    refine le_trans hterm ?_
    have := Finset.single_le_sum (s := Finset.range 3)
      (f := fun j => (expectedAt f 106 3 (j + 1) - ([97, 0, 3] : List ℚ).getD j 0) ^ 2 /
        (expectedAt f 106 3 (j + 1) + 1 / 1000000))
      (fun j _ => by
        have := expectedAt_nonneg hgf (I := 106) (by norm_num) 3 (j + 1)
        positivity) (show 2 ∈ Finset.range 3 by simp)
    exact this
  unfold fitScore
  rw [if_neg (by linarith)]
  have h5 : 0 ≤ (max 0 (107 - inventory f)) ^ 2 := sq_nonneg _
  linarith

/-! ## Examples -/

theorem exKPoint_bounds : InBounds (exKPoint.frequencies ++ [5]) 1 (3 / 5) 45 [] := by
  unfold InBounds exKPoint
  norm_num

theorem exKPoint_score :
    fitScore (exKPoint.frequencies ++ [5]) 60 7 ⟨45, Dist.new 6 idleScipy.gp 1 (3 / 5) []⟩ ≤ 1 / 3 := by
  have h := (C87_objective idleScipy.gp idleScipy_gp 6 (by norm_num) (exKPoint.frequencies ++ [5])
    (by unfold exKPoint; norm_num) 60 7 (by norm_num) 1 (3 / 5) 45 []).1 exKPoint_bounds
  have h2 : valueOf (objective idleScipy.gp 6 (exKPoint.frequencies ++ [5]) 60 7
      (paramBounds (exKPoint.frequencies ++ [5]) ([] : List ℚ).length) [1, 3 / 5, 45]) ≤ 1 / 3 := by
    decide +kernel
  rw [h] at h2
  exact h2

theorem exKPoint_squares : sumSquares (exKPoint.frequencies ++ [5]) = 750 := by
  simp [sumSquares, exKPoint, Finset.sum_range_succ]
  norm_num

/-- The point of the examples of C73 starts admissibly, with a score below 1/3: its fit has at least 6 of
the 7 impressions demanded. -/
example : ∃ N d, fitPoint (idleScipy.solver 6) 6 3 exKPoint 7 = .ok (N, d) ∧
    7 - 1 ≤ N * ∑ n ∈ Finset.range d.pmf.length, (n : ℚ) * d.pmf.getD n 0 :=
  C87_inventory_partial idleScipy idleScipy_descends idleScipy_gp 6 3 (by norm_num) (by norm_num) exKPoint 60 5
    7 45 (3 / 5) 1 rfl (by norm_num) rfl (by decide) (by unfold exKPoint; norm_num) (by decide +kernel)
    exKPoint_bounds
    (by rw [exKPoint_squares]; exact lt_of_le_of_lt exKPoint_score (by norm_num)) (by norm_num)
    (le_trans exKPoint_score (by norm_num))

/-- The start of this point is one of those of `C87_start`. -/
example : ReachPoint.new [60] [40, 15, 5] (some [6]) = .ok exKPoint ∧ (40 : ℚ) + 1 ≤ max 60 7 ∧
    (40 : ℚ) * (1 + 1 / 12000) ≤ max 60 7 ∧ max 60 7 ≤ (40 : ℚ) * (1 + 25000 / 3) := by
  decide +kernel

/-- With two frequencies. -/
example : (ReachPoint.new [60] [40, 15]).isOk ∧ (40 : ℚ) + 1 / 1000 ≤ max 60 7 ∧
    298 / 297 * (40 : ℚ) ≤ max 60 7 ∧ max 60 7 ≤ 20002 / 3 * (40 : ℚ) := by decide +kernel

/-- Appending the current probability of one impression, 5/8, changes nothing; appending another value
does. -/
example : (Dist.new 6 geomTail 1 (3 / 5) [5 / 8]).pmf = (Dist.new 6 geomTail 1 (3 / 5) []).pmf ∧
    (Dist.new 6 geomTail 1 (3 / 5) [1 / 2]).pmf ≠ (Dist.new 6 geomTail 1 (3 / 5) []).pmf := by
  decide +kernel

/-- A histogram that is exactly as expected has distance zero: half of an inventory of one impression per
person. -/
example : chi2Distance [50, 0] 50 100 ⟨1, 1, [], [0, 1, 0]⟩ = .ok 0 ∧
    chi2Distance [40, 10] 50 100 ⟨1, 1, [], [0, 1, 0]⟩ ≠ .ok 0 ∧
    chi2Distance [50, 0] 100 100 ⟨1, 1, [], [0, 1, 0]⟩ = .ok 2500 := by decide +kernel

end Verif
