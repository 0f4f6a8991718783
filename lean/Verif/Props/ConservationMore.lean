import Mathlib.Analysis.Convex.Mul
import Mathlib.Analysis.Convex.SpecificFunctions.Basic
import Verif.Props.KInflatedFit
import Verif.Props.GammaPoisson
import Verif.Props.ReachCurve
import Verif.Props.Dirac

/-!
# C28, C40, C53, C54: impressions add up in the fitted models, and returns diminish

A 1+ reach curve is concave: the average of two budgets reaches at least the average of what the two
budgets reach.
-/

namespace Verif

open Finset KInflated Verif.Spec

/-! ## Shown impressions -/

/-- The chance of at least `k` shown impressions, added over `k`, is the expected number shown. -/
theorem binTail_sum (p : ℚ) : ∀ n F : Nat, n ≤ F →
    ∑ k ∈ range F, binTail n (k + 1) p = n * p := by
  intro n
  induction n with
  | zero =>
    intro F _
    rw [Finset.sum_eq_zero (fun k _ => binTail_of_lt (by omega) p)]; simp
  | succ n ih =>
    intro F hF
    obtain ⟨F, rfl⟩ := Nat.exists_eq_add_of_le' (show 1 ≤ F by omega)
    simp_rw [binTail_succ]
    rw [Finset.sum_add_distrib, ← Finset.mul_sum, ← Finset.mul_sum, ih (F + 1) (by omega),
      Finset.sum_range_succ', ih F (by omega), binTail_zero]
    push_cast; ring

theorem binTail_sum_le (n F : Nat) {p : ℚ} (h0 : 0 ≤ p) (h1 : p ≤ 1) :
    ∑ k ∈ range F, binTail n (k + 1) p ≤ n * p := by
  rw [← binTail_sum p n (max n F) (le_max_left _ _)]
  exact Finset.sum_le_sum_of_subset_of_nonneg (Finset.range_mono (le_max_right _ _))
    (fun k _ _ => binTail_nonneg _ _ h0 h1)

theorem binTail_markov (n k : Nat) {p : ℚ} (h0 : 0 ≤ p) (h1 : p ≤ 1) :
    (k : ℚ) * binTail n k p ≤ n * p := by
  refine le_trans ?_ (binTail_sum_le n k h0 h1)
  calc (k : ℚ) * binTail n k p = ∑ _j ∈ range k, binTail n k p := by simp
    _ ≤ _ := Finset.sum_le_sum (fun j hj =>
      binTail_antitone n h0 h1 (by have := Finset.mem_range.1 hj; omega))

theorem binTail_first (n : Nat) (p : ℚ) : binTail n 1 p = 1 - (1 - p) ^ n := by
  induction n with
  | zero => rw [binTail_of_lt (by omega)]; simp
  | succ n ih => rw [binTail_succ n 0, binTail_zero, ih]; ring

theorem binTail_first_concave (n : Nat) {p q t : ℚ} (p1 : p ≤ 1) (q1 : q ≤ 1)
    (t0 : 0 ≤ t) (t1 : t ≤ 1) :
    t * binTail n 1 p + (1 - t) * binTail n 1 q ≤ binTail n 1 (t * p + (1 - t) * q) := by
  have h := (convexOn_pow (𝕜 := ℚ) n).2 (show 1 - p ∈ Set.Ici (0 : ℚ) by simp [p1])
    (show 1 - q ∈ Set.Ici (0 : ℚ) by simp [q1]) t0 (show 0 ≤ 1 - t by linarith) (by ring)
  simp only [smul_eq_mul] at h
  rw [binTail_first, binTail_first, binTail_first,
    show 1 - (t * p + (1 - t) * q) = t * (1 - p) + (1 - t) * (1 - q) by ring]
  linarith

theorem shownAtLeast_sum (pmf : List ℚ) (p : ℚ) (F : Nat) (hF : pmf.length ≤ F + 1) :
    ∑ k ∈ range F, shownAtLeast pmf (k + 1) p =
      p * ∑ n ∈ range pmf.length, (n : ℚ) * pmf.getD n 0 := by
  unfold shownAtLeast
  rw [Finset.sum_comm, Finset.mul_sum]
  apply Finset.sum_congr rfl
  intro n hn
  rw [← Finset.mul_sum, binTail_sum p n F (by have := Finset.mem_range.1 hn; omega)]
  ring

theorem shownAtLeast_sum_le {pmf : List ℚ} (h : ∀ x ∈ pmf, 0 ≤ x) {p : ℚ} (h0 : 0 ≤ p) (h1 : p ≤ 1)
    (F : Nat) :
    ∑ k ∈ range F, shownAtLeast pmf (k + 1) p ≤
      p * ∑ n ∈ range pmf.length, (n : ℚ) * pmf.getD n 0 := by
  unfold shownAtLeast
  rw [Finset.sum_comm, Finset.mul_sum]
  apply Finset.sum_le_sum
  intro n hn
  rw [← Finset.mul_sum]
  have := mul_le_mul_of_nonneg_left (binTail_sum_le n F h0 h1) (getD_nonneg h n)
  linarith

theorem shownAtLeast_markov {pmf : List ℚ} (h : ∀ x ∈ pmf, 0 ≤ x) {p : ℚ} (h0 : 0 ≤ p) (h1 : p ≤ 1)
    (k : Nat) :
    (k : ℚ) * shownAtLeast pmf k p ≤ p * ∑ n ∈ range pmf.length, (n : ℚ) * pmf.getD n 0 := by
  unfold shownAtLeast
  rw [Finset.mul_sum, Finset.mul_sum]
  apply Finset.sum_le_sum
  intro n hn
  have := mul_le_mul_of_nonneg_left (binTail_markov n k h0 h1) (getD_nonneg h n)
  linarith

theorem shownAtLeast_first_concave {pmf : List ℚ} (h : ∀ x ∈ pmf, 0 ≤ x) {p q t : ℚ} (p1 : p ≤ 1)
    (q1 : q ≤ 1) (t0 : 0 ≤ t) (t1 : t ≤ 1) :
    t * shownAtLeast pmf 1 p + (1 - t) * shownAtLeast pmf 1 q ≤
      shownAtLeast pmf 1 (t * p + (1 - t) * q) := by
  unfold shownAtLeast
  rw [Finset.mul_sum, Finset.mul_sum, ← Finset.sum_add_distrib]
  apply Finset.sum_le_sum
  intro n hn
  have := mul_le_mul_of_nonneg_left (binTail_first_concave n p1 q1 t0 t1) (getD_nonneg h n)
  linarith

theorem list_range_map_sum (g : Nat → ℚ) (F : Nat) :
    ((List.range F).map g).sum = ∑ k ∈ range F, g k := by
  induction F with
  | zero => simp
  | succ F ih => rw [List.range_succ, List.map_append, List.sum_append, ih, sum_range_succ]; simp

/-- A minimum with a constant is concave. -/
theorem min_concave (a b c t : ℚ) (t0 : 0 ≤ t) (t1 : t ≤ 1) :
    t * min a c + (1 - t) * min b c ≤ min (t * a + (1 - t) * b) c := by
  have s0 : 0 ≤ 1 - t := by linarith
  refine le_min ?_ ?_
  · have h1 := mul_le_mul_of_nonneg_left (min_le_left a c) t0
    have h2 := mul_le_mul_of_nonneg_left (min_le_left b c) s0
    linarith
  · have h1 := mul_le_mul_of_nonneg_left (min_le_right a c) t0
    have h2 := mul_le_mul_of_nonneg_left (min_le_right b c) s0
    linarith

/-! ## C40: the k-inflated gamma-Poisson model -/

theorem share_mul_inventory {f : KInflated.Fitted} (hf : GoodFit f) (I : ℚ) :
    share f I * inventory f = min I (inventory f) := by
  have h := lt_of_lt_of_le hf.1 (inventory_ge hf)
  unfold share
  rw [min_mul_of_nonneg _ _ h.le, div_mul_cancel₀ _ h.ne', one_mul]

/-- **C40 (impressions).** The predicted k+ reaches never account for more impressions than are bought
or than the inventory holds: their sum, and every `k` times the k+ reach, is at most the smaller of the
two.  If the frequencies asked for cover the inventory, the sum is exactly that number. -/
theorem C40_impressions_add_up (f : KInflated.Fitted) (hf : GoodFit f) (I : ℚ) (hI : 0 ≤ I) (F : Nat)
    (hF : 1 ≤ F) :
    ∃ l, predict f I F = .ok (some l) ∧ l.sum ≤ min I (inventory f) ∧
      (f.dist.pmf.length ≤ F + 1 → l.sum = min I (inventory f)) ∧
      ∀ k, k < F → ((k + 1 : Nat) : ℚ) * l.getD k 0 ≤ min I (inventory f) := by
  obtain ⟨h0, h1⟩ := share_bounds hf hI
  have hm := share_mul_inventory hf I
  refine ⟨_, C40_formula f hf I hI F hF, ?_, ?_, ?_⟩
  · rw [list_range_map_sum, ← Finset.mul_sum, ← hm]
    have := mul_le_mul_of_nonneg_left (shownAtLeast_sum_le hf.2.1.1 h0 h1 F) hf.1.le
    unfold inventory
    linarith
  · intro hlen
    rw [list_range_map_sum, ← Finset.mul_sum, ← hm, shownAtLeast_sum _ _ F hlen]
    unfold inventory
    ring
  · intro k hk
    rw [List.getD_eq_getElem _ _ (by simpa using hk)]
    simp only [List.getElem_map, List.getElem_range]
    have := mul_le_mul_of_nonneg_left (shownAtLeast_markov hf.2.1.1 h0 h1 (k + 1)) hf.1.le
    rw [← hm]
    unfold inventory
    linarith

/-- 87.5 of the 175 impressions are bought: the k+ reaches add up to them. -/
example : predict exFit (175 / 2) 3 = .ok (some [525 / 8, 150 / 8, 25 / 8]) ∧
    ([525 / 8, 150 / 8, 25 / 8] : List ℚ).sum = 175 / 2 ∧ exFit.dist.pmf.length ≤ 3 + 1 := by
  refine ⟨by decide +kernel, by decide +kernel, by decide +kernel⟩

/-- **C40 (diminishing returns).** The predicted 1+ reach is concave in the impressions. -/
theorem C40_diminishing (f : KInflated.Fitted) (hf : GoodFit f) (I I' t : ℚ) (hI : 0 ≤ I) (hI' : 0 ≤ I')
    (t0 : 0 ≤ t) (t1 : t ≤ 1) (F : Nat) (hF : 1 ≤ F) :
    ∃ l l' m, predict f I F = .ok (some l) ∧ predict f I' F = .ok (some l') ∧
      predict f (t * I + (1 - t) * I') F = .ok (some m) ∧
      t * l.getD 0 0 + (1 - t) * l'.getD 0 0 ≤ m.getD 0 0 := by
  have s0 : 0 ≤ 1 - t := by linarith
  have hM : 0 ≤ t * I + (1 - t) * I' := by positivity
  obtain ⟨a0, a1⟩ := share_bounds hf hI
  obtain ⟨b0, b1⟩ := share_bounds hf hI'
  obtain ⟨c0, c1⟩ := share_bounds hf hM
  refine ⟨_, _, _, C40_formula f hf I hI F hF, C40_formula f hf I' hI' F hF,
    C40_formula f hf _ hM F hF, ?_⟩
  have hg : ∀ x : ℚ, ((List.range F).map (fun j : Nat =>
      f.maxReach * shownAtLeast f.dist.pmf (j + 1) (share f x))).getD 0 0 =
      f.maxReach * shownAtLeast f.dist.pmf 1 (share f x) := by
    intro x
    rw [List.getD_eq_getElem _ _ (by rw [List.length_map, List.length_range]; omega)]
    simp
  rw [hg, hg, hg]
  have hle : t * share f I + (1 - t) * share f I' ≤ share f (t * I + (1 - t) * I') := by
    have := min_concave (I / inventory f) (I' / inventory f) 1 t t0 t1
    unfold share
    refine this.trans (le_of_eq ?_)
    rw [add_div, mul_div_assoc, mul_div_assoc]
  have h1 := shownAtLeast_first_concave hf.2.1.1 a1 b1 t0 t1
  have h2 := shownAtLeast_mono hf.2.1.1
    (show 0 ≤ t * share f I + (1 - t) * share f I' by positivity) hle c1 1
  have h3 := mul_le_mul_of_nonneg_left (h1.trans h2) hf.1.le
  linarith

/-- A quarter of the inventory reaches more than half of what half of it reaches. -/
example : predict exFit (175 / 2) 1 = .ok (some [525 / 8]) ∧ predict exFit 0 1 = .ok (some [0]) ∧
    predict exFit (1 / 2 * (175 / 2) + (1 - 1 / 2) * 0) 1 = .ok (some [2425 / 64]) ∧
    1 / 2 * (525 / 8 : ℚ) + (1 - 1 / 2) * 0 < 2425 / 64 := by
  refine ⟨by decide +kernel, by decide +kernel, by decide +kernel, by decide +kernel⟩

/-! ## C54: the gamma-Poisson model -/

theorem gpShare_mul {I Imax : ℚ} (h : 1 ≤ Imax) : gpShare I Imax * Imax = min I (Imax - 1) := by
  unfold gpShare
  rw [div_mul_cancel₀ _ (by linarith : Imax ≠ 0)]

theorem seenAtLeast_sum (M : Nat) (g : Nat → ℚ) (p : ℚ) (F : Nat) (hF : M ≤ F) :
    ∑ k ∈ range F, seenAtLeast M g (k + 1) p = p * ∑ n ∈ Icc 1 M, (n : ℚ) * g n := by
  unfold seenAtLeast
  rw [Finset.sum_comm, Finset.mul_sum]
  apply Finset.sum_congr rfl
  intro n hn
  rw [← Finset.mul_sum, binTail_sum p n F (by have := (Finset.mem_Icc.1 hn).2; omega)]
  ring

theorem seenAtLeast_sum_le (M : Nat) {g : Nat → ℚ} (hg : ∀ n, 1 ≤ n → 0 ≤ g n) {p : ℚ} (h0 : 0 ≤ p)
    (h1 : p ≤ 1) (F : Nat) :
    ∑ k ∈ range F, seenAtLeast M g (k + 1) p ≤ p * ∑ n ∈ Icc 1 M, (n : ℚ) * g n := by
  unfold seenAtLeast
  rw [Finset.sum_comm, Finset.mul_sum]
  apply Finset.sum_le_sum
  intro n hn
  rw [← Finset.mul_sum]
  have := mul_le_mul_of_nonneg_left (binTail_sum_le n F h0 h1) (hg n (Finset.mem_Icc.1 hn).1)
  linarith

theorem seenAtLeast_markov (M : Nat) {g : Nat → ℚ} (hg : ∀ n, 1 ≤ n → 0 ≤ g n) {p : ℚ} (h0 : 0 ≤ p)
    (h1 : p ≤ 1) (k : Nat) :
    (k : ℚ) * seenAtLeast M g k p ≤ p * ∑ n ∈ Icc 1 M, (n : ℚ) * g n := by
  unfold seenAtLeast
  rw [Finset.mul_sum, Finset.mul_sum]
  apply Finset.sum_le_sum
  intro n hn
  have := mul_le_mul_of_nonneg_left (binTail_markov n k h0 h1) (hg n (Finset.mem_Icc.1 hn).1)
  linarith

theorem seenAtLeast_first_concave (M : Nat) {g : Nat → ℚ} (hg : ∀ n, 1 ≤ n → 0 ≤ g n) {p q t : ℚ}
    (p1 : p ≤ 1) (q1 : q ≤ 1) (t0 : 0 ≤ t) (t1 : t ≤ 1) :
    t * seenAtLeast M g 1 p + (1 - t) * seenAtLeast M g 1 q ≤
      seenAtLeast M g 1 (t * p + (1 - t) * q) := by
  unfold seenAtLeast
  rw [Finset.mul_sum, Finset.mul_sum, ← Finset.sum_add_distrib]
  apply Finset.sum_le_sum
  intro n hn
  have := mul_le_mul_of_nonneg_left (binTail_first_concave n p1 q1 t0 t1) (hg n (Finset.mem_Icc.1 hn).1)
  linarith

theorem list_eq_range_map {l : List ℚ} {n : Nat} {g : Nat → ℚ} (h : l.length = n)
    (hg : ∀ k, k < n → l[k]? = some (g k)) : l = (List.range n).map g := by
  apply List.ext_getElem?
  intro k
  by_cases hk : k < n
  · rw [hg k hk]; simp [hk]
  · rw [List.getElem?_eq_none (by omega), List.getElem?_eq_none (by simpa using hk)]

/-- **C54 (impressions).** If the inventory holds as many impressions per person as its distribution
says, the predicted k+ reaches never account for more impressions than are bought or than the inventory
holds less one: their sum and every `k` times the k+ reach is at most that.  If all frequencies are
asked for, the sum falls short by exactly the share of the inventory beyond `M` impressions per person,
which the code leaves out. -/
theorem C54_impressions_add_up (M : Nat) (gp : ℚ → ℚ → Nat → ℚ) (m : GammaPoisson.Model)
    (N Imax alpha beta mean : ℚ) (hm : GpFit m N Imax alpha beta) (hN : 0 < N)
    (hg : ∀ n, 1 ≤ n → 0 ≤ gp alpha beta n) (hmean : Imax = N * mean)
    (hle : ∑ n ∈ Icc 1 M, (n : ℚ) * gp alpha beta n ≤ mean) (I : ℚ) (hI : 0 ≤ I) (F : Nat) :
    ∃ p, m.byImpressions M gp [I] F = .ok (some p) ∧ p.kplusReaches.sum ≤ min I (Imax - 1) ∧
      (M ≤ F → p.kplusReaches.sum =
        min I (Imax - 1) * ((∑ n ∈ Icc 1 M, (n : ℚ) * gp alpha beta n) / mean)) ∧
      ∀ k, k < min F M → ((k + 1 : Nat) : ℚ) * p.kplusReaches.getD k 0 ≤ min I (Imax - 1) := by
  obtain ⟨p, h1, -, h2, h3⟩ := C54_formula M gp m N Imax alpha beta hm I hI F
  obtain ⟨b0, b1⟩ := gpShare_bounds hI hm.one_le
  have hs := gpShare_mul (I := I) hm.one_le
  have hmpos : 0 < mean := by
    have : 0 < N * mean := by rw [← hmean]; linarith [hm.one_le]
    exact (mul_pos_iff_of_pos_left hN).1 this
  have hcap : N * (gpShare I Imax * ∑ n ∈ Icc 1 M, (n : ℚ) * gp alpha beta n) ≤
      min I (Imax - 1) := by
    rw [← hs, hmean, mul_left_comm]
    exact mul_le_mul_of_nonneg_left (mul_le_mul_of_nonneg_left hle hN.le) (by rw [← hmean]; exact b0)
  have hl := list_eq_range_map h2 h3
  have hsum : p.kplusReaches.sum =
      N * ∑ k ∈ range (min F M), seenAtLeast M (gp alpha beta) (k + 1) (gpShare I Imax) := by
    rw [hl, list_range_map_sum, Finset.mul_sum]
  refine ⟨p, h1, ?_, ?_, ?_⟩
  · rw [hsum]
    exact (mul_le_mul_of_nonneg_left (seenAtLeast_sum_le M hg b0 b1.le _) hN.le).trans hcap
  · intro hF
    rw [hsum, Nat.min_eq_right hF, seenAtLeast_sum M _ _ M le_rfl, ← hs, hmean]
    field_simp
  · intro k hk
    have e : p.kplusReaches.getD k 0 =
        N * seenAtLeast M (gp alpha beta) (k + 1) (gpShare I Imax) := by
      rw [List.getD_eq_getElem?_getD, h3 k hk]; rfl
    rw [e, mul_left_comm]
    exact (mul_le_mul_of_nonneg_left (seenAtLeast_markov M hg b0 b1.le _) hN.le).trans hcap

/-- The hypotheses hold for 100 people with a geometric inventory of two impressions each, cut off after
three; of 100 impressions bought the prediction accounts for 11/16. -/
example : GpFit exGpModel 100 200 1 1 ∧ (200 : ℚ) = 100 * 2 ∧
    ∑ n ∈ Icc (1 : ℕ) 3, (n : ℚ) * geomTail 1 1 n ≤ 2 ∧
    (exGpModel.byImpressions 3 geomTail [100] 3).toOption.bind (·.map (·.kplusReaches.sum)) =
      some (100 * ((11 / 8) / 2)) := by
  refine ⟨⟨rfl, rfl, by norm_num⟩, by norm_num, by decide +kernel, by decide +kernel⟩

/-- **C54 (diminishing returns).** The predicted 1+ reach is concave in the impressions. -/
theorem C54_diminishing (M : Nat) (gp : ℚ → ℚ → Nat → ℚ) (m : GammaPoisson.Model)
    (N Imax alpha beta : ℚ) (hm : GpFit m N Imax alpha beta) (hN : 0 ≤ N)
    (hg : ∀ n, 1 ≤ n → 0 ≤ gp alpha beta n) (I I' t : ℚ) (hI : 0 ≤ I) (hI' : 0 ≤ I') (t0 : 0 ≤ t)
    (t1 : t ≤ 1) (F : Nat) :
    ∃ p p' q, m.byImpressions M gp [I] F = .ok (some p) ∧
      m.byImpressions M gp [I'] F = .ok (some p') ∧
      m.byImpressions M gp [t * I + (1 - t) * I'] F = .ok (some q) ∧
      t * p.kplusReaches.getD 0 0 + (1 - t) * p'.kplusReaches.getD 0 0 ≤
        q.kplusReaches.getD 0 0 := by
  have s0 : 0 ≤ 1 - t := by linarith
  have hM : 0 ≤ t * I + (1 - t) * I' := by positivity
  obtain ⟨p, h1, -, h2, h3⟩ := C54_formula M gp m N Imax alpha beta hm I hI F
  obtain ⟨p', h1', -, h2', h3'⟩ := C54_formula M gp m N Imax alpha beta hm I' hI' F
  obtain ⟨q, k1, -, k2, k3⟩ := C54_formula M gp m N Imax alpha beta hm _ hM F
  refine ⟨p, p', q, h1, h1', k1, ?_⟩
  by_cases hk : 0 < min F M
  · have e : ∀ (r : ReachPoint) (x : ℚ), (∀ k, k < min F M → r.kplusReaches[k]? =
        some (N * seenAtLeast M (gp alpha beta) (k + 1) (gpShare x Imax))) →
        r.kplusReaches.getD 0 0 = N * seenAtLeast M (gp alpha beta) 1 (gpShare x Imax) := by
      intro r x hr
      rw [List.getD_eq_getElem?_getD, hr 0 hk]; rfl
    rw [e p I h3, e p' I' h3', e q _ k3]
    obtain ⟨a0, a1⟩ := gpShare_bounds hI hm.one_le
    obtain ⟨b0, b1⟩ := gpShare_bounds hI' hm.one_le
    obtain ⟨c0, c1⟩ := gpShare_bounds hM hm.one_le
    have hle : t * gpShare I Imax + (1 - t) * gpShare I' Imax ≤
        gpShare (t * I + (1 - t) * I') Imax := by
      unfold gpShare
      rw [← mul_div_assoc, ← mul_div_assoc, ← add_div]
      exact div_le_div_of_nonneg_right (min_concave _ _ _ _ t0 t1) (by linarith [hm.one_le])
    have j1 := seenAtLeast_first_concave M hg a1.le b1.le t0 t1
    have j2 : seenAtLeast M (gp alpha beta) 1 (t * gpShare I Imax + (1 - t) * gpShare I' Imax) ≤
        seenAtLeast M (gp alpha beta) 1 (gpShare (t * I + (1 - t) * I') Imax) :=
      Finset.sum_le_sum (fun n hn => mul_le_mul_of_nonneg_left
        (binTail_mono n 1 (by positivity) hle c1.le) (hg n (Finset.mem_Icc.1 hn).1))
    have j3 := mul_le_mul_of_nonneg_left (j1.trans j2) hN
    linarith
  · have e : ∀ (r : ReachPoint), r.kplusReaches.length = min F M → r.kplusReaches.getD 0 0 = 0 := by
      intro r hr
      rw [List.getD_eq_default _ _ (by omega)]
    rw [e p h2, e p' h2', e q k2]; simp

example : (exGpModel.byImpressions 3 geomTail [1 / 2 * 100 + (1 - 1 / 2) * 0] 1).toOption.bind
      (·.map (·.kplusReaches)) = some [3925 / 128] ∧
    (exGpModel.byImpressions 3 geomTail [100] 1).toOption.bind (·.map (·.kplusReaches)) =
      some [875 / 16] ∧ (1 / 2 : ℚ) * (875 / 16) < 3925 / 128 := by
  refine ⟨by decide +kernel, by decide +kernel, by decide +kernel⟩

/-! ## C28: Goerg's model -/

theorem goerg_concave {rho x y t : ℚ} (hr : 0 < rho) (hx : 0 ≤ x) (hy : 0 ≤ y) (t0 : 0 ≤ t)
    (t1 : t ≤ 1) :
    t * (x / (x + rho)) + (1 - t) * (y / (y + rho)) ≤
      (t * x + (1 - t) * y) / (t * x + (1 - t) * y + rho) := by
  have s0 : 0 ≤ 1 - t := by linarith
  have hz : 0 ≤ t * x + (1 - t) * y := by positivity
  have e : (t * x + (1 - t) * y) / (t * x + (1 - t) * y + rho) -
      (t * (x / (x + rho)) + (1 - t) * (y / (y + rho))) =
      rho * t * (1 - t) * (x - y) ^ 2 /
        ((t * x + (1 - t) * y + rho) * (x + rho) * (y + rho)) := by
    have h1 : x + rho ≠ 0 := by positivity
    have h2 : y + rho ≠ 0 := by positivity
    have h3 : t * x + (1 - t) * y + rho ≠ 0 := by positivity
    field_simp
    ring
  have : 0 ≤ rho * t * (1 - t) * (x - y) ^ 2 /
        ((t * x + (1 - t) * y + rho) * (x + rho) * (y + rho)) := by positivity
  linarith

/-- **C28 (diminishing returns).** The predicted 1+ reach is concave in the impressions. -/
theorem C28_diminishing (data : List ReachPoint) (m : GoergModel) (hm : GoergModel.new data = .ok m)
    (hr : 0 < m.reach) (x y t : ℚ) (hx : 0 ≤ x) (hy : 0 ≤ y) (t0 : 0 ≤ t) (t1 : t ≤ 1) (F : Nat)
    (hF : 1 ≤ F) :
    ∃ p q r a b c, m.byImpressions [x] F = .ok p ∧ m.byImpressions [y] F = .ok q ∧
      m.byImpressions [t * x + (1 - t) * y] F = .ok r ∧ p.reach 1 = .ok a ∧ q.reach 1 = .ok b ∧
      r.reach 1 = .ok c ∧ t * a + (1 - t) * b ≤ c := by
  obtain ⟨hrho, hb⟩ := goerg_rho_pos data m hm hr
  have s0 : 0 ≤ 1 - t := by linarith
  have hz : 0 ≤ t * x + (1 - t) * y := by positivity
  obtain ⟨p, p1, -, -, -, p5⟩ := goerg_byImpressions_ok m x F (by rw [hb]; positivity)
  obtain ⟨q, q1, -, -, -, q5⟩ := goerg_byImpressions_ok m y F (by rw [hb]; positivity)
  obtain ⟨r, r1, -, -, -, r5⟩ := goerg_byImpressions_ok m (t * x + (1 - t) * y) F
    (by rw [hb]; positivity)
  refine ⟨p, q, r, _, _, _, p1, q1, r1, p5 1 le_rfl hF, q5 1 le_rfl hF, r5 1 le_rfl hF, ?_⟩
  have h := mul_le_mul_of_nonneg_left (goerg_concave hrho hx hy t0 t1) hrho.le
  rw [hb, pow_one, pow_one, pow_one]
  linarith

example : (exGoerg.byImpressions [100] 1).toOption.map (·.kplusReaches) = some [20] ∧
    (exGoerg.byImpressions [25] 1).toOption.map (·.kplusReaches) = some [25 / 2] ∧
    (exGoerg.byImpressions [1 / 3 * 100 + (1 - 1 / 3) * 25] 1).toOption.map (·.kplusReaches)
      = some [50 / 3] ∧ (1 / 3 : ℚ) * 20 + (1 - 1 / 3) * (25 / 2) < 50 / 3 := by
  refine ⟨by decide +kernel, by decide +kernel, by decide +kernel, by decide +kernel⟩

/-! ## C53: the Dirac mixture -/

theorem poissonTail_one (mean : ℝ) : poissonTail mean 1 = 1 - Real.exp (-mean) := by
  rw [poissonTail_succ, poissonTail_zero]
  simp [Dirac.poissonPmf]

theorem poissonTail_one_concave {x y t : ℝ} (t0 : 0 ≤ t) (t1 : t ≤ 1) :
    t * poissonTail x 1 + (1 - t) * poissonTail y 1 ≤ poissonTail (t * x + (1 - t) * y) 1 := by
  have h := convexOn_exp.2 (Set.mem_univ (-x)) (Set.mem_univ (-y)) t0 (show 0 ≤ 1 - t by linarith)
    (by ring)
  simp only [smul_eq_mul] at h
  rw [poissonTail_one, poissonTail_one, poissonTail_one,
    show -(t * x + (1 - t) * y) = t * -x + (1 - t) * -y by ring]
  linarith

theorem mixtureTail_one_concave : ∀ (ws : List ℝ) (comps : List ℚ), (∀ w ∈ ws, 0 ≤ w) →
    ∀ {x y t : ℝ}, 0 ≤ t → t ≤ 1 →
    t * mixtureTail ws comps x 1 + (1 - t) * mixtureTail ws comps y 1 ≤
      mixtureTail ws comps (t * x + (1 - t) * y) 1
  | [], _, _, _, _, _, _, _ => by simp [mixtureTail]
  | _ :: _, [], _, _, _, _, _, _ => by simp [mixtureTail]
  | w :: ws, c :: comps, hw, x, y, t, t0, t1 => by
    have ih := mixtureTail_one_concave ws comps (fun v hv => hw v (by simp [hv])) (x := x) (y := y)
      t0 t1
    have h := mul_le_mul_of_nonneg_left (poissonTail_one_concave (x := c * x) (y := c * y) t0 t1)
      (hw w (by simp))
    rw [show t * (c * x) + (1 - t) * (c * y) = c * (t * x + (1 - t) * y) by ring] at h
    unfold mixtureTail at ih ⊢
    simp only [List.zipWith_cons_cons, List.sum_cons]
    linarith

/-- **C53 (diminishing returns).** The predicted 1+ reach is concave in the impressions, but for the
rounding to whole people, which moves every prediction by at most a half. -/
theorem C53_diminishing (solve : Dirac.Solve) (m : Dirac.Model) (ws : List ℝ) (comps : List ℚ)
    (U : Nat) (I0 : ℚ) (hm : DiracFit m ws comps U I0) (hU : U < 2 ^ 31)
    (hw : ∀ w ∈ ws, 0 ≤ w) (htot : (U : ℝ) * ws.sum < U + 1 / 2) (hc : ∀ c ∈ comps, 0 ≤ c)
    (x y t : ℚ) (hx : 0 ≤ x) (hy : 0 ≤ y) (t0 : 0 ≤ t) (t1 : t ≤ 1) (F : Nat) (hF : 1 ≤ F) :
    ∃ p q r, m.byImpressions solve [x] F = .ok (p, m) ∧ m.byImpressions solve [y] F = .ok (q, m) ∧
      m.byImpressions solve [t * x + (1 - t) * y] F = .ok (r, m) ∧
      t * p.kplusReaches.getD 0 0 + (1 - t) * q.kplusReaches.getD 0 0 ≤
        r.kplusReaches.getD 0 0 + 1 := by
  have s0 : 0 ≤ 1 - t := by linarith
  have hz : 0 ≤ t * x + (1 - t) * y := by positivity
  obtain ⟨p, p1, -, -, p4, -⟩ := C53_coherent_partial solve m ws comps U I0 hm hU hw htot hc x hx F
  obtain ⟨q, q1, -, -, q4, -⟩ := C53_coherent_partial solve m ws comps U I0 hm hU hw htot hc y hy F
  obtain ⟨r, r1, -, -, r4, -⟩ := C53_coherent_partial solve m ws comps U I0 hm hU hw htot hc _ hz F
  refine ⟨p, q, r, p1, q1, r1, ?_⟩
  obtain ⟨a, a1, a2, -⟩ := p4 0 (by omega)
  obtain ⟨b, b1, b2, -⟩ := q4 0 (by omega)
  obtain ⟨c, c1, c2, -⟩ := r4 0 (by omega)
  rw [a1, b1, c1]
  have hcc := mixtureTail_one_concave ws comps hw (x := (x : ℝ) / I0) (y := (y : ℝ) / I0)
    (t := (t : ℝ)) (by exact_mod_cast t0) (by exact_mod_cast t1)
  rw [show (t : ℝ) * (x / I0) + (1 - t) * (y / I0) = ((t * x + (1 - t) * y : ℚ) : ℝ) / I0 by
    push_cast; ring] at hcc
  have hcc' := mul_le_mul_of_nonneg_left hcc (Nat.cast_nonneg (α := ℝ) U)
  rw [abs_le] at a2 b2 c2
  have t0' : (0 : ℝ) ≤ t := by exact_mod_cast t0
  have s0' : (0 : ℝ) ≤ 1 - t := by exact_mod_cast s0
  have ha := mul_le_mul_of_nonneg_left a2.2 t0'
  have hb := mul_le_mul_of_nonneg_left b2.2 s0'
  have hreal : (t : ℝ) * a + (1 - t) * b ≤ c + 1 := by
    simp only [zero_add] at ha hb c2
    linarith [c2.1]
  exact_mod_cast hreal

example : DiracFit (exDirac 1000) [1] [1] (1000 : ℕ) 1000 ∧ (1000 : ℕ) < 2 ^ 31 ∧
    ((1000 : ℕ) : ℝ) * ([1] : List ℝ).sum < (1000 : ℕ) + 1 / 2 :=
  ⟨by have := exDirac_fit 1000 (by norm_num); exact_mod_cast this, by norm_num, by norm_num⟩

end Verif
