import Verif.Lemmas.Binomial
import Mathlib.Algebra.BigOperators.Intervals
import Mathlib.Data.List.GetD
import Mathlib.Algebra.Order.BigOperators.Group.List

/-!
# Lemmas about random display of an inventory
-/

namespace Verif

open Finset

/-- Probability that a user sees at least `k` impressions, if every impression of the inventory is
shown with probability `p` and `pmf[n]` is the probability of an inventory of `n` (specification). -/
def shownAtLeast (pmf : List ℚ) (k : Nat) (p : ℚ) : ℚ :=
  ∑ n ∈ Finset.range pmf.length, pmf.getD n 0 * binTail n k p

/-- Non-negative numbers adding up to one (specification). -/
def IsDistribution (l : List ℚ) : Prop := (∀ x ∈ l, 0 ≤ x) ∧ l.sum = 1

/-- Probability of exactly `k` impressions. -/
def shownExactly (pmf : List ℚ) (k : Nat) (p : ℚ) : ℚ :=
  ∑ n ∈ Finset.range pmf.length, binomPmf n k p * pmf.getD n 0

theorem list_sum_range' (g : Nat → ℚ) (m c : Nat) :
    ((List.range' m c).map g).sum = ∑ i ∈ Finset.range c, g (m + i) := by
  induction c generalizing m with
  | zero => simp
  | succ c ih =>
    rw [List.range'_succ, List.map_cons, List.sum_cons, ih, Finset.sum_range_succ']
    rw [add_comm]
    congr 1
    apply Finset.sum_congr rfl
    intro i _
    congr 1
    omega

theorem list_sum_getD (l : List ℚ) : l.sum = ∑ n ∈ Finset.range l.length, l.getD n 0 := by
  induction l with
  | nil => simp
  | cons a l ih =>
    rw [List.sum_cons, List.length_cons, Finset.sum_range_succ', ih, add_comm]
    simp

theorem zipIdx_range'_map {α : Type} (m c s : Nat) (f : Nat → Nat → α) :
    ((List.range' m c).zipIdx s).map (fun x => f x.1 x.2) =
      (List.range c).map (fun i : Nat => f (m + i) (s + i)) := by
  apply List.ext_getElem
  · simp
  · intro i h1 h2
    simp

theorem shownExactly_eq (pmf : List ℚ) (k : Nat) (p : ℚ) :
    shownExactly pmf k p = shownAtLeast pmf k p - shownAtLeast pmf (k + 1) p := by
  unfold shownExactly shownAtLeast
  rw [← Finset.sum_sub_distrib]
  apply Finset.sum_congr rfl
  intro n _
  rw [binTail_succ_add n k]
  ring

theorem shownAtLeast_zero {pmf : List ℚ} (h : pmf.sum = 1) (p : ℚ) : shownAtLeast pmf 0 p = 1 := by
  unfold shownAtLeast
  rw [← h, list_sum_getD]
  apply Finset.sum_congr rfl
  intro n _
  rw [binTail_zero, mul_one]

theorem isConsecutive_range' (m c : Nat) : isConsecutive (List.range' m (c + 1)) = true := by
  have h1 : (List.range' m (c + 1)).headD 0 = m := by simp [List.range'_succ]
  have h2 : (List.range' m (c + 1)).getLastD 0 = m + c := by
    rw [List.range'_concat]
    simp
  unfold isConsecutive
  rw [h1, h2, show m + c + 1 - m = c + 1 by omega]
  simp

theorem foldl_min_ge {l : List Nat} {m : Nat} (h : ∀ x ∈ l, m ≤ x) : l.foldl min m = m := by
  induction l with
  | nil => rfl
  | cons a l ih =>
    rw [List.foldl_cons, Nat.min_eq_left (h a (by simp))]
    exact ih (fun x hx => h x (by simp [hx]))

/-- `kreach` of consecutive frequencies. -/
theorem kreach_range' (pmf : List ℚ) (m c : Nat) (p : ℚ) :
    kreach pmf (List.range' m c) p =
      .ok ((List.range' m c).map (fun k => shownExactly pmf k p)) := by
  cases c with
  | zero => simp [kreach]
  | succ c =>
    have hne : List.range' m (c + 1) ≠ [] := by simp
    have hh : (List.range' m (c + 1)).headD 0 = m := by simp [List.range'_succ]
    have hmin : (List.range' m (c + 1)).foldl min ((List.range' m (c + 1)).headD 0) = m := by
      rw [hh]
      apply foldl_min_ge
      intro x hx
      have := List.mem_range'_1.1 hx
      omega
    unfold kreach
    rw [if_neg hne, isConsecutive_range']
    simp only [Bool.not_true, Bool.false_eq_true, if_false, hmin]
    congr 1
    rw [zipIdx_range'_map m (c + 1) 0 (fun k i =>
      kreachRow pmf (List.range' m (pmf.length - m)) p k i)]
    rw [List.range'_eq_map_range (n := c + 1), List.map_map]
    apply List.map_congr_left
    intro i _
    simp only [Function.comp_apply, Nat.zero_add]
    unfold kreachRow
    rw [zipIdx_range'_map m (pmf.length - m) 0 (fun n j =>
      if j < i then 0 else knreach pmf (m + i) n p)]
    rw [List.range_eq_range', list_sum_range']
    unfold shownExactly
    have hl : ∀ n, n < m → binomPmf n (m + i) p * pmf.getD n 0 = 0 := by
      intro n hn
      rw [binomPmf_zero_of_lt (by omega)]; ring
    by_cases hm : m ≤ pmf.length
    · obtain ⟨d, hd⟩ := Nat.exists_eq_add_of_le hm
      rw [show pmf.length - m = d by omega, hd, Finset.sum_range_add,
        Finset.sum_eq_zero (s := Finset.range m) (fun n hn => hl n (Finset.mem_range.1 hn)),
        zero_add]
      apply Finset.sum_congr rfl
      intro j _
      simp only [Nat.zero_add]
      split
      · rw [binomPmf_zero_of_lt (by omega)]; ring
      · rfl
    · rw [show pmf.length - m = 0 by omega, Finset.range_zero, Finset.sum_empty]
      symm
      apply Finset.sum_eq_zero
      intro n hn
      apply hl
      have := Finset.mem_range.1 hn
      omega

theorem sum_shownExactly (pmf : List ℚ) (m c : Nat) (p : ℚ) :
    ((List.range' m c).map (fun k => shownExactly pmf k p)).sum =
      shownAtLeast pmf m p - shownAtLeast pmf (m + c) p := by
  induction c generalizing m with
  | zero => simp
  | succ c ih =>
    rw [List.range'_succ, List.map_cons, List.sum_cons, ih, shownExactly_eq,
      show m + 1 + c = m + (c + 1) by omega]
    ring

theorem npCumsum_append (l r : List ℚ) (acc : ℚ) :
    npCumsum acc (l ++ r) = npCumsum acc l ++ npCumsum (acc + l.sum) r := by
  induction l generalizing acc with
  | nil => simp [npCumsum]
  | cons a l ih => simp [npCumsum, ih, add_assoc]

theorem kplusFromHist_cons (a : ℚ) (l : List ℚ) :
    kplusFromHist (a :: l) = (a :: l).sum :: kplusFromHist l := by
  unfold kplusFromHist
  rw [List.reverse_cons, npCumsum_append]
  simp [npCumsum, add_comm]

/-- Summing up differences of a function from the end. -/
theorem kplusFromHist_telescope (f : Nat → ℚ) (m c : Nat) :
    kplusFromHist (((List.range' m c).map (fun k => f k - f (k + 1))) ++ [f (m + c)]) =
      (List.range' m (c + 1)).map f := by
  have hsum : ∀ c m, (((List.range' m c).map (fun k => f k - f (k + 1))) ++ [f (m + c)]).sum = f m := by
    intro c
    induction c with
    | zero => intro m; simp
    | succ c ih =>
      intro m
      rw [List.range'_succ, List.map_cons, List.cons_append, List.sum_cons,
        show m + (c + 1) = m + 1 + c by omega, ih]
      ring
  induction c generalizing m with
  | zero => simp [kplusFromHist, npCumsum]
  | succ c ih =>
    have h1 := hsum (c + 1) m
    rw [List.range'_succ, List.map_cons, List.cons_append] at h1 ⊢
    rw [kplusFromHist_cons, h1, show m + (c + 1) = m + 1 + c by omega, ih (m + 1)]
    rw [List.range'_succ (n := c + 1), List.map_cons]

/-! ## Properties of the specification -/

theorem getD_nonneg {l : List ℚ} (h : ∀ x ∈ l, 0 ≤ x) (n : Nat) : 0 ≤ l.getD n 0 := by
  by_cases hn : n < l.length
  · rw [List.getD_eq_getElem _ _ hn]; exact h _ (List.getElem_mem hn)
  · rw [List.getD_eq_default _ _ (by omega)]

theorem shownAtLeast_antitone {pmf : List ℚ} (h : ∀ x ∈ pmf, 0 ≤ x) {p : ℚ} (h0 : 0 ≤ p)
    (h1 : p ≤ 1) {j k : Nat} (hjk : j ≤ k) : shownAtLeast pmf k p ≤ shownAtLeast pmf j p := by
  apply Finset.sum_le_sum
  intro n _
  exact mul_le_mul_of_nonneg_left (binTail_antitone n h0 h1 hjk) (getD_nonneg h n)

theorem shownAtLeast_mono {pmf : List ℚ} (h : ∀ x ∈ pmf, 0 ≤ x) {p q : ℚ} (h0 : 0 ≤ p)
    (hpq : p ≤ q) (h1 : q ≤ 1) (k : Nat) : shownAtLeast pmf k p ≤ shownAtLeast pmf k q := by
  apply Finset.sum_le_sum
  intro n _
  exact mul_le_mul_of_nonneg_left (binTail_mono n k h0 hpq h1) (getD_nonneg h n)

theorem shownAtLeast_nonneg {pmf : List ℚ} (h : ∀ x ∈ pmf, 0 ≤ x) {p : ℚ} (h0 : 0 ≤ p)
    (h1 : p ≤ 1) (k : Nat) : 0 ≤ shownAtLeast pmf k p :=
  Finset.sum_nonneg (fun n _ => mul_nonneg (getD_nonneg h n) (binTail_nonneg n k h0 h1))

theorem shownAtLeast_le_sum {pmf : List ℚ} (h : ∀ x ∈ pmf, 0 ≤ x) {p : ℚ} (h0 : 0 ≤ p)
    (h1 : p ≤ 1) (k : Nat) : shownAtLeast pmf k p ≤ pmf.sum := by
  rw [list_sum_getD]
  apply Finset.sum_le_sum
  intro n _
  have := mul_le_mul_of_nonneg_left (binTail_le_one n k h0 h1) (getD_nonneg h n)
  linarith

theorem shownAtLeast_at_zero (pmf : List ℚ) {k : Nat} (hk : 0 < k) : shownAtLeast pmf k 0 = 0 := by
  apply Finset.sum_eq_zero
  intro n _
  rw [binTail_at_zero n k hk, mul_zero]

end Verif
