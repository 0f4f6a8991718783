import Verif.Model.Thinning
import Mathlib.Data.Nat.Choose.Sum
import Mathlib.Algebra.BigOperators.Fin
import Mathlib.Algebra.Order.BigOperators.Group.Finset
import Mathlib.Data.Rat.Defs
import Mathlib.Tactic.Ring
import Mathlib.Tactic.Linarith
import Mathlib.Tactic.Positivity

/-!
# Binomial probabilities
-/

namespace Verif

open Finset

/-- Probability that at least `k` of `n` impressions are shown (specification). -/
def binTail (n k : Nat) (p : ℚ) : ℚ :=
  ∑ i ∈ Finset.Ico k (n + 1), (n.choose i : ℚ) * p ^ i * (1 - p) ^ (n - i)

theorem binomPmf_nonneg (n k : Nat) {p : ℚ} (h0 : 0 ≤ p) (h1 : p ≤ 1) : 0 ≤ binomPmf n k p := by
  unfold binomPmf
  have : 0 ≤ 1 - p := by linarith
  positivity

theorem binomPmf_zero_of_lt {n k : Nat} (h : n < k) (p : ℚ) : binomPmf n k p = 0 := by
  unfold binomPmf
  rw [Nat.choose_eq_zero_of_lt h]; simp

theorem binTail_eq (n k : Nat) (p : ℚ) :
    binTail n k p = ∑ i ∈ Finset.Ico k (n + 1), binomPmf n i p := rfl

theorem binTail_zero (n : Nat) (p : ℚ) : binTail n 0 p = 1 := by
  unfold binTail
  have h := (add_pow p (1 - p) n).symm
  rw [show p + (1 - p) = 1 by ring, one_pow] at h
  refine Eq.trans ?_ h
  rw [← Finset.range_eq_Ico]
  apply Finset.sum_congr rfl
  intro i _
  ring

theorem binTail_succ_add (n k : Nat) (p : ℚ) :
    binTail n k p = binomPmf n k p + binTail n (k + 1) p := by
  by_cases h : k < n + 1
  · rw [binTail_eq, binTail_eq, Finset.sum_eq_sum_Ico_succ_bot h]
  · rw [binTail_eq, binTail_eq, Finset.Ico_eq_empty (by omega), Finset.Ico_eq_empty (by omega),
      binomPmf_zero_of_lt (by omega)]
    simp

theorem binTail_antitone_k (n : Nat) {p : ℚ} (h0 : 0 ≤ p) (h1 : p ≤ 1) (k : Nat) :
    binTail n (k + 1) p ≤ binTail n k p := by
  rw [binTail_succ_add n k]
  have := binomPmf_nonneg n k h0 h1
  linarith

theorem binTail_antitone (n : Nat) {p : ℚ} (h0 : 0 ≤ p) (h1 : p ≤ 1) {j k : Nat} (h : j ≤ k) :
    binTail n k p ≤ binTail n j p := by
  induction h with
  | refl => exact le_refl _
  | step _ ih => exact le_trans (binTail_antitone_k n h0 h1 _) ih

theorem binTail_nonneg (n k : Nat) {p : ℚ} (h0 : 0 ≤ p) (h1 : p ≤ 1) : 0 ≤ binTail n k p :=
  Finset.sum_nonneg (fun _ _ => binomPmf_nonneg _ _ h0 h1)

theorem binTail_le_one (n k : Nat) {p : ℚ} (h0 : 0 ≤ p) (h1 : p ≤ 1) : binTail n k p ≤ 1 := by
  rw [← binTail_zero n p]
  exact binTail_antitone n h0 h1 (Nat.zero_le k)

/-- Pascal's rule for probabilities. -/
theorem binomPmf_succ (n k : Nat) (p : ℚ) :
    binomPmf (n + 1) (k + 1) p = p * binomPmf n k p + (1 - p) * binomPmf n (k + 1) p := by
  unfold binomPmf
  rw [Nat.choose_succ_succ, Nat.add_sub_add_right]
  push_cast
  by_cases h : k + 1 ≤ n
  · obtain ⟨d, rfl⟩ := Nat.exists_eq_add_of_le h
    rw [show k + 1 + d - k = d + 1 by omega, show k + 1 + d - (k + 1) = d by omega]
    ring
  · rw [Nat.choose_eq_zero_of_lt (by omega : n < k + 1)]
    push_cast
    ring

theorem binTail_of_lt {n k : Nat} (h : n < k) (p : ℚ) : binTail n k p = 0 := by
  rw [binTail_eq, Finset.Ico_eq_empty (by omega)]; simp

theorem binTail_succ (n k : Nat) (p : ℚ) :
    binTail (n + 1) (k + 1) p = p * binTail n k p + (1 - p) * binTail n (k + 1) p := by
  by_cases hk : n < k
  · rw [binTail_of_lt (by omega), binTail_of_lt hk, binTail_of_lt (by omega)]; ring
  · obtain ⟨d, rfl⟩ := Nat.exists_eq_add_of_le (Nat.not_lt.1 hk)
    clear hk
    -- downward induction on k, i.e. induction on d with n fixed
    generalize hn : k + d = n
    induction d generalizing k with
    | zero =>
      have : k = n := by omega
      subst this
      rw [binTail_succ_add (k + 1) (k + 1), binTail_succ_add k k,
        binTail_of_lt (by omega : k + 1 < k + 1 + 1),
        binTail_of_lt (by omega : k < k + 1), binomPmf_succ,
        binomPmf_zero_of_lt (by omega : k < k + 1)]
      ring
    | succ d ih =>
      have := ih (k + 1) (by omega)
      rw [binTail_succ_add (n + 1) (k + 1), this, binTail_succ_add n k, binTail_succ_add n (k + 1),
        binomPmf_succ]
      ring

/-- The more likely an impression is shown, the more impressions are seen. -/
theorem binTail_mono (n : Nat) : ∀ (k : Nat) {p q : ℚ}, 0 ≤ p → p ≤ q → q ≤ 1 →
    binTail n k p ≤ binTail n k q := by
  induction n with
  | zero =>
    intro k p q _ _ _
    cases k with
    | zero => rw [binTail_zero, binTail_zero]
    | succ k => rw [binTail_of_lt (by omega), binTail_of_lt (by omega)]
  | succ n ih =>
    intro k p q h0 hpq h1
    cases k with
    | zero => rw [binTail_zero, binTail_zero]
    | succ k =>
      rw [binTail_succ, binTail_succ]
      have h2 := ih k h0 hpq h1
      have h3 := ih (k + 1) h0 hpq h1
      have h4 := binTail_antitone_k n (le_trans h0 hpq) h1 k
      have h5 : 0 ≤ 1 - p := by linarith
      nlinarith [mul_le_mul_of_nonneg_left h2 h0, mul_le_mul_of_nonneg_left h3 h5,
        mul_nonneg (sub_nonneg.2 hpq) (sub_nonneg.2 h4)]

theorem binTail_one (n k : Nat) (h : k ≤ n) : binTail n k 1 = 1 := by
  unfold binTail
  rw [Finset.sum_eq_single n]
  · simp
  · intro i hi hne
    have : i < n := by
      have := (Finset.mem_Ico.1 hi).2
      omega
    rw [sub_self, zero_pow (by omega)]; ring
  · intro hn
    exact absurd (Finset.mem_Ico.2 ⟨h, by omega⟩) hn

theorem binTail_at_zero (n k : Nat) (h : 0 < k) : binTail n k 0 = 0 := by
  unfold binTail
  apply Finset.sum_eq_zero
  intro i hi
  have := (Finset.mem_Ico.1 hi).1
  rw [zero_pow (by omega)]; ring

end Verif
