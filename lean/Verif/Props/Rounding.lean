import Mathlib.Tactic.Ring
import Mathlib.Tactic.Linarith
import Mathlib.Tactic.Positivity
import Verif.Spec.Float64
import Verif.Lemmas.Float64
import Verif.Lemmas.FloatSpend

/-!
# What the rounding of `Model/Float64` is

Round to nearest, ties to even, in the sense of IEEE 754, stated without the definitions used to
compute it.
-/

namespace Verif

open Verif.Spec

theorem roundHalfEven_nearest (t : ℚ) (k : ℤ) : |(roundHalfEven t : ℚ) - t| ≤ |(k : ℚ) - t| := by
  have h1 := Int.floor_le t
  have h2 := Int.lt_floor_add_one t
  have near := roundHalfEven_near t
  rcases lt_trichotomy k ⌊t⌋ with h | h | h
  · have : (k : ℚ) ≤ ⌊t⌋ - 1 := by
      have : k ≤ ⌊t⌋ - 1 := by omega
      exact_mod_cast this
    rw [abs_of_nonpos (show (k : ℚ) - t ≤ 0 by linarith)]
    linarith
  · subst h
    rw [abs_of_nonpos (show (⌊t⌋ : ℚ) - t ≤ 0 by linarith)]
    unfold roundHalfEven
    rw [abs_le]
    split_ifs <;> push_cast <;> constructor <;> linarith
  · have : (⌊t⌋ : ℚ) + 1 ≤ k := by exact_mod_cast h
    rw [abs_of_nonneg (show 0 ≤ (k : ℚ) - t by linarith)]
    unfold roundHalfEven
    rw [abs_le]
    split_ifs <;> push_cast <;> constructor <;> linarith

/-- A tie goes to the even neighbour. -/
theorem roundHalfEven_tie (t : ℚ) (k : ℤ) (hk : k ≠ roundHalfEven t)
    (h : |(k : ℚ) - t| = |(roundHalfEven t : ℚ) - t|) :
    roundHalfEven t % 2 = 0 ∧ (k = roundHalfEven t + 1 ∨ k = roundHalfEven t - 1) := by
  have h1 := Int.floor_le t
  have h2 := Int.lt_floor_add_one t
  have near := roundHalfEven_near t
  have hk2 : k = ⌊t⌋ ∨ k = ⌊t⌋ + 1 := by
    rw [← h, abs_le] at near
    have a : ⌊t⌋ ≤ k := by
      have : (⌊t⌋ : ℚ) - 1 < k := by linarith [near.1]
      have : ⌊t⌋ - 1 < k := by exact_mod_cast this
      omega
    have b : k ≤ ⌊t⌋ + 1 := by
      have : (k : ℚ) < ⌊t⌋ + 2 := by linarith [near.2]
      have : k < ⌊t⌋ + 2 := by exact_mod_cast this
      omega
    omega
  have e0 : |(⌊t⌋ : ℚ) - t| = t - ⌊t⌋ := by rw [abs_sub_comm, abs_of_nonneg (by linarith)]
  have e1 : |(⌊t⌋ : ℚ) + 1 - t| = ⌊t⌋ + 1 - t := abs_of_nonneg (by linarith)
  unfold roundHalfEven at hk h ⊢
  rcases hk2 with rfl | rfl
  · split_ifs at hk h ⊢ with a b c
    · exact absurd rfl hk
    · push_cast at h; rw [e0, e1] at h; linarith
    · exact absurd rfl hk
    · refine ⟨by omega, by omega⟩
  · split_ifs at hk h ⊢ with a b c
    · push_cast at h; rw [e0, e1] at h; linarith
    · exact absurd rfl hk
    · exact ⟨c, by omega⟩
    · exact absurd rfl hk

theorem abs_lt_zpow_log (x : ℚ) (hx : x ≠ 0) :
    (2 : ℚ) ^ Int.log 2 |x| ≤ |x| ∧ |x| < 2 ^ (Int.log 2 |x| + 1) := by
  have := log64 |x| (abs_pos.2 hx)
  rwa [abs_abs] at this

theorem round64_isFloat (x : ℚ) : IsFloat64 (round64 x) := by
  rcases eq_or_ne x 0 with rfl | hx
  · rw [round64_zero]; exact ⟨0, 0, by norm_num, by norm_num, by simp⟩
  obtain ⟨-, h2⟩ := abs_lt_zpow_log x hx
  have hpos := ulp64_pos x
  have hE : -1074 ≤ exp64 x := le_max_right _ _
  have hlog : Int.log 2 |x| - 52 ≤ exp64 x := le_max_left _ _
  have hb : |x| ≤ 2 ^ 53 * ulp64 x := by
    refine h2.le.trans ?_
    rw [ulp64_eq]
    have e : (2 : ℚ) ^ 53 * 2 ^ exp64 x = 2 ^ (53 + exp64 x) := by
      rw [zpow_add₀ (by norm_num)]; norm_num
    rw [e]
    exact zpow_le_zpow_right₀ (by norm_num) (by omega)
  rw [abs_le] at hb
  have hn1 : roundHalfEven (x / ulp64 x) ≤ 2 ^ 53 := by
    apply roundHalfEven_le
    rw [div_le_iff₀ hpos]; push_cast; exact hb.2
  have hn2 : -2 ^ 53 ≤ roundHalfEven (x / ulp64 x) := by
    apply le_roundHalfEven
    rw [le_div_iff₀ hpos]; push_cast; linarith [hb.1]
  have hdef : round64 x = roundHalfEven (x / ulp64 x) * 2 ^ exp64 x := rfl
  rw [hdef]
  generalize roundHalfEven (x / ulp64 x) = n at *
  have e2 : (2 : ℚ) ^ (exp64 x + 1) = 2 ^ exp64 x * 2 := by
    rw [zpow_add₀ (by norm_num)]; norm_num
  rcases lt_or_ge |n| (2 ^ 53) with h | h
  · exact ⟨n, exp64 x, h, hE, rfl⟩
  · rcases abs_cases n with ⟨a, -⟩ | ⟨a, -⟩
    · refine ⟨2 ^ 52, exp64 x + 1, by norm_num, by omega, ?_⟩
      have : n = 2 ^ 53 := by omega
      rw [this, e2]; push_cast; ring
    · refine ⟨-2 ^ 52, exp64 x + 1, by norm_num, by omega, ?_⟩
      have : n = -2 ^ 53 := by omega
      rw [this, e2]; push_cast; ring

/-- A number of binary64 is a multiple of the last bit of `x`, or nearer to zero than a multiple of the
last bit that is between. -/
theorem float_multiple (x y : ℚ) (hx : x ≠ 0) (hy : IsFloat64 y) :
    (∃ k : ℤ, y = k * ulp64 x) ∨
    ∃ k : ℤ, |(k : ℚ) * ulp64 x - x| < |y - x| := by
  obtain ⟨n, e, hn, he, rfl⟩ := hy
  obtain ⟨h1, -⟩ := abs_lt_zpow_log x hx
  rcases le_or_gt (exp64 x) e with h | h
  · left
    obtain ⟨k, hk⟩ := two_zpow_int e (exp64 x) h
    exact ⟨n * k, by rw [hk, ulp64_eq]; push_cast; ring⟩
  · right
    have hE : exp64 x = Int.log 2 |x| - 52 := by unfold exp64 at h ⊢; omega
    have hB : (2 : ℚ) ^ Int.log 2 |x| = 2 ^ 52 * ulp64 x := by
      rw [ulp64_eq, hE]
      have : (2 : ℚ) ^ 52 = 2 ^ (52 : ℤ) := by norm_num
      rw [this, ← zpow_add₀ (by norm_num)]
      congr 1; omega
    have hy : |(n : ℚ) * 2 ^ e| < 2 ^ 52 * ulp64 x := by
      rw [abs_mul, abs_of_pos (two_zpow_pos e)]
      have a : (|(n : ℚ)|) < 2 ^ 53 := by exact_mod_cast hn
      have b : (2 : ℚ) ^ e * 2 ≤ ulp64 x := by
        have e2 : (2 : ℚ) ^ (e + 1) = 2 ^ e * 2 := by
          rw [zpow_add₀ (by norm_num)]; norm_num
        rw [← e2, ulp64_eq]
        exact zpow_le_zpow_right₀ (by norm_num) (by omega)
      have c := two_zpow_pos e
      calc |(n : ℚ)| * 2 ^ e < 2 ^ 53 * 2 ^ e := mul_lt_mul_of_pos_right a c
        _ = 2 ^ 52 * (2 ^ e * 2) := by ring
        _ ≤ _ := mul_le_mul_of_nonneg_left b (by norm_num)
    rw [hB] at h1
    generalize (n : ℚ) * 2 ^ e = y at *
    have hp := ulp64_pos x
    rcases lt_or_gt_of_ne hx with hx | hx
    · refine ⟨-2 ^ 52, ?_⟩
      rw [abs_of_neg hx] at h1
      push_cast
      rw [abs_lt] at hy
      rw [abs_of_nonneg (show 0 ≤ -4503599627370496 * ulp64 x - x by linarith),
        abs_of_nonneg (show 0 ≤ y - x by linarith)]
      linarith
    · refine ⟨2 ^ 52, ?_⟩
      rw [abs_of_pos hx] at h1
      push_cast
      rw [abs_lt] at hy
      rw [abs_of_nonpos (show 4503599627370496 * ulp64 x - x ≤ 0 by linarith),
        abs_of_nonpos (show y - x ≤ 0 by linarith)]
      linarith

theorem round64_multiple (x : ℚ) (k : ℤ) :
    |round64 x - x| ≤ |(k : ℚ) * ulp64 x - x| := by
  have hp := ulp64_pos x
  have h := mul_le_mul_of_nonneg_right (roundHalfEven_nearest (x / ulp64 x) k) hp.le
  have e : ∀ r : ℚ, |r - x / ulp64 x| * ulp64 x = |r * ulp64 x - x| := by
    intro r
    conv_lhs => rw [← abs_of_pos hp, ← abs_mul]
    congr 1
    rw [abs_of_pos hp]
    field_simp
  rw [e, e] at h
  exact h

/-- C16, the rounding used by the theorems with `float` in their names: `round64 x` is a number of
binary64, none is nearer to `x`, and if another one is as near, the result is the one whose last bit is
zero (an even multiple of their distance). -/
theorem C16_float_rounding (x : ℚ) :
    IsFloat64 (round64 x) ∧
    (∀ y, IsFloat64 y → |round64 x - x| ≤ |y - x|) ∧
    (∀ y, IsFloat64 y → |y - x| = |round64 x - x| → y ≠ round64 x →
      ∃ k : ℤ, round64 x = 2 * k * (y - round64 x)) ∧
    (IsFloat64 x ↔ round64 x = x) := by
  have hf := round64_isFloat x
  have hnear : ∀ y, IsFloat64 y → |round64 x - x| ≤ |y - x| := by
    intro y hy
    rcases eq_or_ne x 0 with rfl | hx
    · simp [round64_zero]
    rcases float_multiple x y hx hy with ⟨k, rfl⟩ | ⟨k, hk⟩
    · exact round64_multiple x k
    · exact (round64_multiple x k).trans hk.le
  refine ⟨hf, hnear, ?_, ?_, ?_⟩
  · intro y hy heq hne
    rcases eq_or_ne x 0 with rfl | hx
    · rw [round64_zero] at heq hne ⊢
      simp at heq
      exact absurd heq hne
    rcases float_multiple x y hx hy with ⟨k, rfl⟩ | ⟨k, hk⟩
    · have hp := ulp64_pos x
      have e : ∀ r : ℚ, |r * ulp64 x - x| = |r - x / ulp64 x| * ulp64 x := by
        intro r
        conv_rhs => rw [← abs_of_pos hp, ← abs_mul]
        congr 1
        rw [abs_of_pos hp]
        field_simp
      have hdef : round64 x = roundHalfEven (x / ulp64 x) * ulp64 x := rfl
      rw [hdef, e, e] at heq
      have h2 := mul_right_cancel₀ hp.ne' heq
      have hk : k ≠ roundHalfEven (x / ulp64 x) := by
        rintro rfl
        exact hne hdef.symm
      obtain ⟨a, b⟩ := roundHalfEven_tie _ k hk h2
      obtain ⟨c, hc⟩ := Int.dvd_of_emod_eq_zero a
      rw [hdef]
      rcases b with b | b
      · exact ⟨c, by rw [b, hc]; push_cast; ring⟩
      · exact ⟨-c, by rw [b, hc]; push_cast; ring⟩
    · have := (round64_multiple x k).trans_lt hk
      rw [heq] at this
      exact absurd this (lt_irrefl _)
  · intro hx
    have := hnear x hx
    rw [sub_self, abs_zero] at this
    have := le_antisymm this (abs_nonneg _)
    rw [abs_eq_zero] at this
    linarith
  · intro h; rw [← h]; exact hf

/-- The float nearest to a tenth, and a tie. -/
example : round64 (1 / 10) = 3602879701896397 / 36028797018963968 ∧ round64 (2 ^ 53 + 1) = 2 ^ 53 ∧
    round64 (2 ^ 53 + 3) = 2 ^ 53 + 4 ∧ round64 (-(2 ^ 53 + 3)) = -(2 ^ 53 + 4) := by
  decide +kernel

end Verif
