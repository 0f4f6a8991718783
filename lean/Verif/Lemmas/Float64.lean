import Verif.Spec.Float64
import Verif.Lemmas.PrivacyTracker
import Mathlib.Data.Finset.Max
import Mathlib.Tactic.Linarith
import Mathlib.Tactic.FieldSimp
import Mathlib.Tactic.NormNum
import Mathlib.Tactic.Positivity
import Mathlib.Tactic.Ring

/-!
# Rounding to binary64
-/

namespace Verif

open Verif.Spec

/-! ## Rounding to the nearest integer -/

theorem le_roundHalfEven (n : ℤ) (x : ℚ) (h : (n : ℚ) ≤ x) : n ≤ roundHalfEven x := by
  have h1 : n ≤ ⌊x⌋ := Int.le_floor.2 h
  unfold roundHalfEven
  split_ifs <;> omega

theorem roundHalfEven_le (n : ℤ) (x : ℚ) (h : x ≤ n) : roundHalfEven x ≤ n := by
  have h1 : ⌊x⌋ ≤ n := by
    have := Int.floor_le x
    exact_mod_cast this.trans h
  rcases h1.eq_or_lt with h2 | h2
  · have : x = n := by
      have := Int.floor_le x
      rw [h2] at this
      exact le_antisymm h this
    subst this
    simp [roundHalfEven]
  · unfold roundHalfEven
    split_ifs <;> omega

theorem roundHalfEven_int (n : ℤ) : roundHalfEven (n : ℚ) = n :=
  le_antisymm (roundHalfEven_le _ _ le_rfl) (le_roundHalfEven _ _ le_rfl)

theorem roundHalfEven_near (x : ℚ) : |(roundHalfEven x : ℚ) - x| ≤ 1 / 2 := by
  have h1 := Int.floor_le x
  have h2 := Int.lt_floor_add_one x
  unfold roundHalfEven
  rw [abs_le]
  split_ifs with a b c <;> push_cast <;> constructor <;> linarith

theorem roundHalfEven_mono (x y : ℚ) (h : x ≤ y) : roundHalfEven x ≤ roundHalfEven y := by
  rcases (Int.floor_le_floor h).eq_or_lt with e | e
  · unfold roundHalfEven
    rw [e]
    split_ifs <;> first | omega | (exfalso; linarith)
  · have h1 : roundHalfEven x ≤ ⌊x⌋ + 1 :=
      roundHalfEven_le _ _ (by push_cast; exact (Int.lt_floor_add_one x).le)
    have h2 : ⌊y⌋ ≤ roundHalfEven y := le_roundHalfEven _ _ (Int.floor_le y)
    omega

/-! ## Exponents -/

theorem two_zpow_pos (e : ℤ) : (0 : ℚ) < 2 ^ e := zpow_pos (by norm_num) e

theorem ulp64_pos (x : ℚ) : 0 < ulp64 x := two_zpow_pos _

/-- The exponent of the last bit. -/
def exp64 (x : ℚ) : ℤ := max (Int.log 2 |x| - 52) (-1074)

theorem ulp64_eq (x : ℚ) : ulp64 x = 2 ^ exp64 x := rfl

theorem two_zpow_int (k e : ℤ) (h : e ≤ k) : ∃ n : ℤ, (2 : ℚ) ^ k = n * 2 ^ e := by
  refine ⟨2 ^ (k - e).toNat, ?_⟩
  push_cast
  rw [← zpow_natCast, ← zpow_add₀ (by norm_num)]
  congr 1
  omega

theorem round64_zero : round64 0 = 0 := by
  unfold round64
  rw [zero_div, show ((0 : ℚ)) = ((0 : ℤ) : ℚ) by norm_num, roundHalfEven_int]
  norm_num

/-- A multiple of the last bit is not changed. -/
theorem round64_of_mul (x : ℚ) (n : ℤ) (h : x = n * ulp64 x) : round64 x = x := by
  have h2 : x / ulp64 x = n := by
    rw [div_eq_iff (ulp64_pos x).ne']; exact h
  unfold round64
  rw [h2, roundHalfEven_int]
  exact h.symm

theorem round64_le_of_mul (x b : ℚ) (n : ℤ) (hb : b = n * ulp64 x) (h : x ≤ b) :
    round64 x ≤ b := by
  unfold round64
  rw [hb]
  apply mul_le_mul_of_nonneg_right _ (ulp64_pos x).le
  exact_mod_cast roundHalfEven_le n _ (by rw [div_le_iff₀ (ulp64_pos x), ← hb]; exact h)

theorem le_round64_of_mul (x b : ℚ) (n : ℤ) (hb : b = n * ulp64 x) (h : b ≤ x) :
    b ≤ round64 x := by
  unfold round64
  rw [hb]
  apply mul_le_mul_of_nonneg_right _ (ulp64_pos x).le
  exact_mod_cast le_roundHalfEven n _ (by rw [le_div_iff₀ (ulp64_pos x), ← hb]; exact h)

theorem round64_near (x : ℚ) : |round64 x - x| ≤ ulp64 x / 2 := by
  have h := roundHalfEven_near (x / ulp64 x)
  have hp := ulp64_pos x
  unfold round64
  have e : (roundHalfEven (x / ulp64 x) : ℚ) * ulp64 x - x
      = ((roundHalfEven (x / ulp64 x) : ℚ) - x / ulp64 x) * ulp64 x := by
    field_simp
  rw [e, abs_mul, abs_of_pos hp]
  calc _ ≤ 1 / 2 * ulp64 x := mul_le_mul_of_nonneg_right h hp.le
    _ = _ := by ring

theorem log64 (x : ℚ) (hx : 0 < x) :
    (2 : ℚ) ^ Int.log 2 |x| ≤ x ∧ x < 2 ^ (Int.log 2 |x| + 1) := by
  rw [abs_of_pos hx]
  exact ⟨Int.zpow_log_le_self (b := 2) (by norm_num) hx,
    by exact_mod_cast Int.lt_zpow_succ_log_self (b := 2) (by norm_num) x⟩

theorem log64_mono (x y : ℚ) (hx : 0 < x) (h : x ≤ y) : Int.log 2 |x| ≤ Int.log 2 |y| := by
  rw [abs_of_pos hx, abs_of_pos (hx.trans_le h)]
  exact Int.log_mono_right hx h

theorem round64_nonneg (x : ℚ) (hx : 0 ≤ x) : 0 ≤ round64 x :=
  le_round64_of_mul x 0 0 (by simp) hx

theorem round64_mono (x y : ℚ) (hx : 0 ≤ x) (h : x ≤ y) : round64 x ≤ round64 y := by
  rcases hx.eq_or_lt with rfl | hx
  · rw [round64_zero]; exact round64_nonneg y h
  have hy := hx.trans_le h
  have hl := log64_mono x y hx h
  have he : exp64 x ≤ exp64 y := by unfold exp64; omega
  rcases he.eq_or_lt with he | he
  · have hu : ulp64 x = ulp64 y := by rw [ulp64_eq, ulp64_eq, he]
    unfold round64
    rw [hu]
    apply mul_le_mul_of_nonneg_right _ (ulp64_pos y).le
    exact_mod_cast roundHalfEven_mono _ _ (div_le_div_of_nonneg_right h (ulp64_pos y).le)
  · have hn : exp64 y = Int.log 2 |y| - 52 := by unfold exp64 at *; omega
    have hx1 : x ≤ 2 ^ Int.log 2 |y| := by
      refine (log64 x hx).2.le.trans (zpow_le_zpow_right₀ (by norm_num) ?_)
      unfold exp64 at he hn
      omega
    obtain ⟨n, hn1⟩ := two_zpow_int (Int.log 2 |y|) (exp64 x) (by omega)
    obtain ⟨k, hk1⟩ := two_zpow_int (Int.log 2 |y|) (exp64 y) (by omega)
    exact (round64_le_of_mul x _ n hn1 hx1).trans (le_round64_of_mul y _ k hk1 (log64 y hy).1)

theorem round64_idem (x : ℚ) (hx : 0 ≤ x) : round64 (round64 x) = round64 x := by
  rcases (round64_nonneg x hx).eq_or_lt with h | hr
  · rw [← h, round64_zero]
  rcases hx.eq_or_lt with rfl | hx
  · rw [round64_zero, round64_zero]
  have hdef : round64 x = roundHalfEven (x / ulp64 x) * 2 ^ exp64 x := rfl
  -- at most the next power of two
  have htop : round64 x ≤ 2 ^ (exp64 x + 53) := by
    obtain ⟨n, hn⟩ := two_zpow_int (exp64 x + 53) (exp64 x) (by omega)
    refine round64_le_of_mul x _ n hn ((log64 x hx).2.le.trans
      (zpow_le_zpow_right₀ (by norm_num) ?_))
    unfold exp64; omega
  rcases htop.eq_or_lt with ht | ht
  · rw [ht]
    have hl : Int.log 2 |(2 : ℚ) ^ (exp64 x + 53)| = exp64 x + 53 := by
      rw [abs_of_pos (two_zpow_pos _)]
      exact_mod_cast Int.log_zpow (R := ℚ) (b := 2) (by norm_num) (exp64 x + 53)
    have he : exp64 ((2 : ℚ) ^ (exp64 x + 53)) ≤ exp64 x + 53 := by
      have h0 : -1074 ≤ exp64 x := by unfold exp64; omega
      unfold exp64 at *
      rw [hl]; omega
    obtain ⟨n, hn⟩ := two_zpow_int _ _ he
    exact round64_of_mul _ n hn
  · have he : exp64 (round64 x) ≤ exp64 x := by
      have h0 : -1074 ≤ exp64 x := by unfold exp64; omega
      have h1 := (log64 _ hr).1.trans_lt ht
      have h2 : Int.log 2 |round64 x| < exp64 x + 53 :=
        (zpow_lt_zpow_iff_right₀ (by norm_num)).1 h1
      have h3 : exp64 (round64 x) = max (Int.log 2 |round64 x| - 52) (-1074) := rfl
      omega
    obtain ⟨n, hn⟩ := two_zpow_int _ _ he
    refine round64_of_mul _ (roundHalfEven (x / ulp64 x) * n) ?_
    rw [ulp64_eq (round64 x), Int.cast_mul, mul_assoc, ← hn]
    exact hdef

/-- Numbers from the smallest normal number on are rounded with relative error `2^-53`. -/
theorem round64_rel (x : ℚ) (hx : 2 ^ (-1022 : ℤ) ≤ x) :
    |round64 x - x| ≤ 2 ^ (-53 : ℤ) * x := by
  have hp : 0 < x := (two_zpow_pos _).trans_le hx
  refine (round64_near x).trans ?_
  obtain ⟨h1, h2⟩ := log64 x hp
  have hl : -1022 ≤ Int.log 2 |x| := by
    have := hx.trans_lt h2
    have := (zpow_lt_zpow_iff_right₀ (by norm_num : (1 : ℚ) < 2)).1 this
    omega
  have he : exp64 x = Int.log 2 |x| - 52 := by unfold exp64; omega
  have e : ulp64 x / 2 = 2 ^ (-53 : ℤ) * 2 ^ Int.log 2 |x| := by
    rw [ulp64_eq, he, ← zpow_add₀ (by norm_num), div_eq_iff (by norm_num)]
    nth_rewrite 3 [← zpow_one (2 : ℚ)]
    rw [← zpow_add₀ (by norm_num)]
    congr 1; omega
  rw [e]
  exact mul_le_mul_of_nonneg_left h1 (two_zpow_pos _).le

theorem le_round64_normal (x : ℚ) (hx : 2 ^ (-1022 : ℤ) ≤ x) :
    2 ^ (-1022 : ℤ) ≤ round64 x := by
  have e : round64 (2 ^ (-1022 : ℤ)) = 2 ^ (-1022 : ℤ) := by decide +kernel
  calc _ = round64 (2 ^ (-1022 : ℤ)) := e.symm
    _ ≤ _ := round64_mono _ _ (two_zpow_pos _).le hx

/-- Halving is exact, as long as the result is a normal number. -/
theorem round64_half (x : ℚ) (h : round64 x = x) (hx : 2 ^ (-1021 : ℤ) ≤ x) :
    round64 (x / 2) = x / 2 := by
  have hp : 0 < x := (two_zpow_pos _).trans_le hx
  obtain ⟨h1, h2⟩ := log64 x hp
  obtain ⟨h3, h4⟩ := log64 (x / 2) (by positivity)
  have hl : -1021 ≤ Int.log 2 |x| := by
    have := (zpow_lt_zpow_iff_right₀ (by norm_num : (1 : ℚ) < 2)).1 (hx.trans_lt h2)
    omega
  have hl2 : Int.log 2 |x / 2| ≤ Int.log 2 |x| - 1 := by
    have h5 : (2 : ℚ) ^ (Int.log 2 |x / 2| + 1) < 2 ^ (Int.log 2 |x| + 1) := by
      rw [zpow_add_one₀ (by norm_num)]
      linarith
    have := (zpow_lt_zpow_iff_right₀ (by norm_num : (1 : ℚ) < 2)).1 h5
    omega
  obtain ⟨n, hn⟩ := two_zpow_int (exp64 x - 1) (exp64 (x / 2)) (by unfold exp64; omega)
  refine round64_of_mul _ (roundHalfEven (x / ulp64 x) * n) ?_
  have hx' : x = roundHalfEven (x / ulp64 x) * 2 ^ exp64 x := by
    conv_lhs => rw [← h]
    rfl
  rw [ulp64_eq (x / 2), Int.cast_mul, mul_assoc, ← hn]
  nth_rewrite 1 [hx']
  rw [zpow_sub_one₀ (by norm_num)]
  ring

/-! ## Sums -/

/-- What the proofs below need of a rounding. -/
structure Rounding (rnd : ℚ → ℚ) : Prop where
  zero : rnd 0 = 0
  mono : ∀ x y, 0 ≤ x → x ≤ y → rnd x ≤ rnd y
  idem : ∀ x, 0 ≤ x → rnd (rnd x) = rnd x

theorem rounding64 : Rounding round64 := ⟨round64_zero, round64_mono, round64_idem⟩

theorem Rounding.nonneg {rnd : ℚ → ℚ} (hr : Rounding rnd) (x : ℚ) (hx : 0 ≤ x) : 0 ≤ rnd x := by
  rw [← hr.zero]; exact hr.mono 0 x le_rfl hx

/-- Relative error `u` from `m` on. -/
structure RelRounding (rnd : ℚ → ℚ) (u m : ℚ) : Prop where
  zero : rnd 0 = 0
  lo : ∀ x, m ≤ x → (1 - u) * x ≤ rnd x
  hi : ∀ x, m ≤ x → rnd x ≤ (1 + u) * x
  keep : ∀ x, m ≤ x → m ≤ rnd x
  mpos : 0 < m
  unn : 0 ≤ u
  ule : u ≤ 1

theorem relRounding64 : RelRounding round64 (2 ^ (-53 : ℤ)) (2 ^ (-1022 : ℤ)) where
  zero := round64_zero
  lo := fun x hx => by have := abs_le.1 (round64_rel x hx); linarith [this.1]
  hi := fun x hx => by have := abs_le.1 (round64_rel x hx); linarith [this.2]
  keep := le_round64_normal
  mpos := two_zpow_pos _
  unn := (two_zpow_pos _).le
  ule := by
    calc (2 : ℚ) ^ (-53 : ℤ) ≤ 2 ^ (0 : ℤ) := zpow_le_zpow_right₀ (by norm_num) (by norm_num)
      _ = 1 := zpow_zero _

theorem flFold_bounds {rnd : ℚ → ℚ} {u m : ℚ} (hr : RelRounding rnd u m) (l : List ℚ)
    (hl : ∀ e ∈ l, e = 0 ∨ m ≤ e) (a S : ℚ) (k : ℕ) (ha : a = 0 ∨ m ≤ a) (hS : 0 ≤ S)
    (h1 : S * (1 - u) ^ k ≤ a) (h2 : a ≤ S * (1 + u) ^ k) :
    (S + l.sum) * (1 - u) ^ (k + l.length) ≤ l.foldl (fun a e => rnd (a + e)) a ∧
    l.foldl (fun a e => rnd (a + e)) a ≤ (S + l.sum) * (1 + u) ^ (k + l.length) := by
  induction l generalizing a S k with
  | nil => simpa using ⟨h1, h2⟩
  | cons e l ih =>
    have hu := hr.unn
    have hu1 := hr.ule
    have hm := hr.mpos
    have he : 0 ≤ e := by rcases hl e (by simp) with h | h <;> linarith
    have ha0 : 0 ≤ a := by rcases ha with h | h <;> linarith
    have hp : (1 - u) ^ k ≤ 1 := pow_le_one₀ (by linarith) (by linarith)
    have hq : 1 ≤ (1 + u) ^ k := one_le_pow₀ (by linarith)
    have b1 : (S + e) * (1 - u) ^ k ≤ a + e := by nlinarith
    have b2 : a + e ≤ (S + e) * (1 + u) ^ k := by nlinarith
    rw [List.foldl_cons, List.sum_cons, List.length_cons, ← add_assoc,
      show k + (l.length + 1) = (k + 1) + l.length by omega]
    by_cases h0 : a + e = 0
    · rw [h0] at b1 b2 ⊢
      rw [hr.zero]
      refine ih (fun x hx => hl x (by simp [hx])) 0 (S + e) (k + 1) (Or.inl rfl) (by linarith) ?_ ?_
      · rw [pow_succ, ← mul_assoc]
        exact mul_nonpos_of_nonpos_of_nonneg b1 (by linarith)
      · rw [pow_succ, ← mul_assoc]
        exact mul_nonneg b2 (by linarith)
    · have hme : m ≤ a + e := by
        rcases ha with h | h
        · rcases hl e (by simp) with h' | h'
          · exact absurd (by rw [h, h', add_zero]) h0
          · linarith
        · linarith
      refine ih (fun x hx => hl x (by simp [hx])) _ (S + e) (k + 1) (Or.inr (hr.keep _ hme))
        (by linarith) ?_ ?_
      · refine le_trans ?_ (hr.lo _ hme)
        rw [pow_succ, ← mul_assoc, mul_comm _ (1 - u)]
        exact mul_le_mul_of_nonneg_left b1 (by linarith)
      · refine le_trans (hr.hi _ hme) ?_
        rw [pow_succ, ← mul_assoc, mul_comm _ (1 + u)]
        exact mul_le_mul_of_nonneg_left b2 (by linarith)

theorem flSum_bounds {rnd : ℚ → ℚ} {u m : ℚ} (hr : RelRounding rnd u m) (l : List ℚ)
    (hl : ∀ e ∈ l, e = 0 ∨ m ≤ e) :
    l.sum * (1 - u) ^ l.length ≤ flSum rnd l ∧ flSum rnd l ≤ l.sum * (1 + u) ^ l.length := by
  have := flFold_bounds hr l hl 0 0 0 (Or.inl rfl) le_rfl (by simp) (by simp)
  simpa [flSum] using this

theorem one_sub_pow_ge (u : ℚ) (h0 : 0 ≤ u) (h1 : u ≤ 1) (n : ℕ) : 1 - n * u ≤ (1 - u) ^ n := by
  induction n with
  | zero => simp
  | succ n ih =>
    have hq : (1 - u) ^ n ≤ 1 := pow_le_one₀ (by linarith) (by linarith)
    rw [pow_succ]
    push_cast
    nlinarith

theorem one_add_pow_le (u : ℚ) (h0 : 0 ≤ u) (n : ℕ) (hn : (n : ℚ) * u ≤ 1 / 2) :
    (1 + u) ^ n ≤ 1 + 2 * (n * u) := by
  have key : ∀ k : ℕ, (1 + u) ^ k * (1 - k * u) ≤ 1 := by
    intro k
    induction k with
    | zero => simp
    | succ k ih =>
      refine le_trans ?_ ih
      have : 0 < (1 + u) ^ k := by positivity
      rw [pow_succ, mul_assoc]
      apply mul_le_mul_of_nonneg_left _ this.le
      push_cast
      nlinarith [mul_nonneg (Nat.cast_nonneg (α := ℚ) k) (mul_self_nonneg u), mul_self_nonneg u]
  have h := key n
  have hp : 0 < (1 + u) ^ n := by positivity
  have hz : 0 ≤ (n : ℚ) * u := by positivity
  nlinarith

/-! ## Sums of fewer numbers -/

theorem flFold_sublist {rnd : ℚ → ℚ} (hr : Rounding rnd) {l l' : List ℚ} (h : l.Sublist l')
    (hl : ∀ e ∈ l', 0 ≤ e) (a a' : ℚ) (ha : 0 ≤ a) (haa : a ≤ a') (hrep : rnd a' = a') :
    l.foldl (fun a e => rnd (a + e)) a ≤ l'.foldl (fun a e => rnd (a + e)) a' := by
  induction h generalizing a a' with
  | slnil => exact haa
  | cons e _ ih =>
    have he := hl e (by simp)
    rw [List.foldl_cons]
    refine ih (fun x hx => hl x (by simp [hx])) a _ ha ?_ (hr.idem _ (by linarith))
    calc a ≤ a' := haa
      _ = rnd a' := hrep.symm
      _ ≤ _ := hr.mono _ _ (by linarith) (by linarith)
  | cons_cons e _ ih =>
    have he := hl e (by simp)
    rw [List.foldl_cons, List.foldl_cons]
    exact ih (fun x hx => hl x (by simp [hx])) _ _ (hr.nonneg _ (by linarith))
      (hr.mono _ _ (by linarith) (by linarith)) (hr.idem _ (by linarith))

theorem flSum_sublist {rnd : ℚ → ℚ} (hr : Rounding rnd) {l l' : List ℚ} (h : l.Sublist l')
    (hl : ∀ e ∈ l', 0 ≤ e) : flSum rnd l ≤ flSum rnd l' :=
  flFold_sublist hr h hl 0 0 le_rfl le_rfl hr.zero

theorem flSum_nonneg {rnd : ℚ → ℚ} (hr : Rounding rnd) (l : List ℚ) (hl : ∀ e ∈ l, 0 ≤ e) :
    0 ≤ flSum rnd l := by
  have := flSum_sublist hr (List.nil_sublist l) hl
  simpa [flSum] using this

/-! ## The tracker -/

theorem consumptionForBucketFl_eq (rnd : ℚ → ℚ) (t : PrivacyTracker ℚ) (x : ℚ) :
    (t.consumptionForBucketFl rnd x).epsilon =
      flSum rnd ((t.noisingEvents.filter (·.samplingBuckets.containsFl rnd x)).map
        (·.budget.epsilon)) ∧
    (t.consumptionForBucketFl rnd x).delta =
      flSum rnd ((t.noisingEvents.filter (·.samplingBuckets.containsFl rnd x)).map
        (·.budget.delta)) := by
  unfold PrivacyTracker.consumptionForBucketFl flSum
  generalize t.noisingEvents = es
  have key : ∀ (es : List (NoisingEvent ℚ)) (p : PrivacyBudget ℚ),
      (es.foldl (fun acc e => if e.samplingBuckets.containsFl rnd x then
        { epsilon := rnd (acc.epsilon + e.budget.epsilon)
          delta := rnd (acc.delta + e.budget.delta) } else acc) p).epsilon
      = ((es.filter (·.samplingBuckets.containsFl rnd x)).map (·.budget.epsilon)).foldl
        (fun a e => rnd (a + e)) p.epsilon ∧
      (es.foldl (fun acc e => if e.samplingBuckets.containsFl rnd x then
        { epsilon := rnd (acc.epsilon + e.budget.epsilon)
          delta := rnd (acc.delta + e.budget.delta) } else acc) p).delta
      = ((es.filter (·.samplingBuckets.containsFl rnd x)).map (·.budget.delta)).foldl
        (fun a e => rnd (a + e)) p.delta := by
    intro es
    induction es with
    | nil => intro p; exact ⟨rfl, rfl⟩
    | cons e es ih =>
      intro p
      rw [List.foldl_cons]
      by_cases h : e.samplingBuckets.containsFl rnd x
      · rw [if_pos h, List.filter_cons_of_pos (by simpa using h)]
        exact ih _
      · rw [if_neg h, List.filter_cons_of_neg (by simpa using h)]
        exact ih _
  exact key es _

theorem privacyConsumptionFl_eq (rnd : ℚ → ℚ) (t : PrivacyTracker ℚ) :
    (t.privacyConsumptionFl rnd).epsilon =
      t.starts.foldl (fun acc x => max acc (t.consumptionForBucketFl rnd x).epsilon) 0 ∧
    (t.privacyConsumptionFl rnd).delta =
      t.starts.foldl (fun acc x => max acc (t.consumptionForBucketFl rnd x).delta) 0 := by
  unfold PrivacyTracker.privacyConsumptionFl
  have key : ∀ (l : List ℚ) (p : PrivacyBudget ℚ),
      (l.foldl (fun acc x =>
        ({ epsilon := max acc.epsilon (t.consumptionForBucketFl rnd x).epsilon
           delta := max acc.delta (t.consumptionForBucketFl rnd x).delta } : PrivacyBudget ℚ))
        p).epsilon
      = l.foldl (fun acc x => max acc (t.consumptionForBucketFl rnd x).epsilon) p.epsilon ∧
      (l.foldl (fun acc x =>
        ({ epsilon := max acc.epsilon (t.consumptionForBucketFl rnd x).epsilon
           delta := max acc.delta (t.consumptionForBucketFl rnd x).delta } : PrivacyBudget ℚ))
        p).delta
      = l.foldl (fun acc x => max acc (t.consumptionForBucketFl rnd x).delta) p.delta := by
    intro l
    induction l with
    | nil => intro p; exact ⟨rfl, rfl⟩
    | cons x l ih => intro p; rw [List.foldl_cons]; exact ih _
  exact key _ _

theorem exists_start_dominating_fl (rnd : ℚ → ℚ) (es : List (NoisingEvent ℚ)) (starts : List ℚ)
    (hs : ∀ s, s ∈ starts ↔ s = 0 ∨ ∃ e ∈ es, e.samplingBuckets.smallestIndex = s)
    (x : ℚ) (h0 : 0 ≤ x) :
    ∃ s ∈ starts, ∀ e ∈ es, e.samplingBuckets.containsFl rnd x = true →
      e.samplingBuckets.containsFl rnd s = true := by
  obtain ⟨s, hs1, hs2⟩ := Finset.exists_max_image ((starts.filter (· ≤ x)).toFinset) id
    ⟨0, by simp [hs, h0]⟩
  simp only [List.mem_toFinset, List.mem_filter, decide_eq_true_eq, id] at hs1 hs2
  refine ⟨s, hs1.1, ?_⟩
  intro e he hc
  unfold SamplingBucketIndices.containsFl at hc ⊢
  by_cases ha : e.samplingBuckets.smallestIndex ≤ x
  · have : e.samplingBuckets.smallestIndex ≤ s :=
      hs2 _ ⟨(hs _).2 (Or.inr ⟨e, he, rfl⟩), ha⟩
    rw [if_pos ha, decide_eq_true_eq] at hc
    rw [if_pos this, decide_eq_true_eq]
    exact hs1.2.trans_lt hc
  · rw [if_neg ha, decide_eq_true_eq] at hc
    rw [if_neg (fun h => ha (h.trans hs1.2)), decide_eq_true_eq]
    exact hs1.2.trans_lt hc

theorem flSum_filter_le {rnd : ℚ → ℚ} (hr : Rounding rnd) (c : NoisingEvent ℚ → ℚ)
    (es : List (NoisingEvent ℚ)) (hc : ∀ e ∈ es, 0 ≤ c e) (p q : NoisingEvent ℚ → Bool)
    (hpq : ∀ e ∈ es, p e = true → q e = true) :
    flSum rnd ((es.filter p).map c) ≤ flSum rnd ((es.filter q).map c) := by
  apply flSum_sublist hr
  · apply List.Sublist.map
    have e : es.filter p = (es.filter q).filter p := by
      rw [List.filter_filter]
      apply List.filter_congr
      intro x hx
      have := hpq x hx
      cases hp : p x <;> simp_all
    rw [e]
    exact List.filter_sublist
  · intro y hy
    obtain ⟨e, he, rfl⟩ := List.mem_map.1 hy
    exact hc e (List.mem_filter.1 he).1

theorem containsFl_iff (e : NoisingEvent ℚ) (x : ℚ) :
    e.samplingBuckets.containsFl round64 x = true ↔
      InBucketFl e.samplingBuckets.smallestIndex e.samplingBuckets.samplingRate x := by
  unfold SamplingBucketIndices.containsFl InBucketFl
  by_cases h : e.samplingBuckets.smallestIndex ≤ x
  · rw [if_pos h, decide_eq_true_eq]
    constructor
    · intro h2; exact Or.inl ⟨h, h2⟩
    · rintro (h2 | h2)
      · exact h2.2
      · exact absurd h (not_le.2 h2.1)
  · rw [if_neg h, decide_eq_true_eq]
    constructor
    · intro h2; exact Or.inr ⟨not_le.1 h, h2⟩
    · rintro (h2 | h2)
      · exact absurd h2.1 h
      · exact h2.2

theorem userLossFl_eq (c : NoisingEvent ℚ → ℚ) (es : List (NoisingEvent ℚ)) (x : ℚ) :
    userLossFl c es x =
      flSum round64 ((es.filter (fun e => e.samplingBuckets.containsFl round64 x)).map c) := by
  classical
  unfold userLossFl
  congr 2
  apply List.filter_congr
  intro e _
  by_cases h : e.samplingBuckets.containsFl round64 x = true
  · rw [h]; simpa using (containsFl_iff e x).1 h
  · rw [Bool.not_eq_true _ |>.mp h]
    simpa using fun h2 => h ((containsFl_iff e x).2 h2)

theorem fold_starts_greatest_fl (c : NoisingEvent ℚ → ℚ) (es : List (NoisingEvent ℚ))
    (hv : ∀ e ∈ es, ValidEvent e) (hc : ∀ e ∈ es, 0 ≤ c e) (starts : List ℚ)
    (hs : ∀ s, s ∈ starts ↔ s = 0 ∨ ∃ e ∈ es, e.samplingBuckets.smallestIndex = s)
    (f : ℚ → ℚ)
    (hf : ∀ x, f x =
      flSum round64 ((es.filter (fun e => e.samplingBuckets.containsFl round64 x)).map c)) :
    IsGreatest (lossesFl c es) (starts.foldl (fun acc x => max acc (f x)) 0) := by
  have hnn : ∀ x, 0 ≤ f x := by
    intro x
    rw [hf]
    apply flSum_nonneg rounding64
    intro y hy
    obtain ⟨e, he, rfl⟩ := List.mem_map.1 hy
    exact hc e (List.mem_filter.1 he).1
  have hne : starts ≠ [] := by
    intro h
    have : (0 : ℚ) ∈ starts := (hs 0).2 (Or.inl rfl)
    rw [h] at this; simp at this
  obtain ⟨⟨s, hs1, hs2⟩, h2⟩ := foldl_max_map_greatest starts f (fun x _ => hnn x) hne
  have hrange : ∀ s ∈ starts, 0 ≤ s ∧ s < 1 := by
    intro s hs'
    rcases (hs s).1 hs' with rfl | ⟨e, he, rfl⟩
    · exact ⟨le_rfl, zero_lt_one⟩
    · exact ⟨(hv e he).1, (hv e he).2.1⟩
  constructor
  · refine ⟨s, (hrange s hs1).1, (hrange s hs1).2, ?_⟩
    rw [hs2, userLossFl_eq, hf]
  · rintro y ⟨x, hx0, hx1, rfl⟩
    rw [userLossFl_eq]
    obtain ⟨s', hs', hdom⟩ := exists_start_dominating_fl round64 es starts hs x hx0
    refine le_trans (flSum_filter_le rounding64 c es hc _ _ hdom) ?_
    rw [← hf]
    exact h2 ⟨s', hs', rfl⟩

end Verif
