import Mathlib.Tactic.Ring
import Mathlib.Tactic.Linarith
import Mathlib.Tactic.Positivity
import Mathlib.Tactic.FieldSimp
import Mathlib.Tactic.IntervalCases
import Verif.Lemmas.FloatSpend
import Verif.Props.Generators
import Verif.Props.TestPoints
import Verif.Props.Designs
import Verif.Props.TrialRow
import Verif.Props.ReachCurve

/-!
# C27, C28, C44, C46, C47, C51, C66 and C79 with rounding to binary64
-/

namespace Verif

open Verif.Spec

/-! ## C44: prices -/

/-- C44 with rounding: from a list reaching exactly the users `0..n-1`, a normal price and at most
`2^51` impressions, the publisher has reach `n`, keeps the log in the order generated, `m` impressions
cost the rounded product of `m` and the price, and that budget buys exactly `m` impressions: rounding
never makes two impressions equally expensive. -/
theorem C44_float (imps : List Int) (n : Int) (cpi : ℚ) (name rnd : String)
    (hm : ∀ u, u ∈ imps ↔ 0 ≤ u ∧ u < n) (hn : 0 < n) (hc : 2 ^ (-1022 : ℤ) ≤ cpi)
    (hlen : imps.length ≤ 2 ^ 51) :
    ∃ p, generatePublisherData imps (fixedPriceFl cpi) name rnd = .ok p ∧
      (p.maxReach : Int) = n ∧
      p.data.map (·.1) = imps ∧
      p.maxSpend = round64 ((imps.length : ℚ) * cpi) ∧
      ∀ m : Nat, m ≤ imps.length →
        p.spendByImpressions m = .ok (round64 ((m : ℚ) * cpi)) ∧
        p.impressionsBySpend (round64 ((m : ℚ) * cpi)) = m ∧
        |round64 ((m : ℚ) * cpi) - m * cpi| ≤ 2 ^ (-53 : ℤ) * (m * cpi) := by
  have hne : imps ≠ [] := by
    rintro rfl
    have := (hm 0).2 ⟨le_rfl, hn⟩
    simp at this
  have hmono : ∀ i j, 1 ≤ i → i ≤ j → j ≤ imps.length →
      round64 ((i : ℚ) * cpi) ≤ round64 ((j : ℚ) * cpi) := by
    intro i j h1 h2 h3
    rcases h2.eq_or_lt with rfl | h2
    · exact le_rfl
    · exact (price_lt cpi hc i j h1 h2 (by omega)).le
  obtain ⟨p, hp, h1, h2, h3, h4, h5⟩ :=
    priced_publisher (fun i => round64 ((i : ℚ) * cpi)) imps name rnd hne hmono
  rw [← fixedPriceFl_eq] at hp
  refine ⟨p, hp, ?_, h2, h3, ?_⟩
  · rw [h1, lenSet_range imps n hm]; omega
  · intro m hml
    refine ⟨?_, ?_, ?_⟩
    · rcases Nat.eq_zero_or_pos m with rfl | hm0
      · simp [PublisherData.spendByImpressions, round64_zero]
      · exact h4 m hm0 hml
    · obtain ⟨h6, h7⟩ := h5 (round64 ((m : ℚ) * cpi))
      apply le_antisymm
      · by_contra hc'
        have := (h7 (m + 1) (by omega) (by omega)).2 (by omega)
        rcases Nat.eq_zero_or_pos m with rfl | hm0
        · have a := le_round64_normal _ (mul_cpi_normal cpi hc (0 + 1) (by omega))
          have b := two_zpow_pos (-1022)
          simp only [Nat.cast_zero, zero_mul, round64_zero] at this
          linarith
        · have := price_lt cpi hc m (m + 1) hm0 (by omega) (by omega)
          linarith
      · rcases Nat.eq_zero_or_pos m with rfl | hm0
        · omega
        · exact (h7 m hm0 hml).1 le_rfl
    · rcases Nat.eq_zero_or_pos m with rfl | hm0
      · simp [round64_zero]
      · exact round64_rel _ (mul_cpi_normal cpi hc m hm0)

/-- Three impressions at the float nearest to 0.1: the third costs 0.30000000000000004. -/
example : ∃ p, generatePublisherData [0, 1, 0] (fixedPriceFl (round64 (1 / 10))) "a" "" = .ok p ∧
    p.maxSpend ≠ 3 / 10 ∧ p.spendByImpressions 3 = .ok (1351079888211149 / 4503599627370496) ∧
    p.impressionsBySpend (1351079888211149 / 4503599627370496) = 3 := by
  have e : round64 ((3 : ℕ) * round64 (1 / 10)) = 1351079888211149 / 4503599627370496 := by
    decide +kernel
  obtain ⟨p, hp, -, -, h3, h4⟩ := C44_float [0, 1, 0] 2 (round64 (1 / 10)) "a" ""
    (by intro u; simp; omega) (by norm_num) (by decide +kernel) (by simp)
  refine ⟨p, hp, ?_, ?_, ?_⟩
  · rw [h3]; decide +kernel
  · rw [← e]; exact (h4 3 (by simp)).1
  · rw [← e]; exact (h4 3 (by simp)).2.1

/-! ## C66: campaign spends -/

/-- The campaign spend at fraction `f` of a publisher with equally priced impressions buys `⌊f n⌋` of
its `n` impressions. -/
def C66_float_full : Prop :=
  ∀ (imps : List Int) (cpi f : ℚ) (p : PublisherData), imps ≠ [] → 2 ^ (-1021 : ℤ) ≤ cpi →
    imps.length ≤ 2 ^ 51 → 0 ≤ f → f ≤ 1 →
    generatePublisherData imps (fixedPriceFl cpi) "a" "" = .ok p →
    (p.impressionsBySpend (campaignSpendFl f p.maxSpend) : Int) = ⌊f * imps.length⌋

/-- C66 with rounding: the campaign spend at fraction `f` of a publisher with `n` equally priced
impressions buys at least `⌊f n⌋ - 1` and at most `⌈f n⌉` of them, exactly `⌊f n⌋` unless `f n` is
within `n·2^-51` of an integer; fraction zero buys nothing and fraction one everything. -/
theorem C66_float (imps : List Int) (cpi f : ℚ) (name rnd : String) (hne : imps ≠ [])
    (hc : 2 ^ (-1021 : ℤ) ≤ cpi) (hlen : imps.length ≤ 2 ^ 51) (h0 : 0 ≤ f) (hf : f ≤ 1) :
    ∃ p, generatePublisherData imps (fixedPriceFl cpi) name rnd = .ok p ∧
      ⌊f * imps.length⌋ - 1 ≤ p.impressionsBySpend (campaignSpendFl f p.maxSpend) ∧
      (p.impressionsBySpend (campaignSpendFl f p.maxSpend) : Int) ≤ ⌈f * imps.length⌉ ∧
      ((⌊f * imps.length⌋ : ℚ) + imps.length * 2 ^ (-51 : ℤ) ≤ f * imps.length →
        f * imps.length + imps.length * 2 ^ (-51 : ℤ) ≤ (⌊f * imps.length⌋ : ℚ) + 1 →
        (p.impressionsBySpend (campaignSpendFl f p.maxSpend) : Int) = ⌊f * imps.length⌋) ∧
      p.impressionsBySpend (campaignSpendFl 0 p.maxSpend) = 0 ∧
      p.impressionsBySpend (campaignSpendFl 1 p.maxSpend) = imps.length := by
  have e21 : (2 : ℚ) ^ (-1021 : ℤ) = 2 * 2 ^ (-1022 : ℤ) := by
    rw [show (-1021 : ℤ) = 1 + -1022 by norm_num, zpow_add₀ (by norm_num)]; norm_num
  have hp22 := two_zpow_pos (-1022)
  have hc' : (2 : ℚ) ^ (-1022 : ℤ) ≤ cpi := by linarith
  have hcp : 0 < cpi := by linarith
  have hpos : 1 ≤ imps.length := List.length_pos_iff.2 hne
  have hmono : ∀ i j, 1 ≤ i → i ≤ j → j ≤ imps.length →
      round64 ((i : ℚ) * cpi) ≤ round64 ((j : ℚ) * cpi) := by
    intro i j h1 h2 h3
    apply round64_mono _ _ (by positivity)
    apply mul_le_mul_of_nonneg_right _ hcp.le
    exact_mod_cast h2
  obtain ⟨p, hp, h1, h2, h3, h4, h5⟩ :=
    priced_publisher (fun i => round64 ((i : ℚ) * cpi)) imps name rnd hne hmono
  rw [← fixedPriceFl_eq] at hp
  have hM : p.maxSpend = round64 ((imps.length : ℚ) * cpi) := h3
  have hM0 : 0 ≤ p.maxSpend := by rw [hM]; exact round64_nonneg _ (by positivity)
  have key := fun i hi hin => campaign_bounds cpi f imps.length hc hpos h0 i hi hin
  rw [← hM] at key
  obtain ⟨h6, h7⟩ := h5 (campaignSpendFl f p.maxSpend)
  set k := p.impressionsBySpend (campaignSpendFl f p.maxSpend) with hk
  have hn51 : (imps.length : ℚ) * 2 ^ (-51 : ℤ) ≤ 1 := by
    have : (imps.length : ℚ) ≤ 2251799813685248 := by norm_num at hlen; exact_mod_cast hlen
    norm_num
    linarith
  have hn0 : (0 : ℚ) ≤ (imps.length : ℚ) * 2 ^ (-51 : ℤ) := by
    have := two_zpow_pos (-51); positivity
  have hfn : f * imps.length ≤ imps.length := mul_le_of_le_one_left (by positivity) hf
  have hfn0 : 0 ≤ f * (imps.length : ℚ) := by positivity
  have hfl := Int.floor_le (f * (imps.length : ℚ))
  have hfl0 : 0 ≤ ⌊f * (imps.length : ℚ)⌋ := Int.floor_nonneg.2 hfn0
  have hfln : ⌊f * (imps.length : ℚ)⌋ ≤ imps.length := by
    have : (⌊f * (imps.length : ℚ)⌋ : ℚ) ≤ imps.length := hfl.trans hfn
    exact_mod_cast this
  -- enough
  have lo : ∀ i : ℕ, (i : ℚ) + imps.length * 2 ^ (-51 : ℤ) ≤ f * imps.length → i ≤ k := by
    intro i hi
    rcases Nat.eq_zero_or_pos i with rfl | hi0
    · omega
    have hin : i ≤ imps.length := by
      have : (i : ℚ) ≤ imps.length := by linarith
      exact_mod_cast this
    exact (h7 i hi0 hin).1 ((key i hi0 hin).1 hi)
  -- not more
  have hi : ∀ i : ℕ, 1 ≤ i → f * imps.length + imps.length * 2 ^ (-51 : ℤ) ≤ i → k < i := by
    intro i hi0 hi
    rcases le_or_gt i imps.length with hin | hin
    · have := (key i hi0 hin).2 hi
      by_contra hcon
      have h8 := (h7 i hi0 hin).2 (by omega)
      simp only [campaignSpendFl] at h8
      linarith
    · omega
  refine ⟨p, hp, ?_, ?_, ?_, ?_, ?_⟩
  · have := lo (⌊f * (imps.length : ℚ)⌋ - 1).toNat
    rcases hfl0.eq_or_lt with hz | hz
    · omega
    · have e : (((⌊f * (imps.length : ℚ)⌋ - 1).toNat : ℕ) : ℚ) = ⌊f * (imps.length : ℚ)⌋ - 1 := by
        have : (((⌊f * (imps.length : ℚ)⌋ - 1).toNat : ℕ) : ℤ) = ⌊f * (imps.length : ℚ)⌋ - 1 := by
          omega
        exact_mod_cast this
      have := this (by rw [e]; linarith)
      omega
  · have hce := Int.le_ceil (f * (imps.length : ℚ))
    have hce0 : 0 ≤ ⌈f * (imps.length : ℚ)⌉ := Int.ceil_nonneg hfn0
    have := hi (⌈f * (imps.length : ℚ)⌉ + 1).toNat (by omega) (by
      have e : (((⌈f * (imps.length : ℚ)⌉ + 1).toNat : ℕ) : ℚ) = ⌈f * (imps.length : ℚ)⌉ + 1 := by
        have : (((⌈f * (imps.length : ℚ)⌉ + 1).toNat : ℕ) : ℤ) = ⌈f * (imps.length : ℚ)⌉ + 1 := by
          omega
        exact_mod_cast this
      rw [e]; linarith)
    omega
  · intro a b
    have e : ((⌊f * (imps.length : ℚ)⌋.toNat : ℕ) : ℚ) = ⌊f * (imps.length : ℚ)⌋ := by
      have : ((⌊f * (imps.length : ℚ)⌋.toNat : ℕ) : ℤ) = ⌊f * (imps.length : ℚ)⌋ := by omega
      exact_mod_cast this
    have c := lo ⌊f * (imps.length : ℚ)⌋.toNat (by rw [e]; exact a)
    have d := hi (⌊f * (imps.length : ℚ)⌋.toNat + 1) (by omega) (by push_cast; rw [e]; exact b)
    omega
  · obtain ⟨-, h8⟩ := h5 (campaignSpendFl 0 p.maxSpend)
    by_contra hcon
    have h9 := (h8 1 le_rfl hpos).2 (by omega)
    have a := le_round64_normal _ (mul_cpi_normal cpi hc' 1 le_rfl)
    simp only [campaignSpendFl, zero_mul, round64_zero] at h9
    linarith
  · obtain ⟨h10, h8⟩ := h5 (campaignSpendFl 1 p.maxSpend)
    have h9 := (h8 imps.length hpos le_rfl).1 (by
      simp only [campaignSpendFl, one_mul]
      rw [hM, round64_idem _ (by positivity)])
    omega

/-- C66 with rounding, in full, is false: three quarters of twelve impressions at the float nearest to
0.7 buy eight impressions.  (Twelve cost 8.399999999999999, three quarters of it are
6.299999999999999, and nine cost 6.3.) -/
theorem C66_float_full_is_false : ¬ C66_float_full := by
  intro h
  have hex : ∃ p, generatePublisherData (List.replicate 12 0) (fixedPriceFl (round64 (7 / 10))) "a" ""
      = .ok p ∧ p.impressionsBySpend (campaignSpendFl (3 / 4) p.maxSpend) = 8 := by
    have : (match generatePublisherData (List.replicate 12 0) (fixedPriceFl (round64 (7 / 10)))
        "a" "" with
      | .ok p => decide (p.impressionsBySpend (campaignSpendFl (3 / 4) p.maxSpend) = 8)
      | .error _ => false) = true := by decide +kernel
    revert this
    cases generatePublisherData (List.replicate 12 0) (fixedPriceFl (round64 (7 / 10))) "a" "" with
    | error e => simp
    | ok p => intro h; exact ⟨p, rfl, by simpa using h⟩
  obtain ⟨p, hp, h8⟩ := hex
  have := h (List.replicate 12 0) (round64 (7 / 10)) (3 / 4) p (by simp) (by decide +kernel)
    (by simp) (by norm_num) (by norm_num) hp
  rw [h8, List.length_replicate] at this
  norm_num at this

/-- Half of ten impressions, and a third of ten impressions, at the float nearest to 0.1. -/
example : ∃ p, generatePublisherData (List.replicate 10 0) (fixedPriceFl (round64 (1 / 10))) "a" ""
    = .ok p ∧ (p.impressionsBySpend (campaignSpendFl (1 / 3) p.maxSpend) : Int) = 3 := by
  obtain ⟨p, hp, -, -, h, -⟩ := C66_float (List.replicate 10 0) (round64 (1 / 10)) (1 / 3) "a" ""
    (by simp) (by decide +kernel) (by simp) (by norm_num) (by norm_num)
  refine ⟨p, hp, ?_⟩
  have e : ⌊(1 / 3 : ℚ) * ((List.replicate 10 (0 : Int)).length : ℚ)⌋ = 3 := by
    rw [List.length_replicate]; norm_num
  rw [e] at h
  exact h (by rw [List.length_replicate]; norm_num) (by rw [List.length_replicate]; norm_num)

/-! ## C79: levels -/

/-- C79 with rounding: for a float in `[0, 1)` and a non-empty list of levels a level is found (there is
no `IndexError`): the one whose share of the interval contains the value, or, if rounding carries the
product up to the next integer, the next one. -/
theorem C79_float {α : Type} (levels : List α) (hl : levels ≠ []) (hlen : levels.length ≤ 2 ^ 53)
    (u : ℚ) (hu : round64 u = u) (h0 : 0 ≤ u) (h1 : u < 1) :
    ∃ i : ℕ, ∃ h : i < levels.length, pickLevelFl levels u = .ok levels[i] ∧
      ((i : ℤ) = ⌊u * levels.length⌋ ∨
        ((i : ℤ) = ⌊u * levels.length⌋ + 1 ∧ round64 (u * levels.length) = i)) := by
  have hpos : 1 ≤ levels.length := List.length_pos_iff.2 hl
  have hL1 : (1 : ℚ) ≤ levels.length := by exact_mod_cast hpos
  have hx0 : 0 ≤ u * (levels.length : ℚ) := by positivity
  have hr0 := round64_nonneg _ hx0
  have hlt : round64 (u * (levels.length : ℚ)) < levels.length := by
    rcases le_or_gt (2 ^ (-1022 : ℤ)) (u * (levels.length : ℚ)) with hb | hb
    · have a := round64_up _ hb
      have b := float_lt_one u hu h1
      refine a.trans_lt ?_
      rw [← mul_assoc]
      have c : (1 + 2 ^ (-53 : ℤ)) * u < 1 := by
        norm_num at b ⊢
        linarith
      nlinarith
    · have a := round64_small _ hx0 hb.le
      have b : (2 : ℚ) ^ (-1022 : ℤ) < 1 := by decide +kernel
      linarith
  have hfl := Int.floor_le (u * (levels.length : ℚ))
  have hfu := Int.lt_floor_add_one (u * (levels.length : ℚ))
  have hf0 : 0 ≤ ⌊u * (levels.length : ℚ)⌋ := Int.floor_nonneg.2 hx0
  have hfL : ⌊u * (levels.length : ℚ)⌋ < levels.length := by
    have : (⌊u * (levels.length : ℚ)⌋ : ℚ) < levels.length := by nlinarith
    exact_mod_cast this
  have hnat : ∀ k : ℤ, 0 ≤ k → k ≤ levels.length → round64 (k : ℚ) = k := by
    intro k hk hk'
    lift k to ℕ using hk
    exact_mod_cast round64_nat k (by omega)
  have hlo : (⌊u * (levels.length : ℚ)⌋ : ℚ) ≤ round64 (u * (levels.length : ℚ)) := by
    rw [← hnat _ hf0 hfL.le]
    exact round64_mono _ _ (by exact_mod_cast hf0) hfl
  have hhi : round64 (u * (levels.length : ℚ)) ≤ (⌊u * (levels.length : ℚ)⌋ : ℚ) + 1 := by
    have := hnat (⌊u * (levels.length : ℚ)⌋ + 1) (by omega) (by omega)
    push_cast at this
    rw [← this]
    exact round64_mono _ _ hx0 hfu.le
  have hF0 : 0 ≤ ⌊round64 (u * (levels.length : ℚ))⌋ := Int.floor_nonneg.2 hr0
  have hFL : ⌊round64 (u * (levels.length : ℚ))⌋ < levels.length := by
    have := Int.floor_le (round64 (u * (levels.length : ℚ)))
    have : (⌊round64 (u * (levels.length : ℚ))⌋ : ℚ) < levels.length := by linarith
    exact_mod_cast this
  have e1 : ⌊u * (levels.length : ℚ)⌋ ≤ ⌊round64 (u * (levels.length : ℚ))⌋ := Int.le_floor.2 hlo
  have hfr := Int.floor_le (round64 (u * (levels.length : ℚ)))
  have e2 : ⌊round64 (u * (levels.length : ℚ))⌋ ≤ ⌊u * (levels.length : ℚ)⌋ + 1 := by
    have := hfr.trans hhi
    exact_mod_cast this
  refine ⟨⌊round64 (u * (levels.length : ℚ))⌋.toNat, by omega, ?_, ?_⟩
  · unfold pickLevelFl pyInt
    rw [if_pos hr0]
    conv_lhs => rw [← Int.toNat_of_nonneg hF0]
    exact pyIndex_nat _ _ _
  · rw [Int.toNat_of_nonneg hF0]
    rcases e2.eq_or_lt with h | h
    · right
      refine ⟨h, ?_⟩
      have e : ((⌊round64 (u * (levels.length : ℚ))⌋.toNat : ℕ) : ℚ)
          = ⌊round64 (u * (levels.length : ℚ))⌋ := by
        exact_mod_cast congrArg (Int.cast (R := ℚ)) (Int.toNat_of_nonneg hF0)
      rw [e]
      apply le_antisymm _ hfr
      rw [h]; push_cast; exact hhi
    · left; omega

/-- The largest float below one picks the last of three levels, not an index out of range; and the float
below one third picks the second level although it belongs to the first. -/
example : pickLevelFl [10, 20, 30] (1 - 2 ^ (-53 : ℤ)) = .ok 30 ∧
    pickLevelFl [10, 20, 30] (round64 (1 / 3)) = .ok 20 ∧
    pickLevel [10, 20, 30] (round64 (1 / 3)) = .ok 10 ∧
    round64 (1 - 2 ^ (-53 : ℤ)) = 1 - 2 ^ (-53 : ℤ) := by decide +kernel

/-! ## C46: sizes -/

/-- C46 with rounding: whatever float the decay rate of line 144 evaluates to, as long as it is between
zero and one, there are as many sizes as publishers, the first is the largest, and they never increase
and never become negative; each is the one before times the decay rate, rounded down, where only the
product is subject to rounding. -/
theorem C46_float (decay : ℚ) (h0 : 0 ≤ decay) (h1 : decay ≤ 1) (P : ℕ) (N : ℕ) (hN : N ≤ 2 ^ 53) :
    (sizesFromFl decay P N).length = P ∧
    (1 ≤ P → (sizesFromFl decay P N).head? = some (N : Int)) ∧
    (sizesFromFl decay P N).Pairwise (fun a b => b ≤ a) ∧
    (∀ t ∈ sizesFromFl decay P N, 0 ≤ t ∧ t ≤ N) ∧
    (∀ i (h : i + 1 < (sizesFromFl decay P N).length),
      ((sizesFromFl decay P N)[i] : ℚ) * decay * (1 - 2 ^ (-53 : ℤ)) - 1
        < ((sizesFromFl decay P N)[i + 1] : ℚ) ∧
      ((sizesFromFl decay P N)[i + 1] : ℚ)
        ≤ ((sizesFromFl decay P N)[i] : ℚ) * decay * (1 + 2 ^ (-53 : ℤ))) ∧
    (decay = 1 → sizesFromFl decay P N = List.replicate P (N : Int)) := by
  induction P generalizing N with
  | zero => simp [sizesFromFl]
  | succ P ih =>
    have hx0 : 0 ≤ (N : ℚ) * decay := by positivity
    have hr : round64 ((N : ℚ) * decay) ≤ N := by
      calc _ ≤ round64 (N : ℚ) := round64_mono _ _ hx0 (mul_le_of_le_one_right (by positivity) h1)
        _ = N := round64_nat N hN
    have hF0 : 0 ≤ ⌊round64 ((N : ℚ) * decay)⌋ := Int.floor_nonneg.2 (round64_nonneg _ hx0)
    have hFN : ⌊round64 ((N : ℚ) * decay)⌋ ≤ N := by
      have := (Int.floor_le _).trans hr
      exact_mod_cast this
    obtain ⟨m, hm⟩ := Int.eq_ofNat_of_zero_le hF0
    obtain ⟨a, b, c, d, f, e⟩ := ih m (by omega)
    have hnext : (N : ℚ) * decay * (1 - 2 ^ (-53 : ℤ)) - 1 < (m : ℚ) ∧
        (m : ℚ) ≤ (N : ℚ) * decay * (1 + 2 ^ (-53 : ℤ)) := by
      have g1 := Int.floor_le (round64 ((N : ℚ) * decay))
      have g2 := Int.lt_floor_add_one (round64 ((N : ℚ) * decay))
      rw [hm, Int.cast_natCast] at g1 g2
      rcases le_or_gt (2 ^ (-1022 : ℤ)) ((N : ℚ) * decay) with hb | hb
      · have k1 := round64_down _ hb
        have k2 := round64_up _ hb
        generalize (2 : ℚ) ^ (-53 : ℤ) = v at *
        constructor <;> linarith
      · have k := round64_small _ hx0 hb.le
        have h1022 : (2 : ℚ) ^ (-1022 : ℤ) < 1 := by decide +kernel
        have hm0 : m = 0 := by
          have : (m : ℚ) < 1 := by linarith only [g1, k, h1022]
          have : m < 1 := by exact_mod_cast this
          omega
        have v0 : (0 : ℚ) ≤ 1 + 2 ^ (-53 : ℤ) := by norm_num
        have v1 : (1 : ℚ) - 2 ^ (-53 : ℤ) ≤ 1 := by norm_num
        rw [hm0, Nat.cast_zero]
        refine ⟨?_, mul_nonneg hx0 v0⟩
        have := mul_le_mul_of_nonneg_left v1 hx0
        linarith only [this, hb, h1022]
    have hstep : sizesFromFl decay (P + 1) N = (N : Int) :: sizesFromFl decay P m := by
      rw [sizesFromFl]
      push_cast
      rw [hm]
    simp only [hstep]
    refine ⟨by simp [a], by simp, ?_, ?_, ?_, ?_⟩
    · rw [List.pairwise_cons]
      exact ⟨fun t ht => by have := (d t ht).2; omega, c⟩
    · intro t ht
      rcases List.mem_cons.1 ht with rfl | ht
      · omega
      · have := d t ht; omega
    · intro i hi
      cases i with
      | succ i => exact f i (by simpa using hi)
      | zero =>
        cases P with
        | zero => simp [sizesFromFl] at hi
        | succ P => simpa [sizesFromFl] using hnext
    · intro hd
      have : m = N := by
        have h2 : round64 ((N : ℚ) * decay) = N := by rw [hd, mul_one, round64_nat N hN]
        rw [h2] at hm
        simpa using hm.symm
      rw [e hd, this, List.replicate_succ]

/-- At the float 0.29, a hundred users become 28, not 29. -/
example : sizesFromFl (round64 (29 / 100)) 3 100 = [100, 28, 8] := by decide +kernel

/-! ## C47: the fractions of the single-publisher columns -/

/-- C47 with rounding: the percentage in the label of every one of the thirty fractions is right (although
`int` rounds down), the fraction labelled 100 is exactly the campaign spend, and the fractions
increase. -/
theorem C47_float_labels :
    (∀ r, 1 ≤ r → r ≤ 30 → fractionPercentFl r = 10 * r) ∧ fractionFl 10 = 1 ∧
    (∀ r, 1 ≤ r → r < 30 → fractionFl r < fractionFl (r + 1)) ∧
    ∀ s, round64 s = s → round64 (fractionFl 10 * s) = s := by
  have h10 : fractionFl 10 = 1 := by decide +kernel
  refine ⟨?_, h10, ?_, ?_⟩
  · intro r h1 h2
    interval_cases r <;> decide +kernel
  · intro r h1 h2
    interval_cases r <;> decide +kernel
  · intro s hs
    rw [h10, one_mul, hs]

/-- The third fraction is not the float nearest to 0.3. -/
example : fractionFl 3 ≠ round64 (3 / 10) ∧ fractionPercentFl 3 = 30 := by decide +kernel

/-! ## C51: test points -/

theorem gridAxisFl_bounds (M : ℚ) (g : ℕ) (hM : 2 ^ (-900 : ℤ) ≤ M) (hg : g ≤ 2 ^ 48) (j : ℕ) :
    (1 - 2 ^ (-53 : ℤ)) * (1 - 2 ^ (-53 : ℤ)) * (M * ((j : ℚ) + 1) / ((g : ℚ) + 1)) ≤
      round64 (round64 (M * ((j : ℚ) + 1)) / ((g : ℚ) + 1)) ∧
    round64 (round64 (M * ((j : ℚ) + 1)) / ((g : ℚ) + 1)) ≤
      (1 + 2 ^ (-53 : ℤ)) * (1 + 2 ^ (-53 : ℤ)) * (M * ((j : ℚ) + 1) / ((g : ℚ) + 1)) := by
  have hM0 : 0 < M := (two_zpow_pos _).trans_le hM
  have e1 : (2 : ℚ) ^ (-1022 : ℤ) ≤ 2 ^ (-960 : ℤ) := zpow_le_zpow_right₀ (by norm_num) (by norm_num)
  have e2 : (2 : ℚ) ^ (-960 : ℤ) ≤ 2 ^ (-900 : ℤ) := zpow_le_zpow_right₀ (by norm_num) (by norm_num)
  have e3 : (2 : ℚ) ^ (-960 : ℤ) = 2 ^ (-900 : ℤ) * 2 ^ (-60 : ℤ) := by
    rw [← zpow_add₀ (by norm_num)]; norm_num
  have hj0 : (0 : ℚ) ≤ j := by positivity
  have hg0 : (0 : ℚ) < (g : ℚ) + 1 := by positivity
  have hgq : (g : ℚ) ≤ 281474976710656 := by norm_num at hg; exact_mod_cast hg
  have hMj : M ≤ M * ((j : ℚ) + 1) := by nlinarith
  have hb : (2 : ℚ) ^ (-1022 : ℤ) ≤ M * ((j : ℚ) + 1) := (e1.trans e2).trans (hM.trans hMj)
  have a1 := round64_down _ hb
  have a2 := round64_up _ hb
  have hb2 : (2 : ℚ) ^ (-1022 : ℤ) ≤ round64 (M * ((j : ℚ) + 1)) / ((g : ℚ) + 1) := by
    rw [le_div_iff₀ hg0]
    have b1 : (2 : ℚ) ^ (-900 : ℤ) * (1 / 2) ≤ (1 - 2 ^ (-53 : ℤ)) * (M * ((j : ℚ) + 1)) := by
      have : (1 / 2 : ℚ) ≤ 1 - 2 ^ (-53 : ℤ) := by norm_num
      have h2 := hM.trans hMj
      have h3 := mul_le_mul_of_nonneg_right this (hM0.le.trans hMj)
      linarith only [h2, h3]
    have b2 : (2 : ℚ) ^ (-960 : ℤ) * ((g : ℚ) + 1) ≤ 2 ^ (-900 : ℤ) * (1 / 2) := by
      rw [e3, mul_assoc]
      apply mul_le_mul_of_nonneg_left _ (two_zpow_pos _).le
      norm_num
      linarith
    have b3 : (2 : ℚ) ^ (-1022 : ℤ) * ((g : ℚ) + 1) ≤ (2 : ℚ) ^ (-960 : ℤ) * ((g : ℚ) + 1) :=
      mul_le_mul_of_nonneg_right e1 hg0.le
    exact ((b3.trans b2).trans b1).trans a1
  have c1 := round64_down _ hb2
  have c2 := round64_up _ hb2
  have d1 := div_le_div_of_nonneg_right a1 hg0.le
  have d2 := div_le_div_of_nonneg_right a2 hg0.le
  have p1 : (0 : ℚ) ≤ 1 - 2 ^ (-53 : ℤ) := by norm_num
  have p2 : (0 : ℚ) ≤ 1 + 2 ^ (-53 : ℤ) := by norm_num
  constructor
  · refine le_trans (le_of_eq ?_) ((mul_le_mul_of_nonneg_left d1 p1).trans c1)
    ring
  · refine (c2.trans (mul_le_mul_of_nonneg_left d2 p2)).trans (le_of_eq ?_)
    ring

theorem gridAxisFl_lt (M : ℚ) (g : ℕ) (hM : 2 ^ (-900 : ℤ) ≤ M) (hg : g ≤ 2 ^ 48) (i j : ℕ)
    (hij : i < j) (hj : j < g) :
    round64 (round64 (M * ((i : ℚ) + 1)) / ((g : ℚ) + 1)) <
      round64 (round64 (M * ((j : ℚ) + 1)) / ((g : ℚ) + 1)) := by
  have hM0 : 0 < M := (two_zpow_pos _).trans_le hM
  have hg0 : (0 : ℚ) < (g : ℚ) + 1 := by positivity
  have hgq : (g : ℚ) ≤ 281474976710656 := by norm_num at hg; exact_mod_cast hg
  have hjq : (j : ℚ) + 1 ≤ g := by exact_mod_cast hj
  have hijq : (i : ℚ) + 1 ≤ j := by exact_mod_cast hij
  have hi0 : (0 : ℚ) ≤ i := by positivity
  refine (gridAxisFl_bounds M g hM hg i).2.trans_lt
    (lt_of_lt_of_le ?_ (gridAxisFl_bounds M g hM hg j).1)
  have e : ∀ t : ℚ, M * t / ((g : ℚ) + 1) = t * (M / ((g : ℚ) + 1)) := fun t => by ring
  rw [e, e, ← mul_assoc, ← mul_assoc]
  apply mul_lt_mul_of_pos_right _ (by positivity)
  norm_num
  linarith

theorem gridAxisFl_inside (M : ℚ) (g : ℕ) (hM : 2 ^ (-900 : ℤ) ≤ M) (hg : g ≤ 2 ^ 48) (j : ℕ)
    (hj : j < g) :
    0 < round64 (round64 (M * ((j : ℚ) + 1)) / ((g : ℚ) + 1)) ∧
    round64 (round64 (M * ((j : ℚ) + 1)) / ((g : ℚ) + 1)) < M := by
  have hM0 : 0 < M := (two_zpow_pos _).trans_le hM
  have hg0 : (0 : ℚ) < (g : ℚ) + 1 := by positivity
  have hgq : (g : ℚ) ≤ 281474976710656 := by norm_num at hg; exact_mod_cast hg
  have hjq : (j : ℚ) + 1 ≤ g := by exact_mod_cast hj
  have hj0 : (0 : ℚ) ≤ j := by positivity
  obtain ⟨a, b⟩ := gridAxisFl_bounds M g hM hg j
  constructor
  · refine lt_of_lt_of_le ?_ a
    apply mul_pos (by norm_num)
    positivity
  · refine b.trans_lt ?_
    have e : (1 + 2 ^ (-53 : ℤ)) * (1 + 2 ^ (-53 : ℤ)) * (M * ((j : ℚ) + 1) / ((g : ℚ) + 1))
        = M * ((1 + 2 ^ (-53 : ℤ)) * (1 + 2 ^ (-53 : ℤ)) * ((j : ℚ) + 1) / ((g : ℚ) + 1)) := by ring
    rw [e]
    apply mul_lt_of_lt_one_right hM0
    rw [div_lt_one hg0]
    norm_num
    linarith

/-- C51, grid, with rounding: `grid_size ^ p` points, pairwise different, strictly inside the spend
box, and each coordinate within `2^-51`, relatively, of a point of the exact grid. -/
theorem C51_float_grid (ds : DataSet) (g : Nat) (hg : g ≤ 2 ^ 48)
    (hM : ∀ p ∈ ds.data, 2 ^ (-900 : ℤ) ≤ p.maxSpend) :
    (gridTestPointsFl ds g).length = g ^ ds.data.length ∧
    (gridTestPointsFl ds g).Nodup ∧
    ∀ pt ∈ gridTestPointsFl ds g, StrictlyInBox ds pt ∧
      List.Forall₂ (fun (p : PublisherData) x => ∃ j : Nat, 1 ≤ j ∧ j ≤ g ∧
        |x - p.maxSpend * j / (g + 1)| ≤ 2 ^ (-51 : ℤ) * (p.maxSpend * j / (g + 1))) ds.data pt := by
  unfold gridTestPointsFl
  refine ⟨?_, ?_, ?_⟩
  · rw [length_cartesian _ g]
    · simp [maxSpends]
    · intro a ha
      obtain ⟨m, -, rfl⟩ := List.mem_map.1 ha
      simp [gridAxisFl]
  · apply nodup_cartesian
    intro a ha
    obtain ⟨m, hm, rfl⟩ := List.mem_map.1 ha
    obtain ⟨p, hp, rfl⟩ := List.mem_map.1 hm
    unfold gridAxisFl
    refine List.Nodup.map_on ?_ List.nodup_range
    intro i hi j hj hij
    simp only [List.mem_range, Int.toNat_natCast] at hi hj
    simp only [Int.cast_natCast] at hij
    rcases lt_trichotomy i j with h | h | h
    · exact absurd hij (gridAxisFl_lt _ g (hM p hp) hg i j h hj).ne
    · exact h
    · exact absurd hij (gridAxisFl_lt _ g (hM p hp) hg j i h hi).ne'
  · intro pt hpt
    rw [mem_cartesian, maxSpends, List.map_map, List.forall₂_map_left_iff] at hpt
    unfold StrictlyInBox
    rw [List.forall₂_iff_get] at hpt ⊢
    rw [List.forall₂_iff_get]
    have hx : ∀ (i : Nat) (h1 : i < ds.data.length) (h2 : i < pt.length), ∃ j < g,
        round64 (round64 ((ds.data.get ⟨i, h1⟩).maxSpend * ((j : ℚ) + 1)) / ((g : ℚ) + 1))
          = pt.get ⟨i, h2⟩ := by
      intro i h1 h2
      have hx := hpt.2 i h1 h2
      simpa only [Function.comp, gridAxisFl, List.mem_map, List.mem_range, Int.toNat_natCast,
        Int.cast_natCast] using hx
    refine ⟨⟨hpt.1, fun i h1 h2 => ?_⟩, ⟨hpt.1, fun i h1 h2 => ?_⟩⟩
    · obtain ⟨j, hj, hx⟩ := hx i h1 h2
      rw [← hx]
      exact gridAxisFl_inside _ g (hM _ (List.get_mem _ _)) hg j hj
    · obtain ⟨j, hj, hx⟩ := hx i h1 h2
      refine ⟨j + 1, by omega, by omega, ?_⟩
      rw [← hx]
      obtain ⟨b1, b2⟩ := gridAxisFl_bounds _ g (hM _ (List.get_mem ds.data ⟨i, h1⟩)) hg j
      have hM0 : 0 < (ds.data.get ⟨i, h1⟩).maxSpend :=
        (two_zpow_pos _).trans_le (hM _ (List.get_mem ds.data ⟨i, h1⟩))
      push_cast
      have hpos : 0 < (ds.data.get ⟨i, h1⟩).maxSpend * ((j : ℚ) + 1) / ((g : ℚ) + 1) := by positivity
      generalize (ds.data.get ⟨i, h1⟩).maxSpend * ((j : ℚ) + 1) / ((g : ℚ) + 1) = t at *
      generalize round64 (round64 _ / ((g : ℚ) + 1)) = z at *
      norm_num at b1 b2 ⊢
      rw [abs_le]
      constructor <;> linarith

theorem mulVecFl_inBox (ds : DataSet) (v : List ℚ) (hlen : v.length = ds.data.length)
    (hv : ∀ x ∈ v, 0 ≤ x ∧ x ≤ 1)
    (hM : ∀ p ∈ ds.data, 0 ≤ p.maxSpend ∧ round64 p.maxSpend = p.maxSpend) :
    InBox ds (mulVecFl (maxSpends ds) v) := by
  unfold InBox
  rw [List.forall₂_iff_get]
  refine ⟨by simp [mulVecFl, maxSpends, hlen], ?_⟩
  intro i h1 h2
  simp only [mulVecFl, maxSpends, List.get_eq_getElem, List.getElem_zipWith, List.getElem_map]
  have hi : i < v.length := by omega
  obtain ⟨a, b⟩ := hv _ (List.getElem_mem hi)
  obtain ⟨hm, hr⟩ := hM _ (List.getElem_mem h1)
  have h0 := mul_nonneg hm a
  refine ⟨round64_nonneg _ h0, ?_⟩
  calc _ ≤ round64 (ds.data[i]).maxSpend := round64_mono _ _ h0 (mul_le_of_le_one_right hm b)
    _ = _ := hr

/-- C51, random points, with rounding: the points are those without rounding with every coordinate
rounded, and if the maximum spends are floats, this never moves a point out of the spend box. -/
theorem C51_float_random (ds : DataSet) (npoints npublishers minPer : Int)
    (hM : ∀ p ∈ ds.data, 0 ≤ p.maxSpend ∧ round64 p.maxSpend = p.maxSpend) :
    (∀ random : Nat → List ℚ,
      (∀ i, (random i).length = ds.data.length ∧ ∀ x ∈ random i, 0 ≤ x ∧ x ≤ 1) →
      (uniformTestPointsFl ds npoints npublishers minPer random
        = (uniformTestPoints ds npoints npublishers minPer random).map (List.map round64) ∧
      ∀ pt ∈ uniformTestPointsFl ds npoints npublishers minPer random, InBox ds pt)) ∧
    ∀ (lhs : Nat → Nat → List (List ℚ)) (perm : Nat → Nat → List Nat),
      (∀ n s, (lhs n s).length = s ∧
        ∀ row ∈ lhs n s, row.length = n ∧ ∀ x ∈ row, 0 ≤ x ∧ x ≤ 1) →
      (∀ i n, (perm i n).Perm (List.range n)) →
      (latinTestPointsFl ds npoints npublishers minPer lhs perm
        = (latinTestPoints ds npoints npublishers minPer lhs perm).map (List.map round64) ∧
      ∀ pt ∈ latinTestPointsFl ds npoints npublishers minPer lhs perm, InBox ds pt) := by
  have hmul : ∀ v, mulVecFl (maxSpends ds) v = (mulVec (maxSpends ds) v).map round64 := by
    intro v
    simp [mulVecFl, mulVec, List.map_zipWith]
  constructor
  · intro random hrnd
    refine ⟨by simp [uniformTestPointsFl, uniformTestPoints, hmul], ?_⟩
    intro pt hpt
    obtain ⟨i, -, rfl⟩ := List.mem_map.1 hpt
    exact mulVecFl_inBox ds _ (hrnd i).1 (hrnd i).2 hM
  · intro lhs perm hlhs hperm
    refine ⟨by simp [latinTestPointsFl, latinTestPoints, hmul], ?_⟩
    intro pt hpt
    simp only [latinTestPointsFl, permuteDesign, List.map_map, List.mem_map, Function.comp] at hpt
    obtain ⟨r, hr, rfl⟩ := hpt
    have hr' := (hperm 0 _).mem_iff.1 hr
    rw [List.mem_range] at hr'
    obtain ⟨h1, h2⟩ := hlhs ds.publisherCount (latinNumPoints npoints npublishers minPer).toNat
    have hrow : (lhs ds.publisherCount (latinNumPoints npoints npublishers minPer).toNat).getD r []
        ∈ lhs ds.publisherCount (latinNumPoints npoints npublishers minPer).toNat := by
      have hi : r < (lhs ds.publisherCount
          (latinNumPoints npoints npublishers minPer).toNat).length := by omega
      rw [List.getD_eq_getElem?_getD, List.getElem?_eq_getElem hi]
      exact List.getElem_mem hi
    obtain ⟨h3, h4⟩ := h2 _ hrow
    apply mulVecFl_inBox ds _ _ _ hM
    · rw [List.length_map, (hperm 1 _).length_eq, List.length_range]; rfl
    · intro x hx
      obtain ⟨c, hc, rfl⟩ := List.mem_map.1 hx
      have hc' := (hperm 1 _).mem_iff.1 hc
      rw [List.mem_range] at hc'
      have hi : c < ((lhs ds.publisherCount
          (latinNumPoints npoints npublishers minPer).toNat).getD r []).length := by omega
      rw [List.getD_eq_getElem?_getD, List.getElem?_eq_getElem hi]
      exact h4 _ (List.getElem_mem hi)

/-- Ten grid points for a maximum spend of 0.3: the third is not three elevenths exactly, but inside. -/
example : (gridAxisFl (round64 (3 / 10)) 10).length = 10 ∧
    (gridAxisFl (round64 (3 / 10)) 10).all (fun x => 0 < x ∧ x < round64 (3 / 10)) = true ∧
    (2 : ℚ) ^ (-900 : ℤ) ≤ round64 (3 / 10) := by decide +kernel

/-! ## C27, C28: Goerg's curve -/

/-- The value of the curve with maximum reach `rho` at `x` impressions. -/
def goergCurve (rho x : ℚ) : ℚ := rho * (x / (x + rho))

theorem goergRhoFl_bounds (I R : ℚ) (hR : 1 ≤ R) (hI : R + 2 ^ (-1000 : ℤ) ≤ I) :
    (1 - 2 ^ (-53 : ℤ)) * (1 - 2 ^ (-53 : ℤ)) * (I * R / (I - R))
      ≤ (1 + 2 ^ (-53 : ℤ)) * goergRhoFl I R ∧
    (1 - 2 ^ (-53 : ℤ)) * goergRhoFl I R
      ≤ (1 + 2 ^ (-53 : ℤ)) * (1 + 2 ^ (-53 : ℤ)) * (I * R / (I - R)) := by
  have hp := two_zpow_pos (-1000)
  have e1 : (2 : ℚ) ^ (-1022 : ℤ) ≤ 2 ^ (-1000 : ℤ) :=
    zpow_le_zpow_right₀ (by norm_num) (by norm_num)
  have e2 : (2 : ℚ) ^ (-1022 : ℤ) ≤ 1 / 4 := by
    have : (2 : ℚ) ^ (-1022 : ℤ) ≤ 2 ^ (-2 : ℤ) := zpow_le_zpow_right₀ (by norm_num) (by norm_num)
    exact this.trans (by norm_num)
  have hD : 0 < I - R := by linarith
  have hD2 : (2 : ℚ) ^ (-1022 : ℤ) ≤ I - R := by linarith
  have hIR : 1 ≤ I * R := by nlinarith
  have a1 := round64_down _ (show (2 : ℚ) ^ (-1022 : ℤ) ≤ I * R by linarith)
  have a2 := round64_up _ (show (2 : ℚ) ^ (-1022 : ℤ) ≤ I * R by linarith)
  have b1 := round64_down _ hD2
  have b2 := round64_up _ hD2
  have p1 : (1 / 2 : ℚ) ≤ 1 - 2 ^ (-53 : ℤ) := by norm_num
  have p2 : (1 : ℚ) + 2 ^ (-53 : ℤ) ≤ 2 := by norm_num
  have p3 : (0 : ℚ) < 1 + 2 ^ (-53 : ℤ) := by norm_num
  have hdown := round64_down
  have hup := round64_up
  unfold goergRhoFl
  generalize (2 : ℚ) ^ (-53 : ℤ) = v at *
  generalize hA' : round64 (I * R) = A at *
  generalize hB' : round64 (I - R) = B at *
  have hB : 0 < B := lt_of_lt_of_le (by apply mul_pos _ hD; linarith) b1
  have hA : 0 < A := lt_of_lt_of_le (by apply mul_pos _ (by linarith); linarith) a1
  have hRq : I - R ≤ I * R := by nlinarith
  have hq : (2 : ℚ) ^ (-1022 : ℤ) ≤ A / B := by
    rw [le_div_iff₀ hB]
    have c1 : B ≤ 2 * (I * R) := b2.trans (mul_le_mul p2 hRq hD.le (by norm_num))
    have c2 : 1 / 2 * (I * R) ≤ A := (mul_le_mul_of_nonneg_right p1 (by linarith)).trans a1
    have c3 : (2 : ℚ) ^ (-1022 : ℤ) * B ≤ 1 / 4 * B := mul_le_mul_of_nonneg_right e2 hB.le
    linarith only [c1, c2, c3]
  have d1 := hdown _ hq
  have d2 := hup _ hq
  generalize round64 (A / B) = q at *
  constructor
  · -- (1-v)² IR/(I-R) ≤ (1+v) q
    have f1 : (1 - v) * (I * R / (I - R)) ≤ (1 + v) * (A / B) := by
      rw [← mul_div_assoc, ← mul_div_assoc, div_le_div_iff₀ hD hB]
      calc (1 - v) * (I * R) * B ≤ A * ((1 + v) * (I - R)) :=
            mul_le_mul a1 b2 hB.le hA.le
        _ = _ := by ring
    calc (1 - v) * (1 - v) * (I * R / (I - R)) = (1 - v) * ((1 - v) * (I * R / (I - R))) := by ring
      _ ≤ (1 - v) * ((1 + v) * (A / B)) := mul_le_mul_of_nonneg_left f1 (by linarith)
      _ = (1 + v) * ((1 - v) * (A / B)) := by ring
      _ ≤ (1 + v) * q := mul_le_mul_of_nonneg_left d1 p3.le
  · have f1 : (1 - v) * (A / B) ≤ (1 + v) * (I * R / (I - R)) := by
      rw [← mul_div_assoc, ← mul_div_assoc, div_le_div_iff₀ hB hD]
      calc (1 - v) * A * (I - R) = A * ((1 - v) * (I - R)) := by ring
        _ ≤ (1 + v) * (I * R) * B := mul_le_mul a2 b1 (by
            apply mul_nonneg _ hD.le; linarith) (by apply mul_nonneg p3.le; linarith)
    calc (1 - v) * q ≤ (1 - v) * ((1 + v) * (A / B)) := mul_le_mul_of_nonneg_left d2 (by linarith)
      _ = (1 + v) * ((1 - v) * (A / B)) := by ring
      _ ≤ (1 + v) * ((1 + v) * (I * R / (I - R))) := mul_le_mul_of_nonneg_left f1 p3.le
      _ = _ := by ring

/-- One evaluation of the curve with maximum reach `rho`. -/
theorem goergReachFl_bounds (rho x : ℚ) (h1 : 1 / 2 ≤ rho) (h2 : rho ≤ 2 ^ 200) (hx : 1 / 1000 ≤ x) :
    (1 - 2 ^ (-53 : ℤ)) * (1 - 2 ^ (-53 : ℤ)) * goergCurve rho x
      ≤ (1 + 2 ^ (-53 : ℤ)) * goergReachFl rho x ∧
    (1 - 2 ^ (-53 : ℤ)) * goergReachFl rho x
      ≤ (1 + 2 ^ (-53 : ℤ)) * (1 + 2 ^ (-53 : ℤ)) * goergCurve rho x := by
  have e1 : (2 : ℚ) ^ (-1022 : ℤ) ≤ 2 ^ (-300 : ℤ) / 2 := by decide +kernel
  have e0 : (2 : ℚ) ^ (-1022 : ℤ) ≤ 1 / 2 := by
    have : (2 : ℚ) ^ (-1022 : ℤ) ≤ 2 ^ (-1 : ℤ) := zpow_le_zpow_right₀ (by norm_num) (by norm_num)
    exact this.trans (by norm_num)
  have p1 : (1 / 2 : ℚ) ≤ 1 - 2 ^ (-53 : ℤ) := by norm_num
  have p2 : (1 : ℚ) + 2 ^ (-53 : ℤ) ≤ 2 := by norm_num
  have p3 : (0 : ℚ) < 1 + 2 ^ (-53 : ℤ) := by norm_num
  have hS : 0 < x + rho := by linarith
  have s1 := round64_down (x + rho) (e0.trans (by linarith only [h1, hx]))
  have s2 := round64_up (x + rho) (e0.trans (by linarith only [h1, hx]))
  have hdown := round64_down
  have hup := round64_up
  -- the ratio is far from underflow
  have hratio : 4 * 2 ^ (-300 : ℤ) ≤ x / (x + rho) := by
    rw [le_div_iff₀ hS]
    have a : (4 * 2 ^ (-300 : ℤ) : ℚ) ≤ 1 / 2 := by decide +kernel
    have b : (4 * 2 ^ (-300 : ℤ) : ℚ) * 2 ^ 200 ≤ 1 / 2000 := by decide +kernel
    have c := mul_le_mul_of_nonneg_left h2 (show (0 : ℚ) ≤ 4 * 2 ^ (-300 : ℤ) by norm_num)
    have d := mul_le_mul_of_nonneg_right a (show (0 : ℚ) ≤ x by linarith)
    rw [mul_add]
    linarith only [b, c, d, hx]
  unfold goergReachFl goergCurve
  generalize (2 : ℚ) ^ (-53 : ℤ) = v at *
  generalize round64 (x + rho) = S at *
  have hSpos : 0 < S := lt_of_lt_of_le (by apply mul_pos _ hS; linarith) s1
  have hx0 : 0 < x := by linarith
  have f1 : x / (x + rho) ≤ (1 + v) * (x / S) := by
    rw [← mul_div_assoc, div_le_div_iff₀ hS hSpos]
    calc x * S ≤ x * ((1 + v) * (x + rho)) := mul_le_mul_of_nonneg_left s2 hx0.le
      _ = _ := by ring
  have f2 : (1 - v) * (x / S) ≤ x / (x + rho) := by
    rw [← mul_div_assoc, div_le_div_iff₀ hSpos hS]
    calc (1 - v) * x * (x + rho) = x * ((1 - v) * (x + rho)) := by ring
      _ ≤ _ := mul_le_mul_of_nonneg_left s1 hx0.le
  have hq0 : 0 < x / S := by positivity
  have hq : 2 * 2 ^ (-300 : ℤ) ≤ x / S := by
    have := mul_le_mul_of_nonneg_right p2 hq0.le
    linarith only [this, f1, hratio]
  have hp300 := two_zpow_pos (-300)
  have q1 := hdown (x / S) (by linarith only [hq, e1, hp300])
  have q2 := hup (x / S) (by linarith only [hq, e1, hp300])
  generalize round64 (x / S) = q at *
  have hqq : 2 ^ (-300 : ℤ) ≤ q := by
    have := mul_le_mul_of_nonneg_right p1 hq0.le
    linarith only [this, q1, hq]
  have hrho : 0 ≤ rho := by linarith
  have hbig : 2 ^ (-1022 : ℤ) ≤ rho * q := by
    have := mul_le_mul h1 hqq hp300.le hrho
    linarith only [this, e1]
  have y1 := hdown _ hbig
  have y2 := hup _ hbig
  generalize round64 (rho * q) = y at *
  have hv : 0 ≤ 1 - v := by linarith
  constructor
  · calc (1 - v) * (1 - v) * (rho * (x / (x + rho)))
        = (1 - v) * (rho * ((1 - v) * (x / (x + rho)))) := by ring
      _ ≤ (1 - v) * (rho * ((1 - v) * ((1 + v) * (x / S)))) := by gcongr
      _ = (1 - v) * (rho * ((1 + v) * ((1 - v) * (x / S)))) := by ring
      _ ≤ (1 - v) * (rho * ((1 + v) * q)) := by gcongr
      _ = (1 + v) * ((1 - v) * (rho * q)) := by ring
      _ ≤ (1 + v) * y := by gcongr
  · calc (1 - v) * y ≤ (1 - v) * ((1 + v) * (rho * q)) := by gcongr
      _ ≤ (1 - v) * ((1 + v) * (rho * ((1 + v) * (x / S)))) := by gcongr
      _ = (1 + v) * (1 + v) * (rho * ((1 - v) * (x / S))) := by ring
      _ ≤ (1 + v) * (1 + v) * (rho * (x / (x + rho))) := by gcongr

/-- A larger maximum reach gives a curve which is higher by at most the same factor. -/
theorem goergCurve_scale (rho rho' x c d : ℚ) (h0 : 0 < rho) (h0' : 0 < rho') (hx : 0 ≤ x)
    (hcd : c ≤ d) (h : c * rho' ≤ d * rho) :
    c * goergCurve rho' x ≤ d * goergCurve rho x := by
  unfold goergCurve
  have p : 0 < x + rho := by linarith
  have p' : 0 < x + rho' := by linarith
  rw [← mul_div_assoc, ← mul_div_assoc, ← mul_div_assoc, ← mul_div_assoc, div_le_div_iff₀ p' p]
  have a := mul_le_mul_of_nonneg_right h (mul_nonneg hx hx)
  have b := mul_le_mul_of_nonneg_right hcd (mul_nonneg (mul_nonneg h0.le h0'.le) hx)
  linarith only [a, b]

theorem error_from_factors (y g : ℚ) (hg : 0 ≤ g)
    (h1 : (1 - 2 ^ (-53 : ℤ)) * ((1 - 2 ^ (-53 : ℤ)) * y)
      ≤ (1 + 2 ^ (-53 : ℤ)) * (1 + 2 ^ (-53 : ℤ)) * ((1 + 2 ^ (-53 : ℤ)) * (1 + 2 ^ (-53 : ℤ)) * g))
    (h2 : (1 - 2 ^ (-53 : ℤ)) * (1 - 2 ^ (-53 : ℤ)) * ((1 - 2 ^ (-53 : ℤ)) * (1 - 2 ^ (-53 : ℤ)) * g)
      ≤ (1 + 2 ^ (-53 : ℤ)) * ((1 + 2 ^ (-53 : ℤ)) * y)) :
    |y - g| ≤ 2 ^ (-50 : ℤ) * g := by
  norm_num at h1 h2 ⊢
  rw [abs_le]
  constructor <;> linarith

/-- C27 with rounding: the curve fitted with floats and evaluated with floats differs from the exact
curve at any number of impressions by at most the factor `1 ± 2^-50`; at the training point itself it
predicts the observed reach up to that factor. -/
theorem C27_float (data : List ReachPoint) (m : GoergModel) (hm : GoergModel.new data = .ok m)
    (hR : 1 ≤ m.reach) (hI : m.reach + 2 ^ (-52 : ℤ) ≤ m.impressions) (hI2 : m.impressions ≤ 2 ^ 53)
    (x : ℚ) (hx : 1 / 1000 ≤ x) :
    (∃ pt y, m.byImpressions [x] = .ok pt ∧ pt.reach 1 = .ok y ∧
      |goergReachFl (goergRhoFl m.impressions m.reach) x - y| ≤ 2 ^ (-50 : ℤ) * y) ∧
    |goergReachFl (goergRhoFl m.impressions m.reach) m.impressions - m.reach|
      ≤ 2 ^ (-50 : ℤ) * m.reach := by
  obtain ⟨hrho, hb⟩ := goerg_rho_pos data m hm (by linarith)
  obtain ⟨d, i, r, -, -, -, -, -, hi, hr, h8, -, -⟩ := (goerg_new_ok_iff _ m).1 hm
  rw [hi] at hI hI2 ⊢
  rw [hr] at hR hI ⊢
  have hD : 0 < i - r := by
    have := two_zpow_pos (-52); linarith
  have hD52 : 2 ^ (-52 : ℤ) ≤ i - r := by linarith
  have hi0 : 0 < i := by
    have := two_zpow_pos (-52); linarith
  have e1 : (2 : ℚ) ^ (-1000 : ℤ) ≤ 2 ^ (-52 : ℤ) := zpow_le_zpow_right₀ (by norm_num) (by norm_num)
  obtain ⟨b1, b2⟩ := goergRhoFl_bounds i r hR (by linarith only [hI, e1])
  rw [← h8] at b1 b2
  have hrho1 : 1 ≤ m.rho := by
    rw [h8, le_div_iff₀ hD]; nlinarith
  have hrho2 : m.rho ≤ 2 ^ 158 := by
    rw [h8, div_le_iff₀ hD]
    have a : i * r ≤ 2 ^ 53 * 2 ^ 53 := mul_le_mul hI2 (by linarith) (by linarith) (by norm_num)
    have b := mul_le_mul_of_nonneg_left hD52 (show (0 : ℚ) ≤ 2 ^ 158 by norm_num)
    refine a.trans (le_trans (le_of_eq ?_) b)
    norm_num
  have f1 : 1 / 2 ≤ goergRhoFl i r := by
    norm_num at b1
    linarith
  have f2 : goergRhoFl i r ≤ 2 ^ 200 := by
    norm_num at b2 hrho2 ⊢
    linarith
  have main : ∀ t : ℚ, 1 / 1000 ≤ t →
      |goergReachFl (goergRhoFl i r) t - goergCurve m.rho t| ≤ 2 ^ (-50 : ℤ) * goergCurve m.rho t := by
    intro t ht
    obtain ⟨c1, c2⟩ := goergReachFl_bounds (goergRhoFl i r) t f1 f2 ht
    have t0 : 0 < t := by linarith
    have hg : 0 ≤ goergCurve m.rho t := by unfold goergCurve; positivity
    have d1 := goergCurve_scale m.rho (goergRhoFl i r) t _ _ hrho (by linarith) t0.le
      (by norm_num) b2
    have d2 := goergCurve_scale (goergRhoFl i r) m.rho t _ _ (by linarith) hrho t0.le
      (by norm_num) b1
    apply error_from_factors _ _ hg
    · refine (mul_le_mul_of_nonneg_left c2 (show (0 : ℚ) ≤ 1 - 2 ^ (-53 : ℤ) by norm_num)).trans ?_
      have := mul_le_mul_of_nonneg_left d1
        (show (0 : ℚ) ≤ (1 + 2 ^ (-53 : ℤ)) * (1 + 2 ^ (-53 : ℤ)) by norm_num)
      refine le_trans (le_of_eq ?_) this
      ring
    · refine le_trans ?_ (mul_le_mul_of_nonneg_left c1 (show (0 : ℚ) ≤ 1 + 2 ^ (-53 : ℤ) by norm_num))
      have := mul_le_mul_of_nonneg_left d2
        (show (0 : ℚ) ≤ (1 - 2 ^ (-53 : ℤ)) * (1 - 2 ^ (-53 : ℤ)) by norm_num)
      refine this.trans (le_of_eq ?_)
      ring
  constructor
  · obtain ⟨pt, p1, -, -, -, p5⟩ := goerg_byImpressions_ok m x 1 (by
      rw [hb]; have : 0 < x := by linarith
      positivity)
    refine ⟨pt, _, p1, p5 1 le_rfl le_rfl, ?_⟩
    rw [hb, pow_one]
    exact main x hx
  · have h := main i (by linarith)
    have e : goergCurve m.rho i = r := by
      unfold goergCurve
      rw [h8]
      exact (goerg_at_training i r hi0 (by linarith)).2
    rw [e] at h
    exact h

/-- The curve reproduces its training point. -/
def C27_float_full : Prop :=
  ∀ I R : ℕ, 1 ≤ R → R < I → I ≤ 2 ^ 53 → goergReachFl (goergRhoFl I R) I = R

/-- With floats it does not do so exactly: one person reached by seven impressions becomes
1.0000000000000002. -/
theorem C27_float_full_is_false : ¬ C27_float_full := by
  intro h
  have := h 7 1 (by norm_num) (by norm_num) (by norm_num)
  revert this
  decide +kernel

example : |goergReachFl (goergRhoFl 100 20) 100 - 20| ≤ 2 ^ (-50 : ℤ) * 20 :=
  (C27_float [exGoergPoint] exGoerg (by decide +kernel) (by decide +kernel) (by decide +kernel)
    (by decide +kernel) 100 (by norm_num)).2

/-- C28 with rounding: the floats never predict less than nothing or more than the maximum reach. -/
theorem C28_float (rho x : ℚ) (h0 : 0 < rho) (hr : round64 rho = rho) (hx0 : 0 ≤ x)
    (hx : round64 x = x) : 0 ≤ goergReachFl rho x ∧ goergReachFl rho x ≤ rho := by
  have hS : x ≤ round64 (x + rho) := by
    conv_lhs => rw [← hx]
    exact round64_mono _ _ hx0 (by linarith)
  have hS0 : 0 ≤ round64 (x + rho) := hx0.trans hS
  have h1 : round64 1 = 1 := by decide +kernel
  have hq0 : 0 ≤ x / round64 (x + rho) := div_nonneg hx0 hS0
  have hq : round64 (x / round64 (x + rho)) ≤ 1 := by
    rw [← h1]
    exact round64_mono _ _ hq0 (div_le_one_of_le₀ hS hS0)
  have hqn := round64_nonneg _ hq0
  unfold goergReachFl
  refine ⟨round64_nonneg _ (mul_nonneg h0.le hqn), ?_⟩
  conv_rhs => rw [← hr]
  exact round64_mono _ _ (mul_nonneg h0.le hqn) (mul_le_of_le_one_right h0.le hq)

/-- More impressions never predict less reach, and the maximum is not reached. -/
def C28_float_full : Prop :=
  ∀ rho x x', 1 ≤ rho → round64 rho = rho → 1 ≤ x → round64 x = x → round64 x' = x' → x ≤ x' →
    goergReachFl rho x < rho ∧ goergReachFl rho x ≤ goergReachFl rho x'

/-- An ordinary query: two people of at most two, with two impressions. -/
example : round64 2 = 2 ∧ goergReachFl 2 2 = 1 := by decide +kernel

/-- With floats this is false: with `2^54` impressions the maximum is reached, and with four
impressions more it is not. -/
theorem C28_float_full_is_false : ¬ C28_float_full := by
  intro h
  have := (h 2 (2 ^ 54) (2 ^ 54) (by norm_num) (by decide +kernel) (by norm_num) (by decide +kernel)
    (by decide +kernel) le_rfl).1
  revert this
  decide +kernel

/-- Both halves of the claim fail there. -/
example : goergReachFl 2 (2 ^ 54 + 4) < goergReachFl 2 (2 ^ 54) := by decide +kernel

/-- C28 with rounding: more impressions never predict a lower reach by more than the factor
`1 + 2^-50`. -/
theorem C28_float_monotone (rho x x' : ℚ) (h1 : 1 / 2 ≤ rho) (h2 : rho ≤ 2 ^ 200)
    (hx : 1 / 1000 ≤ x) (hxx : x ≤ x') :
    goergReachFl rho x ≤ (1 + 2 ^ (-50 : ℤ)) * goergReachFl rho x' := by
  obtain ⟨-, a⟩ := goergReachFl_bounds rho x h1 h2 hx
  obtain ⟨b, -⟩ := goergReachFl_bounds rho x' h1 h2 (hx.trans hxx)
  have g := mul_le_mul_of_nonneg_left
    (goerg_ratio_mono rho x x' (by linarith) (by linarith) hxx) (show (0 : ℚ) ≤ rho by linarith)
  have g0 : 0 ≤ goergCurve rho x := by
    unfold goergCurve
    have : 0 < x := by linarith
    have : 0 < rho := by linarith
    positivity
  change goergCurve rho x ≤ goergCurve rho x' at g
  norm_num at a b ⊢
  linarith

end Verif
