import Mathlib.Tactic.Ring
import Mathlib.Tactic.Linarith
import Mathlib.Tactic.Positivity
import Mathlib.Tactic.FieldSimp
import Verif.Model.FloatSpend
import Verif.Lemmas.Float64
import Verif.Lemmas.Exposure
import Verif.Lemmas.PublisherData

/-!
# Lemmas on floats in spends, test points, designs and the Goerg model
-/

namespace Verif

/-- Integers up to `2^53` are floats. -/
theorem round64_nat (n : ℕ) (h : n ≤ 2 ^ 53) : round64 (n : ℚ) = n := by
  rcases Nat.eq_zero_or_pos n with rfl | hn
  · simpa using round64_zero
  rcases h.eq_or_lt with rfl | h
  · decide +kernel
  have hp : (0 : ℚ) < n := by exact_mod_cast hn
  obtain ⟨h1, -⟩ := log64 (n : ℚ) hp
  have hl : Int.log 2 |(n : ℚ)| < 53 := by
    by_contra hc
    have h2 : (2 : ℚ) ^ (53 : ℤ) ≤ 2 ^ Int.log 2 |(n : ℚ)| :=
      zpow_le_zpow_right₀ (by norm_num) (by omega)
    have h3 : (n : ℚ) < 2 ^ (53 : ℤ) := by
      have : (n : ℚ) < (2 : ℚ) ^ 53 := by exact_mod_cast h
      exact_mod_cast this
    linarith
  have he : exp64 (n : ℚ) ≤ 0 := by unfold exp64; omega
  obtain ⟨k, hk⟩ := two_zpow_int 0 _ he
  refine round64_of_mul (n : ℚ) (n * k) ?_
  rw [ulp64_eq]
  push_cast
  rw [mul_assoc, ← hk]
  simp

/-- Floats below one stay below one by `2^-53`. -/
theorem float_lt_one (u : ℚ) (h : round64 u = u) (h1 : u < 1) :
    u ≤ 1 - 2 ^ (-53 : ℤ) := by
  rcases lt_or_ge u (1 / 2) with h2 | h2
  · have : (1 : ℚ) / 2 ≤ 1 - 2 ^ (-53 : ℤ) := by norm_num
    exact h2.le.trans this
  have hp : 0 < u := by linarith
  obtain ⟨h3, h4⟩ := log64 u hp
  have hl : Int.log 2 |u| = -1 := by
    apply le_antisymm
    · by_contra hc
      have : (2 : ℚ) ^ (0 : ℤ) ≤ 2 ^ Int.log 2 |u| :=
        zpow_le_zpow_right₀ (by norm_num) (by omega)
      rw [zpow_zero] at this
      linarith
    · by_contra hc
      have : (2 : ℚ) ^ (Int.log 2 |u| + 1) ≤ 2 ^ (-1 : ℤ) :=
        zpow_le_zpow_right₀ (by norm_num) (by omega)
      have e : (2 : ℚ) ^ (-1 : ℤ) = 1 / 2 := by norm_num
      rw [e] at this
      linarith
  have hu : ulp64 u = 2 ^ (-53 : ℤ) := by rw [ulp64_eq, exp64, hl]; norm_num
  have hr : (roundHalfEven (u / ulp64 u) : ℚ) * 2 ^ (-53 : ℤ) = u := by
    conv_rhs => rw [← h]
    unfold round64
    rw [hu]
  generalize roundHalfEven (u / ulp64 u) = n at hr
  have hn : n < 2 ^ 53 := by
    by_contra hc
    have : (2 : ℚ) ^ 53 ≤ n := by exact_mod_cast not_lt.1 hc
    have e : (2 : ℚ) ^ 53 * 2 ^ (-53 : ℤ) = 1 := by norm_num
    have := mul_le_mul_of_nonneg_right this (two_zpow_pos (-53)).le
    linarith
  have hn' : (n : ℚ) ≤ 2 ^ 53 - 1 := by
    have : n ≤ 2 ^ 53 - 1 := by omega
    exact_mod_cast this
  have := mul_le_mul_of_nonneg_right hn' (two_zpow_pos (-53)).le
  rw [hr] at this
  refine this.trans (le_of_eq ?_)
  norm_num

theorem round64_up (x : ℚ) (hx : 2 ^ (-1022 : ℤ) ≤ x) :
    round64 x ≤ (1 + 2 ^ (-53 : ℤ)) * x := relRounding64.hi x hx

theorem round64_down (x : ℚ) (hx : 2 ^ (-1022 : ℤ) ≤ x) :
    (1 - 2 ^ (-53 : ℤ)) * x ≤ round64 x := relRounding64.lo x hx

theorem round64_small (x : ℚ) (h0 : 0 ≤ x) (hx : x ≤ 2 ^ (-1022 : ℤ)) :
    round64 x ≤ 2 ^ (-1022 : ℤ) := by
  have e : round64 (2 ^ (-1022 : ℤ)) = 2 ^ (-1022 : ℤ) := by decide +kernel
  calc _ ≤ round64 (2 ^ (-1022 : ℤ)) := round64_mono _ _ h0 hx
    _ = _ := e

/-! ## A publisher whose `i`-th impression is shown from spend `s i` on -/

/-- The log with prices `s 1, s 2, …`. -/
def pricedLog (s : ℕ → ℚ) (imps : List Int) : Log :=
  imps.zipIdx.map (fun e => (e.1, s (e.2 + 1)))

theorem pricedLog_length (s : ℕ → ℚ) (imps : List Int) :
    (pricedLog s imps).length = imps.length := by simp [pricedLog]

theorem pricedLog_getElem (s : ℕ → ℚ) (imps : List Int) (i : ℕ) (hi : i < (pricedLog s imps).length) :
    ((pricedLog s imps)[i]).2 = s (i + 1) := by simp [pricedLog]

theorem pricedLog_ids (s : ℕ → ℚ) (imps : List Int) : (pricedLog s imps).map (·.1) = imps := by
  simp [pricedLog, Function.comp_def]

theorem pricedLog_sorted (s : ℕ → ℚ) (imps : List Int)
    (hs : ∀ i j, 1 ≤ i → i ≤ j → j ≤ imps.length → s i ≤ s j) :
    (pricedLog s imps).Pairwise (fun a b => a.2 ≤ b.2) := by
  rw [List.pairwise_iff_getElem]
  intro i j hi hj hij
  rw [pricedLog_length] at hj
  rw [pricedLog_getElem, pricedLog_getElem]
  exact hs _ _ (by omega) (by omega) (by omega)

/-- Everything a publisher with increasing prices answers. -/
theorem priced_publisher (s : ℕ → ℚ) (imps : List Int) (name rnd : String) (hne : imps ≠ [])
    (hs : ∀ i j, 1 ≤ i → i ≤ j → j ≤ imps.length → s i ≤ s j) :
    ∃ p, PublisherData.new (pricedLog s imps) name rnd = .ok p ∧
      p.maxReach = lenSet imps ∧ p.data.map (·.1) = imps ∧ p.maxSpend = s imps.length ∧
      (∀ m : ℕ, 1 ≤ m → m ≤ imps.length → p.spendByImpressions m = .ok (s m)) ∧
      ∀ x, p.impressionsBySpend x ≤ imps.length ∧
        ∀ i : ℕ, 1 ≤ i → i ≤ imps.length → (s i ≤ x ↔ i ≤ p.impressionsBySpend x) := by
  have hpos : 0 < imps.length := List.length_pos_iff.2 hne
  have hlen := pricedLog_length s imps
  have hsorted := pricedLog_sorted s imps hs
  obtain ⟨mx, hmx⟩ := pyMax_ok_of_ne_nil ((pricedLog s imps).map (·.2))
    (by
      intro h
      have := congrArg List.length h
      rw [List.length_map, hlen] at this
      simp at this
      exact hne this)
  refine ⟨_, (new_ok_iff _ _ _ _).2 ⟨mx, hmx, rfl⟩, ?_, ?_, ?_, ?_, ?_⟩
  · simp only [pricedLog_ids]
  · simp only [sortBySpend_of_sorted _ hsorted, pricedLog_ids]
  · obtain ⟨h1, h2⟩ := pyMax_spec _ _ hmx
    simp only
    apply le_antisymm
    · obtain ⟨e, he, rfl⟩ := List.mem_map.1 h2
      obtain ⟨i, hi, rfl⟩ := List.getElem_of_mem he
      rw [pricedLog_getElem]
      exact hs _ _ (by omega) (by omega) le_rfl
    · have hi : imps.length - 1 < (pricedLog s imps).length := by omega
      have := h1 _ (List.mem_map.2 ⟨_, List.getElem_mem hi, rfl⟩)
      rw [pricedLog_getElem, Nat.sub_add_cancel hpos] at this
      exact this
  · intro m h1 hml
    unfold PublisherData.spendByImpressions
    rw [if_neg (by omega)]
    simp only [sortBySpend_of_sorted _ hsorted]
    have hidx : (min ((pricedLog s imps).length : Int) (m : Int) - 1) = ((m - 1 : Nat) : Int) := by
      omega
    rw [hidx, pyIndex_nat _ _ (by omega)]
    simp only [bind, Except.bind, pure, Except.pure, pricedLog_getElem]
    rw [Nat.sub_add_cancel h1]
  · intro x
    have hsp := bisectRightLoop_spec ((pricedLog s imps).map (·.2)) x
      (map_snd_pairwise _ hsorted) 0 ((pricedLog s imps).map (·.2)).length (by omega) le_rfl
      (fun i _ h => by omega) (fun i h h' => by omega)
    obtain ⟨h1, h2, h3⟩ := hsp
    rw [List.length_map, hlen] at h1
    refine ⟨by simpa [PublisherData.impressionsBySpend, bisectRight, hlen] using h1, ?_⟩
    intro i hi1 hi2
    have hi : i - 1 < ((pricedLog s imps).map (·.2)).length := by
      rw [List.length_map, hlen]; omega
    have he : ((pricedLog s imps).map (·.2))[i - 1] = s i := by
      rw [List.getElem_map, pricedLog_getElem, Nat.sub_add_cancel hi1]
    change _ ↔ i ≤ bisectRightLoop ((pricedLog s imps).map (·.2)) x 0
      ((pricedLog s imps).map (·.2)).length
    constructor
    · intro h
      by_contra hc
      have := h3 (i - 1) hi (by omega)
      rw [he] at this
      linarith
    · intro h
      have := h2 (i - 1) hi (by omega)
      rw [he] at this
      exact this

/-! ## Prices -/

theorem fixedPriceFl_eq (cpi : ℚ) (imps : List Int) :
    fixedPriceFl cpi imps = pricedLog (fun i => round64 ((i : ℚ) * cpi)) imps := by
  unfold fixedPriceFl pricedLog
  push_cast
  rfl

theorem mul_cpi_normal (cpi : ℚ) (hc : 2 ^ (-1022 : ℤ) ≤ cpi) (i : ℕ) (hi : 1 ≤ i) :
    2 ^ (-1022 : ℤ) ≤ (i : ℚ) * cpi := by
  have h1 : (1 : ℚ) ≤ i := by exact_mod_cast hi
  have := two_zpow_pos (-1022)
  nlinarith

theorem price_lt (cpi : ℚ) (hc : 2 ^ (-1022 : ℤ) ≤ cpi) (i j : ℕ) (hi : 1 ≤ i) (hij : i < j)
    (hj : j ≤ 2 ^ 51) : round64 ((i : ℚ) * cpi) < round64 ((j : ℚ) * cpi) := by
  have hp := two_zpow_pos (-1022)
  have h1 := round64_up _ (mul_cpi_normal cpi hc i hi)
  have h2 := round64_down _ (mul_cpi_normal cpi hc j (by omega))
  have hj' : (j : ℚ) ≤ 2251799813685248 := by norm_num at hj; exact_mod_cast hj
  have hij' : (i : ℚ) + 1 ≤ j := by exact_mod_cast hij
  have hcp : 0 < cpi := by linarith
  refine h1.trans_lt (lt_of_lt_of_le ?_ h2)
  rw [← mul_assoc, ← mul_assoc]
  apply mul_lt_mul_of_pos_right _ hcp
  norm_num
  linarith

/-! ## Campaign spends -/

/-- The spend of the fraction `f` against the price of `i` of `n` impressions. -/
theorem campaign_bounds (cpi f : ℚ) (n : ℕ) (hc : 2 ^ (-1021 : ℤ) ≤ cpi) (hn : 1 ≤ n)
    (h0 : 0 ≤ f) (i : ℕ) (hi : 1 ≤ i) (hin : i ≤ n) :
    ((i : ℚ) + n * 2 ^ (-51 : ℤ) ≤ f * n →
      round64 ((i : ℚ) * cpi) ≤ round64 (f * round64 ((n : ℚ) * cpi))) ∧
    (f * n + n * 2 ^ (-51 : ℤ) ≤ (i : ℚ) →
      round64 (f * round64 ((n : ℚ) * cpi)) < round64 ((i : ℚ) * cpi)) := by
  have hp := two_zpow_pos (-1022)
  have e21 : (2 : ℚ) ^ (-1021 : ℤ) = 2 * 2 ^ (-1022 : ℤ) := by
    rw [show (-1021 : ℤ) = 1 + -1022 by norm_num, zpow_add₀ (by norm_num)]; norm_num
  have hc' : (2 : ℚ) ^ (-1022 : ℤ) ≤ cpi := by linarith
  have hcp : 0 < cpi := by linarith
  have hn1 : (1 : ℚ) ≤ n := by exact_mod_cast hn
  have hi1 : (1 : ℚ) ≤ i := by exact_mod_cast hi
  have hin' : (i : ℚ) ≤ n := by exact_mod_cast hin
  have n1 := round64_up _ (mul_cpi_normal cpi hc' n hn)
  have n2 := round64_down _ (mul_cpi_normal cpi hc' n hn)
  have i1 := round64_up _ (mul_cpi_normal cpi hc' i hi)
  have i2 := round64_down _ (mul_cpi_normal cpi hc' i hi)
  set M := round64 ((n : ℚ) * cpi) with hM
  have l1 : f * ((1 - 2 ^ (-53 : ℤ)) * (n * cpi)) ≤ f * M := mul_le_mul_of_nonneg_left n2 h0
  have l2 : f * M ≤ f * ((1 + 2 ^ (-53 : ℤ)) * (n * cpi)) := mul_le_mul_of_nonneg_left n1 h0
  have hfn : 0 ≤ f * n := by positivity
  constructor
  · intro h
    have hfn1 : 1 ≤ f * n := by
      have : (0 : ℚ) ≤ n * 2 ^ (-51 : ℤ) := by
        have := two_zpow_pos (-51); positivity
      linarith
    have hbig : 2 ^ (-1022 : ℤ) ≤ f * M := by
      have a1 : (1 - 2 ^ (-53 : ℤ)) * cpi ≤ f * ((1 - 2 ^ (-53 : ℤ)) * (n * cpi)) := by
        have a2 : (1 : ℚ) * ((1 - 2 ^ (-53 : ℤ)) * cpi) ≤ (f * n) * ((1 - 2 ^ (-53 : ℤ)) * cpi) := by
          apply mul_le_mul_of_nonneg_right hfn1
          apply mul_nonneg _ hcp.le
          norm_num
        linarith
      have a3 : (1 / 2) * cpi ≤ (1 - 2 ^ (-53 : ℤ)) * cpi := by
        apply mul_le_mul_of_nonneg_right _ hcp.le
        norm_num
      have a4 : (2 : ℚ) ^ (-1022 : ℤ) ≤ (1 / 2) * cpi := by linarith only [hc, e21]
      exact ((a4.trans a3).trans a1).trans l1
    have d := round64_down _ hbig
    refine i1.trans (le_trans ?_ d)
    have d2 : (1 - 2 ^ (-53 : ℤ)) * (f * ((1 - 2 ^ (-53 : ℤ)) * (n * cpi)))
        ≤ (1 - 2 ^ (-53 : ℤ)) * (f * M) := mul_le_mul_of_nonneg_left l1 (by norm_num)
    refine le_trans ?_ d2
    have e : (1 - 2 ^ (-53 : ℤ)) * (f * ((1 - 2 ^ (-53 : ℤ)) * (n * cpi)))
        = ((1 - 2 ^ (-53 : ℤ)) * (1 - 2 ^ (-53 : ℤ)) * (f * n)) * cpi := by ring
    rw [e, ← mul_assoc _ (i : ℚ) cpi]
    apply mul_le_mul_of_nonneg_right _ hcp.le
    norm_num at h ⊢
    linarith
  · intro h
    rcases le_or_gt (2 ^ (-1022 : ℤ)) (f * M) with hb | hb
    · have d := round64_up _ hb
      refine d.trans_lt (lt_of_lt_of_le ?_ i2)
      have d2 : (1 + 2 ^ (-53 : ℤ)) * (f * M)
          ≤ (1 + 2 ^ (-53 : ℤ)) * (f * ((1 + 2 ^ (-53 : ℤ)) * (n * cpi))) :=
        mul_le_mul_of_nonneg_left l2 (by norm_num)
      refine d2.trans_lt ?_
      have e : (1 + 2 ^ (-53 : ℤ)) * (f * ((1 + 2 ^ (-53 : ℤ)) * (n * cpi)))
          = ((1 + 2 ^ (-53 : ℤ)) * (1 + 2 ^ (-53 : ℤ)) * (f * n)) * cpi := by ring
      rw [e, ← mul_assoc _ (i : ℚ) cpi]
      apply mul_lt_mul_of_pos_right _ hcp
      norm_num at h ⊢
      linarith
    · have hM0 : 0 ≤ M := round64_nonneg _ (by positivity)
      have d := round64_small (f * M) (mul_nonneg h0 hM0) hb.le
      have e : round64 (2 ^ (-1021 : ℤ)) = 2 ^ (-1021 : ℤ) := by decide +kernel
      have a1 : cpi ≤ i * cpi := by nlinarith
      have a2 := round64_mono (2 ^ (-1021 : ℤ)) (i * cpi) (two_zpow_pos _).le (hc.trans a1)
      rw [e] at a2
      linarith

end Verif
