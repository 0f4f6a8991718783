import Verif.Props.FloatMetrics

/-!
C68 on floats: the mean absolute relative errors at frequencies 2 to 9.
-/

namespace Verif

/-- **C68 (floats, frequencies 2 to 9).** The mean absolute relative error at frequency `k` on floats differs
from the exact one by at most `(H + 3) 2^-52` of it, in whatever order numpy adds, if at least one person
is reached `k` times at every point. -/
theorem C68_float_mare (x y : List ReachPoint) (kss lss : List (List ℚ)) (hx : Made x kss)
    (hy : Made y lss) (hl : x.length = y.length) (hne : x ≠ []) (row : Row)
    (h : aggregate x y = .ok row) (name : String) (k : Nat) (hk : (name, k) ∈ mareColumns)
    (hlen : ∀ ks ∈ kss ++ lss, k ≤ ks.length) (hn : x.length ≤ 2 ^ 40)
    (order : List ℚ → AddTree) (H : Nat) (ho : AddsAll order x.length H) (hH : H + 5 ≤ 2 ^ 40)
    (hab : List.Forall₂ (fun ks ls : List ℚ => RelativePair (ks.getD (k - 1) 0) (ls.getD (k - 1) 0))
      kss lss) :
    ∃ mare, (name, Cell.float (some mare)) ∈ row ∧
      |meanAbsRelativeErrorFl round64 order (kss.map (fun ks => ks.getD (k - 1) 0))
        (lss.map (fun ls => ls.getD (k - 1) 0)) - mare| ≤ (H + 3) * 2 ^ (-52 : ℤ) * mare := by
  have hab' : List.Forall₂ RelativePair (kss.map (fun ks => ks.getD (k - 1) 0))
      (lss.map (fun ls => ls.getD (k - 1) 0)) := by
    rw [List.forall₂_map_left_iff, List.forall₂_map_right_iff]
    exact hab
  have hnz : ∀ ks ∈ kss, ks.getD (k - 1) 0 ≠ 0 := by
    intro ks hks
    obtain ⟨i, hi, rfl⟩ := List.getElem_of_mem hks
    have := (hab.get hi (by rw [← hab.length_eq]; exact hi)).2.1
    have h1 : 1 ≤ kss[i].getD (k - 1) 0 := this
    intro e
    rw [e] at h1
    norm_num at h1
  have r1 := (C68_mare x y kss lss hx hy hl hne row h name k hk).2 hlen hnz
  have hn1 : 1 ≤ x.length := List.length_pos_iff.2 hne
  have hla : (kss.map (fun ks => ks.getD (k - 1) 0)).length = x.length := by
    rw [List.length_map]; exact hx.length_eq.symm
  have hu : (2 : ℚ) ^ (-53 : ℤ) ≤ 1 / 100 := by norm_num
  have hxb : ∀ x : ℚ, x ≤ 2 ^ (200 : ℤ) → x * 2 ^ (-200 : ℤ) ≤ 1 := by
    intro x hx
    refine (mul_le_mul_of_nonneg_right hx (two_zpow_pos _).le).trans (le_of_eq ?_)
    rw [← zpow_add₀ (by norm_num)]
    norm_num
  have k1 := metric_mean order x.length H 2 ho hn1 hn (by omega) RelativePair
    (fun x y => round64 (|round64 (x - y)| / x)) (fun x y => |x - y| / x) 2 (by norm_num)
    (fun x y hp => metric_relative relRounding64 hu round64_abs two_200_le_one tiny_4 (two_zpow_pos _) x y
      hp.1 hp.2.1 (hxb x hp.2.2)) _ _ hab' hla
  have e : List.zipWith (fun x y : ℚ => |x - y| / x) (kss.map (fun ks => ks.getD (k - 1) 0))
      (lss.map (fun ls => ls.getD (k - 1) 0)) =
      List.zipWith (fun ks ls : List ℚ => |ks.getD (k - 1) 0 - ls.getD (k - 1) 0| / ks.getD (k - 1) 0)
        kss lss := by
    rw [List.zipWith_map]
  rw [e] at k1
  refine ⟨_, r1, ?_⟩
  refine k1.2.trans (le_of_eq ?_)
  rw [show ((H + 2 + 1 : ℕ) : ℚ) = (H : ℚ) + 3 by push_cast; ring]

/-- At frequency 2: 20 of 50 people against 39/2 of 48, and 8 of 9 against 8 of 10. -/
example : List.Forall₂ (fun ks ls : List ℚ => RelativePair (ks.getD (2 - 1) 0) (ls.getD (2 - 1) 0))
    [[50, 20], [9, 8]] [[48, 39 / 2], [10, 8]] := by
  have big : (20 : ℚ) ≤ 2 ^ (200 : ℤ) := by
    calc (20 : ℚ) ≤ 2 ^ (7 : ℤ) := by norm_num
      _ ≤ _ := zpow_le_zpow_right₀ (by norm_num) (by norm_num)
  have small : (2 : ℚ) ^ (-200 : ℤ) ≤ 1 / 2 := by
    calc (2 : ℚ) ^ (-200 : ℤ) ≤ 2 ^ (-1 : ℤ) := zpow_le_zpow_right₀ (by norm_num) (by norm_num)
      _ = 1 / 2 := by norm_num
  refine .cons ⟨Or.inr ?_, by norm_num, big⟩ (.cons ⟨Or.inl rfl, by norm_num, ?_⟩ .nil)
  · change _ ≤ |(20 : ℚ) - 39 / 2|
    rw [show |(20 : ℚ) - 39 / 2| = 1 / 2 by decide +kernel]; exact small
  · change (8 : ℚ) ≤ _
    linarith

end Verif
