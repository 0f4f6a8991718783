import Verif.Props.FloatMetrics

/-!
C47 on floats: the shuffle distance of two points.
-/

namespace Verif

theorem foldl_sumFl (rnd : ℚ → ℚ) (l : List ℚ) : ∀ t : AddTree,
    l.foldl (fun s v => rnd (s + v)) (t.sumFl rnd) =
      (l.foldl (fun t y => AddTree.node t (.leaf y)) t).sumFl rnd := by
  induction l with
  | nil => intro t; rfl
  | cons v l ih => intro t; exact ih (.node t (.leaf v))

/-- The sum, on floats, of numbers that are close to others. -/
theorem sumFl_close {ι : Type} (f g z : ι → ℚ) (α τ : ℚ) (l : List ι) (hα : α ≤ 1 / 100)
    (hα0 : 0 ≤ α) (hτ0 : 0 ≤ τ)
    (hf : ∀ i ∈ l, |f i - g i| ≤ α * z i + τ) (hg : ∀ i ∈ l, |g i| ≤ z i)
    (order : List ℚ → AddTree) (H : Nat) (ho : AddsAll order l.length H) (hH : H ≤ 2 ^ 40) :
    |(order (l.map f)).sumFl round64 - (l.map g).sum| ≤
      (203 / 100 * (H * 2 ^ (-53 : ℤ)) + α) * (l.map z).sum +
        (101 / 100 * (l.length * τ) + 2 * (l.length * 2 ^ (-1075 : ℤ))) := by
  obtain ⟨d1, d2, d3⟩ := sum_map_err f g z α τ l hf hg
  obtain ⟨hperm, hheight⟩ := ho (l.map f) (List.length_map _)
  have hs := AddTree.sumFl_err errRounding64 (order (l.map f))
  have hpos := AddTree.values_pos (order (l.map f))
  rw [hperm.length_eq, List.length_map] at hpos
  rw [hperm.sum_eq, (hperm.map _).sum_eq, hperm.length_eq, List.length_map] at hs
  have hu0 : (0 : ℚ) ≤ 2 ^ (-53 : ℤ) := (two_zpow_pos _).le
  have hη0 : (0 : ℚ) ≤ 2 ^ (-1075 : ℤ) := (two_zpow_pos _).le
  have hH' : (H : ℚ) ≤ 2 ^ 40 := by exact_mod_cast hH
  have hHu : (H : ℚ) * 2 ^ (-53 : ℤ) ≤ 1 / 1000 := by
    refine (mul_le_mul_of_nonneg_right hH' hu0).trans (by norm_num)
  have hg2 : (1 + (2 : ℚ) ^ (-53 : ℤ)) ^ (order (l.map f)).height ≤ 1 + 2 * (H * 2 ^ (-53 : ℤ)) :=
    (pow_le_pow_right₀ (by linarith) hheight).trans (one_add_pow_le _ hu0 H (by linarith))
  have hg1 : 1 ≤ (1 + (2 : ℚ) ^ (-53 : ℤ)) ^ (order (l.map f)).height := one_le_pow₀ (by linarith)
  have hH0 : (0 : ℚ) ≤ H := by positivity
  have hD0 : 0 ≤ (l.map z).sum := (abs_nonneg _).trans d3
  clear hf hg ho hH hH' hperm hheight
  generalize (order (l.map f)).sumFl round64 = s at *
  generalize (1 + (2 : ℚ) ^ (-53 : ℤ)) ^ (order (l.map f)).height = γ at *
  generalize ((l.map f).map (fun x => |x|)).sum = A at *
  generalize (l.map f).sum = S at *
  generalize (l.map z).sum = D at *
  generalize (l.map g).sum = E at *
  generalize (l.length : ℚ) = n at *
  generalize (2 : ℚ) ^ (-53 : ℤ) = u at *
  generalize (2 : ℚ) ^ (-1075 : ℤ) = η at *
  generalize (H : ℚ) = P at *
  have c1 : (γ - 1) * A ≤ 2 * (P * u) * ((1 + α) * D + n * τ) := by
    have hA : 0 ≤ (1 + α) * D + n * τ := by positivity
    calc (γ - 1) * A ≤ (γ - 1) * ((1 + α) * D + n * τ) := mul_le_mul_of_nonneg_left d2 (by linarith)
      _ ≤ _ := mul_le_mul_of_nonneg_right (by linarith) hA
  have c2 : (n - 1) * γ * η ≤ n * 2 * η := by
    apply mul_le_mul_of_nonneg_right _ hη0
    exact mul_le_mul (by linarith) (by linarith) (by linarith) (by linarith)
  have c3 : |s - E| ≤ |s - S| + |S - E| := abs_sub_le _ _ _
  have c4 : P * u * (n * τ) ≤ 1 / 1000 * (n * τ) := mul_le_mul_of_nonneg_right hHu (by positivity)
  have c5 : P * u * (α * D) ≤ P * u * (1 / 100 * D) :=
    mul_le_mul_of_nonneg_left (mul_le_mul_of_nonneg_right hα hD0) (by positivity)
  have c6 : 0 ≤ P * u * D := by positivity
  have c7 : 0 ≤ n * τ := by positivity
  linarith

/-- A fraction of a total that is known up to rounding. -/
theorem share_err (a s t : ℚ) (ha : 0 ≤ a) (hs : 0 < s) (ht : |t - s| ≤ 7 * 2 ^ (-53 : ℤ) * s) :
    |round64 (a / t) - a / s| ≤ 10 * 2 ^ (-53 : ℤ) * (a / s) + 2 ^ (-1075 : ℤ) := by
  have hr := round64_err (a / t)
  have hu0 : (0 : ℚ) ≤ 2 ^ (-53 : ℤ) := (two_zpow_pos _).le
  have hu : (2 : ℚ) ^ (-53 : ℤ) ≤ 1 / 1000 := by norm_num
  generalize round64 (a / t) = r at *
  generalize (2 : ℚ) ^ (-53 : ℤ) = u at *
  generalize (2 : ℚ) ^ (-1075 : ℤ) = η at *
  have hus : u * s ≤ 1 / 1000 * s := mul_le_mul_of_nonneg_right hu hs.le
  have ht1 : 99 / 100 * s ≤ t := by
    have := (abs_le.1 ht).1
    linarith
  have ht0 : 0 < t := by linarith
  have k1 : |a / t - a / s| ≤ 8 * u * (a / s) := by
    have e : a / t - a / s = a / s * ((s - t) / t) := by field_simp
    rw [e, abs_mul, abs_of_nonneg (div_nonneg ha hs.le), mul_comm]
    apply mul_le_mul_of_nonneg_right _ (div_nonneg ha hs.le)
    rw [abs_div, abs_of_pos ht0, div_le_iff₀ ht0, abs_sub_comm]
    have := mul_le_mul_of_nonneg_left ht1 hu0
    have : 0 ≤ u * s := by positivity
    linarith
  have k2 : |a / t| ≤ a / s + 8 * u * (a / s) := by
    have := abs_add_le (a / s) (a / t - a / s)
    rw [add_sub_cancel, abs_of_nonneg (div_nonneg ha hs.le)] at this
    linarith
  have k3 : |r - a / s| ≤ |r - a / t| + |a / t - a / s| := abs_sub_le _ _ _
  have hp : 0 ≤ a / s := div_nonneg ha hs.le
  generalize a / s = p at *
  have k4 := mul_le_mul_of_nonneg_left k2 hu0
  have k5 : u * (u * p) ≤ 1 / 1000 * (u * p) := mul_le_mul_of_nonneg_right hu (by positivity)
  have : 0 ≤ u * p := by positivity
  linarith

/-- The difference of two such fractions. -/
theorem shareDiff_err (p q ph qh : ℚ) (hp : 0 ≤ p) (hq : 0 ≤ q)
    (h1 : |ph - p| ≤ 10 * 2 ^ (-53 : ℤ) * p + 2 ^ (-1075 : ℤ))
    (h2 : |qh - q| ≤ 10 * 2 ^ (-53 : ℤ) * q + 2 ^ (-1075 : ℤ)) :
    abs (|round64 (ph - qh)| - |p - q|) ≤ 12 * 2 ^ (-53 : ℤ) * (p + q) + 4 * 2 ^ (-1075 : ℤ) := by
  refine (abs_abs_sub_abs_le _ _).trans ?_
  have hr := round64_err (ph - qh)
  have hu0 : (0 : ℚ) ≤ 2 ^ (-53 : ℤ) := (two_zpow_pos _).le
  have hu : (2 : ℚ) ^ (-53 : ℤ) ≤ 1 / 1000 := by norm_num
  have hη0 : (0 : ℚ) ≤ 2 ^ (-1075 : ℤ) := (two_zpow_pos _).le
  generalize round64 (ph - qh) = r at *
  generalize (2 : ℚ) ^ (-53 : ℤ) = u at *
  generalize (2 : ℚ) ^ (-1075 : ℤ) = η at *
  have k0 : |(ph - qh) - (p - q)| ≤ 10 * u * (p + q) + 2 * η := by
    rw [show (ph - qh) - (p - q) = (ph - p) + -(qh - q) by ring]
    have := abs_add_le (ph - p) (-(qh - q))
    rw [abs_neg] at this
    linarith
  have k1 : |p - q| ≤ p + q := abs_le.2 ⟨by linarith, by linarith⟩
  have k2 : |ph - qh| ≤ |p - q| + |(ph - qh) - (p - q)| := by
    have := abs_add_le (p - q) ((ph - qh) - (p - q))
    rwa [add_sub_cancel] at this
  have k3 : |r - (p - q)| ≤ |r - (ph - qh)| + |(ph - qh) - (p - q)| := abs_sub_le _ _ _
  have hw : 0 ≤ p + q := by linarith
  generalize p + q = w at *
  have k4 : |ph - qh| ≤ w + (10 * u * w + 2 * η) := by linarith
  have k5 := mul_le_mul_of_nonneg_left k4 hu0
  have k6 : u * (u * w) ≤ 1 / 1000 * (u * w) := mul_le_mul_of_nonneg_right hu (by positivity)
  have k7 : u * η ≤ 1 / 1000 * η := mul_le_mul_of_nonneg_right hu hη0
  have : 0 ≤ u * w := by positivity
  linarith

/-- The number of people reached at most five times, on floats. -/
theorem pySumFl_err (l : List ℚ) (h5 : l.length = 5) (h0 : ∀ a ∈ l, 0 ≤ a)
    (hs : 2 ^ (-200 : ℤ) ≤ l.sum) : |pySumFl round64 l - l.sum| ≤ 7 * 2 ^ (-53 : ℤ) * l.sum := by
  have e : pySumFl round64 l = (l.foldl (fun t y => AddTree.node t (.leaf y)) (.leaf 0)).sumFl round64 :=
    foldl_sumFl round64 l (.leaf 0)
  obtain ⟨h1, h2⟩ := leftOrder_fold l (.leaf 0)
  have h := AddTree.sumFl_err errRounding64 (l.foldl (fun t y => AddTree.node t (.leaf y)) (.leaf 0))
  rw [← e, h1, h2, h5] at h
  have hm : l.map (fun x => |x|) = l := by
    conv_rhs => rw [← List.map_id l]
    exact List.map_congr_left (fun a ha => abs_of_nonneg (h0 a ha))
  simp only [AddTree.values, AddTree.height, List.singleton_append, List.sum_cons, List.map_cons,
    List.length_cons, abs_zero, zero_add, h5, hm] at h
  have hp : (1 + (2 : ℚ) ^ (-53 : ℤ)) ^ 5 ≤ 1 + 6 * 2 ^ (-53 : ℤ) := by norm_num
  have hη0 : (0 : ℚ) ≤ 2 ^ (-1075 : ℤ) := (two_zpow_pos _).le
  have hu0 : (0 : ℚ) ≤ 2 ^ (-53 : ℤ) := (two_zpow_pos _).le
  have hu : (2 : ℚ) ^ (-53 : ℤ) ≤ 1 / 1000 := by norm_num
  have hη : 10 * (2 : ℚ) ^ (-1075 : ℤ) ≤ 2 ^ (-53 : ℤ) * l.sum := by
    calc 10 * (2 : ℚ) ^ (-1075 : ℤ) ≤ 2 ^ (4 : ℤ) * (2 : ℚ) ^ (-1075 : ℤ) :=
          mul_le_mul_of_nonneg_right (by norm_num) hη0
      _ = 2 ^ (-1071 : ℤ) := by rw [← zpow_add₀ (by norm_num)]; norm_num
      _ ≤ 2 ^ (-253 : ℤ) := zpow_le_zpow_right₀ (by norm_num) (by norm_num)
      _ = 2 ^ (-53 : ℤ) * 2 ^ (-200 : ℤ) := by rw [← zpow_add₀ (by norm_num)]; norm_num
      _ ≤ _ := mul_le_mul_of_nonneg_left hs hu0
  have hs0 : 0 ≤ l.sum := List.sum_nonneg h0
  generalize (1 + (2 : ℚ) ^ (-53 : ℤ)) ^ 5 = γ at *
  generalize pySumFl round64 l = t at *
  generalize l.sum = s at *
  clear hs
  generalize (2 : ℚ) ^ (-53 : ℤ) = u at *
  generalize (2 : ℚ) ^ (-1075 : ℤ) = η at *
  push_cast at h
  have k1 := mul_le_mul_of_nonneg_right hp hs0
  have k2 := mul_le_mul_of_nonneg_right (show γ ≤ 2 by linarith) hη0
  linarith

theorem pySumFl_ne (l : List ℚ) (h5 : l.length = 5) (h0 : ∀ a ∈ l, 0 ≤ a)
    (hs : 2 ^ (-200 : ℤ) ≤ l.sum) : pySumFl round64 l ≠ 0 := by
  intro e
  have h := pySumFl_err l h5 h0 hs
  have hs0 : 0 < l.sum := lt_of_lt_of_le (two_zpow_pos _) hs
  rw [e, zero_sub, abs_neg, abs_of_pos hs0] at h
  have hu : (2 : ℚ) ^ (-53 : ℤ) ≤ 1 / 1000 := by norm_num
  have hus := mul_le_mul_of_nonneg_right hu hs0.le
  clear hs hu
  generalize (2 : ℚ) ^ (-53 : ℤ) = u at *
  linarith

theorem shuffleDistanceFl_value (order : List ℚ → AddTree) (ks ls : List ℚ) (x y : ReachPoint)
    (hx : MadeFrom ks x) (hy : MadeFrom ls y) (hk : 5 < ks.length) (hl : 5 < ls.length)
    (hk0 : pySumFl round64 ((List.range 5).map (freqAt ks)) ≠ 0)
    (hl0 : pySumFl round64 ((List.range 5).map (freqAt ls)) ≠ 0) :
    shuffleDistanceFl round64 order x y = .ok (round64 (1 / 2 * (order ((List.range 5).map (fun i =>
      |round64 (round64 (freqAt ks i / pySumFl round64 ((List.range 5).map (freqAt ks))) -
        round64 (freqAt ls i / pySumFl round64 ((List.range 5).map (freqAt ls))))|))).sumFl round64)) := by
  unfold shuffleDistanceFl
  rw [hx.maxFrequency, hy.maxFrequency]
  have h' : ¬ ((ks.length : Int) ≤ 5 ∨ (ls.length : Int) ≤ 5) := by omega
  rw [if_neg h']
  have e1 := mapM_range_ok (fun i : Nat => x.frequency ((i : Int) + 1)) (freqAt ks) 5
    (fun i hi => hx.frequency i (by omega))
  have e2 := mapM_range_ok (fun i : Nat => y.frequency ((i : Int) + 1)) (freqAt ls) 5
    (fun i hi => hy.frequency i (by omega))
  have e5 : (5 : Int).toNat = 5 := rfl
  simp only [e5, e1, e2, bind, Except.bind]
  rw [if_neg (by tauto), List.zipWith_map]
  rfl

/-- **C47 (floats).** For two points with more than five frequencies whose histograms are not negative and
not (practically) zero, the shuffle distance on floats is not negative and within `2^-48` of the exact
one, in whatever order numpy adds the five differences. -/
theorem C47_float_shuffle (ks ls : List ℚ) (x y : ReachPoint) (hx : MadeFrom ks x)
    (hy : MadeFrom ls y) (hk : 5 < ks.length) (hl : 5 < ls.length) (hks : NonnegHist ks)
    (hls : NonnegHist ls) (hk0 : 2 ^ (-200 : ℤ) ≤ firstFive ks) (hl0 : 2 ^ (-200 : ℤ) ≤ firstFive ls)
    (order : List ℚ → AddTree) (ho : AddsAll order 5 4) :
    ∃ d F, shuffleDistance x y = .ok d ∧ shuffleDistanceFl round64 order x y = .ok F ∧ 0 ≤ F ∧
      |F - d| ≤ 2 ^ (-48 : ℤ) := by
  have nk : ∀ i < 5, 0 ≤ freqAt ks i := fun i hi => hks i (by omega)
  have nl : ∀ i < 5, 0 ≤ freqAt ls i := fun i hi => hls i (by omega)
  have nk' : ∀ a ∈ (List.range 5).map (freqAt ks), 0 ≤ a := by
    intro a ha
    obtain ⟨i, hi, rfl⟩ := List.mem_map.1 ha
    exact nk i (List.mem_range.1 hi)
  have nl' : ∀ a ∈ (List.range 5).map (freqAt ls), 0 ≤ a := by
    intro a ha
    obtain ⟨i, hi, rfl⟩ := List.mem_map.1 ha
    exact nl i (List.mem_range.1 hi)
  have pk : 0 < firstFive ks := lt_of_lt_of_le (two_zpow_pos _) hk0
  have pl : 0 < firstFive ls := lt_of_lt_of_le (two_zpow_pos _) hl0
  have sk : |pySumFl round64 ((List.range 5).map (freqAt ks)) - firstFive ks| ≤
      7 * 2 ^ (-53 : ℤ) * firstFive ks := pySumFl_err _ (by simp) nk' hk0
  have sl : |pySumFl round64 ((List.range 5).map (freqAt ls)) - firstFive ls| ≤
      7 * 2 ^ (-53 : ℤ) * firstFive ls := pySumFl_err _ (by simp) nl' hl0
  have hv := C47_shuffle_value ks ls x y hx hy
  rw [if_neg (by omega), if_neg (by rintro (h | h) <;> linarith)] at hv
  refine ⟨_, _, hv, shuffleDistanceFl_value order ks ls x y hx hy hk hl
    (pySumFl_ne _ (by simp) nk' hk0) (pySumFl_ne _ (by simp) nl' hl0), ?_, ?_⟩
  · apply round64_nonneg
    apply mul_nonneg (by norm_num)
    apply AddTree.sumFl_nonneg
    intro v hv
    have := (ho _ (by simp)).1.mem_iff.1 hv
    obtain ⟨i, -, rfl⟩ := List.mem_map.1 this
    exact abs_nonneg _
  have hc := sumFl_close
    (fun i => |round64 (round64 (freqAt ks i / pySumFl round64 ((List.range 5).map (freqAt ks))) -
        round64 (freqAt ls i / pySumFl round64 ((List.range 5).map (freqAt ls))))|)
    (fun i => |freqAt ks i / firstFive ks - freqAt ls i / firstFive ls|)
    (fun i => freqAt ks i / firstFive ks + freqAt ls i / firstFive ls)
    (12 * 2 ^ (-53 : ℤ)) (4 * 2 ^ (-1075 : ℤ)) (List.range 5) (by norm_num) (by positivity)
    (mul_nonneg (by norm_num) (two_zpow_pos _).le)
    (fun i hi => by
      have hi' := List.mem_range.1 hi
      exact shareDiff_err _ _ _ _ (div_nonneg (nk i hi') pk.le) (div_nonneg (nl i hi') pl.le)
        (share_err _ _ _ (nk i hi') pk sk) (share_err _ _ _ (nl i hi') pl sl))
    (fun i hi => by
      have hi' := List.mem_range.1 hi
      have a1 := div_nonneg (nk i hi') pk.le
      have a2 := div_nonneg (nl i hi') pl.le
      rw [abs_abs]
      exact abs_le.2 ⟨by linarith, by linarith⟩)
    order 4 (by simpa using ho) (by norm_num)
  have r5 : List.range 5 = [0, 1, 2, 3, 4] := rfl
  have z2 : ((List.range 5).map (fun i => freqAt ks i / firstFive ks + freqAt ls i / firstFive ls)).sum
      = 2 := by
    have h1 := firstFive_eq ks
    have h2 := firstFive_eq ls
    have h1' : firstFive ks / firstFive ks = 1 := div_self pk.ne'
    have h2' : firstFive ls / firstFive ls = 1 := div_self pl.ne'
    rw [r5]
    simp only [List.map_cons, List.map_nil, List.sum_cons, List.sum_nil]
    have : ∀ s t : ℚ, s = freqAt ks 0 + freqAt ks 1 + freqAt ks 2 + freqAt ks 3 + freqAt ks 4 →
        t = freqAt ls 0 + freqAt ls 1 + freqAt ls 2 + freqAt ls 3 + freqAt ls 4 →
        s / s = 1 → t / t = 1 →
        freqAt ks 0 / s + freqAt ls 0 / t + (freqAt ks 1 / s + freqAt ls 1 / t +
        (freqAt ks 2 / s + freqAt ls 2 / t + (freqAt ks 3 / s + freqAt ls 3 / t +
        (freqAt ks 4 / s + freqAt ls 4 / t + 0)))) = 2 := by
      intro s t hs ht h3 h4
      have h3' : (freqAt ks 0 + freqAt ks 1 + freqAt ks 2 + freqAt ks 3 + freqAt ks 4) / s = 1 := by
        rw [← hs]; exact h3
      have h4' : (freqAt ls 0 + freqAt ls 1 + freqAt ls 2 + freqAt ls 3 + freqAt ls 4) / t = 1 := by
        rw [← ht]; exact h4
      linear_combination h3' + h4'
    exact this _ _ h1 h2 h1' h2'
  have zr : (|freqAt ks 0 / firstFive ks - freqAt ls 0 / firstFive ls|
        + |freqAt ks 1 / firstFive ks - freqAt ls 1 / firstFive ls|
        + |freqAt ks 2 / firstFive ks - freqAt ls 2 / firstFive ls|
        + |freqAt ks 3 / firstFive ks - freqAt ls 3 / firstFive ls|
        + |freqAt ks 4 / firstFive ks - freqAt ls 4 / firstFive ls|) / 2 =
      ((List.range 5).map (fun i => |freqAt ks i / firstFive ks - freqAt ls i / firstFive ls|)).sum / 2 := by
    rw [r5]
    simp only [List.map_cons, List.map_nil, List.sum_cons, List.sum_nil]
    ring
  have zle : ((List.range 5).map (fun i => |freqAt ks i / firstFive ks - freqAt ls i / firstFive ls|)).sum
      ≤ 2 := by
    rw [← z2]
    apply List.sum_le_sum
    intro i hi
    have hi' := List.mem_range.1 hi
    have a1 := div_nonneg (nk i hi') pk.le
    have a2 := div_nonneg (nl i hi') pl.le
    exact abs_le.2 ⟨by linarith, by linarith⟩
  have zge : 0 ≤ ((List.range 5).map
      (fun i => |freqAt ks i / firstFive ks - freqAt ls i / firstFive ls|)).sum := by
    apply List.sum_nonneg
    intro v hv
    obtain ⟨i, -, rfl⟩ := List.mem_map.1 hv
    exact abs_nonneg _
  rw [zr]
  rw [z2, List.length_range] at hc
  clear zr z2
  have hr := round64_err (1 / 2 * (order ((List.range 5).map (fun i =>
      |round64 (round64 (freqAt ks i / pySumFl round64 ((List.range 5).map (freqAt ks))) -
        round64 (freqAt ls i / pySumFl round64 ((List.range 5).map (freqAt ls))))|))).sumFl round64)
  have hu0 : (0 : ℚ) ≤ 2 ^ (-53 : ℤ) := (two_zpow_pos _).le
  have hu : (2 : ℚ) ^ (-53 : ℤ) ≤ 1 / 1000 := by norm_num
  have hη0 : (0 : ℚ) ≤ 2 ^ (-1075 : ℤ) := (two_zpow_pos _).le
  have h48 : (2 : ℚ) ^ (-48 : ℤ) = 32 * 2 ^ (-53 : ℤ) := by norm_num
  have hηu : 100 * (2 : ℚ) ^ (-1075 : ℤ) ≤ 2 ^ (-53 : ℤ) := by
    calc 100 * (2 : ℚ) ^ (-1075 : ℤ) ≤ 2 ^ (7 : ℤ) * (2 : ℚ) ^ (-1075 : ℤ) :=
          mul_le_mul_of_nonneg_right (by norm_num) hη0
      _ = 2 ^ (-1068 : ℤ) := by rw [← zpow_add₀ (by norm_num)]; norm_num
      _ ≤ _ := zpow_le_zpow_right₀ (by norm_num) (by norm_num)
  rw [h48]
  clear h48 hk0 hl0 sk sl hv
  generalize ((List.range 5).map (fun i =>
    |freqAt ks i / firstFive ks - freqAt ls i / firstFive ls|)).sum = E at *
  generalize (order ((List.range 5).map (fun i =>
      |round64 (round64 (freqAt ks i / pySumFl round64 ((List.range 5).map (freqAt ks))) -
        round64 (freqAt ls i / pySumFl round64 ((List.range 5).map (freqAt ls))))|))).sumFl round64 = s at *
  generalize round64 (1 / 2 * s) = r at *
  generalize (2 : ℚ) ^ (-53 : ℤ) = u at *
  generalize (2 : ℚ) ^ (-1075 : ℤ) = η at *
  push_cast at hc
  have hc' : |s - E| ≤ 41 * u := by linarith
  have b := abs_le.1 hc'
  have k1 : |1 / 2 * s| ≤ 11 / 10 := abs_le.2 ⟨by linarith, by linarith⟩
  have k2 := mul_le_mul_of_nonneg_left k1 hu0
  have b2 := abs_le.1 (hr.trans (add_le_add_left k2 η))
  exact abs_le.2 ⟨by linarith, by linarith⟩

/-- **C47 (floats).** A point with more than five frequencies has shuffle distance exactly 0 from itself on
floats, too. -/
theorem C47_float_self (ks : List ℚ) (x : ReachPoint) (hx : MadeFrom ks x) (hk : 5 < ks.length)
    (hks : NonnegHist ks) (hk0 : 2 ^ (-200 : ℤ) ≤ firstFive ks) (order : List ℚ → AddTree)
    (ho : AddsAll order 5 4) : shuffleDistanceFl round64 order x x = .ok 0 := by
  have nk' : ∀ a ∈ (List.range 5).map (freqAt ks), 0 ≤ a := by
    intro a ha
    obtain ⟨i, hi, rfl⟩ := List.mem_map.1 ha
    exact hks i (by have := List.mem_range.1 hi; omega)
  have hne := pySumFl_ne _ (by simp) nk' hk0
  rw [shuffleDistanceFl_value order ks ks x x hx hx hk hk hne hne]
  simp only [sub_self, round64_zero, abs_zero]
  have hz : ∀ T : AddTree, (∀ v ∈ T.values, v = 0) → T.sumFl round64 = 0 := by
    intro T
    induction T with
    | leaf v => intro h; exact h v (by simp [AddTree.values])
    | node l r ihl ihr =>
      intro h
      rw [AddTree.sumFl, ihl (fun v hv => h v (by simp [AddTree.values, hv])),
        ihr (fun v hv => h v (by simp [AddTree.values, hv])), add_zero, round64_zero]
  rw [hz _ (fun v hv => by
    have := (ho _ (by simp)).1.mem_iff.1 hv
    obtain ⟨i, -, rfl⟩ := List.mem_map.1 this
    rfl), mul_zero, round64_zero]

/-- The documented range, on floats: the shuffle distance is at most 1. -/
def C47_float_range_full : Prop :=
  ∀ (ks ls : List ℚ) (x y : ReachPoint) (F : ℚ), MadeFrom ks x → MadeFrom ls y → NonnegHist ks →
    NonnegHist ls → shuffleDistanceFl round64 leftOrder x y = .ok F → F ≤ 1

/-- It is not: 9 people reached three times and 2 reached four times against 6, 3 and 6 people reached once,
twice and five times are at distance 1.0000000000000002. -/
theorem C47_float_range_full_is_false : ¬ C47_float_range_full := by
  intro h
  have hx : MadeFrom [11, 11, 11, 2, 0, 0] ⟨[50], [11, 11, 11, 2, 0, 0], [0, 0, 9, 2, 0], none, none⟩ :=
    ⟨[50], none, none, by decide +kernel⟩
  have hy : MadeFrom [15, 9, 6, 6, 6, 0] ⟨[50], [15, 9, 6, 6, 6, 0], [6, 3, 0, 0, 6], none, none⟩ :=
    ⟨[50], none, none, by decide +kernel⟩
  have h1 := h _ _ _ _ (1 + 1 / 2 ^ 52) hx hy (by
    intro i hi
    have : i = 0 ∨ i = 1 ∨ i = 2 ∨ i = 3 ∨ i = 4 := by simp at hi; omega
    rcases this with rfl | rfl | rfl | rfl | rfl <;> decide +kernel) (by
    intro i hi
    have : i = 0 ∨ i = 1 ∨ i = 2 ∨ i = 3 ∨ i = 4 := by simp at hi; omega
    rcases this with rfl | rfl | rfl | rfl | rfl <;> decide +kernel) (by decide +kernel)
  exact absurd h1 (by decide +kernel)

/-- **C47 (floats).** What holds of the range: at most `1 + 2^-48`. -/
theorem C47_float_range_partial (ks ls : List ℚ) (x y : ReachPoint) (hx : MadeFrom ks x)
    (hy : MadeFrom ls y) (hk : 5 < ks.length) (hl : 5 < ls.length) (hks : NonnegHist ks)
    (hls : NonnegHist ls) (hk0 : 2 ^ (-200 : ℤ) ≤ firstFive ks) (hl0 : 2 ^ (-200 : ℤ) ≤ firstFive ls)
    (order : List ℚ → AddTree) (ho : AddsAll order 5 4) :
    ∃ F, shuffleDistanceFl round64 order x y = .ok F ∧ 0 ≤ F ∧ F ≤ 1 + 2 ^ (-48 : ℤ) := by
  obtain ⟨d, F, h1, h2, h3, h4⟩ :=
    C47_float_shuffle ks ls x y hx hy hk hl hks hls hk0 hl0 order ho
  obtain ⟨d', h5, -, h6⟩ := C47_shuffle_range ks ls x y hx hy hks hls
  rw [h1] at h5
  cases h5
  have := (abs_le.1 h4).2
  exact ⟨F, h2, h3, by linarith⟩

/-- The two points of the counterexample meet the hypotheses of `C47_float_shuffle`. -/
example : (2 : ℚ) ^ (-200 : ℤ) ≤ firstFive [11, 11, 11, 2, 0, 0] ∧
    (2 : ℚ) ^ (-200 : ℤ) ≤ firstFive [15, 9, 6, 6, 6, 0] := by
  have small : (2 : ℚ) ^ (-200 : ℤ) ≤ 1 := zpow_le_one_of_nonpos₀ (by norm_num) (by norm_num)
  exact ⟨small.trans (by decide +kernel), small.trans (by decide +kernel)⟩

/-- Whole numbers are added exactly as long as their sum is at most 2^53. -/
theorem pySumFl_nat (ns : List ℕ) : ∀ acc : ℕ, acc + ns.sum ≤ 2 ^ 53 →
    (ns.map (fun n : ℕ => (n : ℚ))).foldl (fun s v => round64 (s + v)) (acc : ℚ) = ((acc + ns.sum : ℕ) : ℚ) := by
  induction ns with
  | nil => intro acc _; simp
  | cons n ns ih =>
    intro acc h
    rw [List.sum_cons] at h
    have e := round64_nat (acc + n) (by omega)
    simp only [List.map_cons, List.foldl_cons]
    rw [← Nat.cast_add, e, ih (acc + n) (by omega), List.sum_cons, add_assoc]

/-- **C47 (floats).** Histograms of whole people (at most 2^53 of them) with equal proportions have shuffle
distance exactly 0 on floats, whatever their sizes. -/
theorem C47_float_zero (ks ls : List ℚ) (x y : ReachPoint) (hx : MadeFrom ks x) (hy : MadeFrom ls y)
    (hk : 5 < ks.length) (hl : 5 < ls.length) (ns ms : List ℕ)
    (hns : (List.range 5).map (freqAt ks) = ns.map (fun n : ℕ => (n : ℚ)))
    (hms : (List.range 5).map (freqAt ls) = ms.map (fun n : ℕ => (n : ℚ)))
    (hk0 : firstFive ks ≠ 0) (hl0 : firstFive ls ≠ 0) (hk1 : firstFive ks ≤ 2 ^ 53)
    (hl1 : firstFive ls ≤ 2 ^ 53)
    (hp : ∀ i < 5, freqAt ks i / firstFive ks = freqAt ls i / firstFive ls)
    (order : List ℚ → AddTree) (ho : AddsAll order 5 4) :
    shuffleDistanceFl round64 order x y = .ok 0 := by
  have key : ∀ (ks : List ℚ) (ns : List ℕ), (List.range 5).map (freqAt ks) = ns.map (fun n : ℕ => (n : ℚ)) →
      firstFive ks ≤ 2 ^ 53 → pySumFl round64 ((List.range 5).map (freqAt ks)) = firstFive ks := by
    intro ks ns h h1
    have e : firstFive ks = ((ns.sum : ℕ) : ℚ) := by
      change ((List.range 5).map (freqAt ks)).sum = _
      rw [h, Nat.cast_list_sum]
    have h2 : ns.sum ≤ 2 ^ 53 := by rw [e] at h1; exact_mod_cast h1
    rw [h, e]
    have := pySumFl_nat ns 0 (by omega)
    rw [zero_add] at this
    exact_mod_cast this
  have k1 := key ks ns hns hk1
  have k2 := key ls ms hms hl1
  rw [shuffleDistanceFl_value order ks ls x y hx hy hk hl (by rw [k1]; exact hk0) (by rw [k2]; exact hl0),
    k1, k2]
  have hz : ∀ T : AddTree, (∀ v ∈ T.values, v = 0) → T.sumFl round64 = 0 := by
    intro T
    induction T with
    | leaf v => intro h; exact h v (by simp [AddTree.values])
    | node l r ihl ihr =>
      intro h
      rw [AddTree.sumFl, ihl (fun v hv => h v (by simp [AddTree.values, hv])),
        ihr (fun v hv => h v (by simp [AddTree.values, hv])), add_zero, round64_zero]
  rw [hz _ (fun v hv => by
    have := (ho _ (by simp)).1.mem_iff.1 hv
    obtain ⟨i, hi, rfl⟩ := List.mem_map.1 this
    rw [hp i (List.mem_range.1 hi), sub_self, round64_zero, abs_zero]), mul_zero, round64_zero]

/-- **C47 (floats).** The shuffle distance is symmetric on floats, too. -/
theorem C47_float_symmetric (ks ls : List ℚ) (x y : ReachPoint) (hx : MadeFrom ks x)
    (hy : MadeFrom ls y) (order : List ℚ → AddTree) :
    shuffleDistanceFl round64 order x y = shuffleDistanceFl round64 order y x := by
  unfold shuffleDistanceFl
  rw [hx.maxFrequency, hy.maxFrequency]
  by_cases h : (ks.length : Int) ≤ 5 ∨ (ls.length : Int) ≤ 5
  · rw [if_pos h, if_pos h.symm]
  · rw [if_neg h, if_neg (fun h' => h h'.symm)]
    have e1 := mapM_range_ok (fun i : Nat => x.frequency ((i : Int) + 1)) (freqAt ks) 5
      (fun i hi => hx.frequency i (by omega))
    have e2 := mapM_range_ok (fun i : Nat => y.frequency ((i : Int) + 1)) (freqAt ls) 5
      (fun i hi => hy.frequency i (by omega))
    have e5 : (5 : Int).toNat = 5 := rfl
    simp only [e5, e1, e2, bind, Except.bind]
    generalize pySumFl round64 ((List.range 5).map (freqAt ks)) = s
    generalize pySumFl round64 ((List.range 5).map (freqAt ls)) = t
    by_cases hz : s = 0 ∨ t = 0
    · rw [if_pos hz, if_pos hz.symm]
    · rw [if_neg hz, if_neg (fun h' => hz h'.symm), List.zipWith_comm]
      have : ∀ p q : ℚ, |round64 (p - q)| = |round64 (q - p)| := by
        intro p q
        rw [← neg_sub q p, round64_neg, abs_neg]
      simp only [this (round64 (_ / s))]

/-- Histograms 1, 2, 3, 0, 0 and 3, 6, 9, 0, 0. -/
example : (List.range 5).map (freqAt [6, 5, 3, 0, 0, 0]) = [1, 2, 3, 0, 0].map (fun n : ℕ => (n : ℚ)) ∧
    (List.range 5).map (freqAt [18, 15, 9, 0, 0, 0]) = [3, 6, 9, 0, 0].map (fun n : ℕ => (n : ℚ)) ∧
    ∀ i < 5, freqAt [6, 5, 3, 0, 0, 0] i / firstFive [6, 5, 3, 0, 0, 0] =
      freqAt [18, 15, 9, 0, 0, 0] i / firstFive [18, 15, 9, 0, 0, 0] := by
  decide +kernel

/-- **C47 (floats).** The exceptional cases are the same on floats: at most five frequencies on either side
give 1, and otherwise a zero histogram on either side gives 1/2. -/
theorem C47_float_degenerate (ks ls : List ℚ) (x y : ReachPoint) (hx : MadeFrom ks x)
    (hy : MadeFrom ls y) (order : List ℚ → AddTree) :
    (ks.length ≤ 5 ∨ ls.length ≤ 5 → shuffleDistanceFl round64 order x y = .ok 1) ∧
    (5 < ks.length → 5 < ls.length → ((∀ i < 5, freqAt ks i = 0) ∨ ∀ i < 5, freqAt ls i = 0) →
      shuffleDistanceFl round64 order x y = .ok (1 / 2)) := by
  unfold shuffleDistanceFl
  rw [hx.maxFrequency, hy.maxFrequency]
  constructor
  · intro h
    rw [if_pos (by omega)]
  · intro hk hl h
    rw [if_neg (by omega)]
    have e1 := mapM_range_ok (fun i : Nat => x.frequency ((i : Int) + 1)) (freqAt ks) 5
      (fun i hi => hx.frequency i (by omega))
    have e2 := mapM_range_ok (fun i : Nat => y.frequency ((i : Int) + 1)) (freqAt ls) 5
      (fun i hi => hy.frequency i (by omega))
    have e5 : (5 : Int).toNat = 5 := rfl
    simp only [e5, e1, e2, bind, Except.bind]
    have hz : ∀ ks : List ℚ, (∀ i < 5, freqAt ks i = 0) →
        pySumFl round64 ((List.range 5).map (freqAt ks)) = 0 := by
      intro ks h
      rw [show (List.range 5).map (freqAt ks) = [0, 0, 0, 0, 0] by
        rw [show List.range 5 = [0, 1, 2, 3, 4] from rfl]
        simp only [List.map_cons, List.map_nil, h 0 (by norm_num), h 1 (by norm_num), h 2 (by norm_num),
          h 3 (by norm_num), h 4 (by norm_num)]]
      decide +kernel
    rw [if_pos (h.imp (hz ks) (hz ls))]

/-- A histogram of six frequencies that is zero on one to five impressions: everyone is reached six times. -/
example : 5 < ([4, 4, 4, 4, 4, 4] : List ℚ).length ∧ ∀ i < 5, freqAt [4, 4, 4, 4, 4, 4] i = 0 := by
  decide +kernel

/-- The histogram is zero on one to five impressions, or not practically zero there. -/
def ClearHist (ks : List ℚ) : Prop := firstFive ks = 0 ∨ 2 ^ (-200 : ℤ) ≤ firstFive ks

theorem NonnegHist.zero {ks : List ℚ} (h : NonnegHist ks) (hk : 5 < ks.length) (h0 : firstFive ks = 0) :
    ∀ i < 5, freqAt ks i = 0 := by
  have n0 := h 0 (by omega)
  have n1 := h 1 (by omega)
  have n2 := h 2 (by omega)
  have n3 := h 3 (by omega)
  have n4 := h 4 (by omega)
  rw [firstFive_eq] at h0
  intro i hi
  have : i = 0 ∨ i = 1 ∨ i = 2 ∨ i = 3 ∨ i = 4 := by omega
  rcases this with rfl | rfl | rfl | rfl | rfl <;> linarith

/-- One pair of points, of any kind. -/
theorem shuffleDistanceFl_near (ks ls : List ℚ) (x y : ReachPoint) (hx : MadeFrom ks x)
    (hy : MadeFrom ls y) (hks : NonnegHist ks) (hls : NonnegHist ls) (ck : ClearHist ks)
    (cl : ClearHist ls) (order : List ℚ → AddTree) (ho : AddsAll order 5 4) :
    ∃ d F, shuffleDistance x y = .ok d ∧ shuffleDistanceFl round64 order x y = .ok F ∧
      |F - d| ≤ 2 ^ (-48 : ℤ) ∧ |d| ≤ 1 := by
  obtain ⟨d, hd, d0, d1⟩ := C47_shuffle_range ks ls x y hx hy hks hls
  have hv := C47_shuffle_value ks ls x y hx hy
  have hdeg := C47_float_degenerate ks ls x y hx hy order
  have ha : |d| ≤ 1 := abs_le.2 ⟨by linarith, d1⟩
  by_cases h5 : ks.length ≤ 5 ∨ ls.length ≤ 5
  · rw [if_pos h5, hd] at hv
    cases hv
    exact ⟨_, _, hd, hdeg.1 h5, by simp, ha⟩
  · have hk : 5 < ks.length := by omega
    have hl : 5 < ls.length := by omega
    by_cases hz : firstFive ks = 0 ∨ firstFive ls = 0
    · rw [if_neg h5, if_pos hz, hd] at hv
      cases hv
      exact ⟨_, _, hd, hdeg.2 hk hl (hz.imp (hks.zero hk) (hls.zero hl)), by simp, ha⟩
    · obtain ⟨d', F, e1, e2, -, e3⟩ := C47_float_shuffle ks ls x y hx hy hk hl hks hls
        (ck.resolve_left (fun h => hz (Or.inl h))) (cl.resolve_left (fun h => hz (Or.inr h))) order ho
      rw [hd] at e1
      cases e1
      exact ⟨_, _, hd, e2, e3, ha⟩

/-- The shuffle distances of the points, on floats and exact. -/
theorem shuffle_pairs (x y : List ReachPoint) (kss lss : List (List ℚ)) (hx : Made x kss)
    (hy : Made y lss) (hl : x.length = y.length)
    (hn : ∀ ks ∈ kss ++ lss, NonnegHist ks ∧ ClearHist ks) (order : List ℚ → AddTree)
    (ho5 : AddsAll order 5 4) (ds : List ℚ)
    (hd : List.Forall₂ (fun (xy : ReachPoint × ReachPoint) d => shuffleDistance xy.1 xy.2 = .ok d)
      (x.zip y) ds) :
    ∃ L : List (ℚ × ℚ), L.map Prod.snd = ds ∧
      (x.zip y).mapM (fun xy => shuffleDistanceFl round64 order xy.1 xy.2) = .ok (L.map Prod.fst) ∧
      ∀ p ∈ L, |p.1 - p.2| ≤ 2 ^ (-48 : ℤ) ∧ |p.2| ≤ 1 := by
  induction hx generalizing y lss ds with
  | nil =>
    rw [List.zip_nil_left] at hd
    cases hd
    exact ⟨[], rfl, rfl, by simp⟩
  | @cons p ks ps kss hp _ ih =>
    rcases y with _ | ⟨q, qs⟩
    · simp at hl
    · obtain ⟨ls, lss', hq, hqs, rfl⟩ := List.forall₂_cons_left_iff.1 hy
      rw [List.zip_cons_cons] at hd
      obtain ⟨d, ds', h1, h2, rfl⟩ := List.forall₂_cons_left_iff.1 hd
      obtain ⟨L, l1, l2, l3⟩ := ih qs lss' hqs (by simpa using hl) (fun l hl => hn l (by
        simp only [List.cons_append, List.mem_cons, List.mem_append] at hl ⊢
        tauto)) ds' h2
      obtain ⟨d', F, e1, e2, e3, e4⟩ := shuffleDistanceFl_near ks ls p q hp hq
        (hn ks (by simp)).1 (hn ls (by simp)).1 (hn ks (by simp)).2 (hn ls (by simp)).2 order ho5
      have e1' : d = d' := by
        have h1' : shuffleDistance p q = .ok d := h1
        rw [e1] at h1'
        cases h1'
        rfl
      subst e1'
      refine ⟨(F, d) :: L, by rw [List.map_cons, l1], ?_, ?_⟩
      · rw [List.zip_cons_cons, List.mapM_cons]
        simp only [l2, e2]
        rfl
      · intro r hr
        rcases List.mem_cons.1 hr with rfl | hr
        · exact ⟨e3, e4⟩
        · exact l3 r hr

/-- **C68 (floats, mean shuffle distance).** On floats, in whatever order numpy adds, the mean shuffle
distance differs from the exact one by at most `(2 H + 18) 2^-52`. -/
theorem C68_float_mean_shuffle (x y : List ReachPoint) (kss lss : List (List ℚ)) (hx : Made x kss)
    (hy : Made y lss) (hl : x.length = y.length) (hne : x ≠ [])
    (hn : ∀ ks ∈ kss ++ lss, NonnegHist ks ∧ ClearHist ks) (row : Row) (h : aggregate x y = .ok row)
    (order : List ℚ → AddTree) (H : Nat) (ho : AddsAll order x.length H) (ho5 : AddsAll order 5 4)
    (hH : H ≤ 2 ^ 40) :
    ∃ m F, ("mean_shuffle_distance", Cell.float (some m)) ∈ row ∧
      meanShuffleDistanceFl round64 order x y = .ok F ∧ |F - m| ≤ (2 * H + 18) * 2 ^ (-52 : ℤ) := by
  obtain ⟨ds, hd, hm, -⟩ := C68_shuffle x y kss lss hx hy hl hne (fun ks hks => (hn ks hks).1) row h
  have key := shuffle_pairs x y kss lss hx hy hl hn order ho5 ds hd
  obtain ⟨L, rfl, l2, l3⟩ := key
  have hlen : L.length = x.length := by
    have := hd.length_eq
    rw [List.length_zip, ← hl, min_self, List.length_map] at this
    exact this.symm
  have h1 : 1 ≤ x.length := List.length_pos_iff.2 hne
  have hv := meanFl_err Prod.fst Prod.snd (fun _ => 1) (2 ^ (-48 : ℤ)) 0 L (by norm_num)
    (two_zpow_pos _).le le_rfl (fun p hp => by simpa using (l3 p hp).1) (fun p hp => (l3 p hp).2)
    (by rw [hlen]; exact h1) order H (by rw [hlen]; exact ho) hH
  refine ⟨_, meanFl round64 order (L.map Prod.fst), hm, ?_, ?_⟩
  · unfold meanShuffleDistanceFl
    rw [l2]
    rfl
  have e1 : (L.map (fun _ => (1 : ℚ))).sum / L.length = 1 := by
    have : (0 : ℚ) < L.length := by rw [hlen]; exact_mod_cast h1
    rw [List.map_const', List.sum_replicate, nsmul_eq_mul, mul_one, div_self this.ne']
  rw [e1, hlen] at hv
  refine hv.trans ?_
  have hu0 : (0 : ℚ) ≤ 2 ^ (-53 : ℤ) := (two_zpow_pos _).le
  have hη0 : (0 : ℚ) ≤ 2 ^ (-1075 : ℤ) := (two_zpow_pos _).le
  have h48 : (2 : ℚ) ^ (-48 : ℤ) = 32 * 2 ^ (-53 : ℤ) := by norm_num
  have hηu : 100 * (2 : ℚ) ^ (-1075 : ℤ) ≤ 2 ^ (-53 : ℤ) := by
    calc 100 * (2 : ℚ) ^ (-1075 : ℤ) ≤ 2 ^ (7 : ℤ) * (2 : ℚ) ^ (-1075 : ℤ) :=
          mul_le_mul_of_nonneg_right (by norm_num) hη0
      _ = 2 ^ (-1068 : ℤ) := by rw [← zpow_add₀ (by norm_num)]; norm_num
      _ ≤ _ := zpow_le_zpow_right₀ (by norm_num) (by norm_num)
  have hH0 : (0 : ℚ) ≤ H := by positivity
  rw [h48, two_52_53]
  clear hv h48
  generalize (2 : ℚ) ^ (-53 : ℤ) = u at *
  generalize (2 : ℚ) ^ (-1075 : ℤ) = η at *
  have := mul_nonneg hH0 hu0
  linarith

/-- The points of the counterexample above are of the kind that is needed here. -/
example : ∀ ks ∈ [[11, 11, 11, 2, 0, 0], [15, 9, 6, 6, 6, 0]], NonnegHist ks ∧ ClearHist ks := by
  have small : (2 : ℚ) ^ (-200 : ℤ) ≤ 1 := zpow_le_one_of_nonpos₀ (by norm_num) (by norm_num)
  intro ks hks
  simp only [List.mem_cons, List.not_mem_nil, or_false] at hks
  rcases hks with rfl | rfl
  · refine ⟨?_, Or.inr (small.trans (by decide +kernel))⟩
    intro i hi
    have : i = 0 ∨ i = 1 ∨ i = 2 ∨ i = 3 ∨ i = 4 := by simp at hi; omega
    rcases this with rfl | rfl | rfl | rfl | rfl <;> decide +kernel
  · refine ⟨?_, Or.inr (small.trans (by decide +kernel))⟩
    intro i hi
    have : i = 0 ∨ i = 1 ∨ i = 2 ∨ i = 3 ∨ i = 4 := by simp at hi; omega
    rcases this with rfl | rfl | rfl | rfl | rfl <;> decide +kernel

end Verif
