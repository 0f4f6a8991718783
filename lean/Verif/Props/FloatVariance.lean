import Verif.Props.FloatShuffle

/-!
C68 on floats: the variances of the relative error and of the shuffle distance, and the mean squared shuffle
distance.
-/

namespace Verif

theorem hundred_eta : 1000 * (2 : ℚ) ^ (-1075 : ℤ) ≤ 2 ^ (-53 : ℤ) := by
  have hη0 : (0 : ℚ) ≤ 2 ^ (-1075 : ℤ) := (two_zpow_pos _).le
  calc 1000 * (2 : ℚ) ^ (-1075 : ℤ) ≤ 2 ^ (10 : ℤ) * (2 : ℚ) ^ (-1075 : ℤ) :=
        mul_le_mul_of_nonneg_right (by norm_num) hη0
    _ = 2 ^ (-1065 : ℤ) := by rw [← zpow_add₀ (by norm_num)]; norm_num
    _ ≤ _ := zpow_le_zpow_right₀ (by norm_num) (by norm_num)

/-- One squared deviation, of a number known up to `α z + 3 η`. -/
theorem sqDev_near (f e m mh z Z α κ : ℚ) (hα0 : 0 ≤ α) (hκ0 : 0 ≤ κ)
    (hρ : 2 * 2 ^ (-53 : ℤ) + α + κ ≤ 1 / 400) (hz : |e| ≤ z) (hm : |m| ≤ Z)
    (hf : |f - e| ≤ α * z + 3 * 2 ^ (-1075 : ℤ)) (hmh : |mh - m| ≤ κ * Z + 10 * 2 ^ (-1075 : ℤ)) :
    |round64 (round64 (f - mh) * round64 (f - mh)) - (e - m) * (e - m)| ≤
      31 / 10 * (2 * 2 ^ (-53 : ℤ) + α + κ) * (z + Z) ^ 2 + 34 * 2 ^ (-1075 : ℤ) := by
  have hu0 : (0 : ℚ) ≤ 2 ^ (-53 : ℤ) := (two_zpow_pos _).le
  have hη0 : (0 : ℚ) ≤ 2 ^ (-1075 : ℤ) := (two_zpow_pos _).le
  have hηu := hundred_eta
  have r2 := round64_err (f - mh)
  have r3 := round64_err (round64 (f - mh) * round64 (f - mh))
  generalize round64 (round64 (f - mh) * round64 (f - mh)) = q at *
  generalize round64 (f - mh) = d at *
  generalize (2 : ℚ) ^ (-53 : ℤ) = u at *
  generalize (2 : ℚ) ^ (-1075 : ℤ) = η at *
  have hz0 : 0 ≤ z := (abs_nonneg e).trans hz
  have hZ0 : 0 ≤ Z := (abs_nonneg m).trans hm
  have hu : u ≤ 1 / 400 := by linarith
  have a1 : α * z ≤ 1 / 100 * z := mul_le_mul_of_nonneg_right (by linarith) hz0
  have a2 : κ * Z ≤ 1 / 100 * Z := mul_le_mul_of_nonneg_right (by linarith) hZ0
  have s1 : |f - mh| ≤ 11 / 10 * (z + Z) + 13 * η := by
    have : f - mh = (f - e) + (e + (-(mh - m) + -m)) := by ring
    rw [this]
    have c1 := abs_add_le (f - e) (e + (-(mh - m) + -m))
    have c2 := abs_add_le e (-(mh - m) + -m)
    have c3 := abs_add_le (-(mh - m)) (-m)
    rw [abs_neg, abs_neg] at c3
    linarith
  have s2 : |d - (e - m)| ≤ (2 * u + α + κ) * (z + Z) + 15 * η := by
    have : d - (e - m) = (d - (f - mh)) + ((f - e) + -(mh - m)) := by ring
    rw [this]
    have c1 := abs_add_le (d - (f - mh)) ((f - e) + -(mh - m))
    have c2 := abs_add_le (f - e) (-(mh - m))
    rw [abs_neg] at c2
    have c4 := mul_le_mul_of_nonneg_left s1 hu0
    have c5 := mul_le_mul_of_nonneg_right hu hη0
    have c6 : 0 ≤ u * z := by positivity
    have c7 : 0 ≤ u * Z := by positivity
    have c8 : 0 ≤ α * Z := by positivity
    have c9 : 0 ≤ κ * z := by positivity
    linarith
  have s3 : |e - m| ≤ z + Z := by
    have c3 := abs_add_le e (-m)
    rw [abs_neg, ← sub_eq_add_neg] at c3
    linarith
  have hw : 0 ≤ z + Z := by positivity
  have hρ0 : 0 ≤ 2 * u + α + κ := by positivity
  have huρ : 2 * u ≤ 2 * u + α + κ := by linarith
  clear a1 a2 s1 r2 hf hmh
  generalize 2 * u + α + κ = ρ at *
  generalize z + Z = w at *
  generalize e - m = x at *
  have t1 : |d| ≤ (1 + ρ) * w + 15 * η := by
    have := abs_add_le x (d - x)
    rw [add_sub_cancel] at this
    linarith
  have t2 : |d * d - x * x| ≤ (ρ * w + 15 * η) * ((2 + ρ) * w + 15 * η) := by
    rw [show d * d - x * x = (d - x) * (d + x) by ring, abs_mul]
    apply mul_le_mul s2 _ (abs_nonneg _) (by positivity)
    have := abs_add_le d x
    linarith
  have t3 : |d * d| ≤ ((1 + ρ) * w + 15 * η) * ((1 + ρ) * w + 15 * η) := by
    rw [abs_mul]
    exact mul_le_mul t1 t1 (abs_nonneg _) (by positivity)
  have t4 : |q - x * x| ≤ |q - d * d| + |d * d - x * x| := abs_sub_le _ _ _
  have t5 := mul_le_mul_of_nonneg_left t3 hu0
  have hηw : η * w ≤ η * w ^ 2 + η := by
    nlinarith [mul_nonneg hη0 (sq_nonneg (w - 1)), mul_nonneg hη0 (sq_nonneg w)]
  have hw2 : 0 ≤ w ^ 2 := sq_nonneg w
  have hρw : (1 + ρ) * w ≤ 401 / 400 * w := mul_le_mul_of_nonneg_right (by linarith) hw
  have v1 : ((1 + ρ) * w + 15 * η) * ((1 + ρ) * w + 15 * η) ≤
      (401 / 400 * w + 15 * η) * (401 / 400 * w + 15 * η) :=
    mul_le_mul (by linarith) (by linarith) (by positivity) (by positivity)
  have v2 : (ρ * w + 15 * η) * ((2 + ρ) * w + 15 * η) ≤
      (ρ * w + 15 * η) * (801 / 400 * w + 15 * η) := by
    apply mul_le_mul_of_nonneg_left _ (by positivity)
    have := mul_le_mul_of_nonneg_right (show 2 + ρ ≤ 801 / 400 by linarith) hw
    linarith
  have v3 := mul_le_mul_of_nonneg_left v1 hu0
  have hη1 : η ≤ 1 / 10000 := by linarith
  have y1 : u * (η * w) ≤ 1 / 400 * (η * w) := mul_le_mul_of_nonneg_right hu (by positivity)
  have y2 : ρ * (η * w) ≤ 1 / 400 * (η * w) := mul_le_mul_of_nonneg_right hρ (by positivity)
  have y3 : η * η ≤ 1 / 10000 * η := mul_le_mul_of_nonneg_right hη1 hη0
  have y4 : u * (η * η) ≤ 1 / 400 * (η * η) := mul_le_mul_of_nonneg_right hu (by positivity)
  have y5 : 1000 * η * w ^ 2 ≤ u * w ^ 2 := mul_le_mul_of_nonneg_right hηu hw2
  have y6 : 2 * u * w ^ 2 ≤ ρ * w ^ 2 := mul_le_mul_of_nonneg_right huρ hw2
  have y7 : 0 ≤ η * w := by positivity
  have e1 : u * ((401 / 400 * w + 15 * η) * (401 / 400 * w + 15 * η)) =
      401 / 400 * (401 / 400) * (u * w ^ 2) + 2 * 15 * (401 / 400) * (u * (η * w)) +
        225 * (u * (η * η)) := by ring
  have e2 : (ρ * w + 15 * η) * (801 / 400 * w + 15 * η) =
      801 / 400 * (ρ * w ^ 2) + 15 * (ρ * (η * w)) + 15 * (801 / 400) * (η * w) +
        225 * (η * η) + 0 := by
    ring
  have y8 : 0 ≤ ρ * w ^ 2 := by positivity
  linarith

/-- The variance, on floats, of numbers that are close to others. -/
theorem varFl_err {ι : Type} (f g z : ι → ℚ) (α : ℚ) (l : List ι) (hα : α ≤ 1 / 2000)
    (hα0 : 0 ≤ α) (hf : ∀ i ∈ l, |f i - g i| ≤ α * z i + 3 * 2 ^ (-1075 : ℤ))
    (hg : ∀ i ∈ l, |g i| ≤ z i) (hl : 1 ≤ l.length)
    (order : List ℚ → AddTree) (H : Nat) (ho : AddsAll order l.length H) (hH : H ≤ 2 ^ 40) :
    0 ≤ varFl round64 order (l.map f) ∧
    |varFl round64 order (l.map f) - (l.map (fun i => (g i - (l.map g).sum / l.length) *
        (g i - (l.map g).sum / l.length))).sum / l.length| ≤
      17 * ((21 / 10 * H + 3) * 2 ^ (-53 : ℤ) + 201 / 100 * α) *
        ((l.map (fun i => z i * z i)).sum / l.length) + 2 ^ (-1000 : ℤ) := by
  have hη0 : (0 : ℚ) ≤ 2 ^ (-1075 : ℤ) := (two_zpow_pos _).le
  have hm := meanFl_err f g z α (3 * 2 ^ (-1075 : ℤ)) l (by linarith) hα0
    (mul_nonneg (by norm_num) hη0) hf hg hl order H ho hH
  have hn : (0 : ℚ) < l.length := by exact_mod_cast hl
  have hmean : |(l.map g).sum / (l.length : ℚ)| ≤ (l.map z).sum / l.length := by
    rw [abs_div, abs_of_pos hn]
    exact div_le_div_of_nonneg_right (sum_map_err f g z α _ l hf hg).2.2 hn.le
  have hu0 : (0 : ℚ) ≤ 2 ^ (-53 : ℤ) := (two_zpow_pos _).le
  have hu : (2 : ℚ) ^ (-53 : ℤ) ≤ 1 / 100000 := by norm_num
  have hH0 : (0 : ℚ) ≤ H := by positivity
  have hH' : (H : ℚ) ≤ 2 ^ 40 := by exact_mod_cast hH
  have hHu : (H : ℚ) * 2 ^ (-53 : ℤ) ≤ 1 / 8000 :=
    (mul_le_mul_of_nonneg_right hH' hu0).trans (by norm_num)
  have hz0 : ∀ i ∈ l, 0 ≤ z i := fun i hi => (abs_nonneg _).trans (hg i hi)
  have hsq := mean_shift_sq_le (l.map z) (by simpa using hl)
  have habs : (l.map z).map (fun e => |e|) = l.map z := by
    rw [List.map_map]
    exact List.map_congr_left (fun i hi => abs_of_nonneg (hz0 i hi))
  rw [habs, List.length_map, List.map_map, List.map_map] at hsq
  have hsq1 : l.map ((fun e => (|e| + (l.map z).sum / (l.length : ℚ)) ^ 2) ∘ z) =
      l.map (fun i => (z i + (l.map z).sum / (l.length : ℚ)) ^ 2) := by
    apply List.map_congr_left
    intro i hi
    simp only [Function.comp, abs_of_nonneg (hz0 i hi)]
  have hsq2 : l.map ((fun e => e * e) ∘ z) = l.map (fun i => z i * z i) := rfl
  rw [hsq1, hsq2] at hsq
  have hκ0 : 0 ≤ (21 / 10 * (H : ℚ) + 1) * 2 ^ (-53 : ℤ) + 101 / 100 * α := by positivity
  have hρ : 2 * 2 ^ (-53 : ℤ) + α + ((21 / 10 * (H : ℚ) + 1) * 2 ^ (-53 : ℤ) + 101 / 100 * α) ≤ 1 / 400 := by
    linarith
  have hm' : |meanFl round64 order (l.map f) - (l.map g).sum / l.length| ≤
      ((21 / 10 * (H : ℚ) + 1) * 2 ^ (-53 : ℤ) + 101 / 100 * α) * ((l.map z).sum / l.length) +
        10 * 2 ^ (-1075 : ℤ) := by
    refine hm.trans (le_of_eq ?_)
    generalize (2 : ℚ) ^ (-1075 : ℤ) = η at *
    ring
  unfold varFl
  rw [List.map_map]
  constructor
  · unfold meanFl
    apply round64_nonneg
    apply div_nonneg _ (by positivity)
    apply AddTree.sumFl_nonneg
    intro v hv
    have := (ho _ (by simp)).1.mem_iff.1 hv
    obtain ⟨i, -, rfl⟩ := List.mem_map.1 this
    exact round64_nonneg _ (mul_self_nonneg _)
  have hv := meanFl_err ((fun e => round64 (round64 (e - meanFl round64 order (l.map f)) *
      round64 (e - meanFl round64 order (l.map f)))) ∘ f)
    (fun i => (g i - (l.map g).sum / l.length) * (g i - (l.map g).sum / l.length))
    (fun i => (z i + (l.map z).sum / l.length) ^ 2)
    (31 / 10 * (2 * 2 ^ (-53 : ℤ) + α + ((21 / 10 * (H : ℚ) + 1) * 2 ^ (-53 : ℤ) + 101 / 100 * α)))
    (34 * 2 ^ (-1075 : ℤ)) l (by linarith) (by positivity) (mul_nonneg (by norm_num) hη0)
    (fun i hi => sqDev_near (f i) (g i) _ _ (z i) _ α _ hα0 hκ0 hρ (hg i hi) hmean (hf i hi) hm')
    (fun i hi => by
      rw [abs_mul, ← pow_two]
      apply pow_le_pow_left₀ (abs_nonneg _)
      have c3 := abs_sub (g i) ((l.map g).sum / l.length)
      have c4 := hg i hi
      linarith)
    hl order H ho hH
  refine hv.trans ?_
  have hfin : 72 * (2 : ℚ) ^ (-1075 : ℤ) ≤ 2 ^ (-1000 : ℤ) := by
    calc 72 * (2 : ℚ) ^ (-1075 : ℤ) ≤ 2 ^ (7 : ℤ) * (2 : ℚ) ^ (-1075 : ℤ) :=
          mul_le_mul_of_nonneg_right (by norm_num) hη0
      _ = 2 ^ (-1068 : ℤ) := by rw [← zpow_add₀ (by norm_num)]; norm_num
      _ ≤ _ := zpow_le_zpow_right₀ (by norm_num) (by norm_num)
  have hB0 : 0 ≤ (l.map (fun i => z i * z i)).sum / (l.length : ℚ) := by
    apply div_nonneg _ hn.le
    apply List.sum_nonneg
    simp only [List.mem_map]
    rintro _ ⟨i, -, rfl⟩
    exact mul_self_nonneg _
  clear hv hm hm' hmean hf
  generalize (l.map (fun i => (z i + (l.map z).sum / (l.length : ℚ)) ^ 2)).sum / (l.length : ℚ) = W at *
  generalize (l.map (fun i => z i * z i)).sum / (l.length : ℚ) = B at *
  generalize (2 : ℚ) ^ (-1075 : ℤ) = η at *
  generalize (2 : ℚ) ^ (-1000 : ℤ) = w at *
  clear hu hHu hρ
  generalize (2 : ℚ) ^ (-53 : ℤ) = u at *
  generalize (H : ℚ) = P at *
  have c0 : 0 ≤ (21 / 10 * P + 1) * u + 101 / 100 * (31 / 10 * (2 * u + α +
      ((21 / 10 * P + 1) * u + 101 / 100 * α))) := by positivity
  have c1 := mul_le_mul_of_nonneg_left hsq c0
  have c2 : 0 ≤ u * B := mul_nonneg hu0 hB0
  have c3 : 0 ≤ P * (u * B) := mul_nonneg hH0 c2
  have c4 : 0 ≤ α * B := mul_nonneg hα0 hB0
  linarith

/-- `var_error` is the variance of the errors on floats. -/
theorem varErrorFl_eq (rnd : ℚ → ℚ) (order : List ℚ → AddTree) (a b : List ℚ) :
    varErrorFl rnd order a b = varFl rnd order (List.zipWith (fun x y => rnd (x - y)) a b) := rfl

theorem relative_err (x y : ℚ) (hx : 1 ≤ x) :
    |round64 (round64 (x - y) / x) - (x - y) / x| ≤
      3 * 2 ^ (-53 : ℤ) * |(x - y) / x| + 3 * 2 ^ (-1075 : ℤ) := by
  have h1 := round64_err (x - y)
  have h2 := round64_err (round64 (x - y) / x)
  have hu0 : (0 : ℚ) ≤ 2 ^ (-53 : ℤ) := (two_zpow_pos _).le
  have hu : (2 : ℚ) ^ (-53 : ℤ) ≤ 1 / 1000 := by norm_num
  have hη0 : (0 : ℚ) ≤ 2 ^ (-1075 : ℤ) := (two_zpow_pos _).le
  generalize round64 (round64 (x - y) / x) = q at *
  generalize round64 (x - y) = d at *
  generalize (2 : ℚ) ^ (-53 : ℤ) = u at *
  generalize (2 : ℚ) ^ (-1075 : ℤ) = η at *
  have hx0 : 0 < x := by linarith
  have k1 : |d / x - (x - y) / x| ≤ u * |(x - y) / x| + η := by
    rw [← sub_div, abs_div, abs_div, abs_of_pos hx0, div_le_iff₀ hx0]
    have : (u * (|x - y| / x) + η) * x = u * |x - y| + η * x := by field_simp
    rw [this]
    have := mul_le_mul_of_nonneg_left hx hη0
    linarith
  have k2 : |d / x| ≤ |(x - y) / x| + |d / x - (x - y) / x| := by
    have := abs_add_le ((x - y) / x) (d / x - (x - y) / x)
    rwa [add_sub_cancel] at this
  have k3 : |q - (x - y) / x| ≤ |q - d / x| + |d / x - (x - y) / x| := abs_sub_le _ _ _
  have he := abs_nonneg ((x - y) / x)
  generalize |(x - y) / x| = e at *
  have k4 := mul_le_mul_of_nonneg_left k2 hu0
  have k5 := mul_le_mul_of_nonneg_left k1 hu0
  have k6 : u * (u * e) ≤ 1 / 1000 * (u * e) := mul_le_mul_of_nonneg_right hu (by positivity)
  have k7 : u * η ≤ 1 / 1000 * η := mul_le_mul_of_nonneg_right hu hη0
  have k8 : 0 ≤ u * e := by positivity
  linarith

/-- **C68 (floats, variance of the relative error).** On floats, in whatever order numpy adds, the variance of
the relative error is not negative and differs from the exact one by at most `18 (H + 5) 2^-52` of the mean
squared relative error (and `2^-1000`), if every true reach is at least one person. -/
theorem C68_float_var_relative (x y : List ReachPoint) (a b : List ℚ) (ha : Reaches x a)
    (hb : Reaches y b) (hl : x.length = y.length) (hne : x ≠ []) (row : Row)
    (h : aggregate x y = .ok row) (order : List ℚ → AddTree) (H : Nat)
    (ho : AddsAll order x.length H) (hH : H ≤ 2 ^ 40) (h1 : ∀ t ∈ a, 1 ≤ t) :
    ∃ ve msre, ("var_relative_error", Cell.float (some ve)) ∈ row ∧
      ("mean_squared_relative_error", Cell.float (some msre)) ∈ row ∧
      0 ≤ varRelativeErrorFl round64 order a b ∧
      |varRelativeErrorFl round64 order a b - ve| ≤
        18 * (H + 5) * 2 ^ (-52 : ℤ) * msre + 2 ^ (-1000 : ℤ) := by
  obtain ⟨-, r2, r3⟩ := C68_relative x y a b ha hb hl hne
    (fun t ht => by have := h1 t ht; intro e; rw [e] at this; norm_num at this) row h
  refine ⟨_, _, r3, r2, ?_⟩
  have hla : a.length = x.length := ha.length_eq.symm
  have hlb : b.length = x.length := by rw [← hb.length_eq, hl]
  have hlz : (a.zip b).length = x.length := by rw [List.length_zip, hla, hlb, min_self]
  have hn1 : 1 ≤ x.length := List.length_pos_iff.2 hne
  have hu0 : (0 : ℚ) ≤ 2 ^ (-53 : ℤ) := (two_zpow_pos _).le
  have hv := varFl_err (fun p : ℚ × ℚ => round64 (round64 (p.1 - p.2) / p.1))
    (fun p => (p.1 - p.2) / p.1) (fun p => |(p.1 - p.2) / p.1|) (3 * 2 ^ (-53 : ℤ)) (a.zip b)
    (by norm_num) (by positivity)
    (fun p hp => relative_err p.1 p.2 (h1 p.1 (List.of_mem_zip hp).1)) (fun p _ => le_rfl)
    (by rw [hlz]; exact hn1) order H (by rw [hlz]; exact ho) hH
  have e0 : ∀ f : ℚ → ℚ → ℚ, (a.zip b).map (fun p : ℚ × ℚ => f p.1 p.2) = List.zipWith f a b := by
    intro f
    exact List.map_zip_eq_zipWith (f := fun p : ℚ × ℚ => f p.1 p.2)
  have e1 := e0 (fun x y => round64 (round64 (x - y) / x))
  have e2 := e0 (fun t m => (t - m) / t)
  have e3 : (a.zip b).map (fun p : ℚ × ℚ => |(p.1 - p.2) / p.1| * |(p.1 - p.2) / p.1|) =
      (List.zipWith (fun t m => (t - m) / t) a b).map (fun r => r * r) := by
    rw [← e2, List.map_map]
    apply List.map_congr_left
    intro p _
    exact abs_mul_abs_self _
  have e4 : ∀ c : ℚ, (a.zip b).map (fun p : ℚ × ℚ => ((p.1 - p.2) / p.1 - c) * ((p.1 - p.2) / p.1 - c)) =
      (List.zipWith (fun t m => (t - m) / t) a b).map (fun r => (r - c) * (r - c)) := by
    intro c
    rw [← e2, List.map_map]
    rfl
  rw [e1, e2, e3, e4, hlz] at hv
  refine ⟨hv.1, hv.2.trans ?_⟩
  have hB0 : 0 ≤ ((List.zipWith (fun t m : ℚ => (t - m) / t) a b).map (fun r => r * r)).sum /
      (x.length : ℚ) := by
    apply div_nonneg _ (by positivity)
    apply List.sum_nonneg
    simp only [List.mem_map]
    rintro _ ⟨i, -, rfl⟩
    exact mul_self_nonneg _
  rw [two_52_53]
  have hH0 : (0 : ℚ) ≤ H := by positivity
  clear hv r2 r3
  generalize ((List.zipWith (fun t m : ℚ => (t - m) / t) a b).map (fun r => r * r)).sum /
      (x.length : ℚ) = B at *
  generalize (2 : ℚ) ^ (-53 : ℤ) = u at *
  generalize (2 : ℚ) ^ (-1000 : ℤ) = w at *
  have c2 : 0 ≤ u * B := mul_nonneg hu0 hB0
  have c3 := mul_nonneg hH0 c2
  linarith

/-- **C68 (floats, variance of the shuffle distance).** On floats, in whatever order numpy adds, the variance of
the shuffle distance is not negative and differs from the exact one by at most `18 (H + 33) 2^-52`. -/
theorem C68_float_var_shuffle (x y : List ReachPoint) (kss lss : List (List ℚ)) (hx : Made x kss)
    (hy : Made y lss) (hl : x.length = y.length) (hne : x ≠ [])
    (hn : ∀ ks ∈ kss ++ lss, NonnegHist ks ∧ ClearHist ks) (row : Row) (h : aggregate x y = .ok row)
    (order : List ℚ → AddTree) (H : Nat) (ho : AddsAll order x.length H) (ho5 : AddsAll order 5 4)
    (hH : H ≤ 2 ^ 40) :
    ∃ v F, ("var_shuffle_distance", Cell.float (some v)) ∈ row ∧
      varShuffleDistanceFl round64 order x y = .ok F ∧ 0 ≤ F ∧
      |F - v| ≤ 18 * (H + 33) * 2 ^ (-52 : ℤ) := by
  obtain ⟨ds, hd, hm, hm2, m, m2, v, g1, g2, g3, hveq, -⟩ :=
    C68_shuffle x y kss lss hx hy hl hne (fun ks hks => (hn ks hks).1) row h
  obtain ⟨L, rfl, l2, l3⟩ := shuffle_pairs x y kss lss hx hy hl hn order ho5 ds hd
  have hlen : L.length = x.length := by
    have := hd.length_eq
    rw [List.length_zip, ← hl, min_self, List.length_map] at this
    exact this.symm
  have h1 : 1 ≤ x.length := List.length_pos_iff.2 hne
  have hη0 : (0 : ℚ) ≤ 2 ^ (-1075 : ℤ) := (two_zpow_pos _).le
  have hv := varFl_err Prod.fst Prod.snd (fun _ => 1) (2 ^ (-48 : ℤ)) L (by norm_num)
    (two_zpow_pos _).le (fun p hp => by
      have := (l3 p hp).1
      rw [mul_one]
      exact this.trans (le_add_of_nonneg_right (mul_nonneg (by norm_num) hη0)))
    (fun p hp => (l3 p hp).2)
    (by rw [hlen]; exact h1) order H (by rw [hlen]; exact ho) hH
  have uniq : ∀ c v w, (c, v) ∈ row → (c, w) ∈ row → v = w := fun c v w => row_value_unique x y row h c v w
  have em := uniq _ _ _ g1 hm
  have em2 := uniq _ _ _ g2 hm2
  simp only [Cell.float.injEq, Option.some.injEq] at em em2
  have hn0 : (0 : ℚ) < x.length := by exact_mod_cast h1
  have evar : (L.map (fun i => (i.2 - (L.map Prod.snd).sum / (L.length : ℚ)) *
      (i.2 - (L.map Prod.snd).sum / (L.length : ℚ)))).sum / (L.length : ℚ) = v := by
    have hne' : L.map Prod.snd ≠ [] := by
      intro e
      rw [List.map_eq_nil_iff] at e
      rw [e] at hlen
      simp at hlen
      omega
    have := meanOf_sq_dev (L.map Prod.snd) hne'
    unfold meanOf at this
    simp only [List.length_map, List.map_map] at this
    rw [hlen] at this ⊢
    rw [hveq, em, em2, List.map_map, ← this]
    rfl
  rw [evar] at hv
  refine ⟨v, varFl round64 order (L.map Prod.fst), g3, ?_, hv.1, hv.2.trans ?_⟩
  · unfold varShuffleDistanceFl
    rw [l2]
    rfl
  have e1 : (L.map (fun _ => (1 : ℚ) * 1)).sum / L.length = 1 := by
    have : (0 : ℚ) < L.length := by rw [hlen]; exact hn0
    rw [mul_one, List.map_const', List.sum_replicate, nsmul_eq_mul, mul_one, div_self this.ne']
  rw [e1]
  have hu0 : (0 : ℚ) ≤ 2 ^ (-53 : ℤ) := (two_zpow_pos _).le
  have h48 : (2 : ℚ) ^ (-48 : ℤ) = 32 * 2 ^ (-53 : ℤ) := by norm_num
  have hw : (2 : ℚ) ^ (-1000 : ℤ) ≤ 2 ^ (-53 : ℤ) := zpow_le_zpow_right₀ (by norm_num) (by norm_num)
  have hH0 : (0 : ℚ) ≤ H := by positivity
  rw [h48, two_52_53]
  clear hv h48
  generalize (2 : ℚ) ^ (-1000 : ℤ) = w at *
  generalize (2 : ℚ) ^ (-53 : ℤ) = u at *
  have := mul_nonneg hH0 hu0
  linarith

/-- True reaches 10, 20 and 40 predicted as 5, 15 and 50: the relative errors 1/2, 1/4 and -1/4 have variance
7/72, which on floats is 0.09722222222222222. -/
example : (∀ t ∈ ([10, 20, 40] : List ℚ), 1 ≤ t) ∧
    varRelativeErrorFl round64 leftOrder [10, 20, 40] [5, 15, 50] ≠ 7 / 72 ∧
    |varRelativeErrorFl round64 leftOrder [10, 20, 40] [5, 15, 50] - 7 / 72| ≤ 1 / 2 ^ 56 := by
  decide +kernel

theorem square_err (F d : ℚ) (h : |F - d| ≤ 2 ^ (-48 : ℤ)) (hd : |d| ≤ 1) :
    |round64 (F * F) - d * d| ≤ 2 ^ (-46 : ℤ) := by
  have h1 := round64_err (F * F)
  have hu0 : (0 : ℚ) ≤ 2 ^ (-53 : ℤ) := (two_zpow_pos _).le
  have h48 : (2 : ℚ) ^ (-48 : ℤ) = 32 * 2 ^ (-53 : ℤ) := by norm_num
  have h46 : (2 : ℚ) ^ (-46 : ℤ) = 128 * 2 ^ (-53 : ℤ) := by norm_num
  have hu : (2 : ℚ) ^ (-53 : ℤ) ≤ 1 / 1000 := by norm_num
  have hη := hundred_eta
  have hη0 : (0 : ℚ) ≤ 2 ^ (-1075 : ℤ) := (two_zpow_pos _).le
  rw [h48] at h
  rw [h46]
  clear h48 h46
  generalize round64 (F * F) = q at *
  generalize (2 : ℚ) ^ (-53 : ℤ) = u at *
  generalize (2 : ℚ) ^ (-1075 : ℤ) = η at *
  have k1 : |F| ≤ 11 / 10 := by
    have := abs_add_le d (F - d)
    rw [add_sub_cancel] at this
    linarith
  have k2 : |F * F - d * d| ≤ 32 * u * (21 / 10) := by
    rw [show F * F - d * d = (F - d) * (F + d) by ring, abs_mul]
    apply mul_le_mul h _ (abs_nonneg _) (by positivity)
    have := abs_add_le F d
    linarith
  have k3 : |F * F| ≤ 11 / 10 * (11 / 10) := by
    rw [abs_mul]
    exact mul_le_mul k1 k1 (abs_nonneg _) (by norm_num)
  have k4 := mul_le_mul_of_nonneg_left k3 hu0
  have k5 : |q - d * d| ≤ |q - F * F| + |F * F - d * d| := abs_sub_le _ _ _
  linarith

/-- **C68 (floats, mean squared shuffle distance).** On floats, in whatever order numpy adds, the mean squared
shuffle distance differs from the exact one by at most `(2 H + 66) 2^-52`. -/
theorem C68_float_mean_squared_shuffle (x y : List ReachPoint) (kss lss : List (List ℚ))
    (hx : Made x kss) (hy : Made y lss) (hl : x.length = y.length) (hne : x ≠ [])
    (hn : ∀ ks ∈ kss ++ lss, NonnegHist ks ∧ ClearHist ks) (row : Row) (h : aggregate x y = .ok row)
    (order : List ℚ → AddTree) (H : Nat) (ho : AddsAll order x.length H) (ho5 : AddsAll order 5 4)
    (hH : H ≤ 2 ^ 40) :
    ∃ m F, ("mean_squared_shuffle_distance", Cell.float (some m)) ∈ row ∧
      meanSquaredShuffleDistanceFl round64 order x y = .ok F ∧
      |F - m| ≤ (2 * H + 66) * 2 ^ (-52 : ℤ) := by
  obtain ⟨ds, hd, -, hm, -⟩ := C68_shuffle x y kss lss hx hy hl hne (fun ks hks => (hn ks hks).1) row h
  obtain ⟨L, rfl, l2, l3⟩ := shuffle_pairs x y kss lss hx hy hl hn order ho5 ds hd
  have hlen : L.length = x.length := by
    have := hd.length_eq
    rw [List.length_zip, ← hl, min_self, List.length_map] at this
    exact this.symm
  have h1 : 1 ≤ x.length := List.length_pos_iff.2 hne
  have hv := meanFl_err (fun p : ℚ × ℚ => round64 (p.1 * p.1)) (fun p => p.2 * p.2) (fun _ => 1)
    (2 ^ (-46 : ℤ)) 0 L (by norm_num)
    (two_zpow_pos _).le le_rfl (fun p hp => by
      rw [mul_one, add_zero]
      exact square_err p.1 p.2 (l3 p hp).1 (l3 p hp).2)
    (fun p hp => by
      rw [abs_mul]
      exact mul_le_one₀ (l3 p hp).2 (abs_nonneg _) (l3 p hp).2)
    (by rw [hlen]; exact h1) order H (by rw [hlen]; exact ho) hH
  rw [List.map_map] at hm
  refine ⟨_, meanFl round64 order ((L.map Prod.fst).map (fun d => round64 (d * d))), hm, ?_, ?_⟩
  · unfold meanSquaredShuffleDistanceFl
    rw [l2]
    rfl
  rw [List.map_map]
  have e1 : (L.map (fun _ => (1 : ℚ))).sum / L.length = 1 := by
    have : (0 : ℚ) < L.length := by rw [hlen]; exact_mod_cast h1
    rw [List.map_const', List.sum_replicate, nsmul_eq_mul, mul_one, div_self this.ne']
  rw [e1, hlen] at hv
  refine hv.trans ?_
  have hu0 : (0 : ℚ) ≤ 2 ^ (-53 : ℤ) := (two_zpow_pos _).le
  have hη0 : (0 : ℚ) ≤ 2 ^ (-1075 : ℤ) := (two_zpow_pos _).le
  have h46 : (2 : ℚ) ^ (-46 : ℤ) = 128 * 2 ^ (-53 : ℤ) := by norm_num
  have hηu := hundred_eta
  have hH0 : (0 : ℚ) ≤ H := by positivity
  rw [h46, two_52_53]
  clear hv h46
  generalize (2 : ℚ) ^ (-53 : ℤ) = u at *
  generalize (2 : ℚ) ^ (-1075 : ℤ) = η at *
  have := mul_nonneg hH0 hu0
  linarith

end Verif
