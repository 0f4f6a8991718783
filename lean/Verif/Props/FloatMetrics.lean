import Verif.Props.FloatUnion
import Verif.Props.Aggregator
import Verif.Model.FloatMetrics

/-!
# C68: the accuracy statistics on floats
-/

namespace Verif

/-! ## Rounding negative numbers -/

theorem roundHalfEven_neg (x : ℚ) : roundHalfEven (-x) = -roundHalfEven x := by
  have h0 := Int.floor_le x
  have h1 := Int.lt_floor_add_one x
  by_cases hx : x = ⌊x⌋
  · rw [hx, show (-((⌊x⌋ : ℤ) : ℚ)) = ((-⌊x⌋ : ℤ) : ℚ) by push_cast; rfl, roundHalfEven_int,
      roundHalfEven_int]
  · have hlt : (⌊x⌋ : ℚ) < x := lt_of_le_of_ne h0 (fun e => hx e.symm)
    have hf : ⌊-x⌋ = -⌊x⌋ - 1 := by
      rw [Int.floor_eq_iff]
      push_cast
      constructor <;> linarith
    unfold roundHalfEven
    rw [hf]
    push_cast
    split_ifs <;> first | omega | (exfalso; linarith)

theorem round64_neg (x : ℚ) : round64 (-x) = -round64 x := by
  have hu : ulp64 (-x) = ulp64 x := by unfold ulp64; rw [abs_neg]
  unfold round64
  rw [hu, neg_div, roundHalfEven_neg]
  push_cast
  ring

theorem round64_abs (x : ℚ) : |round64 x| = round64 |x| := by
  rcases le_total 0 x with h | h
  · rw [abs_of_nonneg h, abs_of_nonneg (round64_nonneg x h)]
  · have := round64_nonneg (-x) (by linarith)
    rw [round64_neg] at this
    rw [abs_of_nonpos h, round64_neg, abs_of_nonpos (by linarith)]

/-! ## Sums -/

/-- Zero or not tiny. -/
def ZeroOr (t x : ℚ) : Prop := x = 0 ∨ t ≤ x

theorem CloseFl.mono {u : ℚ} {n m : ℕ} {a b : ℚ} (h0 : 0 ≤ u) (h1 : u < 1) (h : CloseFl u n a b)
    (hnm : n ≤ m) : CloseFl u m a b := h.imp id (fun h => h.mono h0 h1 hnm)

theorem CloseFl.add {u : ℚ} {n : ℕ} {a b c d : ℚ} (h : CloseFl u n a b) (h' : CloseFl u n c d) :
    CloseFl u n (a + c) (b + d) := by
  rcases h with ⟨rfl, rfl⟩ | h
  · rwa [zero_add, zero_add]
  rcases h' with ⟨rfl, rfl⟩ | h'
  · rw [add_zero, add_zero]; exact Or.inr h
  · exact Or.inr (h.add h')

theorem CloseFl.trans {u : ℚ} {n m : ℕ} {a b c : ℚ} (h1 : u < 1) (h : CloseFl u n a b)
    (h' : CloseFl u m b c) : CloseFl u (n + m) a c := by
  rcases h with ⟨rfl, rfl⟩ | h
  · rcases h' with ⟨-, rfl⟩ | h'
    · exact Or.inl ⟨rfl, rfl⟩
    · exact absurd h'.apos (lt_irrefl _)
  · rcases h' with ⟨rfl, rfl⟩ | h'
    · exact absurd h.bpos (lt_irrefl _)
    · exact Or.inr (h.trans h1 h')

theorem CloseFl.rnd {rnd : ℚ → ℚ} {u t : ℚ} {n : ℕ} {a b : ℚ} (hr : RelRounding rnd u t) (h1 : u < 1)
    (h : CloseFl u n a b) (ha : ZeroOr t a) : CloseFl u (n + 1) (rnd a) b := by
  rcases h with ⟨rfl, rfl⟩ | h
  · exact Or.inl ⟨hr.zero, rfl⟩
  · rcases ha with rfl | ha
    · exact absurd h.apos (lt_irrefl _)
    · exact Or.inr (h.rnd hr h1 ha)

theorem CloseFl.div {u : ℚ} {n m : ℕ} {a b c d : ℚ} (h1 : u < 1) (h : CloseFl u n a b)
    (h' : NearFl u m c d) : CloseFl u (n + m) (a / c) (b / d) := by
  rcases h with ⟨rfl, rfl⟩ | h
  · exact Or.inl ⟨zero_div _, zero_div _⟩
  · exact Or.inr (h.div h1 h')

theorem CloseFl.mul {u : ℚ} {n m : ℕ} {a b c d : ℚ} (h1 : u < 1) (h : CloseFl u n a b)
    (h' : CloseFl u m c d) : CloseFl u (n + m) (a * c) (b * d) := by
  rcases h with ⟨rfl, rfl⟩ | h
  · exact Or.inl ⟨zero_mul _, zero_mul _⟩
  rcases h' with ⟨rfl, rfl⟩ | h'
  · exact Or.inl ⟨mul_zero _, mul_zero _⟩
  · exact Or.inr (h.mul h1 h')

/-- A few roundings do not make a number tiny. -/
theorem CloseFl.zeroOr {u T : ℚ} {n : ℕ} {a b : ℚ} (h0 : 0 ≤ u) (h1 : u < 1) (hn : (n : ℚ) * u ≤ 1 / 2)
    (h : CloseFl u n a b) (hb : ZeroOr (2 * T) b) : ZeroOr T a := by
  rcases h with ⟨rfl, -⟩ | h
  · exact Or.inl rfl
  · rcases hb with rfl | hb
    · exact absurd h.bpos (lt_irrefl _)
    · exact Or.inr (by linarith [(h.factor h0 h1 hn).1])

theorem AddTree.close {rnd : ℚ → ℚ} {u t : ℚ} (hr : RelRounding rnd u t) (h1 : u < 1) :
    ∀ T : AddTree, (∀ x ∈ T.values, ZeroOr t x) →
    CloseFl u T.height (T.sumFl rnd) T.values.sum ∧ ZeroOr t (T.sumFl rnd)
  | .leaf x, h => by
    have hx := h x (by simp [values])
    refine ⟨?_, hx⟩
    rcases hx with rfl | hx
    · exact Or.inl ⟨rfl, by simp [values]⟩
    · refine Or.inr ?_
      simpa [values, sumFl, height] using NearFl.refl (u := u) (hr.mpos.trans_le hx)
  | .node l r, h => by
    have h0 := hr.unn
    obtain ⟨l1, l2⟩ := AddTree.close hr h1 l (fun x hx => h x (by simp [values, hx]))
    obtain ⟨r1, r2⟩ := AddTree.close hr h1 r (fun x hx => h x (by simp [values, hx]))
    have hz : ZeroOr t (l.sumFl rnd + r.sumFl rnd) := by
      have ht := hr.mpos
      rcases l2 with e | e <;> rcases r2 with e' | e'
      · left; rw [e, e', add_zero]
      · right; linarith
      · right; linarith
      · right; linarith
    have hadd := (l1.mono h0 h1 (le_max_left l.height r.height)).add
      (r1.mono h0 h1 (le_max_right l.height r.height))
    simp only [values, sumFl, height, List.sum_append]
    refine ⟨hadd.rnd hr h1 hz, ?_⟩
    rcases hz with e | e
    · left; rw [e]; exact hr.zero
    · right; exact hr.keep _ e

theorem CloseFl.sum {u : ℚ} {c : ℕ} {lf le : List ℚ} (h : List.Forall₂ (CloseFl u c) lf le) :
    CloseFl u c lf.sum le.sum := by
  induction h with
  | nil => exact Or.inl ⟨rfl, rfl⟩
  | cons h _ ih =>
    rw [List.sum_cons, List.sum_cons]
    exact h.add ih

/-- The order adds every entry once, with at most `H` additions on the way to the sum. -/
def AddsAll (order : List ℚ → AddTree) (n H : Nat) : Prop :=
  ∀ l : List ℚ, l.length = n → (order l).values.Perm l ∧ (order l).height ≤ H

theorem meanFl_close {rnd : ℚ → ℚ} {u t : ℚ} (hr : RelRounding rnd u t) (h1 : u < 1)
    (order : List ℚ → AddTree) (n H c : Nat) (ho : AddsAll order n H) (hn : 1 ≤ n)
    (hu : ((H + c : ℕ) : ℚ) * u ≤ 1 / 2) (lf le : List ℚ) (hl : lf.length = n)
    (h : List.Forall₂ (CloseFl u c) lf le) (hle : ∀ e ∈ le, ZeroOr (4 * (n * t)) e) :
    CloseFl u (H + c + 1) (meanFl rnd order lf) (le.sum / n) := by
  have h0 := hr.unn
  have ht := hr.mpos
  have hn' : (1 : ℚ) ≤ n := by exact_mod_cast hn
  have hnt : t ≤ n * t := by nlinarith
  have hcu : (c : ℚ) * u ≤ 1 / 2 := by
    refine le_trans (mul_le_mul_of_nonneg_right ?_ h0) hu
    push_cast
    linarith [Nat.cast_nonneg (α := ℚ) H]
  obtain ⟨hperm, hheight⟩ := ho lf hl
  have hleaf : ∀ x ∈ (order lf).values, ZeroOr t x := by
    intro x hx
    obtain ⟨i, hi, rfl⟩ := List.getElem_of_mem (hperm.mem_iff.1 hx)
    have hi' : i < le.length := by rw [← h.length_eq]; exact hi
    have := (h.get hi hi').zeroOr h0 h1 hcu (T := 2 * (n * t))
      (by rw [← mul_assoc]; norm_num; exact hle _ (List.getElem_mem hi'))
    rcases this with e | e
    · exact Or.inl e
    · right
      have : lf.get ⟨i, hi⟩ = lf[i] := rfl
      rw [this] at e
      linarith
  obtain ⟨s1, -⟩ := AddTree.close hr h1 (order lf) hleaf
  rw [hperm.sum_eq] at s1
  have s2 := (s1.mono h0 h1 hheight).trans h1 (CloseFl.sum h)
  have hsum : ZeroOr (4 * (n * t)) le.sum := by
    clear s2 s1 h hl
    induction le with
    | nil => exact Or.inl rfl
    | cons e le ih =>
      have a1 := hle e (by simp)
      have a2 := ih (fun x hx => hle x (by simp [hx]))
      rw [List.sum_cons]
      rcases a1 with rfl | a1 <;> rcases a2 with a2 | a2
      · left; rw [a2, add_zero]
      · right; linarith
      · right; linarith
      · right; linarith
  have s3 := s2.zeroOr h0 h1 hu (T := 2 * (n * t)) (by rw [← mul_assoc]; norm_num; exact hsum)
  have s4 : CloseFl u (H + c + 0) ((order lf).sumFl rnd / lf.length) (le.sum / n) := by
    rw [hl]
    exact s2.div h1 (NearFl.refl (by linarith))
  unfold meanFl
  refine s4.rnd hr h1 ?_
  rw [hl]
  rcases s3 with e | e
  · left; rw [e, zero_div]
  · right
    rw [le_div_iff₀ (by linarith)]
    linarith

/-! ## The statistics -/

section

variable {rnd : ℚ → ℚ} {u t b : ℚ}

theorem metric_diff (hr : RelRounding rnd u t) (h1 : u < 1) (habs : ∀ z, |rnd z| = rnd |z|)
    (hb : t ≤ b) (x y : ℚ) (h : x = y ∨ b ≤ |x - y|) :
    CloseFl u 1 |rnd (x - y)| |x - y| ∧ ZeroOr b |x - y| := by
  rcases h with rfl | h
  · rw [sub_self, hr.zero, abs_zero]
    exact ⟨Or.inl ⟨rfl, rfl⟩, Or.inl rfl⟩
  · rw [habs]
    exact ⟨Or.inr ((NearFl.refl (hr.mpos.trans_le (hb.trans h))).rnd hr h1 (hb.trans h)), Or.inr h⟩

theorem metric_square (hr : RelRounding rnd u t) (hu : u ≤ 1 / 100) (habs : ∀ z, |rnd z| = rnd |z|)
    (hb1 : b ≤ 1) (ht : 16 * t ≤ b ^ 4) (hb0 : 0 < b) (x y : ℚ) (h : x = y ∨ b ≤ |x - y|) :
    CloseFl u 3 (rnd (rnd (x - y) * rnd (x - y))) ((x - y) * (x - y)) ∧
      ZeroOr (b ^ 2) ((x - y) * (x - y)) := by
  have h1 : u < 1 := by linarith
  have h0 := hr.unn
  have ht0 := hr.mpos
  have b4 : b ^ 4 ≤ b ^ 2 := pow_le_pow_of_le_one hb0.le hb1 (by norm_num)
  have b2 : b ^ 2 ≤ b := by simpa using pow_le_pow_of_le_one hb0.le hb1 (show 1 ≤ 2 by norm_num)
  obtain ⟨d1, d2⟩ := metric_diff hr h1 habs (by linarith) x y h
  have d3 := d1.mul h1 d1
  rw [abs_mul_abs_self, abs_mul_abs_self] at d3
  have hz : ZeroOr (b ^ 2) ((x - y) * (x - y)) := by
    rcases d2 with e | e
    · left; rw [abs_eq_zero.1 e, zero_mul]
    · right
      rw [← abs_mul_abs_self, pow_two]
      exact mul_le_mul e e hb0.le (hb0.le.trans e)
  refine ⟨d3.rnd hr h1 (d3.zeroOr h0 h1 (by push_cast; linarith) ?_), hz⟩
  rcases hz with e | e
  · exact Or.inl e
  · right; linarith

theorem metric_relative (hr : RelRounding rnd u t) (hu : u ≤ 1 / 100) (habs : ∀ z, |rnd z| = rnd |z|)
    (hb1 : b ≤ 1) (ht : 16 * t ≤ b ^ 4) (hb0 : 0 < b) (x y : ℚ) (h : x = y ∨ b ≤ |x - y|)
    (hx : 1 ≤ x) (hxb : x * b ≤ 1) :
    CloseFl u 2 (rnd (|rnd (x - y)| / x)) (|x - y| / x) ∧ ZeroOr (b ^ 2) (|x - y| / x) := by
  have h1 : u < 1 := by linarith
  have h0 := hr.unn
  have ht0 := hr.mpos
  have b4 : b ^ 4 ≤ b ^ 2 := pow_le_pow_of_le_one hb0.le hb1 (by norm_num)
  have b2 : b ^ 2 ≤ b := by simpa using pow_le_pow_of_le_one hb0.le hb1 (show 1 ≤ 2 by norm_num)
  obtain ⟨d1, d2⟩ := metric_diff hr h1 habs (by linarith) x y h
  have d3 := d1.div h1 (NearFl.refl (u := u) (show 0 < x by linarith))
  have hz : ZeroOr (b ^ 2) (|x - y| / x) := by
    rcases d2 with e | e
    · left; rw [e, zero_div]
    · right
      rw [le_div_iff₀ (by linarith)]
      have := mul_le_mul_of_nonneg_left hxb hb0.le
      linarith
  refine ⟨d3.rnd hr h1 (d3.zeroOr h0 h1 (by push_cast; linarith) ?_), hz⟩
  rcases hz with e | e
  · exact Or.inl e
  · right; linarith

theorem metric_square_relative (hr : RelRounding rnd u t) (hu : u ≤ 1 / 100)
    (habs : ∀ z, |rnd z| = rnd |z|) (hb1 : b ≤ 1) (ht : 16 * t ≤ b ^ 4) (hb0 : 0 < b) (x y : ℚ)
    (h : x = y ∨ b ≤ |x - y|) (hx : 1 ≤ x) (hxb : x * b ≤ 1) :
    CloseFl u 5 (rnd (rnd (rnd (x - y) * rnd (x - y)) / rnd (x * x)))
      ((x - y) / x * ((x - y) / x)) ∧ ZeroOr (b ^ 4) ((x - y) / x * ((x - y) / x)) := by
  have h1 : u < 1 := by linarith
  have h0 := hr.unn
  have ht0 := hr.mpos
  have b4 : b ^ 4 ≤ 1 := pow_le_one₀ hb0.le hb1
  obtain ⟨d1, d2⟩ := metric_square hr hu habs hb1 ht hb0 x y h
  have hxx : 1 ≤ x * x := by nlinarith
  have hx1 : NearFl u 1 (rnd (x * x)) (x * x) :=
    NearFl.rnd hr h1 (NearFl.refl (by linarith)) (by linarith)
  have d3 := d1.div h1 hx1
  have e0 : (x - y) * (x - y) / (x * x) = (x - y) / x * ((x - y) / x) := by
    rw [div_mul_div_comm]
  rw [e0] at d3
  have hz : ZeroOr (b ^ 4) ((x - y) / x * ((x - y) / x)) := by
    rw [← e0]
    rcases d2 with e | e
    · left; rw [e, zero_div]
    · right
      rw [le_div_iff₀ (by linarith)]
      have e1 : (x * b) * (x * b) ≤ 1 * 1 := mul_le_mul hxb hxb (by positivity) (by norm_num)
      have e2 := mul_le_mul_of_nonneg_left e1 (pow_pos hb0 2).le
      have e3 : b ^ 2 * (x * b * (x * b)) = b ^ 4 * (x * x) := by ring
      linarith
  refine ⟨d3.rnd hr h1 (d3.zeroOr h0 h1 (by push_cast; linarith) ?_), hz⟩
  rcases hz with e | e
  · exact Or.inl e
  · right; linarith

end

theorem forall₂_zipWith {R : ℚ → ℚ → Prop} {P : ℚ → ℚ → Prop} (f g : ℚ → ℚ → ℚ)
    (h : ∀ x y, P x y → R (f x y) (g x y)) {a b : List ℚ} (hab : List.Forall₂ P a b) :
    List.Forall₂ R (List.zipWith f a b) (List.zipWith g a b) := by
  induction hab with
  | nil => exact .nil
  | cons hxy _ ih => exact .cons (h _ _ hxy) ih

theorem mem_zipWith_of {P : ℚ → ℚ → Prop} {Q : ℚ → Prop} (g : ℚ → ℚ → ℚ)
    (h : ∀ x y, P x y → Q (g x y)) {a b : List ℚ} (hab : List.Forall₂ P a b) :
    ∀ e ∈ List.zipWith g a b, Q e := by
  induction hab with
  | nil => intro e he; cases he
  | cons hxy _ ih =>
    intro e he
    rcases List.mem_cons.1 he with rfl | he
    · exact h _ _ hxy
    · exact ih e he

/-- One statistic: the mean of element-wise values. -/
theorem metric_mean (order : List ℚ → AddTree) (n H c : Nat) (ho : AddsAll order n H) (hn : 1 ≤ n)
    (hn40 : n ≤ 2 ^ 40) (hH : H + c ≤ 2 ^ 40) (P : ℚ → ℚ → Prop) (f g : ℚ → ℚ → ℚ) (e : ℕ)
    (he : e ≤ 4)
    (h : ∀ x y, P x y → CloseFl (2 ^ (-53 : ℤ)) c (f x y) (g x y) ∧
      ZeroOr ((2 ^ (-200 : ℤ)) ^ e) (g x y)) (a b : List ℚ) (hab : List.Forall₂ P a b)
    (hl : a.length = n) :
    CloseFl (2 ^ (-53 : ℤ)) (H + c + 1) (meanFl round64 order (List.zipWith f a b))
        ((List.zipWith g a b).sum / n) ∧
      |meanFl round64 order (List.zipWith f a b) - (List.zipWith g a b).sum / n| ≤
        ((H + c + 1 : ℕ) : ℚ) * 2 ^ (-52 : ℤ) * ((List.zipWith g a b).sum / n) := by
  have hult : (2 : ℚ) ^ (-53 : ℤ) < 1 := by norm_num
  have hu0 : (0 : ℚ) ≤ 2 ^ (-53 : ℤ) := (two_zpow_pos _).le
  have hH' : ((H + c : ℕ) : ℚ) ≤ 2 ^ 40 := by exact_mod_cast hH
  have hn' : (n : ℚ) ≤ 2 ^ 40 := by exact_mod_cast hn40
  have hu1 : ((H + c + 1 : ℕ) : ℚ) * 2 ^ (-53 : ℤ) ≤ 1 / 2 := by
    rw [Nat.cast_add]
    have : (((H + c : ℕ) : ℚ) + ((1 : ℕ) : ℚ)) * 2 ^ (-53 : ℤ) ≤ (2 ^ 40 + 1) * 2 ^ (-53 : ℤ) := by
      apply mul_le_mul_of_nonneg_right _ hu0
      push_cast at hH' ⊢
      linarith
    refine this.trans (by norm_num)
  have hu2 : ((H + c : ℕ) : ℚ) * 2 ^ (-53 : ℤ) ≤ 1 / 2 := by
    refine le_trans (mul_le_mul_of_nonneg_right ?_ hu0) hu1
    push_cast
    linarith
  have htiny : 4 * ((n : ℚ) * 2 ^ (-1022 : ℤ)) ≤ ((2 : ℚ) ^ (-200 : ℤ)) ^ e := by
    have e1 : (n : ℚ) * 2 ^ (-1022 : ℤ) ≤ 2 ^ (40 : ℤ) * 2 ^ (-1022 : ℤ) := by
      apply mul_le_mul_of_nonneg_right _ (two_zpow_pos _).le
      refine hn'.trans (le_of_eq ?_)
      norm_num
    have e2 : (4 : ℚ) = 2 ^ (2 : ℤ) := by norm_num
    rw [← zpow_natCast, ← zpow_mul]
    calc 4 * ((n : ℚ) * 2 ^ (-1022 : ℤ)) ≤ 4 * (2 ^ (40 : ℤ) * 2 ^ (-1022 : ℤ)) :=
          mul_le_mul_of_nonneg_left e1 (by norm_num)
      _ = 2 ^ (-980 : ℤ) := by
          rw [e2, ← zpow_add₀ (by norm_num), ← zpow_add₀ (by norm_num)]; norm_num
      _ ≤ _ := zpow_le_zpow_right₀ (by norm_num) (by omega)
  have hlf : (List.zipWith f a b).length = n := by
    rw [List.length_zipWith, ← hab.length_eq, min_self, hl]
  have key := meanFl_close relRounding64 hult order n H c ho hn hu2 _ _ hlf
    (forall₂_zipWith f g (fun x y hp => (h x y hp).1) hab)
    (mem_zipWith_of g (fun x y hp => (h x y hp).2.imp id (fun hz => htiny.trans hz)) hab)
  refine ⟨key, (key.abs_le hu0 hult hu1).trans (le_of_eq ?_)⟩
  rw [two_52_53]
  ring

/-- A true and a modelled reach that are equal or not extremely close. -/
def DifferOrEqual (x y : ℚ) : Prop := x = y ∨ 2 ^ (-200 : ℤ) ≤ |x - y|

/-- In addition the true reach is at least one person, and not huge. -/
def RelativePair (x y : ℚ) : Prop := DifferOrEqual x y ∧ 1 ≤ x ∧ x ≤ 2 ^ (200 : ℤ)

theorem tiny_4 : 16 * (2 : ℚ) ^ (-1022 : ℤ) ≤ ((2 : ℚ) ^ (-200 : ℤ)) ^ 4 := by
  rw [← zpow_natCast, ← zpow_mul]
  exact tiny_16 _ (by norm_num)

theorem two_200_le_one : (2 : ℚ) ^ (-200 : ℤ) ≤ 1 :=
  (zpow_le_zpow_right₀ (by norm_num) (by norm_num)).trans_eq (zpow_zero _)

theorem CloseFl.zero_iff {u : ℚ} {n : ℕ} {a b : ℚ} (h : CloseFl u n a b) : a = 0 ↔ b = 0 := by
  rcases h with ⟨rfl, rfl⟩ | h
  · simp
  · exact ⟨fun e => absurd h.apos (by rw [e]; exact lt_irrefl _),
      fun e => absurd h.bpos (by rw [e]; exact lt_irrefl _)⟩

theorem sum_abs_errs_zero {a b : List ℚ} (h : a.length = b.length) :
    (List.zipWith (fun x y : ℚ => |x - y|) a b).sum = 0 ↔ a = b := by
  induction a generalizing b with
  | nil => cases b with
    | nil => simp
    | cons _ _ => simp at h
  | cons x a ih => cases b with
    | nil => simp at h
    | cons y b =>
      simp only [List.length_cons, Nat.add_right_cancel_iff] at h
      rw [List.zipWith_cons_cons, List.sum_cons, List.cons.injEq, ← ih h]
      have h1 := abs_nonneg (x - y)
      have h2 : 0 ≤ (List.zipWith (fun x y : ℚ => |x - y|) a b).sum := by
        apply List.sum_nonneg
        intro z hz
        obtain ⟨i, hi, rfl⟩ := List.getElem_of_mem hz
        rw [List.getElem_zipWith]
        exact abs_nonneg _
      constructor
      · intro e
        exact ⟨sub_eq_zero.1 (abs_eq_zero.1 (by linarith)), by linarith⟩
      · rintro ⟨rfl, e⟩
        rw [e]; simp

/-- **C68 (floats).** Computed on floats, in whatever order numpy adds, the mean absolute error and the mean
squared error differ from the exact statistics by at most `(H + 2) 2^-52` and `(H + 4) 2^-52` of them, where
`H` is the number of additions one entry takes part in; and the mean absolute error is zero exactly if every
prediction is exact. -/
theorem C68_float_errors (x y : List ReachPoint) (a b : List ℚ) (ha : Reaches x a) (hb : Reaches y b)
    (hl : x.length = y.length) (hne : x ≠ []) (row : Row) (h : aggregate x y = .ok row)
    (hn : x.length ≤ 2 ^ 40) (order : List ℚ → AddTree) (H : Nat) (ho : AddsAll order x.length H)
    (hH : H + 3 ≤ 2 ^ 40) (hab : List.Forall₂ DifferOrEqual a b) :
    ∃ mae mse, ("mean_abs_error", Cell.float (some mae)) ∈ row ∧
      ("mean_squared_error", Cell.float (some mse)) ∈ row ∧
      |meanAbsErrorFl round64 order a b - mae| ≤ (H + 2) * 2 ^ (-52 : ℤ) * mae ∧
      |meanSquaredErrorFl round64 order a b - mse| ≤ (H + 4) * 2 ^ (-52 : ℤ) * mse ∧
      (meanAbsErrorFl round64 order a b = 0 ↔ a = b) := by
  obtain ⟨-, -, r1, r2, -⟩ := C68_errors x y a b ha hb hl hne row h
  have hn1 : 1 ≤ x.length := List.length_pos_iff.2 hne
  have hla : a.length = x.length := ha.length_eq.symm
  have hu : (2 : ℚ) ^ (-53 : ℤ) ≤ 1 / 100 := by norm_num
  have hult : (2 : ℚ) ^ (-53 : ℤ) < 1 := by norm_num
  have e1 : (errs a b).map (fun e => |e|) = List.zipWith (fun x y => |x - y|) a b := by
    unfold errs; rw [List.map_zipWith]
  have e2 : (errs a b).map (fun e => e * e) = List.zipWith (fun x y => (x - y) * (x - y)) a b := by
    unfold errs; rw [List.map_zipWith]
  rw [e1] at r1
  rw [e2] at r2
  have k1 := metric_mean order x.length H 1 ho hn1 hn (by omega) DifferOrEqual
    (fun x y => |round64 (x - y)|) (fun x y => |x - y|) 1 (by norm_num)
    (fun x y hp => by
      rw [pow_one]
      exact metric_diff relRounding64 hult round64_abs
        (zpow_le_zpow_right₀ (by norm_num) (by norm_num)) x y hp) a b hab hla
  have k2 := metric_mean order x.length H 3 ho hn1 hn (by omega) DifferOrEqual
    (fun x y => round64 (round64 (x - y) * round64 (x - y))) (fun x y => (x - y) * (x - y)) 2
    (by norm_num)
    (fun x y hp => metric_square relRounding64 hu round64_abs two_200_le_one tiny_4 (two_zpow_pos _) x y
      hp) a b hab hla
  refine ⟨_, _, r1, r2, ?_, ?_, ?_⟩
  · refine k1.2.trans (le_of_eq ?_)
    rw [show ((H + 1 + 1 : ℕ) : ℚ) = (H : ℚ) + 2 by push_cast; ring]
  · refine k2.2.trans (le_of_eq ?_)
    rw [show ((H + 3 + 1 : ℕ) : ℚ) = (H : ℚ) + 4 by push_cast; ring]
  · unfold meanAbsErrorFl
    rw [k1.1.zero_iff, div_eq_zero_iff, sum_abs_errs_zero hab.length_eq]
    have : ¬ (x.length : ℚ) = 0 := by
      intro e
      have : x.length = 0 := by exact_mod_cast e
      omega
    simp [this]

/-- **C68 (floats, relative errors).** The same for the mean absolute and the mean squared relative error if
every true reach is at least one person. -/
theorem C68_float_relative (x y : List ReachPoint) (a b : List ℚ) (ha : Reaches x a) (hb : Reaches y b)
    (hl : x.length = y.length) (hne : x ≠ []) (row : Row) (h : aggregate x y = .ok row)
    (hn : x.length ≤ 2 ^ 40) (order : List ℚ → AddTree) (H : Nat) (ho : AddsAll order x.length H)
    (hH : H + 5 ≤ 2 ^ 40) (hab : List.Forall₂ RelativePair a b) :
    ∃ mare msre, ("mean_abs_relative_error", Cell.float (some mare)) ∈ row ∧
      ("mean_squared_relative_error", Cell.float (some msre)) ∈ row ∧
      |meanAbsRelativeErrorFl round64 order a b - mare| ≤ (H + 3) * 2 ^ (-52 : ℤ) * mare ∧
      |meanSquaredRelativeErrorFl round64 order a b - msre| ≤ (H + 6) * 2 ^ (-52 : ℤ) * msre := by
  have hnz : ∀ t ∈ a, t ≠ 0 := by
    intro t ht
    obtain ⟨i, hi, rfl⟩ := List.getElem_of_mem ht
    have := (hab.get hi (by rw [← hab.length_eq]; exact hi)).2.1
    have : 1 ≤ a[i] := this
    linarith
  obtain ⟨r1, r2, -⟩ := C68_relative x y a b ha hb hl hne hnz row h
  have hn1 : 1 ≤ x.length := List.length_pos_iff.2 hne
  have hla : a.length = x.length := ha.length_eq.symm
  have hu : (2 : ℚ) ^ (-53 : ℤ) ≤ 1 / 100 := by norm_num
  unfold relErrs at r1
  rw [List.map_zipWith] at r2
  have hxb : ∀ x : ℚ, x ≤ 2 ^ (200 : ℤ) → x * 2 ^ (-200 : ℤ) ≤ 1 := by
    intro x hx
    refine (mul_le_mul_of_nonneg_right hx (two_zpow_pos _).le).trans (le_of_eq ?_)
    rw [← zpow_add₀ (by norm_num)]
    norm_num
  have k1 := metric_mean order x.length H 2 ho hn1 hn (by omega) RelativePair
    (fun x y => round64 (|round64 (x - y)| / x)) (fun x y => |x - y| / x) 2 (by norm_num)
    (fun x y hp => metric_relative relRounding64 hu round64_abs two_200_le_one tiny_4 (two_zpow_pos _) x y
      hp.1 hp.2.1 (hxb x hp.2.2)) a b hab hla
  have k2 := metric_mean order x.length H 5 ho hn1 hn (by omega) RelativePair
    (fun x y => round64 (round64 (round64 (x - y) * round64 (x - y)) / round64 (x * x)))
    (fun x y => (x - y) / x * ((x - y) / x)) 4 (by norm_num)
    (fun x y hp => metric_square_relative relRounding64 hu round64_abs two_200_le_one tiny_4
      (two_zpow_pos _) x y hp.1 hp.2.1 (hxb x hp.2.2)) a b hab hla
  refine ⟨_, _, r1, r2, ?_, ?_⟩
  · refine k1.2.trans (le_of_eq ?_)
    rw [show ((H + 2 + 1 : ℕ) : ℚ) = (H : ℚ) + 3 by push_cast; ring]
  · refine k2.2.trans (le_of_eq ?_)
    rw [show ((H + 5 + 1 : ℕ) : ℚ) = (H : ℚ) + 6 by push_cast; ring]

theorem AddTree.sumFl_id : ∀ T : AddTree, T.sumFl id = T.values.sum
  | .leaf x => by simp [sumFl, values]
  | .node l r => by simp [sumFl, values, AddTree.sumFl_id l, AddTree.sumFl_id r]

/-- C68: without rounding, and in whatever order, these are the statistics of the row. -/
theorem C68_float_exact (order : List ℚ → AddTree) (n H : Nat) (ho : AddsAll order n H) (a b : List ℚ)
    (ha : a.length = n) (hb : b.length = n) :
    meanAbsErrorFl id order a b = ((errs a b).map (fun e => |e|)).sum / n ∧
    meanSquaredErrorFl id order a b = ((errs a b).map (fun e => e * e)).sum / n ∧
    meanAbsRelativeErrorFl id order a b = (relErrs a b).sum / n ∧
    meanSquaredRelativeErrorFl id order a b =
      ((List.zipWith (fun t m => (t - m) / t) a b).map (fun r => r * r)).sum / n := by
  have key : ∀ f : ℚ → ℚ → ℚ, meanFl id order (List.zipWith f a b) = (List.zipWith f a b).sum / n := by
    intro f
    have hl : (List.zipWith f a b).length = n := by rw [List.length_zipWith, ha, hb, min_self]
    unfold meanFl
    rw [AddTree.sumFl_id, (ho _ hl).1.sum_eq, hl]
    rfl
  refine ⟨?_, ?_, ?_, ?_⟩
  · unfold errs; rw [List.map_zipWith]; exact key _
  · unfold errs; rw [List.map_zipWith]; exact key _
  · exact key _
  · rw [List.map_zipWith, ← show (fun x y : ℚ => (x - y) * (x - y) / (x * x)) =
      (fun x y => (x - y) / x * ((x - y) / x)) from by funext x y; rw [div_mul_div_comm]]
    exact key _

/-- Adding from the left to the right. -/
def leftOrder : List ℚ → AddTree
  | [] => .leaf 0
  | x :: l => l.foldl (fun t y => .node t (.leaf y)) (.leaf x)

theorem leftOrder_fold (l : List ℚ) : ∀ t : AddTree,
    (l.foldl (fun t y => AddTree.node t (.leaf y)) t).values = t.values ++ l ∧
    (l.foldl (fun t y => AddTree.node t (.leaf y)) t).height = t.height + l.length := by
  induction l with
  | nil => intro t; simp
  | cons y l ih =>
    intro t
    obtain ⟨h1, h2⟩ := ih (.node t (.leaf y))
    rw [List.foldl_cons, h1, h2]
    simp [AddTree.values, AddTree.height]
    omega

/-- Adding from the left to the right takes as many additions as there are further entries. -/
example (n : Nat) : AddsAll leftOrder (n + 1) n := by
  intro l hl
  obtain ⟨x, l, rfl⟩ := List.exists_cons_of_length_eq_add_one hl
  obtain ⟨h1, h2⟩ := leftOrder_fold l (.leaf x)
  simp only [List.length_cons, Nat.add_right_cancel_iff] at hl
  refine ⟨?_, ?_⟩
  · unfold leftOrder
    rw [h1]
    exact List.Perm.refl _
  · unfold leftOrder
    rw [h2, hl]
    simp [AddTree.height]

/-- True reaches 10, 20 and 30 predicted as 10, 19.5 and 31. -/
example : List.Forall₂ RelativePair [10, 20, 30] [10, 39 / 2, 31] := by
  have big : (30 : ℚ) ≤ 2 ^ (200 : ℤ) := by
    calc (30 : ℚ) ≤ 2 ^ (7 : ℤ) := by norm_num
      _ ≤ _ := zpow_le_zpow_right₀ (by norm_num) (by norm_num)
  have small : (2 : ℚ) ^ (-200 : ℤ) ≤ 1 / 2 := by
    calc (2 : ℚ) ^ (-200 : ℤ) ≤ 2 ^ (-1 : ℤ) := zpow_le_zpow_right₀ (by norm_num) (by norm_num)
      _ = 1 / 2 := by norm_num
  refine .cons ⟨Or.inl rfl, by norm_num, by linarith⟩ (.cons ⟨Or.inr ?_, by norm_num, by linarith⟩
    (.cons ⟨Or.inr ?_, by norm_num, big⟩ .nil))
  · rw [show |(20 : ℚ) - 39 / 2| = 1 / 2 by decide +kernel]; exact small
  · rw [show |(30 : ℚ) - 31| = 1 by decide +kernel]; exact small.trans (by norm_num)

theorem abs_sum_le_sum_map (l : List ℚ) : |l.sum| ≤ (l.map (fun x => |x|)).sum := by
  induction l with
  | nil => simp
  | cons z l ih =>
    simp only [List.map_cons, List.sum_cons]
    exact (abs_add_le _ _).trans (by linarith)

theorem AddTree.values_pos : ∀ T : AddTree, (1 : ℚ) ≤ (T.values.length : ℚ)
  | .leaf _ => by simp [values]
  | .node l r => by
    have h1 := AddTree.values_pos l
    have h2 := AddTree.values_pos r
    simp only [values, List.length_append, Nat.cast_add]
    linarith

/-- Adding numbers of any sign, in any order. -/
theorem AddTree.sumFl_err {rnd : ℚ → ℚ} {u e : ℚ} (h : ErrRounding rnd u e) : ∀ T : AddTree,
    |T.sumFl rnd - T.values.sum| ≤ ((1 + u) ^ T.height - 1) * (T.values.map (fun x => |x|)).sum +
      ((T.values.length : ℚ) - 1) * (1 + u) ^ T.height * e
  | .leaf x => by simp [sumFl, values, height]
  | .node l r => by
    have hu := h.u0
    have he := h.e0
    have h1 := AddTree.sumFl_err h l
    have h2 := AddTree.sumFl_err h r
    have hl := AddTree.values_pos l
    have hr := AddTree.values_pos r
    have hlg : (1 + u) ^ l.height ≤ (1 + u) ^ max l.height r.height :=
      pow_le_pow_right₀ (by linarith) (le_max_left _ _)
    have hrg : (1 + u) ^ r.height ≤ (1 + u) ^ max l.height r.height :=
      pow_le_pow_right₀ (by linarith) (le_max_right _ _)
    have hg1 : 1 ≤ (1 + u) ^ max l.height r.height := one_le_pow₀ (by linarith)
    have al : |l.values.sum| ≤ (l.values.map (fun x => |x|)).sum := by
      exact abs_sum_le_sum_map l.values
    have ar : |r.values.sum| ≤ (r.values.map (fun x => |x|)).sum := by
      exact abs_sum_le_sum_map r.values
    have hal := (abs_nonneg _).trans al
    have har := (abs_nonneg _).trans ar
    have h3 := h.err (l.sumFl rnd + r.sumFl rnd)
    simp only [sumFl, values, height, List.sum_append, List.map_append, List.length_append, Nat.cast_add]
    rw [pow_succ]
    generalize (1 + u) ^ max l.height r.height = g at *
    generalize (1 + u) ^ l.height = gl at *
    generalize (1 + u) ^ r.height = gr at *
    generalize (l.values.map (fun x => |x|)).sum = A at *
    generalize (r.values.map (fun x => |x|)).sum = B at *
    generalize (l.values.length : ℚ) = n at *
    generalize (r.values.length : ℚ) = m at *
    generalize l.values.sum = S at *
    generalize r.values.sum = R at *
    generalize l.sumFl rnd = s at *
    generalize r.sumFl rnd = q at *
    generalize rnd (s + q) = z at *
    have b1 : |s - S| ≤ (g - 1) * A + (n - 1) * g * e := by
      refine h1.trans (add_le_add (mul_le_mul_of_nonneg_right (by linarith) hal) ?_)
      exact mul_le_mul_of_nonneg_right (mul_le_mul_of_nonneg_left hlg (by linarith)) he
    have b2 : |q - R| ≤ (g - 1) * B + (m - 1) * g * e := by
      refine h2.trans (add_le_add (mul_le_mul_of_nonneg_right (by linarith) har) ?_)
      exact mul_le_mul_of_nonneg_right (mul_le_mul_of_nonneg_left hrg (by linarith)) he
    have b3 : |s + q| ≤ A + B + |s - S| + |q - R| := by
      have : s + q = (S + R) + ((s - S) + (q - R)) := by ring
      rw [this]
      have c1 := abs_add_le (S + R) ((s - S) + (q - R))
      have c2 := abs_add_le S R
      have c3 := abs_add_le (s - S) (q - R)
      linarith
    have b4 : |z - (S + R)| ≤ |z - (s + q)| + (|s - S| + |q - R|) := by
      have : z - (S + R) = (z - (s + q)) + ((s - S) + (q - R)) := by ring
      rw [this]
      have c1 := abs_add_le (z - (s + q)) ((s - S) + (q - R))
      have c3 := abs_add_le (s - S) (q - R)
      linarith
    have b5 := mul_le_mul_of_nonneg_left b3 hu
    have b6 := mul_le_mul_of_nonneg_left (add_le_add b1 b2) (show 0 ≤ 1 + u by linarith)
    have b7 : e ≤ g * (1 + u) * e := by
      have : (1 : ℚ) ≤ g * (1 + u) := by nlinarith
      nlinarith
    linarith

theorem sum_map_err {ι : Type} (f g z : ι → ℚ) (α τ : ℚ) : ∀ l : List ι,
    (∀ i ∈ l, |f i - g i| ≤ α * z i + τ) → (∀ i ∈ l, |g i| ≤ z i) →
    |(l.map f).sum - (l.map g).sum| ≤ α * (l.map z).sum + l.length * τ ∧
      ((l.map f).map (fun x => |x|)).sum ≤ (1 + α) * (l.map z).sum + l.length * τ ∧
      |(l.map g).sum| ≤ (l.map z).sum := by
  intro l hf hg
  induction l with
  | nil => simp
  | cons i l ih =>
    obtain ⟨i1, i2, i3⟩ := ih (fun j hj => hf j (List.mem_cons_of_mem _ hj))
      (fun j hj => hg j (List.mem_cons_of_mem _ hj))
    have h1 := hf i List.mem_cons_self
    have h2 := hg i List.mem_cons_self
    simp only [List.map_cons, List.sum_cons, List.length_cons] at *
    push_cast
    refine ⟨?_, ?_, ?_⟩
    · have e : f i + (l.map f).sum - (g i + (l.map g).sum) =
          (f i - g i) + ((l.map f).sum - (l.map g).sum) := by ring
      rw [e]
      have := abs_add_le (f i - g i) ((l.map f).sum - (l.map g).sum)
      linarith
    · have := abs_add_le (g i) (f i - g i)
      rw [add_sub_cancel] at this
      linarith
    · exact (abs_add_le _ _).trans (by linarith)

/-- The mean, on floats, of numbers that are close to others. -/
theorem meanFl_err {ι : Type} (f g z : ι → ℚ) (α τ : ℚ) (l : List ι) (hα : α ≤ 1 / 100)
    (hα0 : 0 ≤ α) (hτ0 : 0 ≤ τ)
    (hf : ∀ i ∈ l, |f i - g i| ≤ α * z i + τ) (hg : ∀ i ∈ l, |g i| ≤ z i) (hl : 1 ≤ l.length)
    (order : List ℚ → AddTree) (H : Nat) (ho : AddsAll order l.length H) (hH : H ≤ 2 ^ 40) :
    |meanFl round64 order (l.map f) - (l.map g).sum / l.length| ≤
      ((21 / 10 * H + 1) * 2 ^ (-53 : ℤ) + 101 / 100 * α) * ((l.map z).sum / l.length) + 2 * τ +
        4 * 2 ^ (-1075 : ℤ) := by
  obtain ⟨d1, d2, d3⟩ := sum_map_err f g z α τ l hf hg
  unfold meanFl
  rw [List.length_map]
  obtain ⟨hperm, hheight⟩ := ho (l.map f) (List.length_map _)
  have hs := AddTree.sumFl_err errRounding64 (order (l.map f))
  rw [hperm.sum_eq, (hperm.map _).sum_eq, hperm.length_eq, List.length_map] at hs
  have hu0 : (0 : ℚ) ≤ 2 ^ (-53 : ℤ) := (two_zpow_pos _).le
  have hu : (2 : ℚ) ^ (-53 : ℤ) ≤ 1 / 100 := by norm_num
  have hη0 : (0 : ℚ) ≤ 2 ^ (-1075 : ℤ) := (two_zpow_pos _).le
  have hH' : (H : ℚ) ≤ 2 ^ 40 := by exact_mod_cast hH
  have hHu : (H : ℚ) * 2 ^ (-53 : ℤ) ≤ 1 / 1000 := by
    refine (mul_le_mul_of_nonneg_right hH' hu0).trans (by norm_num)
  have hg2 : (1 + (2 : ℚ) ^ (-53 : ℤ)) ^ (order (l.map f)).height ≤ 1 + 2 * (H * 2 ^ (-53 : ℤ)) :=
    (pow_le_pow_right₀ (by linarith) hheight).trans (one_add_pow_le _ hu0 H (by linarith))
  have hg1 : 1 ≤ (1 + (2 : ℚ) ^ (-53 : ℤ)) ^ (order (l.map f)).height := one_le_pow₀ (by linarith)
  have hr := errRounding64.err ((order (l.map f)).sumFl round64 / l.length)
  have hn0 : (1 : ℚ) ≤ l.length := by exact_mod_cast hl
  have hH0 : (0 : ℚ) ≤ H := by positivity
  have hD0 : 0 ≤ (l.map z).sum := (abs_nonneg _).trans d3
  clear hf hg ho hH hH' hperm hheight
  generalize (order (l.map f)).sumFl round64 = s at *
  generalize (1 + (2 : ℚ) ^ (-53 : ℤ)) ^ (order (l.map f)).height = γ at *
  generalize ((l.map f).map (fun x => |x|)).sum = A at *
  generalize (l.map f).sum = S at *
  generalize (l.map z).sum = D at *
  generalize (l.map g).sum = E at *
  generalize round64 (s / l.length) = y at *
  generalize (l.length : ℚ) = n at *
  generalize (2 : ℚ) ^ (-53 : ℤ) = u at *
  generalize (2 : ℚ) ^ (-1075 : ℤ) = η at *
  generalize (H : ℚ) = P at *
  have hn' : 0 < n := by linarith
  have k1 : |s - E| ≤ (203 / 100 * (P * u) + α) * D + (101 / 100 * (n * τ) + 2 * (n * η)) := by
    have c1 : (γ - 1) * A ≤ 2 * (P * u) * ((1 + α) * D + n * τ) := by
      have hA : 0 ≤ (1 + α) * D + n * τ := by positivity
      calc (γ - 1) * A ≤ (γ - 1) * ((1 + α) * D + n * τ) := mul_le_mul_of_nonneg_left d2 (by linarith)
        _ ≤ _ := mul_le_mul_of_nonneg_right (by linarith) hA
    have c2 : (n - 1) * γ * η ≤ n * 2 * η := by
      apply mul_le_mul_of_nonneg_right _ hη0
      exact mul_le_mul (by linarith) (by linarith) (by linarith) (by linarith)
    have c3 : |s - E| ≤ |s - S| + |S - E| := abs_sub_le _ _ _
    have c4 : P * u * (n * τ) ≤ 1 / 1000 * (n * τ) := mul_le_mul_of_nonneg_right hHu (by positivity)
    have c5 : P * u * (α * D) ≤ P * u * (1 / 100 * D) :=
      mul_le_mul_of_nonneg_left (mul_le_mul_of_nonneg_right hα hD0) (by positivity)
    have c6 : 0 ≤ P * u * D := by positivity
    have c7 : 0 ≤ n * τ := by positivity
    linarith
  have k2 : |y - E / n| ≤ u * |s / n| + η + |s - E| / n := by
    have c1 : |y - E / n| ≤ |y - s / n| + |s / n - E / n| := abs_sub_le _ _ _
    have c2 : |s / n - E / n| = |s - E| / n := by rw [← sub_div, abs_div, abs_of_pos hn']
    linarith
  have k3 : |s / n| ≤ (D + |s - E|) / n := by
    rw [abs_div, abs_of_pos hn']
    apply div_le_div_of_nonneg_right _ hn'.le
    have := abs_add_le E (s - E)
    rw [add_sub_cancel] at this
    linarith
  have k4 : u * |s / n| + |s - E| / n ≤ (u * D + 101 / 100 * |s - E|) / n := by
    have c1 := mul_le_mul_of_nonneg_left k3 hu0
    have c2 : u * ((D + |s - E|) / n) + |s - E| / n = (u * D + (1 + u) * |s - E|) / n := by ring
    have c3 : (u * D + (1 + u) * |s - E|) / n ≤ (u * D + 101 / 100 * |s - E|) / n := by
      apply div_le_div_of_nonneg_right _ hn'.le
      have := mul_le_mul_of_nonneg_right (show 1 + u ≤ 101 / 100 by linarith) (abs_nonneg (s - E))
      linarith
    linarith
  have k5 : (u * D + 101 / 100 * |s - E|) / n ≤
      (u * D + 101 / 100 * ((203 / 100 * (P * u) + α) * D + (101 / 100 * (n * τ) + 2 * (n * η)))) / n := by
    apply div_le_div_of_nonneg_right _ hn'.le
    linarith
  have k6 : (u * D + 101 / 100 * ((203 / 100 * (P * u) + α) * D +
      (101 / 100 * (n * τ) + 2 * (n * η)))) / n =
      (u + 101 / 100 * (203 / 100 * (P * u) + α)) * (D / n) +
        101 / 100 * (101 / 100 * τ + 2 * η) := by
    field_simp
    ring
  have k7 : 0 ≤ u * (D / n) := by positivity
  have k8 : 0 ≤ P * (u * (D / n)) := by positivity
  linarith

/-- One squared deviation. -/
theorem sqDev_err (e m mh M P : ℚ) (hP : 0 ≤ P) (hPu : (P + 1) * 2 ^ (-53 : ℤ) ≤ 1 / 1000)
    (hm : |m| ≤ M)
    (hmh : |mh - m| ≤ 5 * (P + 1) * 2 ^ (-53 : ℤ) * M + 6 * 2 ^ (-1075 : ℤ)) :
    |round64 (round64 (round64 e - mh) * round64 (round64 e - mh)) - (e - m) ^ 2| ≤
      19 * (P + 1) * 2 ^ (-53 : ℤ) * (|e| + M) ^ 2 + 21 * 2 ^ (-1075 : ℤ) := by
  have hu0 : (0 : ℚ) ≤ 2 ^ (-53 : ℤ) := (two_zpow_pos _).le
  have hu : (2 : ℚ) ^ (-53 : ℤ) ≤ 1 / 1000 := by norm_num
  have hη0 : (0 : ℚ) ≤ 2 ^ (-1075 : ℤ) := (two_zpow_pos _).le
  have hηu : 100 * (2 : ℚ) ^ (-1075 : ℤ) ≤ 2 ^ (-53 : ℤ) := by
    calc 100 * (2 : ℚ) ^ (-1075 : ℤ) ≤ 2 ^ (7 : ℤ) * (2 : ℚ) ^ (-1075 : ℤ) :=
          mul_le_mul_of_nonneg_right (by norm_num) hη0
      _ = 2 ^ (-1068 : ℤ) := by rw [← zpow_add₀ (by norm_num)]; norm_num
      _ ≤ _ := zpow_le_zpow_right₀ (by norm_num) (by norm_num)
  have r1 := round64_err e
  have r2 := round64_err (round64 e - mh)
  have r3 := round64_err (round64 (round64 e - mh) * round64 (round64 e - mh))
  generalize round64 (round64 (round64 e - mh) * round64 (round64 e - mh)) = q at *
  generalize round64 (round64 e - mh) = d at *
  generalize round64 e = f at *
  generalize (2 : ℚ) ^ (-53 : ℤ) = u at *
  generalize (2 : ℚ) ^ (-1075 : ℤ) = η at *
  have he := abs_nonneg e
  have hM : 0 ≤ M := (abs_nonneg m).trans hm
  have hPuM : (P + 1) * u * M ≤ 1 / 1000 * M := mul_le_mul_of_nonneg_right hPu hM
  have s1 : |f - mh| ≤ 2 * (|e| + M) + 7 * η := by
    have : f - mh = (f - e) + (e + (-(mh - m) + -m)) := by ring
    rw [this]
    have c1 := abs_add_le (f - e) (e + (-(mh - m) + -m))
    have c2 := abs_add_le e (-(mh - m) + -m)
    have c3 := abs_add_le (-(mh - m)) (-m)
    rw [abs_neg, abs_neg] at c3
    have c4 := mul_le_mul_of_nonneg_right hu he
    linarith
  have s2 : |d - (e - m)| ≤ 8 * ((P + 1) * u) * (|e| + M) + 9 * η := by
    have : d - (e - m) = (d - (f - mh)) + ((f - e) + -(mh - m)) := by ring
    rw [this]
    have c1 := abs_add_le (d - (f - mh)) ((f - e) + -(mh - m))
    have c2 := abs_add_le (f - e) (-(mh - m))
    rw [abs_neg] at c2
    have c4 := mul_le_mul_of_nonneg_left s1 hu0
    have c5 := mul_le_mul_of_nonneg_right hu hη0
    have c6 : 0 ≤ P * u * |e| := by positivity
    have c7 : 0 ≤ P * u * M := by positivity
    have c8 : 0 ≤ u * |e| := by positivity
    have c9 : 0 ≤ u * M := by positivity
    linarith
  have s3 : |e - m| ≤ |e| + M := by
    have c3 := abs_add_le e (-m)
    rw [abs_neg, ← sub_eq_add_neg] at c3
    linarith
  have hw : 0 ≤ |e| + M := by positivity
  have hρ0 : 0 ≤ (P + 1) * u := by positivity
  have huρ : u ≤ (P + 1) * u := by nlinarith
  rw [show 19 * (P + 1) * u * (|e| + M) ^ 2 = 19 * ((P + 1) * u) * (|e| + M) ^ 2 by ring]
  generalize (P + 1) * u = ρ at *
  generalize |e| + M = w at *
  generalize e - m = x at *
  have t1 : |d| ≤ (1 + 8 * ρ) * w + 9 * η := by
    have := abs_add_le x (d - x)
    rw [add_sub_cancel] at this
    linarith
  have t2 : |d * d - x ^ 2| ≤ (8 * ρ * w + 9 * η) * ((2 + 8 * ρ) * w + 9 * η) := by
    rw [show d * d - x ^ 2 = (d - x) * (d + x) by ring, abs_mul]
    apply mul_le_mul s2 _ (abs_nonneg _) (by positivity)
    have := abs_add_le d x
    linarith
  have t3 : |d * d| ≤ ((1 + 8 * ρ) * w + 9 * η) * ((1 + 8 * ρ) * w + 9 * η) := by
    rw [abs_mul]
    exact mul_le_mul t1 t1 (abs_nonneg _) (by positivity)
  have t4 : |q - x ^ 2| ≤ |q - d * d| + |d * d - x ^ 2| := abs_sub_le _ _ _
  have t5 := mul_le_mul_of_nonneg_left t3 hu0
  have hηw : η * w ≤ η * w ^ 2 + η := by nlinarith [mul_nonneg hη0 (sq_nonneg (w - 1)), mul_nonneg hη0 (sq_nonneg w)]
  have hw2 : 0 ≤ w ^ 2 := sq_nonneg w
  have hρ : (1 + 8 * ρ) * w ≤ 1008 / 1000 * w := mul_le_mul_of_nonneg_right (by linarith) hw
  -- the two products
  have v1 : ((1 + 8 * ρ) * w + 9 * η) * ((1 + 8 * ρ) * w + 9 * η) ≤
      (1008 / 1000 * w + 9 * η) * (1008 / 1000 * w + 9 * η) :=
    mul_le_mul (by linarith) (by linarith) (by positivity) (by positivity)
  have v2 : (8 * ρ * w + 9 * η) * ((2 + 8 * ρ) * w + 9 * η) ≤
      (8 * ρ * w + 9 * η) * (2008 / 1000 * w + 9 * η) := by
    apply mul_le_mul_of_nonneg_left _ (by positivity)
    have := mul_le_mul_of_nonneg_right (show 2 + 8 * ρ ≤ 2008 / 1000 by linarith) hw
    linarith
  have v3 := mul_le_mul_of_nonneg_left v1 hu0
  have hη1 : η ≤ 1 / 10000 := by linarith
  have y1 : u * (η * w) ≤ 1 / 1000 * (η * w) := mul_le_mul_of_nonneg_right hu (by positivity)
  have y2 : ρ * (η * w) ≤ 1 / 1000 * (η * w) := mul_le_mul_of_nonneg_right hPu (by positivity)
  have y3 : η * η ≤ 1 / 10000 * η := mul_le_mul_of_nonneg_right hη1 hη0
  have y4 : u * (η * η) ≤ 1 / 1000 * (η * η) := mul_le_mul_of_nonneg_right hu (by positivity)
  have y5 : 100 * η * w ^ 2 ≤ u * w ^ 2 := mul_le_mul_of_nonneg_right hηu hw2
  have y6 : u * w ^ 2 ≤ ρ * w ^ 2 := mul_le_mul_of_nonneg_right huρ hw2
  have y7 : 0 ≤ η * w := by positivity
  have e1 : u * ((1008 / 1000 * w + 9 * η) * (1008 / 1000 * w + 9 * η)) =
      1008 / 1000 * (1008 / 1000) * (u * w ^ 2) + 2 * 9 * (1008 / 1000) * (u * (η * w)) +
        81 * (u * (η * η)) := by ring
  have e2 : (8 * ρ * w + 9 * η) * (2008 / 1000 * w + 9 * η) =
      8 * (2008 / 1000) * (ρ * w ^ 2) + 72 * (ρ * (η * w)) + 9 * (2008 / 1000) * (η * w) + 81 * (η * η) := by
    ring
  nlinarith

theorem tiny_le_1000 : 64 * (2 : ℚ) ^ (-1075 : ℤ) ≤ 2 ^ (-1000 : ℤ) := by
  rw [show (64 : ℚ) = 2 ^ (6 : ℤ) by norm_num, ← zpow_add₀ (by norm_num)]
  exact zpow_le_zpow_right₀ (by norm_num) (by norm_num)

theorem meanErrorFl_err (a b : List ℚ) (n : Nat) (hn : (errs a b).length = n) (hn1 : 1 ≤ n)
    (order : List ℚ → AddTree) (H : Nat) (ho : AddsAll order n H) (hH : H ≤ 2 ^ 40) :
    |meanErrorFl round64 order a b - (errs a b).sum / n| ≤
      (21 / 10 * H + 21 / 10) * 2 ^ (-53 : ℤ) * (((errs a b).map (fun e => |e|)).sum / n) +
        6 * 2 ^ (-1075 : ℤ) := by
  subst hn
  have h := meanFl_err round64 (fun e => e) (fun e => |e|) (2 ^ (-53 : ℤ)) (2 ^ (-1075 : ℤ)) (errs a b)
    (by norm_num) (two_zpow_pos _).le (two_zpow_pos _).le (fun e _ => round64_err e)
    (fun e _ => le_rfl) hn1 order H ho hH
  have e1 : List.zipWith (fun x y => round64 (x - y)) a b = (errs a b).map round64 := by
    unfold errs; rw [List.map_zipWith]
  rw [List.map_id'] at h
  unfold meanErrorFl
  rw [e1]
  refine h.trans ?_
  have h0 : 0 ≤ ((errs a b).map (fun e => |e|)).sum / ((errs a b).length : ℚ) :=
    div_nonneg ((abs_nonneg _).trans (abs_sum_le_sum_map _)) (by positivity)
  have hu0 : (0 : ℚ) ≤ 2 ^ (-53 : ℤ) := (two_zpow_pos _).le
  generalize (2 : ℚ) ^ (-53 : ℤ) = u at *
  generalize (2 : ℚ) ^ (-1075 : ℤ) = η at *
  generalize ((errs a b).map (fun e => |e|)).sum / ((errs a b).length : ℚ) = m at *
  have := mul_nonneg hu0 h0
  linarith

theorem sum_shift_sq (c : ℚ) (l : List ℚ) :
    (l.map (fun e => (|e| + c) ^ 2)).sum =
      (l.map (fun e => e * e)).sum + 2 * c * (l.map (fun e => |e|)).sum + l.length * c ^ 2 := by
  induction l with
  | nil => simp
  | cons e l ih =>
    simp only [List.map_cons, List.sum_cons, List.length_cons, ih]
    push_cast
    have := abs_mul_abs_self e
    linear_combination this

/-- The mean of `(|e| + M)^2`, `M` the mean of `|e|`, is at most four times the mean of `e^2`. -/
theorem mean_shift_sq_le (l : List ℚ) (hl : 1 ≤ l.length) :
    (l.map (fun e => (|e| + (l.map (fun e => |e|)).sum / l.length) ^ 2)).sum / l.length ≤
      4 * ((l.map (fun e => e * e)).sum / l.length) := by
  have h1 := sum_shift_sq ((l.map (fun e => |e|)).sum / l.length) l
  have h2 := sum_shift_sq (-((l.map (fun e => |e|)).sum / l.length)) l
  have h3 : 0 ≤ (l.map (fun e => (|e| + -((l.map (fun e => |e|)).sum / (l.length : ℚ))) ^ 2)).sum := by
    apply List.sum_nonneg
    simp only [List.mem_map]
    rintro _ ⟨e, -, rfl⟩
    positivity
  have hn : (0 : ℚ) < l.length := by exact_mod_cast hl
  rw [h2] at h3
  rw [h1]
  generalize (l.map (fun e => |e|)).sum = A at *
  generalize (l.map (fun e => e * e)).sum = B at *
  generalize (l.length : ℚ) = n at *
  clear h1 h2
  rw [← mul_div_assoc 4 B n, div_le_div_iff_of_pos_right hn]
  have e1 : n * (A / n) ^ 2 = A ^ 2 / n := by field_simp
  have e2 : A / n * A = A ^ 2 / n := by ring
  rw [neg_sq] at h3
  have e3 : 2 * -(A / n) * A = -2 * (A / n * A) := by ring
  have e4 : 2 * (A / n) * A = 2 * (A / n * A) := by ring
  rw [e3, e2, e1] at h3
  rw [e4, e2, e1]
  linarith

/-- **C68 (floats, mean error).** On floats, in whatever order numpy adds, the mean error differs from the
exact one by at most `2 (H + 1) 2^-52` of the mean absolute error (and `2^-1000`). -/
theorem C68_float_mean_error (x y : List ReachPoint) (a b : List ℚ) (ha : Reaches x a)
    (hb : Reaches y b) (hl : x.length = y.length) (hne : x ≠ []) (row : Row)
    (h : aggregate x y = .ok row) (order : List ℚ → AddTree) (H : Nat)
    (ho : AddsAll order x.length H) (hH : H ≤ 2 ^ 40) :
    ∃ me mae, ("mean_error", Cell.float (some me)) ∈ row ∧
      ("mean_abs_error", Cell.float (some mae)) ∈ row ∧
      |meanErrorFl round64 order a b - me| ≤ 2 * (H + 1) * 2 ^ (-52 : ℤ) * mae + 2 ^ (-1000 : ℤ) := by
  obtain ⟨-, r0, r1, -, -⟩ := C68_errors x y a b ha hb hl hne row h
  refine ⟨_, _, r0, r1, ?_⟩
  have hn1 : 1 ≤ x.length := List.length_pos_iff.2 hne
  have hla : a.length = x.length := ha.length_eq.symm
  have hlb : b.length = x.length := by rw [← hb.length_eq, hl]
  have hle : (errs a b).length = x.length := by
    unfold errs; rw [List.length_zipWith, hla, hlb, min_self]
  have hm := meanErrorFl_err a b x.length hle hn1 order H ho hH
  have hfin := tiny_le_1000
  have h0 : 0 ≤ ((errs a b).map (fun e => |e|)).sum / (x.length : ℚ) :=
    div_nonneg ((abs_nonneg _).trans (abs_sum_le_sum_map _)) (by positivity)
  have hu0 : (0 : ℚ) ≤ 2 ^ (-53 : ℤ) := (two_zpow_pos _).le
  have hη0 : (0 : ℚ) ≤ 2 ^ (-1075 : ℤ) := (two_zpow_pos _).le
  have hH0 : (0 : ℚ) ≤ H := by positivity
  rw [two_52_53]
  refine hm.trans ?_
  generalize ((errs a b).map (fun e => |e|)).sum / (x.length : ℚ) = m at *
  generalize (2 : ℚ) ^ (-53 : ℤ) = u at *
  generalize (2 : ℚ) ^ (-1075 : ℤ) = η at *
  generalize (2 : ℚ) ^ (-1000 : ℤ) = w at *
  have c1 := mul_nonneg hu0 h0
  have c2 := mul_nonneg hH0 c1
  linarith

theorem AddTree.sumFl_nonneg : ∀ T : AddTree, (∀ x ∈ T.values, 0 ≤ x) → 0 ≤ T.sumFl round64
  | .leaf x, h => h x (by simp [values])
  | .node l r, h => round64_nonneg _ (add_nonneg
      (AddTree.sumFl_nonneg l (fun x hx => h x (by simp [values, hx])))
      (AddTree.sumFl_nonneg r (fun x hx => h x (by simp [values, hx]))))

/-- **C68 (floats, variance of the error).** On floats, in whatever order numpy adds, the variance of the
error is not negative and differs from the exact one by at most `48 (H + 1) 2^-52` of the mean squared
error (and `2^-1000`). -/
theorem C68_float_var_error (x y : List ReachPoint) (a b : List ℚ) (ha : Reaches x a)
    (hb : Reaches y b) (hl : x.length = y.length) (hne : x ≠ []) (row : Row)
    (h : aggregate x y = .ok row) (order : List ℚ → AddTree) (H : Nat)
    (ho : AddsAll order x.length H) (hH : H ≤ 2 ^ 40) :
    ∃ ve mse, ("var_error", Cell.float (some ve)) ∈ row ∧
      ("mean_squared_error", Cell.float (some mse)) ∈ row ∧
      0 ≤ varErrorFl round64 order a b ∧
      |varErrorFl round64 order a b - ve| ≤ 48 * (H + 1) * 2 ^ (-52 : ℤ) * mse + 2 ^ (-1000 : ℤ) := by
  obtain ⟨-, -, -, r2, r3⟩ := C68_errors x y a b ha hb hl hne row h
  refine ⟨_, _, r3, r2, ?_⟩
  have hn1 : 1 ≤ x.length := List.length_pos_iff.2 hne
  have hla : a.length = x.length := ha.length_eq.symm
  have hlb : b.length = x.length := by rw [← hb.length_eq, hl]
  have hle : (errs a b).length = x.length := by
    unfold errs; rw [List.length_zipWith, hla, hlb, min_self]
  have e1 : List.zipWith (fun x y => round64 (x - y)) a b = (errs a b).map round64 := by
    unfold errs; rw [List.map_zipWith]
  have hm := meanErrorFl_err a b x.length hle hn1 order H ho hH
  have hsq := mean_shift_sq_le (errs a b) (by rw [hle]; exact hn1)
  unfold varErrorFl
  rw [e1, List.map_map]
  have hlen : ((errs a b).map ((fun e => round64 (round64 (e - meanErrorFl round64 order a b) *
      round64 (e - meanErrorFl round64 order a b))) ∘ round64)).length = x.length := by
    rw [List.length_map, hle]
  constructor
  · unfold meanFl
    apply round64_nonneg
    apply div_nonneg _ (by positivity)
    apply AddTree.sumFl_nonneg
    intro v hv
    have := (ho _ hlen).1.mem_iff.1 hv
    rw [List.mem_map] at this
    obtain ⟨e, -, rfl⟩ := this
    exact round64_nonneg _ (mul_self_nonneg _)
  have hu0 : (0 : ℚ) ≤ 2 ^ (-53 : ℤ) := (two_zpow_pos _).le
  have hη0 : (0 : ℚ) ≤ 2 ^ (-1075 : ℤ) := (two_zpow_pos _).le
  have hH0 : (0 : ℚ) ≤ H := by positivity
  have hH' : (H : ℚ) + 1 ≤ 2 ^ 41 := by
    have : (H : ℚ) ≤ 2 ^ 40 := by exact_mod_cast hH
    linarith
  have hHu : ((H : ℚ) + 1) * 2 ^ (-53 : ℤ) ≤ 1 / 2000 :=
    (mul_le_mul_of_nonneg_right hH' hu0).trans (by norm_num)
  have hn : (0 : ℚ) < x.length := by exact_mod_cast hn1
  have hM0 : 0 ≤ ((errs a b).map (fun e => |e|)).sum / (x.length : ℚ) :=
    div_nonneg ((abs_nonneg _).trans (abs_sum_le_sum_map _)) hn.le
  have hmean : |(errs a b).sum / (x.length : ℚ)| ≤ ((errs a b).map (fun e => |e|)).sum / x.length := by
    rw [abs_div, abs_of_pos hn]
    exact div_le_div_of_nonneg_right (abs_sum_le_sum_map _) hn.le
  have hm' : |meanErrorFl round64 order a b - (errs a b).sum / x.length| ≤
      5 * (H + 1) * 2 ^ (-53 : ℤ) * (((errs a b).map (fun e => |e|)).sum / x.length) +
        6 * 2 ^ (-1075 : ℤ) := by
    refine hm.trans ?_
    generalize ((errs a b).map (fun e => |e|)).sum / (x.length : ℚ) = m at *
    have c1 := mul_nonneg hu0 hM0
    have c2 := mul_nonneg hH0 c1
    generalize (2 : ℚ) ^ (-53 : ℤ) = u at *
    generalize (2 : ℚ) ^ (-1075 : ℤ) = η at *
    linarith
  have hv := meanFl_err ((fun e => round64 (round64 (e - meanErrorFl round64 order a b) *
      round64 (e - meanErrorFl round64 order a b))) ∘ round64)
    (fun e => (e - (errs a b).sum / x.length) * (e - (errs a b).sum / x.length))
    (fun e => (|e| + ((errs a b).map (fun e => |e|)).sum / x.length) ^ 2)
    (19 * (H + 1) * 2 ^ (-53 : ℤ)) (21 * 2 ^ (-1075 : ℤ)) (errs a b)
    (by linarith) (by positivity) (mul_nonneg (by norm_num) hη0)
    (fun e _ => by
      have := sqDev_err e _ _ _ H hH0 (by linarith) hmean hm'
      rw [pow_two (e - _)] at this
      exact this)
    (fun e _ => by
      rw [abs_mul, ← pow_two]
      apply pow_le_pow_left₀ (abs_nonneg _)
      have c3 := abs_sub e ((errs a b).sum / x.length)
      linarith)
    (by rw [hle]; exact hn1) order H (by rw [hle]; exact ho) hH
  rw [hle] at hv hsq
  refine hv.trans ?_
  have hfin := tiny_le_1000
  have hB0 : 0 ≤ ((errs a b).map (fun e => e * e)).sum / (x.length : ℚ) := by
    apply div_nonneg _ hn.le
    apply List.sum_nonneg
    simp only [List.mem_map]
    rintro _ ⟨e, -, rfl⟩
    exact mul_self_nonneg e
  rw [two_52_53]
  clear hv hm hm' hmean hM0 r2 r3
  generalize ((errs a b).map (fun e => (|e| + ((errs a b).map (fun e => |e|)).sum /
    (x.length : ℚ)) ^ 2)).sum / (x.length : ℚ) = W at *
  generalize ((errs a b).map (fun e => e * e)).sum / (x.length : ℚ) = B at *
  generalize (2 : ℚ) ^ (-53 : ℤ) = u at *
  generalize (2 : ℚ) ^ (-1075 : ℤ) = η at *
  generalize (2 : ℚ) ^ (-1000 : ℤ) = w at *
  generalize (H : ℚ) = P at *
  have c0 : 0 ≤ (21 / 10 * P + 1) * u + 101 / 100 * (19 * (P + 1) * u) := by positivity
  have c1 := mul_le_mul_of_nonneg_left hsq c0
  have c2 := mul_nonneg hu0 hB0
  have c3 := mul_nonneg hH0 c2
  linarith

/-- Why the bound of the mean error is in terms of the mean absolute error: the errors 1, 2^-60 and -1
have the mean 2^-60 / 3, and added from the left on floats they have the mean 0. -/
example : meanErrorFl round64 leftOrder [1, 1 / 2 ^ 60, 0] [0, 0, 1] = 0 ∧
    (errs [1, 1 / 2 ^ 60, 0] [0, 0, 1]).sum / 3 = 1 / 2 ^ 60 / 3 := by
  decide +kernel

/-- The errors 1, 2, 3 and 6: their variance is 7/2, also on floats. -/
example : varErrorFl round64 leftOrder [1, 2, 3, 6] [0, 0, 0, 0] = 7 / 2 := by
  decide +kernel

end Verif
