import Verif.Lemmas.Float64
import Verif.Props.ReachCurve
import Verif.Model.FloatSpend
import Verif.Model.FloatGoerg
import Mathlib.Tactic.Positivity
import Mathlib.Tactic.FieldSimp
import Mathlib.Tactic.Linarith
import Mathlib.Tactic.Ring

/-!
# C27, C28: the Goerg model on floats, for all frequencies and by spend
-/

namespace Verif

/-- `a` and `b` agree up to `n` roundings of relative size `u`. -/
structure NearFl (u : ℚ) (n : ℕ) (a b : ℚ) : Prop where
  apos : 0 < a
  bpos : 0 < b
  lo : b * (1 - u) ^ n ≤ a
  hi : a * (1 - u) ^ n ≤ b

namespace NearFl

variable {u : ℚ} {n m : ℕ} {a b c d : ℚ}

theorem refl (ha : 0 < a) : NearFl u 0 a a := ⟨ha, ha, by simp, by simp⟩

theorem mono (h : NearFl u n a b) (h0 : 0 ≤ u) (h1 : u < 1) (hnm : n ≤ m) : NearFl u m a b := by
  have hp : (1 - u) ^ m ≤ (1 - u) ^ n := pow_le_pow_of_le_one (by linarith) (by linarith) hnm
  exact ⟨h.apos, h.bpos, (mul_le_mul_of_nonneg_left hp h.bpos.le).trans h.lo,
    (mul_le_mul_of_nonneg_left hp h.apos.le).trans h.hi⟩

theorem mul (h1 : u < 1) (h : NearFl u n a b) (h' : NearFl u m c d) :
    NearFl u (n + m) (a * c) (b * d) := by
  have hn : 0 < (1 - u) ^ n := pow_pos (by linarith) n
  have hm : 0 < (1 - u) ^ m := pow_pos (by linarith) m
  refine ⟨mul_pos h.apos h'.apos, mul_pos h.bpos h'.bpos, ?_, ?_⟩
  · rw [pow_add, show b * d * ((1 - u) ^ n * (1 - u) ^ m) = b * (1 - u) ^ n * (d * (1 - u) ^ m) by ring]
    exact mul_le_mul h.lo h'.lo (mul_pos h'.bpos hm).le h.apos.le
  · rw [pow_add, show a * c * ((1 - u) ^ n * (1 - u) ^ m) = a * (1 - u) ^ n * (c * (1 - u) ^ m) by ring]
    exact mul_le_mul h.hi h'.hi (mul_pos h'.apos hm).le h.bpos.le

theorem symm (h : NearFl u n a b) : NearFl u n b a := ⟨h.bpos, h.apos, h.hi, h.lo⟩

theorem inv (h : NearFl u n a b) : NearFl u n a⁻¹ b⁻¹ := by
  have ha := h.apos
  have hb := h.bpos
  refine ⟨inv_pos.2 ha, inv_pos.2 hb, ?_, ?_⟩
  · rw [inv_mul_le_iff₀ hb, ← div_eq_mul_inv, le_div_iff₀ ha]
    linarith [h.hi]
  · rw [inv_mul_le_iff₀ ha, ← div_eq_mul_inv, le_div_iff₀ hb]
    linarith [h.lo]

theorem div (h1 : u < 1) (h : NearFl u n a b) (h' : NearFl u m c d) :
    NearFl u (n + m) (a / c) (b / d) := by
  rw [div_eq_mul_inv, div_eq_mul_inv]
  exact h.mul h1 h'.inv

theorem add (h : NearFl u n a b) (h' : NearFl u n c d) : NearFl u n (a + c) (b + d) := by
  refine ⟨add_pos h.apos h'.apos, add_pos h.bpos h'.bpos, ?_, ?_⟩
  · rw [add_mul]; exact add_le_add h.lo h'.lo
  · rw [add_mul]; exact add_le_add h.hi h'.hi

theorem pow (h1 : u < 1) (h : NearFl u n a b) : ∀ k : ℕ, NearFl u (n * k) (a ^ k) (b ^ k)
  | 0 => by simpa using refl (u := u) one_pos
  | k + 1 => by
    rw [pow_succ, pow_succ, Nat.mul_succ]
    exact (pow h1 h k).mul h1 h

theorem trans (h1 : u < 1) (h : NearFl u n a b) (h' : NearFl u m b c) : NearFl u (n + m) a c := by
  have hn : 0 < (1 - u) ^ n := pow_pos (by linarith) n
  have hm : 0 < (1 - u) ^ m := pow_pos (by linarith) m
  refine ⟨h.apos, h'.bpos, ?_, ?_⟩
  · rw [pow_add]
    have := mul_le_mul_of_nonneg_right h'.lo hn.le
    linarith [h.lo]
  · rw [pow_add]
    have := mul_le_mul_of_nonneg_right h.hi hm.le
    linarith [h'.hi]

/-- Rounding a number that is not tiny. -/
theorem rnd {rnd : ℚ → ℚ} {t : ℚ} (hr : RelRounding rnd u t) (h1 : u < 1) (h : NearFl u n a b)
    (ha : t ≤ a) : NearFl u (n + 1) (rnd a) b := by
  have hlo := hr.lo a ha
  have hhi := hr.hi a ha
  have h0 := hr.unn
  have hpos : 0 < rnd a := lt_of_lt_of_le (mul_pos (by linarith) h.apos) hlo
  have key : NearFl u 1 (rnd a) a := by
    refine ⟨hpos, h.apos, by rw [pow_one]; linarith, ?_⟩
    rw [pow_one]
    have h3 : rnd a * (1 - u) ≤ (1 + u) * a * (1 - u) :=
      mul_le_mul_of_nonneg_right hhi (by linarith)
    have h4 : 0 ≤ u * u * a := by have := h.apos; positivity
    linarith
  rw [add_comm]
  exact key.trans h1 h

/-- The difference. -/
theorem abs_le (h0 : 0 ≤ u) (h1 : u < 1) (hn : (n : ℚ) * u ≤ 1 / 2) (h : NearFl u n a b) :
    |a - b| ≤ 2 * (n * u) * b := by
  have hb := h.bpos
  have hp : 1 - n * u ≤ (1 - u) ^ n := one_sub_pow_ge u h0 h1.le n
  have h2 : 0 ≤ (n : ℚ) * u := by positivity
  rw [_root_.abs_le]
  constructor
  · have := mul_le_mul_of_nonneg_left hp hb.le
    have := h.lo
    have := mul_nonneg h2 hb.le
    linarith
  · have h3 := mul_le_mul_of_nonneg_left hp h.apos.le
    have h4 : a * (1 - n * u) ≤ b := h3.trans h.hi
    have h5 : a ≤ 2 * b := by
      have := mul_le_mul_of_nonneg_left hn h.apos.le
      linarith
    have h6 : a * (n * u) ≤ 2 * b * (n * u) := mul_le_mul_of_nonneg_right h5 h2
    linarith

end NearFl

/-- What is assumed of the power of the C library: the first power is exact, and the others are correct up
to one unit in the last place as long as they are not tiny. -/
structure PowerFl (pw : ℚ → Nat → ℚ) : Prop where
  one : ∀ y, pw y 1 = y
  near : ∀ y k, 0 < y → 2 ^ (-1022 : ℤ) ≤ y ^ k → |pw y k - y ^ k| ≤ 2 ^ (-52 : ℤ) * y ^ k

/-- The correctly rounded power of floats meets the assumption. -/
example : PowerFl (fun y k => if k = 1 then y else round64 (y ^ k)) := by
  refine ⟨fun y => if_pos rfl, fun y k hy hyk => ?_⟩
  have hpos : 0 < y ^ k := pow_pos hy k
  have h52 : (2 : ℚ) ^ (-53 : ℤ) ≤ 2 ^ (-52 : ℤ) := zpow_le_zpow_right₀ (by norm_num) (by norm_num)
  by_cases hk : k = 1
  · subst hk
    rw [if_pos rfl, pow_one, sub_self, abs_zero]
    exact mul_nonneg (two_zpow_pos _).le hy.le
  · rw [if_neg hk]
    exact (round64_rel _ hyk).trans (mul_le_mul_of_nonneg_right h52 hpos.le)

namespace GoergModel

/-- The parameter on floats. -/
theorem rhoFl_near {rnd : ℚ → ℚ} {u t : ℚ} (hr : RelRounding rnd u t) (h1 : u < 1) (i r : ℚ)
    (hr0 : 0 < r) (hir : r < i) (ha : t ≤ i * r) (hb : t ≤ i - r)
    (hc : t ≤ rnd (i * r) / rnd (i - r)) :
    NearFl u 3 (rhoFl rnd i r) (i * r / (i - r)) := by
  have h2 : NearFl u 1 (rnd (i * r)) (i * r) :=
    (NearFl.refl (mul_pos (hr0.trans hir) hr0)).rnd hr h1 ha
  have h3 : NearFl u 1 (rnd (i - r)) (i - r) := (NearFl.refl (by linarith)).rnd hr h1 hb
  unfold rhoFl
  exact NearFl.rnd hr h1 (h2.div h1 h3) hc

/-- One prediction on floats, for impressions that have been rounded `n` times. -/
theorem kplusFl_near {rnd : ℚ → ℚ} {u t : ℚ} (hr : RelRounding rnd u t) (h1 : u < 1)
    {pw : ℚ → Nat → ℚ} (i r x x' : ℚ) (k n c : Nat) (hn : n ≤ 3) (hx : NearFl u n x' x)
    (hrho : NearFl u 3 (rhoFl rnd i r) (i * r / (i - r)))
    (ha : t ≤ x' + rhoFl rnd i r) (hb : t ≤ x' / rnd (x' + rhoFl rnd i r))
    (hpw : NearFl u c (pw (rnd (x' / rnd (x' + rhoFl rnd i r))) k)
      (rnd (x' / rnd (x' + rhoFl rnd i r)) ^ k))
    (hc : t ≤ rhoFl rnd i r * pw (rnd (x' / rnd (x' + rhoFl rnd i r))) k) :
    NearFl u (3 + (c + (n + 4 + 1) * k) + 1) (kplusFl rnd pw i r x' k)
      (i * r / (i - r) * (x / (x + i * r / (i - r))) ^ k) := by
  have h2 : NearFl u 4 (rnd (x' + rhoFl rnd i r)) (x + i * r / (i - r)) :=
    ((hx.mono hr.unn h1 hn).add hrho).rnd hr h1 ha
  have h3 : NearFl u (n + 4 + 1) (rnd (x' / rnd (x' + rhoFl rnd i r))) (x / (x + i * r / (i - r))) :=
    (hx.div h1 h2).rnd hr h1 hb
  have h4 := hpw.trans h1 (h3.pow h1 k)
  unfold kplusFl
  exact NearFl.rnd hr h1 (hrho.mul h1 h4) hc

end GoergModel

/-- One unit in the last place is at most three roundings. -/
theorem PowerFl.nearFl {pw : ℚ → Nat → ℚ} (hp : PowerFl pw) {u : ℚ} (h0 : 0 ≤ u) (h1 : u ≤ 1 / 8)
    (hu : (2 : ℚ) ^ (-52 : ℤ) = 2 * u) (y : ℚ) (k : Nat) (hy : 0 < y)
    (hyk : 2 ^ (-1022 : ℤ) ≤ y ^ k) : NearFl u 3 (pw y k) (y ^ k) := by
  have hpos : 0 < y ^ k := pow_pos hy k
  have h := abs_le.1 (hp.near y k hy hyk)
  rw [hu] at h
  have e1 : 0 ≤ u * u := by positivity
  have e2 : 0 ≤ u * u * (1 - u) := by have : 0 ≤ 1 - u := by linarith
                                      positivity
  have e3 : 0 ≤ u * (1 / 8 - u) := mul_nonneg h0 (by linarith)
  have l1 : (1 - u) ^ 3 ≤ 1 - 2 * u := by
    have : (1 - u) ^ 3 = 1 - 3 * u + 3 * (u * u) - u * u * u := by ring
    have : 0 ≤ u * u * u := by positivity
    nlinarith
  have l2 : (1 + 2 * u) * (1 - u) ^ 3 ≤ 1 := by
    have := mul_le_mul_of_nonneg_left l1 (show 0 ≤ 1 + 2 * u by linarith)
    nlinarith
  have hpw : 0 < pw y k := by
    have : u * y ^ k ≤ 1 / 8 * y ^ k := mul_le_mul_of_nonneg_right h1 hpos.le
    linarith [h.1]
  refine ⟨hpw, hpos, ?_, ?_⟩
  · have := mul_le_mul_of_nonneg_left l1 hpos.le
    linarith [h.1]
  · have a1 : pw y k ≤ (1 + 2 * u) * y ^ k := by linarith [h.2]
    have a2 := mul_le_mul_of_nonneg_right a1 (pow_nonneg (show 0 ≤ 1 - u by linarith) 3)
    have a3 := mul_le_mul_of_nonneg_right l2 hpos.le
    linarith

/-- `2^-53` is the relative error of one rounding. -/
theorem two_52_53 : (2 : ℚ) ^ (-52 : ℤ) = 2 * 2 ^ (-53 : ℤ) := by
  rw [show (-52 : ℤ) = 1 + (-53) by norm_num, zpow_add₀ (by norm_num), zpow_one]

/-- Few roundings change a number by less than a factor of two. -/
theorem NearFl.factor {u : ℚ} {n : ℕ} {a b : ℚ} (h0 : 0 ≤ u) (h1 : u < 1) (hn : (n : ℚ) * u ≤ 1 / 2)
    (h : NearFl u n a b) : b ≤ 2 * a ∧ a ≤ 2 * b := by
  have hp : 1 / 2 ≤ (1 - u) ^ n := by linarith [one_sub_pow_ge u h0 h1.le n]
  have h2 := mul_le_mul_of_nonneg_left hp h.bpos.le
  have h3 := mul_le_mul_of_nonneg_left hp h.apos.le
  constructor <;> linarith [h.lo, h.hi]

/-- The prediction on floats if no intermediate result is tiny. -/
theorem GoergModel.kplusFl_bound {rnd : ℚ → ℚ} {u t : ℚ} (hr : RelRounding rnd u t) (hu : u ≤ 1 / 100)
    {pw : ℚ → Nat → ℚ} (k c : Nat) (hc : c ≤ 3)
    (hpw : ∀ y, 0 < y → t ≤ y ^ k → NearFl u c (pw y k) (y ^ k))
    (B i r x x' : ℚ) (hB : 1 ≤ B) (ht : t * (64 * B ^ 4) ≤ 1) (h1r : 1 ≤ r) (hir : B⁻¹ ≤ i - r)
    (hiB : i ≤ B) (hx0 : B⁻¹ ≤ x) (hxB : x ≤ B) (n : Nat) (hn : n ≤ 3) (hx : NearFl u n x' x)
    (hk : (((n + 4 + 1) * k : ℕ) : ℚ) * u ≤ 1 / 2)
    (hq : 16 * t ≤ (x / (x + i * r / (i - r))) ^ k) :
    NearFl u (3 + (c + (n + 4 + 1) * k) + 1) (kplusFl rnd pw i r x' k)
      (i * r / (i - r) * (x / (x + i * r / (i - r))) ^ k) := by
  have h0 := hr.unn
  have h1 : u < 1 := by linarith
  have ht0 := hr.mpos
  have hB0 : 0 < B := by linarith
  have hBi : 0 < B⁻¹ := inv_pos.2 hB0
  have hBB : B⁻¹ * B = 1 := inv_mul_cancel₀ hB0.ne'
  have hd : 0 < i - r := hBi.trans_le hir
  have hB4 : B ≤ B ^ 4 := le_self_pow₀ hB (by norm_num)
  have htB : 64 * (t * B) ≤ 1 := by
    have := mul_le_mul_of_nonneg_left hB4 ht0.le
    linarith
  have ht1 : 64 * t ≤ 1 := by
    have := mul_le_mul_of_nonneg_left hB ht0.le
    linarith
  have htBi : t ≤ B⁻¹ := by
    rw [le_inv_comm₀ ht0 hB0, inv_eq_one_div, le_div_iff₀ ht0]
    linarith
  have hii : 1 ≤ i := by linarith
  have hirr : 1 ≤ i * r := by nlinarith
  have hsmall : ∀ m : ℕ, m ≤ 8 → (m : ℚ) * u ≤ 1 / 2 := by
    intro m hm
    have : (m : ℚ) ≤ 8 := by exact_mod_cast hm
    have := mul_le_mul_of_nonneg_right this h0
    linarith
  -- the parameter
  have hc1 : t ≤ rnd (i * r) / rnd (i - r) := by
    have a1 : NearFl u 1 (rnd (i * r)) (i * r) :=
      NearFl.rnd hr h1 (NearFl.refl (by linarith)) (by linarith)
    have a2 : NearFl u 1 (rnd (i - r)) (i - r) := NearFl.rnd hr h1 (NearFl.refl hd) (by linarith)
    have b1 := (a1.factor h0 h1 (hsmall 1 (by norm_num))).1
    have b2 := (a2.factor h0 h1 (hsmall 1 (by norm_num))).2
    rw [le_div_iff₀ a2.apos]
    have : t * rnd (i - r) ≤ t * (2 * B) := mul_le_mul_of_nonneg_left (by linarith) ht0.le
    linarith
  have hrho := rhoFl_near hr h1 i r (by linarith) (by linarith) (by linarith) (by linarith) hc1
  set rho := i * r / (i - r) with hrhodef
  set rf := rhoFl rnd i r with hrf
  have hrho1 : 1 ≤ rho := by
    rw [hrhodef, le_div_iff₀ hd]
    nlinarith
  have hrhoB : rho ≤ B ^ 3 := by
    rw [hrhodef, div_le_iff₀ hd]
    have e1 : i * r ≤ B * B := mul_le_mul hiB (by linarith) (by linarith) hB0.le
    have e2 : B ^ 3 * B⁻¹ ≤ B ^ 3 * (i - r) := mul_le_mul_of_nonneg_left hir (by positivity)
    have e3 : B ^ 3 * B⁻¹ = B * B := by field_simp
    linarith
  have f1 := hrho.factor h0 h1 (hsmall 3 (by norm_num))
  have f2 := hx.factor h0 h1 (hsmall n (by omega))
  have ha : t ≤ x' + rf := by linarith [hx.apos]
  have h2 : NearFl u 4 (rnd (x' + rf)) (x + rho) :=
    NearFl.rnd hr h1 ((hx.mono h0 h1 hn).add hrho) ha
  have f3 := h2.factor h0 h1 (hsmall 4 (by norm_num))
  have hB3 : B ≤ B ^ 3 := le_self_pow₀ hB (by norm_num)
  have hb : t ≤ x' / rnd (x' + rf) := by
    rw [le_div_iff₀ h2.apos]
    have e1 : t * rnd (x' + rf) ≤ t * (4 * B ^ 3) := mul_le_mul_of_nonneg_left (by linarith) ht0.le
    have e2 : t * (4 * B ^ 3) ≤ B⁻¹ / 16 := by
      have : t * (64 * B ^ 4) * B⁻¹ ≤ 1 * B⁻¹ := mul_le_mul_of_nonneg_right ht hBi.le
      have e3 : t * (64 * B ^ 4) * B⁻¹ = 64 * (t * B ^ 3) := by field_simp
      linarith
    linarith
  have h3 : NearFl u (n + 4 + 1) (rnd (x' / rnd (x' + rf))) (x / (x + rho)) :=
    NearFl.rnd hr h1 (hx.div h1 h2) hb
  have h4 := h3.pow h1 k
  have f4 := h4.factor h0 h1 hk
  have hp := hpw _ h3.apos (by linarith)
  have f5 := hp.factor h0 h1 (hsmall c (by omega))
  refine kplusFl_near hr h1 i r x x' k n c hn hx hrho ha hb hp ?_
  have : (1 / 2 : ℚ) * (4 * t) ≤ rf * pw (rnd (x' / rnd (x' + rf))) k :=
    mul_le_mul (by linarith) (by linarith) (by linarith) hrho.apos.le
  linarith

/-- The numbers of a training point are neither tiny nor huge, and at least one person is reached. -/
structure GoergRange (m : GoergModel) : Prop where
  reach : 1 ≤ m.reach
  repeated : 2 ^ (-200 : ℤ) ≤ m.impressions - m.reach
  bounded : m.impressions ≤ 2 ^ (200 : ℤ)

theorem two_200_inv : ((2 : ℚ) ^ (200 : ℤ))⁻¹ = 2 ^ (-200 : ℤ) := (zpow_neg 2 200).symm

theorem tiny_200 : (2 : ℚ) ^ (-1022 : ℤ) * (64 * (2 ^ (200 : ℤ)) ^ 4) ≤ 1 := by
  have e : (64 : ℚ) = 2 ^ (6 : ℤ) := by norm_num
  have e2 : ((2 : ℚ) ^ (200 : ℤ)) ^ 4 = 2 ^ (800 : ℤ) := by
    rw [← zpow_natCast, ← zpow_mul]; norm_num
  rw [e, e2, ← zpow_add₀ (by norm_num), ← zpow_add₀ (by norm_num)]
  exact (zpow_le_zpow_right₀ (by norm_num) (by norm_num)).trans_eq (zpow_zero _)

theorem tiny_16 (e : ℤ) (he : -1000 ≤ e) : 16 * (2 : ℚ) ^ (-1022 : ℤ) ≤ 2 ^ e := by
  have h16 : (16 : ℚ) = 2 ^ (4 : ℤ) := by norm_num
  rw [h16, ← zpow_add₀ (by norm_num)]
  exact zpow_le_zpow_right₀ (by norm_num) (by omega)

/-- The attributes of a fitted model. -/
theorem goerg_fitted (d : ReachPoint) (m : GoergModel) (hm : GoergModel.new [d] = .ok m) :
    m.reach < m.impressions ∧ d.impressions = [m.impressions] ∧ d.reach 1 = .ok m.reach ∧
      m.rho = m.impressions * m.reach / (m.impressions - m.reach) ∧ m.beta = m.rho := by
  obtain ⟨d0, i, r, h1, h2, h3, h4, h5, h6, h7, h8, h9, h10⟩ := (goerg_new_ok_iff _ m).1 hm
  cases h1
  rw [h6, h7, h8, h9]
  exact ⟨h5, h2, h4, rfl, rfl⟩

/-- C28: on floats every k+ reach predicted by a Goerg model differs from the exact one by at most
`(5 k + 7) 2^-52` of it. -/
theorem C28_float_kplus (d : ReachPoint) (m : GoergModel) (hm : GoergModel.new [d] = .ok m)
    (hrange : GoergRange m) (pw : ℚ → Nat → ℚ) (hpw : PowerFl pw) (x : ℚ)
    (hx : 2 ^ (-200 : ℤ) ≤ x) (hx' : x ≤ 2 ^ (200 : ℤ)) (F k : Nat) (hk : 1 ≤ k) (hkF : k ≤ F)
    (hk48 : k ≤ 2 ^ 48) (hq : 2 ^ (-900 : ℤ) ≤ (x / (x + m.maxReach)) ^ k) :
    ∃ pt y, m.byImpressions [x] F = .ok pt ∧ pt.reach k = .ok y ∧
      |GoergModel.kplusFl round64 pw m.impressions m.reach x k - y| ≤
        (5 * k + 7) * 2 ^ (-52 : ℤ) * y := by
  obtain ⟨h1, -, -, hrho, hbeta⟩ := goerg_fitted d m hm
  have hx0 : 0 < x := (two_zpow_pos _).trans_le hx
  have hr1 := hrange.reach
  have hrho0 : 0 < m.rho := by
    rw [hrho]; exact div_pos (mul_pos (by linarith) (by linarith)) (by linarith)
  obtain ⟨pt, p1, _, _, _, p5⟩ := goerg_byImpressions_ok m x F (by rw [hbeta]; positivity)
  refine ⟨pt, _, p1, p5 k hk hkF, ?_⟩
  have hk2 : (k : ℚ) ≤ 2 ^ 48 := by exact_mod_cast hk48
  have hu : (2 : ℚ) ^ (-53 : ℤ) ≤ 1 / 100 := by norm_num
  have hult : (2 : ℚ) ^ (-53 : ℤ) < 1 := by norm_num
  have hu0 : (0 : ℚ) ≤ 2 ^ (-53 : ℤ) := (two_zpow_pos _).le
  have hcount : ((3 + (3 + (0 + 4 + 1) * k) + 1 : ℕ) : ℚ) * 2 ^ (-53 : ℤ) ≤ 1 / 2 := by
    push_cast
    calc _ ≤ (3 + (3 + (0 + 4 + 1) * (2 : ℚ) ^ 48) + 1) * 2 ^ (-53 : ℤ) :=
          mul_le_mul_of_nonneg_right (by linarith) hu0
      _ ≤ 1 / 2 := by norm_num
  have key := GoergModel.kplusFl_bound relRounding64 hu k 3 le_rfl
    (fun y hy hyk => hpw.nearFl hu0 (by norm_num) two_52_53 y k hy hyk)
    (2 ^ (200 : ℤ)) m.impressions m.reach x x (one_le_zpow₀ (by norm_num) (by norm_num)) tiny_200 hr1
    (by rw [two_200_inv]; exact hrange.repeated) hrange.bounded (by rw [two_200_inv]; exact hx) hx' 0
    (by norm_num) (NearFl.refl hx0)
    (by
      refine le_trans ?_ hcount
      apply mul_le_mul_of_nonneg_right _ hu0
      push_cast; linarith)
    (by
      have := hq
      unfold GoergModel.maxReach at this
      rw [hrho] at this
      exact (tiny_16 _ (by norm_num)).trans this)
  have := key.abs_le hu0 hult hcount
  rw [hbeta, hrho]
  refine this.trans (le_of_eq ?_)
  rw [two_52_53]
  push_cast
  ring

/-- C27: on floats a Goerg model reproduces the reach of its training point, by impressions and by spend,
up to `11 · 2^-52` of it. -/
theorem C27_float_spend (d : ReachPoint) (m : GoergModel) (hm : GoergModel.new [d] = .ok m)
    (hrange : GoergRange m) (pw : ℚ → Nat → ℚ) (hpw : PowerFl pw) :
    d.impressions = [m.impressions] ∧ d.reach 1 = .ok m.reach ∧
    |GoergModel.kplusFl round64 pw m.impressions m.reach m.impressions 1 - m.reach| ≤
      9 * 2 ^ (-52 : ℤ) * m.reach ∧
    ∀ s : ℚ, 2 ^ (-200 : ℤ) ≤ s → s ≤ 2 ^ (200 : ℤ) →
      |GoergModel.kplusFl round64 pw m.impressions m.reach
        (GoergModel.spendImpressionsFl round64 m.impressions s s) 1 - m.reach| ≤
        11 * 2 ^ (-52 : ℤ) * m.reach := by
  obtain ⟨h1, h2, h3, hrho, hbeta⟩ := goerg_fitted d m hm
  have hr1 := hrange.reach
  have hu : (2 : ℚ) ^ (-53 : ℤ) ≤ 1 / 100 := by norm_num
  have hult : (2 : ℚ) ^ (-53 : ℤ) < 1 := by norm_num
  have hu0 : (0 : ℚ) ≤ 2 ^ (-53 : ℤ) := (two_zpow_pos _).le
  set i := m.impressions with hi
  set r := m.reach with hr
  have hi1 : 1 < i := by linarith
  have htrain : i * r / (i - r) * (i / (i + i * r / (i - r))) ^ 1 = r := by
    have a1 : i - r ≠ 0 := by linarith
    have a2 : i ≠ 0 := by linarith
    have a3 : i + i * r / (i - r) = i * i / (i - r) := by field_simp; ring
    rw [a3, pow_one]
    field_simp
  have hq : 16 * (2 : ℚ) ^ (-1022 : ℤ) ≤ (i / (i + i * r / (i - r))) ^ 1 := by
    have a1 : 0 < i - r := by linarith
    have a2 : i ≠ 0 := by linarith
    have a3 : (i / (i + i * r / (i - r))) ^ 1 = (i - r) / i := by
      have a4 : i + i * r / (i - r) = i * i / (i - r) := by field_simp; ring
      rw [a4, pow_one]
      field_simp
    rw [a3, le_div_iff₀ (by linarith)]
    calc 16 * (2 : ℚ) ^ (-1022 : ℤ) * i ≤ 2 ^ (-400 : ℤ) * 2 ^ (200 : ℤ) :=
          mul_le_mul (tiny_16 _ (by norm_num)) hrange.bounded (by linarith) (two_zpow_pos _).le
      _ = 2 ^ (-200 : ℤ) := by rw [← zpow_add₀ (by norm_num)]; norm_num
      _ ≤ i - r := hrange.repeated
  have hone : ∀ y : ℚ, 0 < y → 2 ^ (-1022 : ℤ) ≤ y ^ 1 → NearFl (2 ^ (-53 : ℤ)) 0 (pw y 1) (y ^ 1) := by
    intro y hy _
    rw [hpw.one, pow_one]
    exact NearFl.refl hy
  have hiB : (2 : ℚ) ^ (-200 : ℤ) ≤ i := by
    have : (2 : ℚ) ^ (-200 : ℤ) ≤ 1 :=
      (zpow_le_zpow_right₀ (by norm_num) (by norm_num)).trans_eq (zpow_zero _)
    linarith
  have key : ∀ (n : Nat) (x : ℚ), n ≤ 3 → NearFl (2 ^ (-53 : ℤ)) n x i →
      |GoergModel.kplusFl round64 pw i r x 1 - r| ≤ (n + 9) * 2 ^ (-52 : ℤ) * r := by
    intro n x hn hx
    have hn' : (n : ℚ) ≤ 3 := by exact_mod_cast hn
    have hcount : ((3 + (0 + (n + 4 + 1) * 1) + 1 : ℕ) : ℚ) * 2 ^ (-53 : ℤ) ≤ 1 / 2 := by
      push_cast
      calc _ ≤ (20 : ℚ) * 2 ^ (-53 : ℤ) := mul_le_mul_of_nonneg_right (by linarith) hu0
        _ ≤ 1 / 2 := by linarith
    have := GoergModel.kplusFl_bound relRounding64 hu 1 0 (by norm_num) hone
      (2 ^ (200 : ℤ)) i r i x (one_le_zpow₀ (by norm_num) (by norm_num)) tiny_200 hr1
      (by rw [two_200_inv]; exact hrange.repeated) hrange.bounded (by rw [two_200_inv]; exact hiB)
      hrange.bounded n hn hx
      (by
        refine le_trans ?_ hcount
        apply mul_le_mul_of_nonneg_right _ hu0
        push_cast; linarith) hq
    have h := this.abs_le hu0 hult hcount
    rw [htrain] at h
    refine h.trans (le_of_eq ?_)
    rw [two_52_53]
    push_cast
    ring
  refine ⟨h2, h3, ?_, ?_⟩
  · have := key 0 i (by norm_num) (NearFl.refl (by linarith))
    norm_num at this ⊢
    exact this
  · intro s hs hs'
    have hs0 : 0 < s := (two_zpow_pos _).trans_le hs
    have b1 : NearFl (2 ^ (-53 : ℤ)) 1 (round64 (s / i)) (s / i) := by
      refine NearFl.rnd relRounding64 hult (NearFl.refl (div_pos hs0 (by linarith))) ?_
      rw [le_div_iff₀ (by linarith)]
      calc (2 : ℚ) ^ (-1022 : ℤ) * i ≤ 2 ^ (-400 : ℤ) * 2 ^ (200 : ℤ) :=
            mul_le_mul (zpow_le_zpow_right₀ (by norm_num) (by norm_num)) hrange.bounded (by linarith)
              (two_zpow_pos _).le
        _ = 2 ^ (-200 : ℤ) := by rw [← zpow_add₀ (by norm_num)]; norm_num
        _ ≤ s := hs
    have b2 : NearFl (2 ^ (-53 : ℤ)) (0 + 1) (s / round64 (s / i)) (s / (s / i)) :=
      (NearFl.refl hs0).div hult b1
    have b3 : s / (s / i) = i := by
      have : i ≠ 0 := by linarith
      have := hs0.ne'
      field_simp
    rw [b3] at b2
    have b4 : NearFl (2 ^ (-53 : ℤ)) 2 (GoergModel.spendImpressionsFl round64 i s s) i := by
      unfold GoergModel.spendImpressionsFl
      refine NearFl.rnd relRounding64 hult b2 ?_
      have c1 := (b2.factor hu0 hult (by norm_num)).1
      have c2 := tiny_16 0 (by norm_num)
      rw [zpow_zero] at c2
      have c3 := two_zpow_pos (-1022)
      linarith
    have := key 2 _ (by norm_num) b4
    norm_num at this ⊢
    exact this

/-- The model on floats without rounding is the exact model. -/
theorem C28_float_kplus_exact (d : ReachPoint) (m : GoergModel) (hm : GoergModel.new [d] = .ok m) (x : ℚ)
    (F k : Nat) (hk : 1 ≤ k) (hkF : k ≤ F) (pt : ReachPoint) (h : m.byImpressions [x] F = .ok pt) :
    pt.reach k = .ok (GoergModel.kplusFl id (fun y k => y ^ k) m.impressions m.reach x k) := by
  obtain ⟨h1, h2, h3, hrho, hbeta⟩ := goerg_fitted d m hm
  have hne : x + m.beta ≠ 0 := by
    intro e
    unfold GoergModel.byImpressions at h
    simp only at h
    rw [if_pos ⟨by omega, e⟩] at h
    cases h
  obtain ⟨pt', p1, _, _, _, p5⟩ := goerg_byImpressions_ok m x F hne
  rw [p1] at h
  cases h
  rw [p5 k hk hkF, hbeta, hrho]
  rfl

/-- With one frequency these are the functions of `Model/FloatSpend`. -/
theorem C28_float_one (pw : ℚ → Nat → ℚ) (hpw : PowerFl pw) (i r x : ℚ) :
    GoergModel.kplusFl round64 pw i r x 1 = goergReachFl (goergRhoFl i r) x := by
  unfold GoergModel.kplusFl
  rw [hpw.one]
  rfl

/-- C28 on floats without an error: more impressions never predict less reach. -/
def C28_float_monotone_full (pw : ℚ → Nat → ℚ) : Prop :=
  ∀ i r x x' : ℚ, round64 i = i → round64 r = r → 1 ≤ r → r < i →
    round64 x = x → round64 x' = x' → 0 ≤ x → x ≤ x' →
    GoergModel.kplusFl round64 pw i r x 1 ≤ GoergModel.kplusFl round64 pw i r x' 1

/-- One person reached with two impressions: 6.000000000000001 impressions give a reach of
1.5000000000000002, 6.000000000000002 impressions give 1.5. -/
theorem C28_float_monotone_full_is_false (pw : ℚ → Nat → ℚ) (hpw : PowerFl pw) : ¬ C28_float_monotone_full pw := by
  intro h
  have := h 2 1 (6755399441055745 / 1125899906842624) (3377699720527873 / 562949953421312)
    (by decide +kernel) (by decide +kernel) (by norm_num) (by norm_num) (by decide +kernel)
    (by decide +kernel) (by norm_num) (by norm_num)
  unfold GoergModel.kplusFl at this
  rw [hpw.one, hpw.one] at this
  revert this
  decide +kernel

example : GoergModel.new [exGoergPoint] = .ok exGoerg ∧ GoergRange exGoerg ∧
    (2 : ℚ) ^ (-900 : ℤ) ≤ (25 / (25 + exGoerg.maxReach)) ^ 2 := by
  have e : (25 / (25 + exGoerg.maxReach)) ^ 2 = (2 : ℚ) ^ (-2 : ℤ) := by decide +kernel
  refine ⟨by decide +kernel, ⟨by decide +kernel, ?_, ?_⟩, ?_⟩
  · have e2 : exGoerg.impressions - exGoerg.reach = 80 := by decide +kernel
    rw [e2]
    exact ((zpow_le_zpow_right₀ (by norm_num) (by norm_num)).trans_eq (zpow_zero _)).trans
      (by norm_num : (1 : ℚ) ≤ 80)
  · have e2 : exGoerg.impressions = 100 := by decide +kernel
    rw [e2]
    calc (100 : ℚ) ≤ 2 ^ (7 : ℤ) := by norm_num
      _ ≤ _ := zpow_le_zpow_right₀ (by norm_num) (by norm_num)
  · rw [e]
    exact zpow_le_zpow_right₀ (by norm_num) (by norm_num)

end Verif
