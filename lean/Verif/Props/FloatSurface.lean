import Verif.Model.FloatSurface
import Verif.Lemmas.Float64
import Verif.Props.Pairwise

/-!
# C30 with floats: the pairwise union surface up to rounding
-/

namespace Verif

open Finset Verif.Spec

/-- Rounding to binary64: a relative error of `2^-53` and, next to zero, an absolute one of `2^-1075`. -/
theorem round64_err (x : ℚ) : |round64 x - x| ≤ 2 ^ (-53 : ℤ) * |x| + 2 ^ (-1075 : ℤ) := by
  rcases eq_or_ne x 0 with rfl | hx
  · rw [round64_zero]; simp
  refine (round64_near x).trans ?_
  have hpos : 0 < |x| := abs_pos.2 hx
  have h1 : (2 : ℚ) ^ Int.log 2 |x| ≤ |x| := by
    have := Int.zpow_log_le_self (b := 2) (r := |x|) (by norm_num) hpos
    exact_mod_cast this
  unfold ulp64
  rcases le_total (Int.log 2 |x| - 52) (-1074) with h | h
  · rw [max_eq_right h]
    have e1 : (2 : ℚ) ^ (-1074 : ℤ) / 2 = 2 ^ (-1075 : ℤ) := by
      rw [show (-1074 : ℤ) = -1075 + 1 by norm_num, zpow_add₀ (by norm_num), zpow_one,
        mul_div_assoc, div_self (by norm_num), mul_one]
    rw [e1]
    exact le_add_of_nonneg_left (mul_nonneg (zpow_nonneg (by norm_num) _) hpos.le)
  · rw [max_eq_left h, sub_eq_add_neg, zpow_add₀ (by norm_num)]
    have e : (2 : ℚ) ^ (-53 : ℤ) = 2 ^ (-52 : ℤ) / 2 := by norm_num
    rw [e]
    refine le_add_of_le_of_nonneg ?_ (zpow_nonneg (by norm_num) _)
    have hq : (0 : ℚ) < 2 ^ (-52 : ℤ) := zpow_pos (by norm_num) _
    have := mul_le_mul_of_nonneg_right h1 hq.le
    linarith

/-- Rounding of numbers not below zero with relative error `u` and absolute error `e`. -/
structure ErrRounding (rnd : ℚ → ℚ) (u e : ℚ) : Prop where
  u0 : 0 ≤ u
  e0 : 0 ≤ e
  nonneg : ∀ x, 0 ≤ x → 0 ≤ rnd x
  err : ∀ x, |rnd x - x| ≤ u * |x| + e

theorem errRounding64 : ErrRounding round64 (2 ^ (-53 : ℤ)) (2 ^ (-1075 : ℤ)) :=
  ⟨zpow_nonneg (by norm_num) _, zpow_nonneg (by norm_num) _, round64_nonneg, round64_err⟩

theorem ErrRounding.bounds {rnd : ℚ → ℚ} {u e : ℚ} (h : ErrRounding rnd u e) {x : ℚ} (hx : 0 ≤ x) :
    (1 - u) * x - e ≤ rnd x ∧ rnd x ≤ (1 + u) * x + e := by
  have := abs_le.1 (h.err x)
  rw [abs_of_nonneg hx] at this
  constructor <;> linarith [this.1, this.2]

/-- Adding up with rounding. -/
theorem sumFl_fold {rnd : ℚ → ℚ} {u e : ℚ} (h : ErrRounding rnd u e) (hu1 : u ≤ 1) :
    ∀ (l : List ℚ), (∀ x ∈ l, 0 ≤ x) → ∀ (acc S : ℚ) (k : ℕ), 0 ≤ acc → 0 ≤ S →
    (1 - u) ^ k * S - k * e ≤ acc → acc ≤ (1 + u) ^ k * (S + k * e) →
    let f := l.foldl (fun acc x => rnd (acc + x)) acc
    (1 - u) ^ (k + l.length) * (S + l.sum) - ((k + l.length : ℕ) : ℚ) * e ≤ f ∧
      f ≤ (1 + u) ^ (k + l.length) * (S + l.sum + ((k + l.length : ℕ) : ℚ) * e)
  | [], _, acc, S, k, _, _, h1, h2 => by simpa using ⟨by linarith, h2⟩
  | x :: l, hl, acc, S, k, ha, hS, h1, h2 => by
    have hx : 0 ≤ x := hl x (by simp)
    have hu := h.u0
    have he := h.e0
    obtain ⟨b1, b2⟩ := h.bounds (add_nonneg ha hx)
    have s0 : 0 ≤ 1 - u := by linarith
    have p0 : (1 - u) ^ k ≤ 1 := pow_le_one₀ s0 (by linarith)
    have p1 : (1 : ℚ) ≤ (1 + u) ^ k := one_le_pow₀ (by linarith)
    have pn : 0 ≤ (1 - u) ^ k := by positivity
    have kn : (0 : ℚ) ≤ k := by positivity
    have key := sumFl_fold h hu1 l (fun y hy => hl y (by simp [hy])) (rnd (acc + x)) (S + x) (k + 1)
      (h.nonneg _ (add_nonneg ha hx)) (by linarith) (by
        have e1 : (1 - u) ^ (k + 1) * (S + x) ≤ (1 - u) * ((1 - u) ^ k * S + x) := by
          rw [pow_succ]
          have := mul_le_mul_of_nonneg_right p0 (mul_nonneg s0 hx)
          nlinarith
        have e2 : (1 - u) * ((1 - u) ^ k * S - k * e) ≤ (1 - u) * acc :=
          mul_le_mul_of_nonneg_left h1 s0
        have e3 : (1 - u) * (k * e) ≤ k * e := by
          have : 0 ≤ u * (k * e) := by positivity
          linarith
        push_cast
        nlinarith) (by
        have q1 : (1 : ℚ) ≤ (1 + u) ^ (k + 1) := one_le_pow₀ (by linarith)
        have e1 : (1 + u) * acc ≤ (1 + u) * ((1 + u) ^ k * (S + k * e)) :=
          mul_le_mul_of_nonneg_left h2 (by linarith)
        have e2 : (1 + u) * x ≤ (1 + u) ^ (k + 1) * x := by
          rw [pow_succ]
          have := mul_le_mul_of_nonneg_right p1 (mul_nonneg (by linarith : (0 : ℚ) ≤ 1 + u) hx)
          nlinarith
        have e3 : e ≤ (1 + u) ^ (k + 1) * e := by nlinarith
        have e4 : (1 + u) * ((1 + u) ^ k * (S + k * e)) = (1 + u) ^ (k + 1) * (S + k * e) := by
          rw [pow_succ]; ring
        push_cast
        nlinarith)
    have hlen : k + (x :: l).length = k + 1 + l.length := by simp; omega
    simp only [List.foldl_cons, hlen, List.sum_cons]
    have e5 : S + (x + l.sum) = S + x + l.sum := by ring
    rw [e5]
    exact key

theorem sumFl_error {rnd : ℚ → ℚ} {u e : ℚ} (h : ErrRounding rnd u e) (l : List ℚ)
    (hl : ∀ x ∈ l, 0 ≤ x) (hn : (l.length : ℚ) * u ≤ 1 / 2) (hu1 : u ≤ 1) :
    |PairwiseSurface.sumFl rnd l - l.sum| ≤ 2 * (l.length * u) * l.sum + 2 * (l.length * e) := by
  have hu := h.u0
  have he := h.e0
  have hS : 0 ≤ l.sum := List.sum_nonneg hl
  have hk : (0 : ℚ) ≤ l.length := by positivity
  obtain ⟨h1, h2⟩ := sumFl_fold h hu1 l hl 0 0 0 le_rfl le_rfl (by simp) (by simp)
  simp only [zero_add] at h1 h2
  have b1 := one_sub_pow_ge u hu hu1 l.length
  have b2 := one_add_pow_le u hu l.length hn
  have c1 := mul_le_mul_of_nonneg_right b1 hS
  have c2 := mul_le_mul_of_nonneg_right b2 (by positivity : 0 ≤ l.sum + l.length * e)
  have c3 : 0 ≤ (l.length : ℚ) * u * l.sum := by positivity
  have c4 : 0 ≤ (l.length : ℚ) * e := by positivity
  have c5 : (l.length : ℚ) * u * (l.length * e) ≤ 1 / 2 * (l.length * e) :=
    mul_le_mul_of_nonneg_right hn c4
  unfold PairwiseSurface.sumFl
  rw [abs_le]
  constructor <;> nlinarith

/-- One summand of the overlap with rounding. -/
theorem term_error {rnd : ℚ → ℚ} {u e : ℚ} (h : ErrRounding rnd u e) (hu : u ≤ 1 / 1000) {a x y d : ℚ}
    (ha : 0 ≤ a) (hx : 0 ≤ x) (hy : 0 ≤ y) (hd : 2 ≤ d) (hyd : 2 * y ≤ d) (hed : e ≤ u) :
    0 ≤ rnd (rnd (rnd (a * x) * y) / rnd d) ∧
    |rnd (rnd (rnd (a * x) * y) / rnd d) - a * x * y / d| ≤ 8 * u * (a * x * y / d) + 4 * e := by
  have hu0 := h.u0
  have he := h.e0
  have hax : 0 ≤ a * x := mul_nonneg ha hx
  obtain ⟨B1, B2⟩ := h.bounds hax
  have B0 := h.nonneg _ hax
  set B := rnd (a * x)
  have hBy : 0 ≤ B * y := mul_nonneg B0 hy
  obtain ⟨C1, C2⟩ := h.bounds hBy
  have C0 := h.nonneg _ hBy
  set C := rnd (B * y)
  obtain ⟨D1, D2⟩ := h.bounds (by linarith : 0 ≤ d)
  set D := rnd d
  have hd0 : 0 < d := by linarith
  have hud : u ≤ u * d := le_mul_of_one_le_right hu0 (by linarith)
  have hud' : u * d ≤ 1 / 1000 * d := mul_le_mul_of_nonneg_right hu hd0.le
  have D1' : (1 - 2 * u) * d ≤ D := by linarith
  have D2' : D ≤ (1 + 2 * u) * d := by linarith
  have hD : 0 < D := lt_of_lt_of_le (by linarith) D1'
  have hCD : 0 ≤ C / D := div_nonneg C0 hD.le
  obtain ⟨T1, T2⟩ := h.bounds hCD
  set t := a * x * y / d with ht
  have htd : t * d = a * x * y := by rw [ht]; field_simp
  have ht0 : 0 ≤ t := div_nonneg (mul_nonneg hax hy) hd0.le
  refine ⟨h.nonneg _ hCD, ?_⟩
  -- bounds on `C` in terms of `t * d`
  have U1 : B * y ≤ (1 + u) * (t * d) + e * y := by
    have := mul_le_mul_of_nonneg_right B2 hy
    rw [htd]; linarith
  have L1 : (1 - u) * (t * d) - e * y ≤ B * y := by
    have := mul_le_mul_of_nonneg_right B1 hy
    rw [htd]; linarith
  have htd0 : 0 ≤ t * d := by positivity
  have hey : e * y ≤ e * d / 2 := by
    have := mul_le_mul_of_nonneg_left hyd he
    linarith
  have hed2 : e ≤ e * d / 2 := by
    have := mul_le_mul_of_nonneg_left hd he
    linarith
  have U2 : C ≤ (1 + 3 * u) * (t * d) + 1.1 * (e * d) := by
    have a1 := mul_le_mul_of_nonneg_left U1 (by linarith : (0 : ℚ) ≤ 1 + u)
    have a2 : u * (u * (t * d)) ≤ 1 / 1000 * (u * (t * d)) :=
      mul_le_mul_of_nonneg_right hu (by positivity)
    have a3 : u * (e * y) ≤ 1 / 1000 * (e * y) := mul_le_mul_of_nonneg_right hu (by positivity)
    have a4 : 0 ≤ u * (t * d) := by positivity
    have a5 : 0 ≤ e * d := by positivity
    linarith
  have L2 : (1 - 2 * u) * (t * d) - 1.1 * (e * d) ≤ C := by
    have a1 := mul_le_mul_of_nonneg_left L1 (by linarith : (0 : ℚ) ≤ 1 - u)
    have a2 : 0 ≤ u * (u * (t * d)) := by positivity
    have a3 : 0 ≤ u * (e * y) := by positivity
    have a5 : 0 ≤ e * d := by positivity
    linarith
  -- and of the quotient
  have U3 : C / D ≤ (1 + 6 * u) * t + 1.2 * e := by
    rw [div_le_iff₀ hD]
    have a1 : ((1 + 6 * u) * t + 1.2 * e) * ((1 - 2 * u) * d) ≤ ((1 + 6 * u) * t + 1.2 * e) * D :=
      mul_le_mul_of_nonneg_left D1' (by positivity)
    refine le_trans (U2.trans ?_) a1
    have a2 : u * (u * (t * d)) ≤ 1 / 1000 * (u * (t * d)) :=
      mul_le_mul_of_nonneg_right hu (by positivity)
    have a3 : u * (e * d) ≤ 1 / 1000 * (e * d) := mul_le_mul_of_nonneg_right hu (by positivity)
    have a4 : 0 ≤ u * (t * d) := by positivity
    have a5 : 0 ≤ e * d := by positivity
    linarith
  have L3 : (1 - 5 * u) * t - 1.2 * e ≤ C / D := by
    rw [le_div_iff₀ hD]
    rcases le_or_gt ((1 - 5 * u) * t - 1.2 * e) 0 with hneg | hpos
    · exact (mul_nonpos_of_nonpos_of_nonneg hneg hD.le).trans C0
    have a1 : ((1 - 5 * u) * t - 1.2 * e) * D ≤ ((1 - 5 * u) * t - 1.2 * e) * ((1 + 2 * u) * d) :=
      mul_le_mul_of_nonneg_left D2' hpos.le
    refine a1.trans (le_trans ?_ L2)
    have a2 : 0 ≤ u * (u * (t * d)) := by positivity
    have a3 : 0 ≤ u * (e * d) := by positivity
    have a4 : 0 ≤ u * (t * d) := by positivity
    have a5 : 0 ≤ e * d := by positivity
    linarith
  have a1 : 0 ≤ u * t := by positivity
  have a2 : u * (u * t) ≤ 1 / 1000 * (u * t) := mul_le_mul_of_nonneg_right hu a1
  have a3 : u * e ≤ 1 / 1000 * e := mul_le_mul_of_nonneg_right hu he
  have a4 : 0 ≤ u * (u * t) := by positivity
  have a5 : 0 ≤ u * e := by positivity
  rw [abs_le]
  constructor
  · have := mul_le_mul_of_nonneg_left L3 (by linarith : (0 : ℚ) ≤ 1 - u)
    linarith
  · have := mul_le_mul_of_nonneg_left U3 (by linarith : (0 : ℚ) ≤ 1 + u)
    linarith

theorem sum_close {ι : Type} (l : List ι) (f g : ι → ℚ) (c e : ℚ)
    (h : ∀ x ∈ l, |f x - g x| ≤ c * g x + e) :
    |(l.map f).sum - (l.map g).sum| ≤ c * (l.map g).sum + l.length * e := by
  induction l with
  | nil => simp
  | cons x l ih =>
    have h1 := h x (by simp)
    have h2 := ih (fun y hy => h y (by simp [hy]))
    simp only [List.map_cons, List.sum_cons, List.length_cons]
    push_cast
    rw [abs_le] at *
    constructor <;> linarith [h1.1, h1.2, h2.1, h2.2]

/-- The prediction for any rounding with relative error `w` and absolute error `η`. -/
theorem predictFl_error {rnd : ℚ → ℚ} {w η : ℚ} (h : ErrRounding rnd w η) (hw1 : w ≤ 1 / 1000)
    (hwη : η ≤ w) (s : PairwiseSurface) (hs : WellFormed s) (hone : ∀ c ∈ s.curves, 1 ≤ c.maxReach)
    (hsq : ((s.p * s.p : ℕ) : ℚ) * w ≤ 1 / 1000) (ha : PlausibleOverlap s.p (surfaceMatrix s))
    (r : List ℚ) (hlen : r.length = s.p) (hrange : ReachesInRange s r) (u : ℚ)
    (hu : u = unionReach s.p (surfaceMatrix s) (surfaceMax s) (fun i => r.getD i 0))
    (h3 : ∀ x ∈ r, x ≤ u) (h4 : u ≤ r.sum) :
    ∃ y, s.predictFl rnd r = .ok y ∧
      |y - u| ≤ ((s.p : ℚ) + 3) ^ 2 * (8 * w) * r.sum
        + (4 * ((s.p : ℚ) * η) + 14 * ((s.p : ℚ) * s.p * η) + η) := by
  have hw0 := h.u0
  have hη0 := h.e0
  have hmax : ∀ i < s.p, 1 ≤ surfaceMax s i := by
    intro i hi
    unfold surfaceMax
    have hi' : i < s.curves.length := by rw [hs.curves]; exact hi
    rw [List.getD_eq_getElem?_getD]
    simp only [List.getElem?_map, List.getElem?_eq_getElem hi', Option.map_some, Option.getD_some]
    exact hone _ (List.getElem_mem _)
  let dv : ℕ → ℕ → ℚ := fun i j => max (surfaceMax s i) (surfaceMax s j) * 2
  let tf : ℕ → ℕ → ℚ := fun i j =>
    rnd (rnd (rnd (surfaceMatrix s i j * r.getD i 0) * r.getD j 0) / rnd (dv i j))
  let te : ℕ → ℕ → ℚ := fun i j => surfaceMatrix s i j * r.getD i 0 * r.getD j 0 / dv i j
  have hterm : ∀ i < s.p, ∀ j < s.p, s.overlapTermFl rnd r (i, j) = .ok (tf i j) := by
    intro i hi j hj
    unfold PairwiseSurface.overlapTermFl
    simp only [bind, Except.bind]
    rw [pyIndex_getD s.a _ (by rw [hs.params]; exact flat_lt _ _ _ hi hj),
      pyIndex_getD r i (by omega), pyIndex_getD r j (by omega), pairDivisor_ok s hs i j hi hj]
    rfl
  let lf := (List.range (s.p * s.p)).map (fun c => tf (c / s.p) (c % s.p))
  let le := (List.range (s.p * s.p)).map (fun c => te (c / s.p) (c % s.p))
  refine ⟨rnd (PairwiseSurface.sumFl rnd r - PairwiseSurface.sumFl rnd lf), ?_, ?_⟩
  · unfold PairwiseSurface.predictFl
    rw [mapM_indexPairs s.p _ _ hterm]
    rfl
  have hte : ∀ i < s.p, ∀ j < s.p, 0 ≤ te i j ∧ 0 ≤ tf i j ∧
      |tf i j - te i j| ≤ 8 * w * te i j + 4 * η := by
    intro i hi j hj
    have m1 := hmax i hi
    have hd : 2 ≤ dv i j := by
      have := le_max_left (surfaceMax s i) (surfaceMax s j)
      simp only [dv]; linarith
    have hyd : 2 * r.getD j 0 ≤ dv i j := by
      have := le_max_right (surfaceMax s i) (surfaceMax s j)
      have := (hrange j hj).2
      simp only [dv]; linarith
    obtain ⟨k1, k2⟩ := term_error h hw1 (ha.nonneg i hi j hj) (hrange i hi).1
      (hrange j hj).1 hd hyd hwη
    exact ⟨div_nonneg (mul_nonneg (mul_nonneg (ha.nonneg i hi j hj) (hrange i hi).1) (hrange j hj).1)
      (by linarith), k1, k2⟩
  have hidx : ∀ c ∈ List.range (s.p * s.p), c / s.p < s.p ∧ c % s.p < s.p := by
    intro c hc
    have hc := List.mem_range.1 hc
    have hp0 : 0 < s.p := by
      rcases Nat.eq_zero_or_pos s.p with h | h
      · rw [h] at hc; simp at hc
      · exact h
    exact ⟨Nat.div_lt_of_lt_mul hc, Nat.mod_lt _ hp0⟩
  have hr0 : ∀ x ∈ r, 0 ≤ x := by
    intro x hx
    obtain ⟨k, hk, rfl⟩ := List.getElem_of_mem hx
    have := (hrange k (by omega)).1
    rw [List.getD_eq_getElem?_getD, List.getElem?_eq_getElem hk] at this
    exact this
  have hR : 0 ≤ r.sum := List.sum_nonneg hr0
  have hpw : (s.p : ℚ) * w ≤ 1 / 1000 ∧ ((s.p * s.p : ℕ) : ℚ) * w ≤ 1 / 1000 := by
    refine ⟨?_, hsq⟩
    refine le_trans (mul_le_mul_of_nonneg_right ?_ hw0) hsq
    exact_mod_cast Nat.le_mul_self s.p
  have e1 := sumFl_error h r hr0 (by rw [hlen]; exact hpw.1.trans (by norm_num))
    (hw1.trans (by norm_num))
  have e2 := sumFl_error h lf (by
      intro x hx
      obtain ⟨c, hc, rfl⟩ := List.mem_map.1 hx
      exact (hte _ (hidx c hc).1 _ (hidx c hc).2).2.1)
    (by simp only [lf, List.length_map, List.length_range]; exact hpw.2.trans (by norm_num))
    (hw1.trans (by norm_num))
  have e3 := sum_close (List.range (s.p * s.p)) (fun c => tf (c / s.p) (c % s.p))
    (fun c => te (c / s.p) (c % s.p)) (8 * w) (4 * η)
    (fun c hc => (hte _ (hidx c hc).1 _ (hidx c hc).2).2.2)
  have hO0 : 0 ≤ le.sum := List.sum_nonneg (by
    intro x hx
    obtain ⟨c, hc, rfl⟩ := List.mem_map.1 hx
    exact (hte _ (hidx c hc).1 _ (hidx c hc).2).1)
  have hO : u = r.sum - le.sum := by
    rw [hu]
    simp only [le, sum_flat s.p te, unionReach]
    rw [list_sum_getD r, hlen, Finset.mul_sum]
    congr 1
    apply Finset.sum_congr rfl
    intro i _
    rw [Finset.mul_sum]
    apply Finset.sum_congr rfl
    intro j _
    simp only [te, dv]
    rw [div_mul_eq_div_div]
    ring
  have hu0 : 0 ≤ u := by
    rcases r with _ | ⟨x, l⟩
    · simp only [List.sum_nil] at hO h4
      have : s.p = 0 := by simpa using hlen.symm
      have : le.sum = 0 := by simp [le, this]
      rw [hO, this]; simp
    · exact (hr0 x (by simp)).trans (h3 x (by simp))
  have hOR : le.sum ≤ r.sum := by linarith
  change |PairwiseSurface.sumFl rnd r - r.sum| ≤ 2 * (r.length * w) * r.sum
    + 2 * (r.length * η) at e1
  change |PairwiseSurface.sumFl rnd lf - lf.sum| ≤ 2 * (lf.length * w) * lf.sum
    + 2 * (lf.length * η) at e2
  change |lf.sum - le.sum| ≤ 8 * w * le.sum + (List.range (s.p * s.p)).length * (4 * η) at e3
  have hlf : lf.length = s.p * s.p := by simp [lf]
  rw [List.length_range] at e3
  rw [hlf] at e2
  rw [hlen] at e1
  set P : ℚ := (s.p : ℚ) with hP
  have hP0 : 0 ≤ P := by positivity
  have hPP : ((s.p * s.p : ℕ) : ℚ) = P * P := by push_cast; rfl
  rw [hPP] at e2 e3 hpw
  set R := r.sum
  set O := le.sum
  set Rf := PairwiseSurface.sumFl rnd r
  set Of := PairwiseSurface.sumFl rnd lf
  set Lf := lf.sum
  have e4 := h.err (Rf - Of)
  -- sizes
  have t1 : |Rf - R| ≤ 2 * (P * w) * R + 2 * (P * η) := e1
  have t3 : |Lf - O| ≤ 8 * w * R + 4 * (P * P * η) := by
    refine e3.trans ?_
    have := mul_le_mul_of_nonneg_left hOR (by positivity : 0 ≤ 8 * w)
    linarith
  have PPη : 0 ≤ P * P * η := by positivity
  have Pη : 0 ≤ P * η := by positivity
  have wR : 0 ≤ w * R := by positivity
  have PwR : 0 ≤ P * w * R := by positivity
  have PPwR : 0 ≤ P * P * w * R := by positivity
  have hLf : Lf ≤ 2 * R + 4 * (P * P * η) := by
    have := (abs_le.1 t3).2
    have h8 : 8 * w * R ≤ 1 * R := mul_le_mul_of_nonneg_right (by linarith) hR
    linarith
  have t2 : |Of - Lf| ≤ 4 * (P * P * w) * R + 3 * (P * P * η) := by
    refine e2.trans ?_
    have h5 := mul_le_mul_of_nonneg_left hLf (by positivity : 0 ≤ 2 * (P * P * w))
    have h6 : P * P * w * (P * P * η) ≤ 1 / 1000 * (P * P * η) :=
      mul_le_mul_of_nonneg_right hpw.2 PPη
    linarith
  have t5 : |Rf - Of - u| ≤ (2 * (P * w) + 8 * w + 4 * (P * P * w)) * R
      + (2 * (P * η) + 7 * (P * P * η)) := by
    rw [hO]
    have := abs_le.1 t1
    have := abs_le.1 t2
    have := abs_le.1 t3
    rw [abs_le]
    constructor <;> linarith
  have hPw8 : (2 * (P * w) + 8 * w + 4 * (P * P * w)) * R ≤ 1 * R :=
    mul_le_mul_of_nonneg_right (by linarith [hpw.1, hpw.2]) hR
  have t6 : |Rf - Of| ≤ 2 * R + (2 * (P * η) + 7 * (P * P * η)) := by
    have h5 := abs_le.1 t5
    have : u ≤ R := h4
    rw [abs_le]
    constructor <;> linarith [h5.1, h5.2]
  have t7 : |rnd (Rf - Of) - (Rf - Of)| ≤ 2 * w * R + (2 * (P * η) + 7 * (P * P * η)) + η := by
    refine e4.trans ?_
    have h5 := mul_le_mul_of_nonneg_left t6 hw0
    have h6 : w * (2 * (P * η) + 7 * (P * P * η)) ≤ 1 * (2 * (P * η) + 7 * (P * P * η)) :=
      mul_le_mul_of_nonneg_right (by linarith) (by positivity)
    linarith
  have h9 := abs_le.1 t5
  have h10 := abs_le.1 t7
  have hsum : (2 * (P * w) + 8 * w + 4 * (P * P * w)) * R + 2 * w * R
      ≤ (P + 3) ^ 2 * (8 * w) * R := by
    have : (2 * (P * w) + 8 * w + 4 * (P * P * w)) + 2 * w ≤ (P + 3) ^ 2 * (8 * w) := by
      have a1 : 0 ≤ P * w := by positivity
      have a2 : 0 ≤ P * P * w := by positivity
      linarith
    have := mul_le_mul_of_nonneg_right this hR
    linarith
  rw [abs_le]
  constructor <;> linarith [h9.1, h9.2, h10.1, h10.2]

/-- **C30 (floats).** With binary64 rounding the predicted union reach differs from the exact one by at most
`(p + 3)² 2^-50` of the sum of the single reaches (and `2^-1000`), so up to this error it is at least every
single reach and at most their sum. -/
theorem C30_float (s : PairwiseSurface) (hs : WellFormed s) (hone : ∀ c ∈ s.curves, 1 ≤ c.maxReach)
    (hp : s.p ≤ 2 ^ 20) (ha : PlausibleOverlap s.p (surfaceMatrix s)) (v : List ℚ)
    (hv : v.length = s.p) (r : List ℚ) (hr : PairwiseSurface.getReachVector s.curves v = .ok r)
    (hrange : ReachesInRange s r) :
    ∃ pt u y, s.byImpressions v = .ok pt ∧ pt.reach 1 = .ok u ∧ s.predictFl round64 r = .ok y ∧
      |y - u| ≤ ((s.p : ℚ) + 3) ^ 2 * 2 ^ (-50 : ℤ) * r.sum + 2 ^ (-1000 : ℤ) ∧
      (∀ x ∈ r, x ≤ y + (((s.p : ℚ) + 3) ^ 2 * 2 ^ (-50 : ℤ) * r.sum + 2 ^ (-1000 : ℤ))) ∧
      y ≤ r.sum + (((s.p : ℚ) + 3) ^ 2 * 2 ^ (-50 : ℤ) * r.sum + 2 ^ (-1000 : ℤ)) := by
  obtain ⟨pt, u, h1, h2, h3, h4⟩ := C30_bounds s hs ha v hv r hr hrange
  obtain ⟨pt', h1', -, -, h2'⟩ := C30_formula s hs v hv r hr
  rw [h1] at h1'
  cases h1'
  rw [h2] at h2'
  have hu : u = unionReach s.p (surfaceMatrix s) (surfaceMax s) (fun i => r.getD i 0) := by
    cases h2'; rfl
  have hlen : r.length = s.p := by
    rw [reachVector_length _ _ _ hr, hs.curves, hv, min_self]
  have hη0 : (0 : ℚ) ≤ 2 ^ (-1075 : ℤ) := zpow_nonneg (by norm_num) _
  have hp2 : (s.p : ℚ) ≤ 2 ^ 20 := by exact_mod_cast hp
  have hP0 : (0 : ℚ) ≤ s.p := by positivity
  have h5 : (s.p : ℚ) * s.p ≤ 2 ^ 20 * 2 ^ 20 := mul_le_mul hp2 hp2 hP0 (by positivity)
  have hmain : ∃ y, s.predictFl round64 r = .ok y ∧
      |y - u| ≤ ((s.p : ℚ) + 3) ^ 2 * 2 ^ (-50 : ℤ) * r.sum + 2 ^ (-1000 : ℤ) := by
    obtain ⟨y, k1, k2⟩ := predictFl_error errRounding64 (by norm_num)
      (zpow_le_zpow_right₀ (by norm_num) (by norm_num)) s hs hone (by
        push_cast
        calc (s.p : ℚ) * s.p * 2 ^ (-53 : ℤ) ≤ 2 ^ 20 * 2 ^ 20 * 2 ^ (-53 : ℤ) :=
              mul_le_mul_of_nonneg_right h5 (zpow_nonneg (by norm_num) _)
          _ ≤ 1 / 1000 := by norm_num) ha r hlen hrange u hu h3 h4
    refine ⟨y, k1, k2.trans (add_le_add (le_of_eq ?_) ?_)⟩
    · have h50 : (2 : ℚ) ^ (-50 : ℤ) = 8 * 2 ^ (-53 : ℤ) := by norm_num
      rw [h50]
    · have h6 : 4 * (s.p : ℚ) + 14 * ((s.p : ℚ) * s.p) + 1 ≤ 2 ^ 50 := by linarith
      calc 4 * ((s.p : ℚ) * 2 ^ (-1075 : ℤ)) + 14 * ((s.p : ℚ) * s.p * 2 ^ (-1075 : ℤ))
            + 2 ^ (-1075 : ℤ)
          = (4 * (s.p : ℚ) + 14 * ((s.p : ℚ) * s.p) + 1) * 2 ^ (-1075 : ℤ) := by ring
        _ ≤ 2 ^ 50 * 2 ^ (-1075 : ℤ) := mul_le_mul_of_nonneg_right h6 hη0
        _ ≤ 2 ^ (-1000 : ℤ) := by
          rw [← zpow_natCast, ← zpow_add₀ (by norm_num)]
          exact zpow_le_zpow_right₀ (by norm_num) (by norm_num)
  obtain ⟨y, k1, k2⟩ := hmain
  have k3 := abs_le.1 k2
  refine ⟨pt, u, y, h1, h2, k1, k2, fun x hx => ?_, ?_⟩
  · linarith [h3 x hx, k3.1]
  · linarith [k3.2]

theorem sumFl_id (l : List ℚ) : PairwiseSurface.sumFl id l = l.sum := by
  unfold PairwiseSurface.sumFl
  rw [List.sum_eq_foldl]
  rfl

/-- C30: without rounding the float computation is the prediction of the surface. -/
theorem C30_float_exact (s : PairwiseSurface) (v : List ℚ) :
    s.byImpressions v = (do
      let r ← PairwiseSurface.getReachVector s.curves v
      let y ← s.predictFl id r
      ReachPoint.new v [y]) := by
  unfold PairwiseSurface.byImpressions PairwiseSurface.predictFl
  simp only [sumFl_id, bind_assoc, pure_bind, id]
  rfl

/-- A prediction on floats is at least every single reach. -/
def C30_float_full : Prop :=
  ∀ (s : PairwiseSurface) (r : List ℚ) (y : ℚ), WellFormed s →
    PlausibleOverlap s.p (surfaceMatrix s) → ReachesInRange s r → r.length = s.p →
    (∀ x ∈ r, round64 x = x) → s.predictFl round64 r = .ok y → ∀ x ∈ r, x ≤ y

/-- Two publishers of maximum reach 3 with full overlap. -/
def exFloatSurface : PairwiseSurface :=
  { curves := [⟨3, fun x => .ok (min x 3)⟩, ⟨3, fun x => .ok (min x 3)⟩], p := 2, a := [0, 1, 1, 0],
    data := [] }

/-- The binary64 number next to 0.8. -/
def exFloatReach : ℚ := round64 (4 / 5)

theorem exFloatSurface_ok : WellFormed exFloatSurface ∧
    PlausibleOverlap exFloatSurface.p (surfaceMatrix exFloatSurface) ∧
    ReachesInRange exFloatSurface [3, exFloatReach] := by
  refine ⟨⟨rfl, rfl, ?_⟩, ⟨?_, ?_, ?_, ?_, ?_⟩, ?_⟩
  · intro c hc
    simp only [exFloatSurface, List.mem_cons, List.not_mem_nil, or_false] at hc
    rcases hc with rfl | rfl <;> norm_num
  all_goals first | decide +kernel | (unfold ReachesInRange; decide +kernel)

theorem exFloatSurface_predicts :
    exFloatSurface.predictFl round64 [3, exFloatReach] = .ok (3 - 1 / 2 ^ 51) := by
  decide +kernel

/-- C30, floats: the predicted union reach may be smaller than the reach of one publisher, in the last
digit: reaches 3 and 0.8 with full overlap give 2.9999999999999996. -/
theorem C30_float_full_is_false : ¬ C30_float_full := by
  intro h
  have := h exFloatSurface [3, exFloatReach] _ exFloatSurface_ok.1 exFloatSurface_ok.2.1
    exFloatSurface_ok.2.2 rfl (by decide +kernel) exFloatSurface_predicts 3 (by simp)
  norm_num at this

example : (∀ c ∈ exFloatSurface.curves, 1 ≤ c.maxReach) ∧ exFloatSurface.p ≤ 2 ^ 20 ∧
    PairwiseSurface.getReachVector exFloatSurface.curves [5, exFloatReach] = .ok [3, exFloatReach] ∧
    (exFloatSurface.byImpressions [5, exFloatReach]).toOption.map (·.kplusReaches) = some [3] := by
  refine ⟨?_, by decide, by decide +kernel, by decide +kernel⟩
  intro c hc
  simp only [exFloatSurface, List.mem_cons, List.not_mem_nil, or_false] at hc
  rcases hc with rfl | rfl <;> norm_num

end Verif
