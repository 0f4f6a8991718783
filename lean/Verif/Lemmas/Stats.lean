import Mathlib.Tactic.Ring
import Mathlib.Tactic.Linarith
import Mathlib.Tactic.FieldSimp
import Mathlib.Tactic.Positivity
import Mathlib.Algebra.Order.BigOperators.Group.List
import Verif.Lemmas.ListExcept
import Verif.Model.Aggregator

/-! # Lemmas about arrays, means and quantiles -/

namespace Verif

theorem allFinite_map_some (l : List ℚ) : allFinite (l.map some) = some l := by
  induction l with
  | nil => rfl
  | cons x l ih => simp [allFinite, ih]

theorem allFinite_eq_some (a : NpArray) (l : List ℚ) :
    allFinite a = some l ↔ a = l.map some := by
  constructor
  · intro h
    induction a generalizing l with
    | nil => simp [allFinite] at h; subst h; rfl
    | cons x a ih =>
      rcases x with _ | x
      · simp [allFinite] at h
      · simp only [allFinite, Option.map_eq_some_iff] at h
        obtain ⟨l', h1, rfl⟩ := h
        rw [ih l' h1]; rfl
  · rintro rfl
    exact allFinite_map_some l

theorem npMean_some (l : List ℚ) (h : l ≠ []) : npMean (l.map some) = some (meanOf l) := by
  simp [npMean, allFinite_map_some, h]

theorem npVar_some (l : List ℚ) (h : l ≠ []) : npVar (l.map some)
    = some (meanOf (l.map (fun x => (x - meanOf l) * (x - meanOf l)))) := by
  simp [npVar, allFinite_map_some, h]

theorem npQuantile_some (l : List ℚ) (h : l ≠ []) (q : ℚ) :
    npQuantile (l.map some) q = some (quantileOf l q) := by
  simp [npQuantile, allFinite_map_some, h]

theorem npAbs_some (l : List ℚ) : npAbs (l.map some) = (l.map (fun x => |x|)).map some := by
  simp [npAbs]

theorem npSq_some (l : List ℚ) : npSq (l.map some) = (l.map (fun x => x * x)).map some := by
  simp [npSq]

theorem npSub_some (a b : List ℚ) (h : a.length = b.length) :
    npSub (a.map some) (b.map some) = .ok ((List.zipWith (· - ·) a b).map some) := by
  unfold npSub npZip
  simp [h, List.zipWith_map, List.map_zipWith]

theorem npDiv_some (a b : List ℚ) (h : a.length = b.length) (hb : ∀ x ∈ b, x ≠ 0) :
    npDiv (a.map some) (b.map some) = .ok ((List.zipWith (· / ·) a b).map some) := by
  unfold npDiv npZip
  simp only [List.length_map, h, if_true, Except.ok.injEq]
  rw [List.zipWith_map, List.map_zipWith]
  induction a generalizing b with
  | nil => simp
  | cons x a ih =>
    rcases b with _ | ⟨y, b⟩
    · simp at h
    · simp only [List.zipWith_cons_cons, List.cons.injEq]
      refine ⟨?_, ih b (by simpa using h) (fun z hz => hb z (by simp [hz]))⟩
      simp [hb y (by simp)]

theorem sum_map_sq_sub (l : List ℚ) (c : ℚ) :
    (l.map (fun x => (x - c) * (x - c))).sum
      = (l.map (fun x => x * x)).sum - 2 * c * l.sum + l.length * c * c := by
  induction l with
  | nil => simp
  | cons x l ih =>
    simp only [List.map_cons, List.sum_cons, ih, List.length_cons]
    push_cast
    ring

theorem meanOf_sq_dev (l : List ℚ) (h : l ≠ []) :
    meanOf (l.map (fun x => (x - meanOf l) * (x - meanOf l)))
      = meanOf (l.map (fun x => x * x)) - meanOf l * meanOf l := by
  have hn : (l.length : ℚ) ≠ 0 := by
    have : l.length ≠ 0 := by simpa using h
    exact_mod_cast this
  have e : l.sum = l.length * meanOf l := by unfold meanOf; field_simp
  have := sum_map_sq_sub l (meanOf l)
  rw [e] at this
  simp only [meanOf, List.length_map] at this ⊢
  rw [this]
  field_simp
  ring

theorem meanOf_nonneg (l : List ℚ) (h : ∀ x ∈ l, 0 ≤ x) : 0 ≤ meanOf l :=
  div_nonneg (List.sum_nonneg h) (Nat.cast_nonneg _)

theorem meanOf_le (l : List ℚ) (hne : l ≠ []) (c : ℚ) (h : ∀ x ∈ l, x ≤ c) : meanOf l ≤ c := by
  have hn : (0 : ℚ) < l.length := by
    have : 0 < l.length := List.length_pos_iff.2 hne
    exact_mod_cast this
  unfold meanOf
  rw [div_le_iff₀ hn]
  have := List.sum_le_card_nsmul l c h
  rw [nsmul_eq_mul] at this
  linarith

theorem sq_meanOf_le (l : List ℚ) (h : l ≠ []) :
    meanOf l * meanOf l ≤ meanOf (l.map (fun x => x * x)) := by
  have h1 := meanOf_sq_dev l h
  have h2 := meanOf_nonneg (l.map (fun x => (x - meanOf l) * (x - meanOf l))) (by
    intro x hx
    obtain ⟨y, -, rfl⟩ := List.mem_map.1 hx
    exact mul_self_nonneg _)
  linarith

theorem abs_list_sum_le (l : List ℚ) : |l.sum| ≤ (l.map (fun x => |x|)).sum := by
  induction l with
  | nil => simp
  | cons x l ih =>
    simp only [List.sum_cons, List.map_cons]
    exact (abs_add_le _ _).trans (by linarith)

theorem abs_meanOf_le (l : List ℚ) : |meanOf l| ≤ meanOf (l.map (fun x => |x|)) := by
  unfold meanOf
  rw [abs_div, List.length_map, abs_of_nonneg (Nat.cast_nonneg (α := ℚ) l.length)]
  exact div_le_div_of_nonneg_right (abs_list_sum_le l) (Nat.cast_nonneg _)

/-! ## Quantiles -/

/-- Linear interpolation in a list. -/
def interp (s : List ℚ) (pos : ℚ) : ℚ :=
  s.getD ⌊pos⌋.toNat 0 +
    (pos - (⌊pos⌋.toNat : ℚ)) * (s.getD (⌊pos⌋.toNat + 1) (s.getD ⌊pos⌋.toNat 0)
      - s.getD ⌊pos⌋.toNat 0)

theorem quantileOf_eq (l : List ℚ) (q : ℚ) :
    quantileOf l q = interp (l.mergeSort (fun a b => decide (a ≤ b)))
      (q * (((l.mergeSort (fun a b => decide (a ≤ b))).length : ℚ) - 1)) := rfl

theorem getD_lt (s : List ℚ) (i : Nat) (h : i < s.length) (d : ℚ) : s.getD i d = s[i] := by
  simp [List.getD, h]

theorem floor_toNat_bounds (pos : ℚ) (h : 0 ≤ pos) :
    ((⌊pos⌋.toNat : Nat) : ℚ) ≤ pos ∧ pos < ((⌊pos⌋.toNat : Nat) : ℚ) + 1 := by
  have h0 : 0 ≤ ⌊pos⌋ := Int.floor_nonneg.2 h
  have e : ((⌊pos⌋.toNat : Nat) : ℚ) = ((⌊pos⌋ : Int) : ℚ) := by
    have : ((⌊pos⌋.toNat : Nat) : Int) = ⌊pos⌋ := Int.toNat_of_nonneg h0
    exact_mod_cast this
  rw [e]
  exact ⟨Int.floor_le pos, Int.lt_floor_add_one pos⟩

theorem sorted_get (s : List ℚ) (hs : s.Pairwise (· ≤ ·)) (i j : Nat) (hij : i ≤ j)
    (hj : j < s.length) : s[i]'(by omega) ≤ s[j] := by
  rcases Nat.lt_or_ge i j with h | h
  · exact List.pairwise_iff_getElem.1 hs i j (by omega) hj h
  · have : i = j := by omega
    subst this; exact le_refl _

/-- The interpolated value lies between its two neighbours. -/
theorem interp_between (s : List ℚ) (hs : s.Pairwise (· ≤ ·)) (pos : ℚ) (h0 : 0 ≤ pos)
    (h1 : pos ≤ (s.length : ℚ) - 1) :
    ∃ i, ∃ hi : i < s.length, (i : ℚ) ≤ pos ∧ pos < (i : ℚ) + 1 ∧ s[i] ≤ interp s pos ∧
      ((pos = i ∧ interp s pos = s[i]) ∨
        ∃ hi' : i + 1 < s.length, interp s pos = s[i] + (pos - i) * (s[i + 1] - s[i]) ∧
          interp s pos ≤ s[i + 1]) := by
  obtain ⟨a, b⟩ := floor_toNat_bounds pos h0
  have hi : ⌊pos⌋.toNat < s.length := by
    have : ((⌊pos⌋.toNat : Nat) : ℚ) < s.length := by linarith
    exact_mod_cast this
  refine ⟨⌊pos⌋.toNat, hi, a, b, ?_, ?_⟩
  · unfold interp
    rw [getD_lt s _ hi]
    by_cases hi' : ⌊pos⌋.toNat + 1 < s.length
    · rw [getD_lt s _ hi']
      have := sorted_get s hs _ _ (Nat.le_succ ⌊pos⌋.toNat) hi'
      nlinarith
    · have : s.getD (⌊pos⌋.toNat + 1) s[⌊pos⌋.toNat] = s[⌊pos⌋.toNat] := by
        simp [List.getD, List.getElem?_eq_none (by omega : s.length ≤ ⌊pos⌋.toNat + 1)]
      rw [this]; linarith
  · by_cases hi' : ⌊pos⌋.toNat + 1 < s.length
    · right
      have e : interp s pos = s[⌊pos⌋.toNat]
          + (pos - ⌊pos⌋.toNat) * (s[⌊pos⌋.toNat + 1] - s[⌊pos⌋.toNat]) := by
        unfold interp
        rw [getD_lt s _ hi, getD_lt s _ hi']
      refine ⟨hi', e, ?_⟩
      rw [e]
      have := sorted_get s hs _ _ (Nat.le_succ ⌊pos⌋.toNat) hi'
      nlinarith
    · left
      have hlen : s.length = ⌊pos⌋.toNat + 1 := by omega
      have hp : pos = (⌊pos⌋.toNat : ℚ) := by
        rw [hlen] at h1; push_cast at h1; linarith
      refine ⟨hp, ?_⟩
      unfold interp
      rw [getD_lt s _ hi]
      have : pos - (⌊pos⌋.toNat : ℚ) = 0 := by linarith
      rw [this]; ring

theorem interp_mono (s : List ℚ) (hs : s.Pairwise (· ≤ ·)) (p q : ℚ) (h0 : 0 ≤ p) (hpq : p ≤ q)
    (h1 : q ≤ (s.length : ℚ) - 1) : interp s p ≤ interp s q := by
  obtain ⟨i, hi, a1, a2, a3, a4⟩ := interp_between s hs p h0 (by linarith)
  obtain ⟨j, hj, b1, b2, b3, b4⟩ := interp_between s hs q (by linarith) h1
  have hij : i ≤ j := by
    have : (i : ℚ) < (j : ℚ) + 1 := by linarith
    have : i < j + 1 := by exact_mod_cast this
    omega
  rcases Nat.lt_or_ge i j with h | h
  · rcases a4 with ⟨-, e⟩ | ⟨hi', -, e⟩
    · rw [e]; exact (sorted_get s hs i j hij hj).trans b3
    · exact e.trans ((sorted_get s hs (i + 1) j h hj).trans b3)
  · have : i = j := by omega
    subst this
    rcases a4 with ⟨-, e⟩ | ⟨hi', e, -⟩
    · rw [e]; exact b3
    · rcases b4 with ⟨e2, e3⟩ | ⟨_, e2, -⟩
      · have : p = i := by linarith
        rw [e, e3, this]; linarith
      · rw [e, e2]
        have := sorted_get s hs i (i + 1) (Nat.le_succ i) hi'
        nlinarith

theorem countP_ge_of_prefix (s : List ℚ) (P : ℚ → Bool) (n : Nat) (hn : n ≤ s.length)
    (h : ∀ i (hi : i < s.length), i < n → P s[i] = true) : n ≤ s.countP P := by
  have h1 : (s.take n).countP P = n := by
    have : (s.take n).length = n := by simp [hn]
    conv_rhs => rw [← this]
    rw [List.countP_eq_length]
    intro x hx
    obtain ⟨i, hi, rfl⟩ := List.mem_iff_getElem.1 hx
    rw [List.getElem_take]
    exact h i (by simp at hi; omega) (by simp at hi; omega)
  rw [← h1]
  exact (List.take_sublist n s).countP_le

theorem countP_ge_of_suffix (s : List ℚ) (P : ℚ → Bool) (n : Nat)
    (h : ∀ i (hi : i < s.length), n ≤ i → P s[i] = true) : s.length - n ≤ s.countP P := by
  have h1 : (s.drop n).countP P = s.length - n := by
    rw [← List.length_drop, List.countP_eq_length]
    intro x hx
    obtain ⟨i, hi, rfl⟩ := List.mem_iff_getElem.1 hx
    rw [List.getElem_drop]
    exact h _ (by simp at hi; omega) (by omega)
  rw [← h1]
  exact (List.drop_sublist n s).countP_le

/-- More than `pos` values are at most the value at `pos`, and more than `length - 1 - pos` are at
least it. -/
theorem interp_ranks (s : List ℚ) (hs : s.Pairwise (· ≤ ·)) (pos : ℚ) (h0 : 0 ≤ pos)
    (h1 : pos ≤ (s.length : ℚ) - 1) :
    pos < s.countP (fun x => x ≤ interp s pos) ∧
    (s.length : ℚ) - 1 - pos < s.countP (fun x => interp s pos ≤ x) := by
  obtain ⟨i, hi, a1, a2, a3, a4⟩ := interp_between s hs pos h0 h1
  constructor
  · have : i + 1 ≤ s.countP (fun x => x ≤ interp s pos) := by
      apply countP_ge_of_prefix s _ _ (by omega)
      intro j hj hji
      simp only [decide_eq_true_eq]
      exact (sorted_get s hs j i (by omega) hi).trans a3
    have : ((i + 1 : Nat) : ℚ) ≤ s.countP (fun x => x ≤ interp s pos) := by exact_mod_cast this
    push_cast at this
    linarith
  · rcases a4 with ⟨e1, e2⟩ | ⟨hi', e1, e2⟩
    · have : s.length - i ≤ s.countP (fun x => interp s pos ≤ x) := by
        apply countP_ge_of_suffix s _ _
        intro j hj hji
        simp only [decide_eq_true_eq]
        rw [e2]; exact sorted_get s hs i j hji hj
      have h2 : (s.length : ℚ) ≤ ((i + s.countP (fun x => interp s pos ≤ x) : Nat) : ℚ) := by
        exact_mod_cast (by omega)
      push_cast at h2
      linarith
    · by_cases hp : pos = i
      · have e3 : interp s pos = s[i] := by
          rw [e1, hp]; ring
        have : s.length - i ≤ s.countP (fun x => interp s pos ≤ x) := by
          apply countP_ge_of_suffix s _ _
          intro j hj hji
          simp only [decide_eq_true_eq]
          rw [e3]; exact sorted_get s hs i j hji hj
        have h2 : (s.length : ℚ) ≤ ((i + s.countP (fun x => interp s pos ≤ x) : Nat) : ℚ) := by
          exact_mod_cast (by omega)
        push_cast at h2
        linarith
      · have hlt : (i : ℚ) < pos := lt_of_le_of_ne a1 (Ne.symm hp)
        have : s.length - (i + 1) ≤ s.countP (fun x => interp s pos ≤ x) := by
          apply countP_ge_of_suffix s _ _
          intro j hj hji
          simp only [decide_eq_true_eq]
          exact e2.trans (sorted_get s hs (i + 1) j hji hj)
        have h2 : (s.length : ℚ) ≤ ((i + 1 + s.countP (fun x => interp s pos ≤ x) : Nat) : ℚ) := by
          exact_mod_cast (by omega)
        push_cast at h2
        linarith

theorem sorted_mergeSort_rat (l : List ℚ) :
    (l.mergeSort (fun a b => decide (a ≤ b))).Pairwise (· ≤ ·) := by
  have := List.pairwise_mergeSort (le := fun a b : ℚ => decide (a ≤ b))
    (by intro a b c; simp only [decide_eq_true_eq]; exact le_trans)
    (by intro a b; simp only [Bool.or_eq_true, decide_eq_true_eq]; exact le_total a b) l
  exact this.imp (by intro a b h; simpa using h)

theorem quantileOf_mono (l : List ℚ) (hne : l ≠ []) (p q : ℚ) (h0 : 0 ≤ p) (hpq : p ≤ q)
    (h1 : q ≤ 1) : quantileOf l p ≤ quantileOf l q := by
  rw [quantileOf_eq, quantileOf_eq]
  have hn : (1 : ℚ) ≤ ((l.mergeSort (fun a b => decide (a ≤ b))).length : ℚ) := by
    rw [List.length_mergeSort]
    exact_mod_cast (List.length_pos_iff.2 hne)
  exact interp_mono _ (sorted_mergeSort_rat l) _ _ (mul_nonneg h0 (by linarith))
    (by nlinarith) (by nlinarith)

theorem quantileOf_interpolates (l : List ℚ) (hne : l ≠ []) (q : ℚ) (h0 : 0 ≤ q) (h1 : q ≤ 1) :
    ∃ (s : List ℚ) (i : Nat) (lo : ℚ), s.Perm l ∧ s.Pairwise (· ≤ ·) ∧
      (i : ℚ) ≤ q * ((l.length : ℚ) - 1) ∧ q * ((l.length : ℚ) - 1) < (i : ℚ) + 1 ∧
      s[i]? = some lo ∧
      ((q * ((l.length : ℚ) - 1) = i ∧ quantileOf l q = lo) ∨
        ∃ hi, s[i + 1]? = some hi ∧
          quantileOf l q = lo + (q * ((l.length : ℚ) - 1) - i) * (hi - lo)) := by
  have hn : (1 : ℚ) ≤ (l.length : ℚ) := by exact_mod_cast (List.length_pos_iff.2 hne)
  have e : interp (l.mergeSort (fun a b => decide (a ≤ b))) (q * ((l.length : ℚ) - 1))
      = quantileOf l q := by rw [quantileOf_eq, List.length_mergeSort]
  obtain ⟨i, hi, a1, a2, -, a4⟩ := interp_between _ (sorted_mergeSort_rat l)
    (q * ((l.length : ℚ) - 1)) (mul_nonneg h0 (by linarith))
    (by rw [List.length_mergeSort]; nlinarith)
  rw [e] at a4
  refine ⟨_, i, _, List.mergeSort_perm l _, sorted_mergeSort_rat l, a1, a2,
    List.getElem?_eq_getElem hi, ?_⟩
  rcases a4 with h | ⟨hi', h, -⟩
  · exact Or.inl h
  · exact Or.inr ⟨_, List.getElem?_eq_getElem hi', h⟩

theorem quantileOf_ranks (l : List ℚ) (hne : l ≠ []) (q : ℚ) (h0 : 0 ≤ q) (h1 : q ≤ 1) :
    q * ((l.length : ℚ) - 1) < l.countP (fun x => x ≤ quantileOf l q) ∧
    (1 - q) * ((l.length : ℚ) - 1) < l.countP (fun x => quantileOf l q ≤ x) := by
  have hperm := List.mergeSort_perm l (fun a b => decide (a ≤ b))
  have hn : (1 : ℚ) ≤ (l.length : ℚ) := by exact_mod_cast (List.length_pos_iff.2 hne)
  have h := interp_ranks _ (sorted_mergeSort_rat l) (q * ((l.length : ℚ) - 1))
    (mul_nonneg h0 (by linarith)) (by rw [List.length_mergeSort]; nlinarith)
  have e : interp (l.mergeSort (fun a b => decide (a ≤ b))) (q * ((l.length : ℚ) - 1))
      = quantileOf l q := by rw [quantileOf_eq, List.length_mergeSort]
  rw [e, hperm.countP_eq, hperm.countP_eq, List.length_mergeSort] at h
  exact ⟨h.1, by have := h.2; linarith⟩

end Verif
