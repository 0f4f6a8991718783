import Verif.Lemmas.Pairwise
import Verif.Props.ReachPoint
import Mathlib.Tactic.Positivity
import Mathlib.Tactic.NormNum
import Mathlib.Tactic.FieldSimp

/-!
# C29–C31: the pairwise union reach surface
-/

namespace Verif

open Verif.Spec Finset

/-! ## C29 -/

theorem ineq_shape (p : Nat) : ∃ G h, Pairwise.inequalityConstraints p = .ok (G, h) ∧
    G.rows = p * p + p + p ∧ G.cols = p * p ∧ h.length = p * p + p + p ∧
    (∀ r < p * p, h.getD r 0 = 0 ∧ ∀ c, G.entry r c = if r = c then -1 else 0) ∧
    (∀ i < p, h.getD (p * p + i) 0 = 1 ∧ ∀ c, G.entry (p * p + i) c = if i = c / p then 1 else 0) ∧
    (∀ i < p, h.getD (p * p + p + i) 0 = 1 ∧
      ∀ c, G.entry (p * p + p + i) c = if i = c % p then 1 else 0) := by
  unfold Pairwise.inequalityConstraints NpMat.vstack
  simp only [NpMat.neg, NpMat.eye, NpMat.kron, NpMat.onesRow, bind, Except.bind, pure, Except.pure,
    Nat.mul_one, Nat.one_mul, if_true]
  refine ⟨_, _, rfl, rfl, rfl, by simp; omega, ?_, ?_, ?_⟩
  · intro r hr
    refine ⟨?_, fun c => ?_⟩
    · rw [List.getD_eq_getElem?_getD, List.getElem?_append_left (by simpa using hr)]
      simp [hr]
    · simp only [show r < p * p + p by omega, if_true, hr]
      split <;> simp
  · intro i hi
    refine ⟨?_, fun c => ?_⟩
    · rw [List.getD_eq_getElem?_getD, List.getElem?_append_right (by simp)]
      simp [show i < 2 * p by omega]
    · simp [hi]
  · intro i hi
    refine ⟨?_, fun c => ?_⟩
    · rw [List.getD_eq_getElem?_getD, List.getElem?_append_right (by simp; omega)]
      simp [show p * p + p + i - p * p < 2 * p by omega]
    · simp [Nat.mod_eq_of_lt hi]

theorem eq_shape (p : Nat) : ∃ A b, Pairwise.equalityConstraints p = .ok (A, b) ∧
    A.rows = p + (Pairwise.upperPairs p).length ∧ A.cols = p * p ∧ (∀ r, b.getD r 0 = 0) ∧
    b.length = A.rows ∧
    (∀ i < p, ∀ c, A.entry i c = if c = i * p + i then 1 else 0) ∧
    (∀ t (ht : t < (Pairwise.upperPairs p).length) (c : Nat), A.entry (p + t) c =
      if c = (Pairwise.upperPairs p)[t].2 * p + (Pairwise.upperPairs p)[t].1 then -1
      else if c = (Pairwise.upperPairs p)[t].1 * p + (Pairwise.upperPairs p)[t].2 then 1 else 0) := by
  obtain ⟨A1, a1, a2, a3, a4⟩ := diagonal_fold p p le_rfl
  obtain ⟨A2, b1, b2, b3, b4, b5⟩ := symmetry_fold p (Pairwise.upperPairs p)
    (NpMat.zeros ((p * p - p) / 2) (p * p)) 0 rfl
    (by simp [NpMat.zeros, length_upperPairs])
    (fun ij h => (mem_upperPairs p ij.1 ij.2).1 h)
  simp only [Nat.zero_add, NpMat.zeros] at b2 b3 b5
  unfold Pairwise.equalityConstraints
  simp only [bind, Except.bind, pure, Except.pure, a1, b1, NpMat.vstack, a3, b3, if_true]
  refine ⟨_, _, rfl, by simp [a2, b2, length_upperPairs], rfl, ?_, by simp [a2, b2], ?_, ?_⟩
  · intro r
    rw [List.getD_eq_getElem?_getD, List.replicate_append_replicate]
    cases h : (List.replicate (p + (p * p - p) / 2) (0 : ℚ))[r]? with
    | none => rfl
    | some x =>
      have := List.mem_of_getElem? h
      simp only [List.mem_replicate] at this
      simp [this.2]
  · intro i hi c
    simp [a2, hi, a4]
  · intro t ht c
    have : ¬ (p + t < p) := by omega
    simp only [a2, this, if_false, Nat.add_sub_cancel_left]
    exact b5 t ht c

/-- C29: for every number of publishers the constraint construction succeeds, and a parameter
vector satisfies `G x ≤ h` and `A x = b` exactly if the `p × p` matrix it flattens is
non-negative, has row and column sums at most one, zero diagonal, and is symmetric. -/
theorem C29_constraints_iff (p : Nat) :
    ∃ G h A b, Pairwise.inequalityConstraints p = .ok (G, h) ∧
      Pairwise.equalityConstraints p = .ok (A, b) ∧
      G.rows = h.length ∧ A.rows = b.length ∧ G.cols = p * p ∧ A.cols = p * p ∧
      ∀ x : Nat → ℚ,
        (SatisfiesLe G.rows G.cols G.entry (fun r => h.getD r 0) x ∧
          SatisfiesEq A.rows A.cols A.entry (fun r => b.getD r 0) x) ↔
        PlausibleOverlap p (fun i j => x (i * p + j)) := by
  obtain ⟨G, h, g1, g2, g3, g4, g5, g6, g7⟩ := ineq_shape p
  obtain ⟨A, b, a1, a2, a3, a4, a5, a6, a7⟩ := eq_shape p
  refine ⟨G, h, A, b, g1, a1, by rw [g2, g4], a5.symm, g3, a3, ?_⟩
  intro x
  have hG1 : ∀ r < p * p, ∑ c ∈ range (p * p), G.entry r c * x c = - x r := by
    intro r hr
    have : ∀ c ∈ range (p * p), G.entry r c * x c = if r = c then - x c else 0 := by
      intro c _
      rw [(g5 r hr).2 c]
      split <;> simp
    rw [Finset.sum_congr rfl this, Finset.sum_ite_eq]
    simp [hr]
  have hG2 : ∀ i < p, ∑ c ∈ range (p * p), G.entry (p * p + i) c * x c
      = ∑ j ∈ range p, x (i * p + j) := by
    intro i hi
    rw [sum_range_mul]
    have : ∀ i' ∈ range p, ∑ j ∈ range p, G.entry (p * p + i) (i' * p + j) * x (i' * p + j)
        = if i = i' then ∑ j ∈ range p, x (i' * p + j) else 0 := by
      intro i' _
      by_cases h : i = i'
      · rw [if_pos h]
        apply Finset.sum_congr rfl
        intro j hj
        rw [(g6 i hi).2, flat_div p i' j (Finset.mem_range.1 hj), if_pos h, one_mul]
      · rw [if_neg h]
        apply Finset.sum_eq_zero
        intro j hj
        rw [(g6 i hi).2, flat_div p i' j (Finset.mem_range.1 hj), if_neg h, zero_mul]
    rw [Finset.sum_congr rfl this, Finset.sum_ite_eq]
    simp [hi]
  have hG3 : ∀ j < p, ∑ c ∈ range (p * p), G.entry (p * p + p + j) c * x c
      = ∑ i ∈ range p, x (i * p + j) := by
    intro j hj
    rw [sum_range_mul]
    apply Finset.sum_congr rfl
    intro i _
    have : ∀ j' ∈ range p, G.entry (p * p + p + j) (i * p + j') * x (i * p + j')
        = if j = j' then x (i * p + j') else 0 := by
      intro j' hj'
      rw [(g7 j hj).2, flat_mod p i j' (Finset.mem_range.1 hj')]
      split <;> simp
    rw [Finset.sum_congr rfl this, Finset.sum_ite_eq]
    simp [hj]
  have hA1 : ∀ i < p, ∑ c ∈ range (p * p), A.entry i c * x c = x (i * p + i) := by
    intro i hi
    have : ∀ c ∈ range (p * p), A.entry i c * x c = if i * p + i = c then x c else 0 := by
      intro c _
      rw [a6 i hi c]
      by_cases h : c = i * p + i
      · simp [h]
      · simp [h, Ne.symm h]
    rw [Finset.sum_congr rfl this, Finset.sum_ite_eq]
    simp [flat_lt p i i hi hi]
  have hA2 : ∀ t (ht : t < (Pairwise.upperPairs p).length),
      ∑ c ∈ range (p * p), A.entry (p + t) c * x c
        = x ((Pairwise.upperPairs p)[t].1 * p + (Pairwise.upperPairs p)[t].2)
          - x ((Pairwise.upperPairs p)[t].2 * p + (Pairwise.upperPairs p)[t].1) := by
    intro t ht
    have hmem : (Pairwise.upperPairs p)[t] ∈ Pairwise.upperPairs p := List.getElem_mem _
    have h7 := a7 t ht
    generalize (Pairwise.upperPairs p)[t] = ij at hmem h7 ⊢
    obtain ⟨i, j⟩ := ij
    have hlt := (mem_upperPairs p i j).1 hmem
    simp only at h7 ⊢
    have hne : i * p + j ≠ j * p + i := by
      have : (i + 1) * p ≤ j * p := Nat.mul_le_mul_right p hlt.1
      rw [Nat.add_mul] at this
      omega
    have : ∀ c ∈ range (p * p), A.entry (p + t) c * x c
        = (if i * p + j = c then x c else 0) - (if j * p + i = c then x c else 0) := by
      intro c _
      rw [h7 c]
      by_cases h : c = j * p + i
      · subst h; simp [hne]
      · by_cases h' : c = i * p + j
        · subst h'; simp [Ne.symm hne, hne]
        · simp [h, h', Ne.symm h, Ne.symm h']
    rw [Finset.sum_congr rfl this, Finset.sum_sub_distrib, Finset.sum_ite_eq, Finset.sum_ite_eq]
    simp [flat_lt p i j (by omega) hlt.2, flat_lt p j i hlt.2 (by omega)]
  simp only [SatisfiesLe, SatisfiesEq]
  constructor
  · rintro ⟨hle, heq⟩
    refine ⟨?_, ?_, ?_, ?_, ?_⟩
    · intro i hi j hj
      have hr := flat_lt p i j hi hj
      have := hle (i * p + j) (by rw [g2]; omega)
      rw [g3, hG1 _ hr, (g5 _ hr).1] at this
      linarith
    · intro i hi
      have := hle (p * p + i) (by rw [g2]; omega)
      rwa [g3, hG2 i hi, (g6 i hi).1] at this
    · intro j hj
      have := hle (p * p + p + j) (by rw [g2]; omega)
      rwa [g3, hG3 j hj, (g7 j hj).1] at this
    · intro i hi
      have := heq i (by rw [a2]; omega)
      rwa [a3, hA1 i hi, a4] at this
    · have key : ∀ i j, i < j → j < p → x (i * p + j) = x (j * p + i) := by
        intro i j hij hj
        obtain ⟨t, ht, hte⟩ := List.getElem_of_mem ((mem_upperPairs p i j).2 ⟨hij, hj⟩)
        have := heq (p + t) (by rw [a2]; omega)
        rw [a3, hA2 t ht, a4, hte] at this
        simp only at this
        linarith
      intro i hi j hj
      rcases lt_trichotomy i j with h | h | h
      · exact key i j h hj
      · rw [h]
      · exact (key j i h hi).symm
  · intro hP
    constructor
    · intro r hr
      rw [g2] at hr
      rw [g3]
      by_cases h1 : r < p * p
      · rw [hG1 r h1, (g5 r h1).1]
        have hp : 0 < p := by
          rcases Nat.eq_zero_or_pos p with h | h
          · rw [h] at h1; simp at h1
          · exact h
        have := hP.nonneg (r / p) (Nat.div_lt_of_lt_mul h1) (r % p) (Nat.mod_lt _ hp)
        rw [Nat.mul_comm, Nat.div_add_mod] at this
        linarith
      · by_cases h2 : r < p * p + p
        · obtain ⟨i, rfl⟩ : ∃ i, r = p * p + i := ⟨r - p * p, by omega⟩
          have hi : i < p := by omega
          rw [hG2 i hi, (g6 i hi).1]
          exact hP.row i hi
        · obtain ⟨i, rfl⟩ : ∃ i, r = p * p + p + i := ⟨r - (p * p + p), by omega⟩
          have hi : i < p := by omega
          rw [hG3 i hi, (g7 i hi).1]
          exact hP.col i hi
    · intro r hr
      rw [a2] at hr
      rw [a3]
      simp only [a4]
      by_cases h1 : r < p
      · rw [hA1 r h1]; exact hP.diag r h1
      · obtain ⟨t, rfl⟩ : ∃ t, r = p + t := ⟨r - p, by omega⟩
        have ht : t < (Pairwise.upperPairs p).length := by omega
        rw [hA2 t ht]
        have hmem : (Pairwise.upperPairs p)[t] ∈ Pairwise.upperPairs p := List.getElem_mem _
        have hlt := (mem_upperPairs p _ _).1 hmem
        exact sub_eq_zero.2 (hP.symm _ (hlt.1.trans hlt.2) _ hlt.2)

/-- three publishers: publisher 0 and 1 overlap by one half, 0 and 2 by one quarter -/
example : PlausibleOverlap 3
    (fun i j => ([0, 1/2, 1/4, 1/2, 0, 0, 1/4, 0, 0] : List ℚ).getD (i * 3 + j) 0) := by
  refine ⟨?_, ?_, ?_, ?_, ?_⟩ <;> decide +kernel

/-! ## C30 -/

/-- The overlap matrix stored in a surface. -/
def surfaceMatrix (s : PairwiseSurface) (i j : Nat) : ℚ := s.a.getD (i * s.p + j) 0

/-- The maximum reaches of the curves of a surface. -/
def surfaceMax (s : PairwiseSurface) (i : Nat) : ℚ := (s.curves.map (·.maxReach)).getD i 0

/-- A surface as the constructor and the solver leave it: one curve per publisher, each with a
positive maximum reach, and one parameter per ordered pair of publishers. -/
structure WellFormed (s : PairwiseSurface) : Prop where
  curves : s.curves.length = s.p
  params : s.a.length = s.p * s.p
  positive : ∀ c ∈ s.curves, 0 < c.maxReach

theorem reachVector_length (curves : List SurfaceCurve) (v r : List ℚ)
    (h : PairwiseSurface.getReachVector curves v = .ok r) : r.length = min curves.length v.length := by
  unfold PairwiseSurface.getReachVector at h
  rw [mapM_ok_iff] at h
  rw [← h.length_eq, List.length_zip]

theorem surfaceMax_pos (s : PairwiseSurface) (hs : WellFormed s) (i : Nat) (hi : i < s.p) :
    0 < surfaceMax s i := by
  unfold surfaceMax
  have hi' : i < s.curves.length := by rw [hs.curves]; exact hi
  rw [List.getD_eq_getElem?_getD]
  simp only [List.getElem?_map, List.getElem?_eq_getElem hi', Option.map_some, Option.getD_some]
  exact hs.positive _ (List.getElem_mem _)

theorem pairDivisor_ok (s : PairwiseSurface) (hs : WellFormed s) (i j : Nat) (hi : i < s.p)
    (hj : j < s.p) :
    PairwiseSurface.pairDivisor s.curves i j = .ok (max (surfaceMax s i) (surfaceMax s j) * 2) := by
  have hi' : i < s.curves.length := by rw [hs.curves]; exact hi
  have hj' : j < s.curves.length := by rw [hs.curves]; exact hj
  have hpos := surfaceMax_pos s hs i hi
  unfold PairwiseSurface.pairDivisor
  rw [pyIndex_nat _ _ hi', pyIndex_nat _ _ hj']
  have e1 : surfaceMax s i = s.curves[i].maxReach := by
    unfold surfaceMax
    rw [List.getD_eq_getElem?_getD]
    simp [List.getElem?_eq_getElem hi']
  have e2 : surfaceMax s j = s.curves[j].maxReach := by
    unfold surfaceMax
    rw [List.getD_eq_getElem?_getD]
    simp [List.getElem?_eq_getElem hj']
  rw [e1] at hpos
  simp only [bind, Except.bind, e1, e2]
  rw [if_neg]
  have : 0 < max s.curves[i].maxReach s.curves[j].maxReach := lt_of_lt_of_le hpos (le_max_left _ _)
  positivity

theorem pyIndex_getD (l : List ℚ) (i : Nat) (hi : i < l.length) :
    pyIndex l (i : Int) = .ok (l.getD i 0) := by
  rw [pyIndex_nat _ _ hi, List.getD_eq_getElem?_getD, List.getElem?_eq_getElem hi]
  rfl

theorem mapM_indexPairs (p : Nat) (f : Nat × Nat → Except PyErr ℚ) (g : Nat → Nat → ℚ)
    (h : ∀ i < p, ∀ j < p, f (i, j) = .ok (g i j)) :
    (PairwiseSurface.indexPairs p).mapM f
      = .ok ((List.range (p * p)).map (fun c => g (c / p) (c % p))) := by
  rw [mapM_ok_iff, indexPairs_eq]
  rw [List.forall₂_map_left_iff, List.forall₂_map_right_iff, List.forall₂_same]
  intro c hc
  have hc := List.mem_range.1 hc
  have hp : 0 < p := by
    rcases Nat.eq_zero_or_pos p with h | h
    · rw [h] at hc; simp at hc
    · exact h
  exact h _ (Nat.div_lt_of_lt_mul hc) _ (Nat.mod_lt _ hp)

theorem sum_flat (p : Nat) (g : Nat → Nat → ℚ) :
    ((List.range (p * p)).map (fun c => g (c / p) (c % p))).sum
      = ∑ i ∈ range p, ∑ j ∈ range p, g i j := by
  rw [list_range_sum, sum_range_mul]
  apply Finset.sum_congr rfl
  intro i _
  apply Finset.sum_congr rfl
  intro j hj
  rw [flat_div p i j (Finset.mem_range.1 hj), flat_mod p i j (Finset.mem_range.1 hj)]

theorem list_sum_getD (l : List ℚ) : l.sum = ∑ i ∈ range l.length, l.getD i 0 := by
  induction l with
  | nil => simp
  | cons a l ih =>
    rw [List.length_cons, Finset.sum_range_succ', List.sum_cons, ih]
    simp [add_comm]

/-- C30 (a): `by_impressions` computes the documented formula from the single-publisher reaches. -/
theorem C30_formula (s : PairwiseSurface) (hs : WellFormed s) (v : List ℚ) (hv : v.length = s.p)
    (r : List ℚ) (hr : PairwiseSurface.getReachVector s.curves v = .ok r) :
    ∃ pt, s.byImpressions v = .ok pt ∧ pt.impressions = v ∧ pt.maxFrequency = 1 ∧
      pt.reach 1 = .ok (unionReach s.p (surfaceMatrix s) (surfaceMax s) (fun i => r.getD i 0)) := by
  have hlen : r.length = s.p := by
    rw [reachVector_length _ _ _ hr, hs.curves, hv, min_self]
  unfold PairwiseSurface.byImpressions
  rw [hr]
  simp only [bind, Except.bind]
  have hterm : ∀ i < s.p, ∀ j < s.p, s.overlapTerm r (i, j) = .ok (surfaceMatrix s i j *
      r.getD i 0 * r.getD j 0 / (max (surfaceMax s i) (surfaceMax s j) * 2)) := by
    intro i hi j hj
    unfold PairwiseSurface.overlapTerm
    simp only [bind, Except.bind]
    rw [pyIndex_getD s.a _ (by rw [hs.params]; exact flat_lt _ _ _ hi hj),
      pyIndex_getD r i (by omega), pyIndex_getD r j (by omega), pairDivisor_ok s hs i j hi hj]
    rfl
  rw [mapM_indexPairs s.p _ _ hterm]
  simp only [sum_flat s.p (fun i j => surfaceMatrix s i j *
      r.getD i 0 * r.getD j 0 / (max (surfaceMax s i) (surfaceMax s j) * 2)), ReachPoint.new]
  refine ⟨_, rfl, rfl, rfl, ?_⟩
  unfold ReachPoint.reach
  simp only [List.length_cons, List.length_nil]
  rw [if_pos ⟨by norm_num, by norm_num⟩]
  simp only [pyIndex, sub_self, lt_self_iff_false, if_false, Int.toNat_zero,
    List.getElem?_cons_zero]
  congr 1
  unfold unionReach
  rw [list_sum_getD, hlen]
  congr 1
  rw [Finset.mul_sum]
  apply Finset.sum_congr rfl
  intro i hi
  rw [Finset.mul_sum]
  apply Finset.sum_congr rfl
  intro j hj
  have := surfaceMax_pos s hs i (Finset.mem_range.1 hi)
  have : max (surfaceMax s i) (surfaceMax s j) ≠ 0 :=
    (lt_of_lt_of_le this (le_max_left _ _)).ne'
  field_simp

theorem unionReach_mono (p : Nat) (a : Nat → Nat → ℚ) (m r r' : Nat → ℚ)
    (ha : PlausibleOverlap p a) (hm : ∀ i < p, 0 < m i) (_hr0 : ∀ i < p, 0 ≤ r i)
    (hrr : ∀ i < p, r i ≤ r' i) (hr' : ∀ i < p, r' i ≤ m i) :
    unionReach p a m r ≤ unionReach p a m r' := by
  have hterm : ∀ i ∈ range p, ∀ j ∈ range p,
      a i j * r' i * r' j / max (m i) (m j) ≤
        a i j * r i * r j / max (m i) (m j) + (a i j * (r' i - r i) + a i j * (r' j - r j)) := by
    intro i hi j hj
    have hi := Finset.mem_range.1 hi
    have hj := Finset.mem_range.1 hj
    have hM : 0 < max (m i) (m j) := lt_of_lt_of_le (hm i hi) (le_max_left _ _)
    have hia : 0 ≤ a i j := ha.nonneg i hi j hj
    have hdi : 0 ≤ r' i - r i := by linarith [hrr i hi]
    have hdj : 0 ≤ r' j - r j := by linarith [hrr j hj]
    have h1 : r' j ≤ max (m i) (m j) := (hr' j hj).trans (le_max_right _ _)
    have h2 : r i ≤ max (m i) (m j) := ((hrr i hi).trans (hr' i hi)).trans (le_max_left _ _)
    rw [div_le_iff₀ hM, add_mul, div_mul_cancel₀ _ hM.ne']
    have e1 : a i j * (r' i - r i) * r' j ≤ a i j * (r' i - r i) * max (m i) (m j) :=
      mul_le_mul_of_nonneg_left h1 (mul_nonneg hia hdi)
    have e2 : a i j * (r' j - r j) * r i ≤ a i j * (r' j - r j) * max (m i) (m j) :=
      mul_le_mul_of_nonneg_left h2 (mul_nonneg hia hdj)
    nlinarith [e1, e2]
  have hsum := Finset.sum_le_sum (fun i hi => Finset.sum_le_sum (fun j hj => hterm i hi j hj))
  simp only [Finset.sum_add_distrib] at hsum
  have hrow : ∑ i ∈ range p, ∑ j ∈ range p, a i j * (r' i - r i) ≤ ∑ i ∈ range p, (r' i - r i) := by
    apply Finset.sum_le_sum
    intro i hi
    have hi := Finset.mem_range.1 hi
    rw [← Finset.sum_mul]
    have := ha.row i hi
    have hdi : 0 ≤ r' i - r i := by linarith [hrr i hi]
    nlinarith
  have hcol : ∑ i ∈ range p, ∑ j ∈ range p, a i j * (r' j - r j) ≤ ∑ j ∈ range p, (r' j - r j) := by
    rw [Finset.sum_comm]
    apply Finset.sum_le_sum
    intro j hj
    have hj := Finset.mem_range.1 hj
    rw [← Finset.sum_mul]
    have := ha.col j hj
    have hdj : 0 ≤ r' j - r j := by linarith [hrr j hj]
    nlinarith
  rw [Finset.sum_sub_distrib] at hrow hcol
  unfold unionReach
  linarith

theorem unionReach_single (p : Nat) (a : Nat → Nat → ℚ) (m r : Nat → ℚ)
    (ha : PlausibleOverlap p a) (k : Nat) (hk : k < p) (h0 : ∀ i < p, i ≠ k → r i = 0) :
    unionReach p a m r = r k := by
  unfold unionReach
  have h1 : ∑ i ∈ range p, r i = r k := by
    apply Finset.sum_eq_single_of_mem k (Finset.mem_range.2 hk)
    intro i hi hne
    exact h0 i (Finset.mem_range.1 hi) hne
  have h2 : ∑ i ∈ range p, ∑ j ∈ range p, a i j * r i * r j / max (m i) (m j) = 0 := by
    apply Finset.sum_eq_zero
    intro i hi
    apply Finset.sum_eq_zero
    intro j hj
    by_cases hik : i = k
    · by_cases hjk : j = k
      · rw [hik, hjk, ha.diag k hk]; simp
      · rw [h0 j (Finset.mem_range.1 hj) hjk]; simp
    · rw [h0 i (Finset.mem_range.1 hi) hik]; simp
  rw [h1, h2]; simp

theorem unionReach_le_sum (p : Nat) (a : Nat → Nat → ℚ) (m r : Nat → ℚ)
    (ha : PlausibleOverlap p a) (hm : ∀ i < p, 0 < m i) (hr0 : ∀ i < p, 0 ≤ r i) :
    unionReach p a m r ≤ ∑ i ∈ range p, r i := by
  unfold unionReach
  have : 0 ≤ ∑ i ∈ range p, ∑ j ∈ range p, a i j * r i * r j / max (m i) (m j) := by
    apply Finset.sum_nonneg
    intro i hi
    apply Finset.sum_nonneg
    intro j hj
    have hi := Finset.mem_range.1 hi
    have hj := Finset.mem_range.1 hj
    have hM : 0 < max (m i) (m j) := lt_of_lt_of_le (hm i hi) (le_max_left _ _)
    exact div_nonneg (mul_nonneg (mul_nonneg (ha.nonneg i hi j hj) (hr0 i hi)) (hr0 j hj)) hM.le
  linarith

/-- Single-publisher reaches between zero and the maximum reach of their curve. -/
def ReachesInRange (s : PairwiseSurface) (r : List ℚ) : Prop :=
  ∀ i < s.p, 0 ≤ r.getD i 0 ∧ r.getD i 0 ≤ surfaceMax s i

/-- C30 (b): for plausible parameters the predicted union reach lies between every single reach
and the sum of the single reaches. -/
theorem C30_bounds (s : PairwiseSurface) (hs : WellFormed s)
    (ha : PlausibleOverlap s.p (surfaceMatrix s)) (v : List ℚ) (hv : v.length = s.p)
    (r : List ℚ) (hr : PairwiseSurface.getReachVector s.curves v = .ok r)
    (hrange : ReachesInRange s r) :
    ∃ pt u, s.byImpressions v = .ok pt ∧ pt.reach 1 = .ok u ∧ (∀ x ∈ r, x ≤ u) ∧ u ≤ r.sum := by
  obtain ⟨pt, h1, _, _, h2⟩ := C30_formula s hs v hv r hr
  have hlen : r.length = s.p := by
    rw [reachVector_length _ _ _ hr, hs.curves, hv, min_self]
  refine ⟨pt, _, h1, h2, ?_, ?_⟩
  · intro x hx
    obtain ⟨k, hk, rfl⟩ := List.getElem_of_mem hx
    have hkp : k < s.p := by omega
    have e : r[k] = r.getD k 0 := by
      rw [List.getD_eq_getElem?_getD, List.getElem?_eq_getElem hk]; rfl
    have hsingle := unionReach_single s.p (surfaceMatrix s) (surfaceMax s)
        (fun i => if i = k then r.getD k 0 else 0) ha k hkp (fun i _ hne => by simp [hne])
    simp only [if_true] at hsingle
    rw [e, ← hsingle]
    apply unionReach_mono s.p _ _ _ _ ha (surfaceMax_pos s hs)
    · intro i hi
      split
      · exact (hrange k hkp).1
      · exact le_rfl
    · intro i hi
      split
      · rename_i h; rw [h]
      · exact (hrange i hi).1
    · exact fun i hi => (hrange i hi).2
  · rw [list_sum_getD, hlen]
    exact unionReach_le_sum s.p _ _ _ ha (surfaceMax_pos s hs) (fun i hi => (hrange i hi).1)

/-- C30 (c): the prediction does not decrease when any single-publisher reaches increase. -/
theorem C30_monotone (s : PairwiseSurface) (hs : WellFormed s)
    (ha : PlausibleOverlap s.p (surfaceMatrix s)) (v v' : List ℚ) (hv : v.length = s.p)
    (hv' : v'.length = s.p) (r r' : List ℚ)
    (hr : PairwiseSurface.getReachVector s.curves v = .ok r)
    (hr' : PairwiseSurface.getReachVector s.curves v' = .ok r')
    (hrange : ReachesInRange s r) (hrange' : ReachesInRange s r')
    (hle : List.Forall₂ (· ≤ ·) r r') :
    ∃ pt pt' u u', s.byImpressions v = .ok pt ∧ s.byImpressions v' = .ok pt' ∧
      pt.reach 1 = .ok u ∧ pt'.reach 1 = .ok u' ∧ u ≤ u' := by
  obtain ⟨pt, h1, _, _, h2⟩ := C30_formula s hs v hv r hr
  obtain ⟨pt', h1', _, _, h2'⟩ := C30_formula s hs v' hv' r' hr'
  have hlen : r.length = s.p := by
    rw [reachVector_length _ _ _ hr, hs.curves, hv, min_self]
  have hlen' : r'.length = s.p := by
    rw [reachVector_length _ _ _ hr', hs.curves, hv', min_self]
  refine ⟨pt, pt', _, _, h1, h1', h2, h2', ?_⟩
  apply unionReach_mono s.p _ _ _ _ ha (surfaceMax_pos s hs) (fun i hi => (hrange i hi).1)
  · intro i hi
    have := (List.forall₂_iff_get.1 hle).2 i (by omega) (by omega)
    simp only [List.get_eq_getElem] at this
    rw [List.getD_eq_getElem?_getD, List.getElem?_eq_getElem (by omega),
      List.getD_eq_getElem?_getD, List.getElem?_eq_getElem (by omega)]
    exact this
  · exact fun i hi => (hrange' i hi).2

/-- C30 (d): with one active publisher the prediction is that publisher's reach. -/
theorem C30_single_publisher (s : PairwiseSurface) (hs : WellFormed s)
    (ha : PlausibleOverlap s.p (surfaceMatrix s)) (v : List ℚ) (hv : v.length = s.p)
    (r : List ℚ) (hr : PairwiseSurface.getReachVector s.curves v = .ok r)
    (k : Nat) (hk : k < r.length) (h0 : ∀ i (hi : i < r.length), i ≠ k → r[i] = 0) :
    ∃ pt, s.byImpressions v = .ok pt ∧ pt.reach 1 = .ok r[k] := by
  obtain ⟨pt, h1, _, _, h2⟩ := C30_formula s hs v hv r hr
  have hlen : r.length = s.p := by
    rw [reachVector_length _ _ _ hr, hs.curves, hv, min_self]
  refine ⟨pt, h1, ?_⟩
  have e : ∀ i (hi : i < r.length), r.getD i 0 = r[i] := by
    intro i hi
    rw [List.getD_eq_getElem?_getD, List.getElem?_eq_getElem hi]; rfl
  rw [h2, unionReach_single s.p _ _ _ ha k (by omega) (fun i hi hne => by
    simp only [e i (by omega)]
    exact h0 i (by omega) hne), e k hk]

/-- Two publishers with at most 40 and 10 people, linear curves, half overlap. -/
def exSurface : PairwiseSurface :=
  { curves := [⟨40, fun x => .ok (min x 40)⟩, ⟨10, fun x => .ok (min (x / 2) 10)⟩],
    p := 2, a := [0, 1 / 2, 1 / 2, 0],
    data := [{ impressions := [20, 10], kplusReaches := [24], frequencies := [], spends := none,
               universeSize? := none },
             { impressions := [8, 16], kplusReaches := [15], frequencies := [], spends := none,
               universeSize? := none }] }

example : WellFormed exSurface ∧ PlausibleOverlap exSurface.p (surfaceMatrix exSurface) := by
  refine ⟨⟨rfl, rfl, ?_⟩, ⟨?_, ?_, ?_, ?_, ?_⟩⟩
  · intro c hc
    simp only [exSurface, List.mem_cons, List.not_mem_nil, or_false] at hc
    rcases hc with rfl | rfl <;> norm_num
  all_goals decide +kernel

example : PairwiseSurface.getReachVector exSurface.curves [20, 10] = .ok [20, 5] ∧
    ReachesInRange exSurface [20, 5] ∧
    (exSurface.byImpressions [20, 10]).toOption.map (·.kplusReaches) = some [25 - 5 / 4] := by
  refine ⟨by decide +kernel, ?_, by decide +kernel⟩
  unfold ReachesInRange
  decide +kernel

example : PairwiseSurface.getReachVector exSurface.curves [20, 0] = .ok [20, 0] ∧
    (exSurface.byImpressions [20, 0]).toOption.map (·.kplusReaches) = some [20] := by
  constructor <;> decide +kernel

/-! ## C31 -/

/-- The objective `½ xᵀ P x + qᵀ x` that `solvers.qp` minimises. -/
def qpObjective (n : Nat) (P : Nat → Nat → ℚ) (q : Nat → ℚ) (x : Nat → ℚ) : ℚ :=
  (1 / 2) * ∑ i ∈ range n, ∑ j ∈ range n, x i * P i j * x j + ∑ i ∈ range n, q i * x i

/-- Sum of squared differences between observed and predicted reaches. -/
def squaredError (observed predicted : List ℚ) : ℚ :=
  ((observed.zip predicted).map (fun op => (op.1 - op.2) ^ 2)).sum

/-- The inner product of a training vector with the parameters. -/
def innerUpTo (n : Nat) (z : List ℚ) (x : Nat → ℚ) : ℚ := ∑ i ∈ range n, z.getD i 0 * x i

theorem qpObjective_add (n : Nat) (P P' : Nat → Nat → ℚ) (q q' x : Nat → ℚ) :
    qpObjective n (fun i j => P i j + P' i j) (fun i => q i + q' i) x
      = qpObjective n P q x + qpObjective n P' q' x := by
  unfold qpObjective
  simp only [mul_add, add_mul, Finset.sum_add_distrib]
  ring

theorem qpObjective_one (n : Nat) (z : List ℚ) (e : ℚ) (x : Nat → ℚ) :
    qpObjective n (fun i j => z.getD i 0 * z.getD j 0) (fun i => - (e * z.getD i 0)) x
      = (1 / 2) * (e - innerUpTo n z x) ^ 2 - (1 / 2) * e ^ 2 := by
  unfold qpObjective innerUpTo
  have h1 : ∑ i ∈ range n, ∑ j ∈ range n, x i * (z.getD i 0 * z.getD j 0) * x j
      = (∑ i ∈ range n, z.getD i 0 * x i) * (∑ i ∈ range n, z.getD i 0 * x i) := by
    rw [Finset.sum_mul_sum]
    apply Finset.sum_congr rfl
    intro i _
    apply Finset.sum_congr rfl
    intro j _
    ring
  have h2 : ∑ i ∈ range n, -(e * z.getD i 0) * x i = - (e * ∑ i ∈ range n, z.getD i 0 * x i) := by
    rw [Finset.mul_sum, ← Finset.sum_neg_distrib]
    apply Finset.sum_congr rfl
    intro i _
    ring
  rw [h1, h2]
  ring

theorem qpObjective_zero (n : Nat) (x : Nat → ℚ) :
    qpObjective n (fun _ _ => 0) (fun _ => 0) x = 0 := by
  simp [qpObjective]

/-- The algebra behind C31, for arbitrary training vectors. -/
theorem qp_identity (n : Nat) (zf : List ℚ → List ℚ) (x : Nat → ℚ) :
    ∀ (rs : List (List ℚ)) (ys : List ℚ), rs.length = ys.length →
      qpObjective n (PairwiseSurface.quadraticTerm (rs.map zf))
          (PairwiseSurface.linearTerm (rs.map zf) (rs.map List.sum) ys) x
        = (1 / 2) * squaredError ys (rs.map (fun r => r.sum + innerUpTo n (zf r) x))
          - (1 / 2) * squaredError ys (rs.map List.sum) := by
  intro rs
  induction rs with
  | nil =>
    intro ys h
    have : ys = [] := List.eq_nil_of_length_eq_zero (by simpa using h.symm)
    subst this
    have e1 : PairwiseSurface.quadraticTerm (([] : List (List ℚ)).map zf) = fun _ _ => 0 := by
      funext i j; simp [PairwiseSurface.quadraticTerm]
    have e2 : PairwiseSurface.linearTerm (([] : List (List ℚ)).map zf)
        (([] : List (List ℚ)).map List.sum) [] = fun _ => 0 := by
      funext i; simp [PairwiseSurface.linearTerm]
    rw [e1, e2, qpObjective_zero]
    simp [squaredError]
  | cons r rs ih =>
    intro ys h
    rcases ys with _ | ⟨y, ys⟩
    · simp at h
    have e1 : PairwiseSurface.quadraticTerm ((r :: rs).map zf) = fun i j =>
        (zf r).getD i 0 * (zf r).getD j 0 + PairwiseSurface.quadraticTerm (rs.map zf) i j := by
      funext i j; simp [PairwiseSurface.quadraticTerm]
    have e2 : PairwiseSurface.linearTerm ((r :: rs).map zf) ((r :: rs).map List.sum) (y :: ys)
        = fun i => - ((y - r.sum) * (zf r).getD i 0)
            + PairwiseSurface.linearTerm (rs.map zf) (rs.map List.sum) ys i := by
      funext i
      simp only [PairwiseSurface.linearTerm, List.map_cons, List.zip_cons_cons, List.sum_cons]
      ring
    rw [e1, e2, qpObjective_add, qpObjective_one, ih ys (by simpa using h)]
    simp only [squaredError, List.map_cons, List.zip_cons_cons, List.sum_cons]
    ring

/-- C31 (a): up to a constant `K` that does not depend on the parameters, the objective handed to
the solver is half the sum of squared errors of the predictions the surface makes with these
parameters at the training points. -/
theorem C31_objective (s : PairwiseSurface) (hs : WellFormed s)
    (hdim : ∀ pt ∈ s.data, pt.impressions.length = s.p)
    (ys : List ℚ) (hys : s.data.mapM (fun pt => pt.reach 1) = .ok ys)
    (hcurves : ∀ pt ∈ s.data, ∃ r, PairwiseSurface.getReachVector s.curves pt.impressions = .ok r) :
    ∃ qp K, s.quadraticProgram = .ok qp ∧
      ∀ x : List ℚ, x.length = s.p * s.p →
        ∃ preds, s.data.mapM (fun pt => do
            let prediction ← { s with a := x }.byImpressions pt.impressions
            prediction.reach 1) = .ok preds ∧
          qpObjective (s.p * s.p) qp.P qp.q (fun c => x.getD c 0)
            = (1 / 2) * squaredError ys preds + K := by
  classical
  -- the single-publisher reaches at the training points
  obtain ⟨rs, hrs⟩ : ∃ rs, s.data.mapM
      (fun pt => PairwiseSurface.getReachVector s.curves pt.impressions) = .ok rs := by
    clear hys hdim
    generalize s.data = data at hcurves
    induction data with
    | nil => exact ⟨[], rfl⟩
    | cons d l ih =>
      obtain ⟨rs, h⟩ := ih (fun pt h => hcurves pt (by simp [h]))
      obtain ⟨r, hr⟩ := hcurves d (by simp)
      exact ⟨r :: rs, by rw [mapM_ok_iff] at h ⊢; exact List.Forall₂.cons hr h⟩
  have hrs' := (mapM_ok_iff _ _ _).1 hrs
  have hrlen : ∀ r ∈ rs, r.length = s.p := by
    intro r hr
    obtain ⟨i, hi, rfl⟩ := List.getElem_of_mem hr
    have hl := hrs'.length_eq
    have := (List.forall₂_iff_get.1 hrs').2 i (by omega) hi
    simp only [List.get_eq_getElem] at this
    rw [reachVector_length _ _ _ this, hs.curves, hdim _ (List.getElem_mem _), min_self]
  let zf : List ℚ → List ℚ := fun r => (List.range (s.p * s.p)).map (fun c =>
    - (r.getD (c / s.p) 0 * r.getD (c % s.p) 0 /
      (max (surfaceMax s (c / s.p)) (surfaceMax s (c % s.p)) * 2)))
  have hz : ∀ r ∈ rs, s.zVector r = .ok (zf r) := by
    intro r hr
    have hlen := hrlen r hr
    unfold PairwiseSurface.zVector
    exact mapM_indexPairs s.p _ (fun i j => - (r.getD i 0 * r.getD j 0 /
      (max (surfaceMax s i) (surfaceMax s j) * 2))) (fun i hi j hj => by
        simp only [bind, Except.bind]
        rw [pyIndex_getD r i (by omega), pyIndex_getD r j (by omega), pairDivisor_ok s hs i j hi hj]
        rfl)
  have hzs : rs.mapM s.zVector = .ok (rs.map zf) := by
    rw [mapM_ok_iff, List.forall₂_map_right_iff, List.forall₂_same]
    exact hz
  obtain ⟨G, h, A, b, g1, a1, _⟩ := C29_constraints_iff s.p
  refine ⟨{ P := PairwiseSurface.quadraticTerm (rs.map zf),
            q := PairwiseSurface.linearTerm (rs.map zf) (rs.map List.sum) ys,
            G := G, h := h, A := A, b := b },
    - ((1 / 2) * squaredError ys (rs.map List.sum)), ?_, ?_⟩
  · unfold PairwiseSurface.quadraticProgram PairwiseSurface.getZAndAlpha
    rw [hrs, hys, g1, a1]
    simp only [bind, Except.bind, hzs, pure, Except.pure]
  · intro x hx
    refine ⟨rs.map (fun r => r.sum + innerUpTo (s.p * s.p) (zf r) (fun c => x.getD c 0)), ?_, ?_⟩
    · rw [mapM_ok_iff, List.forall₂_map_right_iff, List.forall₂_iff_get]
      refine ⟨hrs'.length_eq, ?_⟩
      intro i hi hi'
      have hri := (List.forall₂_iff_get.1 hrs').2 i hi hi'
      simp only [List.get_eq_getElem] at hri ⊢
      have hws : WellFormed { s with a := x } := ⟨hs.curves, hx, hs.positive⟩
      obtain ⟨pt, p1, _, _, p2⟩ := C30_formula { s with a := x } hws s.data[i].impressions
        (hdim _ (List.getElem_mem _)) rs[i] hri
      rw [p1]
      simp only [bind, Except.bind]
      rw [p2]
      congr 1
      have hlen := hrlen rs[i] (List.getElem_mem _)
      unfold unionReach innerUpTo
      rw [list_sum_getD, hlen, sub_eq_add_neg]
      congr 1
      rw [Finset.mul_sum, ← Finset.sum_neg_distrib, sum_range_mul]
      apply Finset.sum_congr rfl
      intro i1 hi1
      rw [Finset.mul_sum, ← Finset.sum_neg_distrib]
      apply Finset.sum_congr rfl
      intro j1 hj1
      have hi1 := Finset.mem_range.1 hi1
      have hj1 := Finset.mem_range.1 hj1
      have hpos := surfaceMax_pos s hs i1 hi1
      have hne : max (surfaceMax s i1) (surfaceMax s j1) ≠ 0 :=
        (lt_of_lt_of_le hpos (le_max_left _ _)).ne'
      have hzc : (zf rs[i]).getD (i1 * s.p + j1) 0 = - (rs[i].getD i1 0 * rs[i].getD j1 0 /
          (max (surfaceMax s i1) (surfaceMax s j1) * 2)) := by
        rw [List.getD_eq_getElem?_getD, List.getElem?_map,
          List.getElem?_range (flat_lt s.p i1 j1 hi1 hj1)]
        simp only [Option.map_some, Option.getD_some, flat_div s.p i1 j1 hj1,
          flat_mod s.p i1 j1 hj1]
      rw [hzc]
      simp only [surfaceMatrix]
      have e1 : ∀ k, surfaceMax { s with a := x } k = surfaceMax s k := fun _ => rfl
      rw [e1, e1]
      field_simp
    · have hlen : rs.length = ys.length := by
        rw [← hrs'.length_eq, ((mapM_ok_iff _ _ _).1 hys).length_eq]
      simp only
      rw [qp_identity (s.p * s.p) zf _ rs ys hlen]
      ring

/-- C31 (b): so a parameter vector minimises the objective among the vectors satisfying the
constraints exactly if it is the best least-squares fit among the plausible overlap matrices. -/
theorem C31_minimisers (s : PairwiseSurface) (hs : WellFormed s)
    (hdim : ∀ pt ∈ s.data, pt.impressions.length = s.p)
    (ys : List ℚ) (hys : s.data.mapM (fun pt => pt.reach 1) = .ok ys)
    (hcurves : ∀ pt ∈ s.data, ∃ r, PairwiseSurface.getReachVector s.curves pt.impressions = .ok r) :
    ∃ (qp : PairwiseSurface.QP) (preds : List ℚ → List ℚ), s.quadraticProgram = .ok qp ∧
      (∀ x : List ℚ, x.length = s.p * s.p →
        s.data.mapM (fun pt => do
          let prediction ← { s with a := x }.byImpressions pt.impressions
          prediction.reach 1) = .ok (preds x)) ∧
      ∀ x : List ℚ, x.length = s.p * s.p →
        ((SatisfiesLe qp.G.rows qp.G.cols qp.G.entry (fun r => qp.h.getD r 0) (fun c => x.getD c 0) ∧
          SatisfiesEq qp.A.rows qp.A.cols qp.A.entry (fun r => qp.b.getD r 0) (fun c => x.getD c 0))
          ↔ PlausibleOverlap s.p (surfaceMatrix { s with a := x })) ∧
        ∀ y : List ℚ, y.length = s.p * s.p →
          (qpObjective (s.p * s.p) qp.P qp.q (fun c => x.getD c 0)
              ≤ qpObjective (s.p * s.p) qp.P qp.q (fun c => y.getD c 0) ↔
            squaredError ys (preds x) ≤ squaredError ys (preds y)) := by
  classical
  obtain ⟨qp, K, h1, h2⟩ := C31_objective s hs hdim ys hys hcurves
  choose! preds hp using h2
  refine ⟨qp, preds, h1, fun x hx => (hp x hx).1, fun x hx => ⟨?_, fun y hy => ?_⟩⟩
  · obtain ⟨G, h, A, b, g1, a1, _, _, _, _, hiff⟩ := C29_constraints_iff s.p
    have hG : qp.G = G ∧ qp.h = h ∧ qp.A = A ∧ qp.b = b := by
      unfold PairwiseSurface.quadraticProgram at h1
      rw [g1, a1, hys] at h1
      cases hz : s.getZAndAlpha with
      | error e => rw [hz] at h1; simp [bind, Except.bind] at h1
      | ok za =>
        rw [hz] at h1
        simp only [bind, Except.bind, pure, Except.pure, Except.ok.injEq] at h1
        rw [← h1]
        exact ⟨rfl, rfl, rfl, rfl⟩
    obtain ⟨e1, e2, e3, e4⟩ := hG
    rw [e1, e2, e3, e4]
    exact hiff _
  · rw [(hp x hx).2, (hp y hy).2]
    constructor <;> intro h <;> linarith

example : (exSurface.data.mapM (fun pt => pt.reach 1)) = .ok [24, 15] ∧
    (exSurface.quadraticProgram.toOption.map (fun qp => (qp.P 1 1, qp.q 1)))
      = some (25 / 16 + 16 / 25, - (5 / 4 + 4 / 5)) := by
  constructor
  · decide +kernel
  · decide +kernel

theorem mapM_length_ok {α β : Type} (f : α → Except PyErr β) (l : List α) (r : List β)
    (h : l.mapM f = .ok r) : r.length = l.length := by
  induction l generalizing r with
  | nil => simp only [List.mapM_nil, pure, Except.pure, Except.ok.injEq] at h; simp [← h]
  | cons a l ih =>
    rw [List.mapM_cons] at h
    cases ha : f a with
    | error e => rw [ha] at h; simp [bind, Except.bind] at h
    | ok b =>
      cases hl : l.mapM f with
      | error e => rw [ha, hl] at h; simp [bind, Except.bind] at h
      | ok r' =>
        rw [ha, hl] at h
        simp only [bind, Except.bind, pure, Except.pure, Except.ok.injEq] at h
        simp [← h, ih r' hl]

theorem squaredError_nonneg (ys ps : List ℚ) : 0 ≤ squaredError ys ps := by
  unfold squaredError
  apply List.sum_nonneg
  intro x hx
  obtain ⟨op, -, rfl⟩ := List.mem_map.1 hx
  positivity

theorem squaredError_eq_zero (ys ps : List ℚ) (hlen : ps.length = ys.length)
    (h : squaredError ys ps ≤ 0) : ps = ys := by
  induction ys generalizing ps with
  | nil => simpa using hlen
  | cons y ys ih =>
    cases ps with
    | nil => simp at hlen
    | cons p ps =>
      have e : squaredError (y :: ys) (p :: ps) = (y - p) ^ 2 + squaredError ys ps := by
        simp [squaredError]
      rw [e] at h
      have h1 := squaredError_nonneg ys ps
      have h2 : 0 ≤ (y - p) ^ 2 := by positivity
      have h3 : y - p = 0 := by
        have : (y - p) ^ 2 = 0 := by linarith
        simpa using this
      rw [ih ps (by simpa using hlen) (by linarith)]
      congr 1
      linarith

/-- C31 (c): if some plausible overlap matrix reproduces all observed reaches exactly, then so does
whatever minimiser the solver returns: the fitted surface passes through its training points. -/
theorem C31_exact_fit (s : PairwiseSurface) (hs : WellFormed s)
    (hdim : ∀ pt ∈ s.data, pt.impressions.length = s.p)
    (ys : List ℚ) (hys : s.data.mapM (fun pt => pt.reach 1) = .ok ys)
    (hcurves : ∀ pt ∈ s.data, ∃ r, PairwiseSurface.getReachVector s.curves pt.impressions = .ok r)
    (y : List ℚ) (hy : y.length = s.p * s.p)
    (hplaus : PlausibleOverlap s.p (surfaceMatrix { s with a := y }))
    (hexact : s.data.mapM (fun pt => do
      let prediction ← { s with a := y }.byImpressions pt.impressions
      prediction.reach 1) = .ok ys) :
    ∃ qp : PairwiseSurface.QP, s.quadraticProgram = .ok qp ∧
      ∀ x : List ℚ, x.length = s.p * s.p →
        (∀ z : List ℚ, z.length = s.p * s.p →
          SatisfiesLe qp.G.rows qp.G.cols qp.G.entry (fun r => qp.h.getD r 0) (fun c => z.getD c 0) →
          SatisfiesEq qp.A.rows qp.A.cols qp.A.entry (fun r => qp.b.getD r 0)
            (fun c => z.getD c 0) →
          qpObjective (s.p * s.p) qp.P qp.q (fun c => x.getD c 0)
            ≤ qpObjective (s.p * s.p) qp.P qp.q (fun c => z.getD c 0)) →
        s.data.mapM (fun pt => do
          let prediction ← { s with a := x }.byImpressions pt.impressions
          prediction.reach 1) = .ok ys := by
  obtain ⟨qp, preds, h1, h2, h3⟩ := C31_minimisers s hs hdim ys hys hcurves
  refine ⟨qp, h1, fun x hx hmin => ?_⟩
  have hpy : preds y = ys := by
    have := h2 y hy
    rw [hexact] at this
    exact (Except.ok.inj this).symm
  obtain ⟨g1, g2⟩ := (h3 y hy).1.2 hplaus
  have hle := ((h3 x hx).2 y hy).1 (hmin y hy g1 g2)
  have h0 : squaredError ys (preds y) = 0 := by
    rw [hpy]
    unfold squaredError
    apply List.sum_eq_zero
    intro t ht
    obtain ⟨op, hop, rfl⟩ := List.mem_map.1 ht
    have : op.1 = op.2 := by
      rw [List.zip_eq_zipWith, List.zipWith_self, List.mem_map] at hop
      obtain ⟨a, -, rfl⟩ := hop
      rfl
    simp [this]
  have hlen : (preds x).length = ys.length := by
    rw [mapM_length_ok _ _ _ (h2 x hx), mapM_length_ok _ _ _ hys]
  rw [h2 x hx, squaredError_eq_zero ys (preds x) hlen (by rw [h0] at hle; exact hle)]

/-- The surface of the examples above with observations that half overlap explains exactly. -/
def exExactSurface : PairwiseSurface :=
  { exSurface with
    a := [0, 0, 0, 0],
    data := [{ impressions := [20, 10], kplusReaches := [95 / 4], frequencies := [], spends := none,
               universeSize? := none },
             { impressions := [8, 16], kplusReaches := [76 / 5], frequencies := [], spends := none,
               universeSize? := none }] }

example : WellFormed exExactSurface ∧
    (∀ pt ∈ exExactSurface.data, pt.impressions.length = exExactSurface.p) ∧
    exExactSurface.data.mapM (fun pt => pt.reach 1) = .ok [95 / 4, 76 / 5] ∧
    PlausibleOverlap exExactSurface.p
      (surfaceMatrix { exExactSurface with a := [0, 1 / 2, 1 / 2, 0] }) ∧
    exExactSurface.data.mapM (fun pt => do
      let prediction ← { exExactSurface with a := [0, 1 / 2, 1 / 2, 0] }.byImpressions pt.impressions
      prediction.reach 1) = .ok [95 / 4, 76 / 5] ∧
    exExactSurface.data.mapM (fun pt => do
      let prediction ← exExactSurface.byImpressions pt.impressions
      prediction.reach 1) = .ok [25, 16] := by
  refine ⟨⟨rfl, rfl, ?_⟩, by decide, by decide +kernel, ⟨?_, ?_, ?_, ?_, ?_⟩, by decide +kernel,
    by decide +kernel⟩
  · intro c hc
    simp only [exExactSurface, exSurface, List.mem_cons, List.not_mem_nil, or_false] at hc
    rcases hc with rfl | rfl <;> norm_num
  all_goals decide +kernel

end Verif
