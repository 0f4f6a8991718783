import Verif.Model.Mixture
import Verif.Spec.Mixture
import Verif.Props.Pairwise
import Mathlib.Algebra.Order.BigOperators.Ring.Finset
import Mathlib.Algebra.BigOperators.Field
import Mathlib.Tactic.Positivity

/-!
# C37, C38, C64: the generalized mixture surface
-/

namespace Verif

open Verif.Spec Finset

/-! ## C37 -/

/-- The weights of a surface as a matrix: publisher `i`, cluster `j`. -/
def mixtureMatrix (s : MixtureSurface) (i j : Nat) : ℚ := s.a.getD (j + i * s.c) 0

/-- A fitted surface: one curve per publisher, `N` positive, and one weight per publisher and
cluster. -/
structure MixtureWellFormed (s : MixtureSurface) : Prop where
  curves : s.curves.length = s.p
  params : s.a.length = s.p * s.c
  positive : 0 < s.N

theorem flat_lt' (p c i j : Nat) (hi : i < p) (hj : j < c) : j + i * c < p * c := by
  have : (i + 1) * c ≤ p * c := Nat.mul_le_mul_right c hi
  rw [Nat.add_mul] at this
  omega

theorem mapM_range (n : Nat) (f : Nat → Except PyErr ℚ) (g : Nat → ℚ)
    (h : ∀ i < n, f i = .ok (g i)) : (List.range n).mapM f = .ok ((List.range n).map g) := by
  rw [mapM_ok_iff, List.forall₂_map_right_iff, List.forall₂_same]
  intro i hi
  exact h i (List.mem_range.1 hi)

/-- C37 (a): `by_impressions` computes the documented formula. -/
theorem C37_formula (s : MixtureSurface) (hs : MixtureWellFormed s) (v : List ℚ)
    (hv : v.length = s.p) (r : List ℚ) (hr : PairwiseSurface.getReachVector s.curves v = .ok r) :
    ∃ pt, s.byImpressions v = .ok pt ∧ pt.impressions = v ∧ pt.maxFrequency = 1 ∧
      pt.reach 1 = .ok (mixtureUnion s.N s.p s.c (mixtureMatrix s) (fun i => r.getD i 0)) := by
  have hlen : r.length = s.p := by
    rw [reachVector_length _ _ _ hr, hs.curves, hv, min_self]
  have hw : ∀ j < s.c, s.notReached r j
      = .ok (∏ i ∈ range s.p, (1 - mixtureMatrix s i j * r.getD i 0 / s.N)) := by
    intro j hj
    unfold MixtureSurface.notReached
    rw [mapM_range s.p _ (fun i => 1 - mixtureMatrix s i j * r.getD i 0 / s.N)]
    · rfl
    · intro i hi
      simp only [bind, Except.bind]
      rw [pyIndex_getD s.a _ (by rw [hs.params]; exact flat_lt' _ _ _ _ hi hj),
        pyIndex_getD r i (by omega)]
      simp only
      rw [if_neg hs.positive.ne']
      rfl
  unfold MixtureSurface.byImpressions
  rw [hr]
  simp only [bind, Except.bind]
  rw [mapM_range s.c _ _ hw]
  simp only [ReachPoint.new]
  refine ⟨_, rfl, rfl, rfl, ?_⟩
  unfold ReachPoint.reach
  simp only [List.length_cons, List.length_nil]
  rw [if_pos ⟨by norm_num, by norm_num⟩]
  simp only [pyIndex, sub_self, lt_self_iff_false, if_false, Int.toNat_zero,
    List.getElem?_cons_zero]
  congr 1
  unfold mixtureUnion
  rw [mul_comm, List.map_map]
  rfl

/-! ### Facts about the formula -/

/-- `1 - ∏ (1 - x)` is at most the sum. -/
theorem one_sub_prod_le_sum (p : Nat) (x : Nat → ℚ) (h0 : ∀ i < p, 0 ≤ x i) (h1 : ∀ i < p, x i ≤ 1) :
    1 - ∏ i ∈ range p, (1 - x i) ≤ ∑ i ∈ range p, x i := by
  induction p with
  | zero => simp
  | succ p ih =>
    rw [Finset.prod_range_succ, Finset.sum_range_succ]
    have ih := ih (fun i hi => h0 i (by omega)) (fun i hi => h1 i (by omega))
    have hp1 : ∏ i ∈ range p, (1 - x i) ≤ 1 := Finset.prod_le_one
      (fun i hi => by have := h1 i (by have := Finset.mem_range.1 hi; omega); linarith)
      (fun i hi => by have := h0 i (by have := Finset.mem_range.1 hi; omega); linarith)
    have := h0 p (by omega)
    nlinarith

theorem prod_anti (p : Nat) (x y : Nat → ℚ) (hxy : ∀ i < p, x i ≤ y i) (h1 : ∀ i < p, y i ≤ 1) :
    ∏ i ∈ range p, (1 - y i) ≤ ∏ i ∈ range p, (1 - x i) := by
  apply Finset.prod_le_prod
  · intro i hi
    have := h1 i (Finset.mem_range.1 hi)
    linarith
  · intro i hi
    have := hxy i (Finset.mem_range.1 hi)
    linarith

theorem prod_single (p : Nat) (x : Nat → ℚ) (k : Nat) (hk : k < p) (h : ∀ i < p, i ≠ k → x i = 0) :
    ∏ i ∈ range p, (1 - x i) = 1 - x k := by
  apply Finset.prod_eq_single_of_mem k (Finset.mem_range.2 hk)
  intro i hi hne
  rw [h i (Finset.mem_range.1 hi) hne, sub_zero]

theorem weight_le_one (p c : Nat) (a : Nat → Nat → ℚ) (ha : MixtureWeights p c a) (i j : Nat)
    (hi : i < p) (hj : j < c) : a i j ≤ 1 := by
  rw [← ha.total i hi]
  exact Finset.single_le_sum (f := fun j => a i j)
    (fun k hk => ha.nonneg i hi k (Finset.mem_range.1 hk)) (Finset.mem_range.2 hj)

theorem share_range (N : ℚ) (hN : 0 < N) (p c : Nat) (a : Nat → Nat → ℚ) (ha : MixtureWeights p c a)
    (r : Nat → ℚ) (h0 : ∀ i < p, 0 ≤ r i) (h1 : ∀ i < p, r i ≤ N) (i j : Nat) (hi : i < p)
    (hj : j < c) : 0 ≤ a i j * r i / N ∧ a i j * r i / N ≤ 1 := by
  have b := weight_le_one p c a ha i j hi hj
  have b0 := ha.nonneg i hi j hj
  refine ⟨div_nonneg (mul_nonneg b0 (h0 i hi)) hN.le, ?_⟩
  rw [div_le_one hN]
  calc a i j * r i ≤ 1 * N := mul_le_mul b (h1 i hi) (h0 i hi) zero_le_one
    _ = N := one_mul N

theorem mixtureUnion_single (N : ℚ) (hN : 0 < N) (p c : Nat) (a : Nat → Nat → ℚ)
    (ha : MixtureWeights p c a) (r : Nat → ℚ) (k : Nat) (hk : k < p)
    (h0 : ∀ i < p, i ≠ k → r i = 0) : mixtureUnion N p c a r = r k := by
  unfold mixtureUnion
  have e : ∀ j ∈ range c, (1 - ∏ i ∈ range p, (1 - a i j * r i / N)) = a k j * (r k / N) := by
    intro j _
    rw [prod_single p (fun i => a i j * r i / N) k hk
      (fun i hi hne => by rw [h0 i hi hne, mul_zero, zero_div])]
    ring
  rw [Finset.sum_congr rfl e, ← Finset.sum_mul, ha.total k hk]
  field_simp

theorem mixtureUnion_mono (N : ℚ) (hN : 0 < N) (p c : Nat) (a : Nat → Nat → ℚ)
    (ha : MixtureWeights p c a) (r r' : Nat → ℚ) (h0 : ∀ i < p, 0 ≤ r i)
    (hrr : ∀ i < p, r i ≤ r' i) (h1 : ∀ i < p, r' i ≤ N) :
    mixtureUnion N p c a r ≤ mixtureUnion N p c a r' := by
  unfold mixtureUnion
  apply mul_le_mul_of_nonneg_left _ hN.le
  apply Finset.sum_le_sum
  intro j hj
  have hj := Finset.mem_range.1 hj
  apply sub_le_sub_left
  apply prod_anti
  · intro i hi
    exact div_le_div_of_nonneg_right
      (mul_le_mul_of_nonneg_left (hrr i hi) (ha.nonneg i hi j hj)) hN.le
  · intro i hi
    exact (share_range N hN p c a ha r' (fun i hi => le_trans (h0 i hi) (hrr i hi)) h1 i j hi hj).2

theorem mixtureUnion_le_sum (N : ℚ) (hN : 0 < N) (p c : Nat) (a : Nat → Nat → ℚ)
    (ha : MixtureWeights p c a) (r : Nat → ℚ) (h0 : ∀ i < p, 0 ≤ r i) (h1 : ∀ i < p, r i ≤ N) :
    mixtureUnion N p c a r ≤ ∑ i ∈ range p, r i := by
  unfold mixtureUnion
  have : ∑ j ∈ range c, (1 - ∏ i ∈ range p, (1 - a i j * r i / N))
      ≤ ∑ j ∈ range c, ∑ i ∈ range p, a i j * r i / N := by
    apply Finset.sum_le_sum
    intro j hj
    have hj := Finset.mem_range.1 hj
    exact one_sub_prod_le_sum p _
      (fun i hi => (share_range N hN p c a ha r h0 h1 i j hi hj).1)
      (fun i hi => (share_range N hN p c a ha r h0 h1 i j hi hj).2)
  calc _ ≤ N * ∑ j ∈ range c, ∑ i ∈ range p, a i j * r i / N :=
        mul_le_mul_of_nonneg_left this hN.le
    _ = ∑ i ∈ range p, r i := by
        rw [Finset.sum_comm, Finset.mul_sum]
        apply Finset.sum_congr rfl
        intro i hi
        rw [← Finset.sum_div, ← Finset.sum_mul, ha.total i (Finset.mem_range.1 hi)]
        field_simp

theorem le_mixtureUnion (N : ℚ) (hN : 0 < N) (p c : Nat) (a : Nat → Nat → ℚ)
    (ha : MixtureWeights p c a) (r : Nat → ℚ) (h0 : ∀ i < p, 0 ≤ r i) (h1 : ∀ i < p, r i ≤ N)
    (k : Nat) (hk : k < p) : r k ≤ mixtureUnion N p c a r := by
  have := mixtureUnion_single N hN p c a ha (fun i => if i = k then r k else 0) k hk
    (fun i _ hne => by simp [hne])
  simp only [if_true] at this
  rw [← this]
  apply mixtureUnion_mono N hN p c a ha
  · intro i hi
    by_cases h : i = k
    · simp [h, h0 k hk]
    · simp [h]
  · intro i hi
    by_cases h : i = k
    · simp [h]
    · simp [h, h0 i hi]
  · exact h1

theorem mixtureUnion_le_clusters (N : ℚ) (hN : 0 < N) (p c : Nat) (a : Nat → Nat → ℚ)
    (ha : MixtureWeights p c a) (r : Nat → ℚ) (h0 : ∀ i < p, 0 ≤ r i) (h1 : ∀ i < p, r i ≤ N) :
    mixtureUnion N p c a r ≤ N * c := by
  unfold mixtureUnion
  apply mul_le_mul_of_nonneg_left _ hN.le
  have : ∑ j ∈ range c, (1 - ∏ i ∈ range p, (1 - a i j * r i / N)) ≤ ∑ _j ∈ range c, (1 : ℚ) := by
    apply Finset.sum_le_sum
    intro j hj
    have : 0 ≤ ∏ i ∈ range p, (1 - a i j * r i / N) := by
      apply Finset.prod_nonneg
      intro i hi
      have := (share_range N hN p c a ha r h0 h1 i j (Finset.mem_range.1 hi) (Finset.mem_range.1 hj)).2
      linarith
    linarith
  simpa using this

/-- The single reaches lie between zero and the universe size. -/
def MixtureReaches (s : MixtureSurface) (r : List ℚ) : Prop :=
  ∀ i < s.p, 0 ≤ r.getD i 0 ∧ r.getD i 0 ≤ s.N

/-- C37 as stated, including the claim that no more than the universe is ever reached. -/
def C37_full : Prop :=
  ∀ (s : MixtureSurface), MixtureWellFormed s → MixtureWeights s.p s.c (mixtureMatrix s) →
    ∀ (v : List ℚ), v.length = s.p → ∀ r, PairwiseSurface.getReachVector s.curves v = .ok r →
    MixtureReaches s r →
    ∃ pt u, s.byImpressions v = .ok pt ∧ pt.reach 1 = .ok u ∧ (∀ x ∈ r, x ≤ u) ∧ u ≤ r.sum ∧
      u ≤ s.N

/-- C37 (b), partial: the predicted union is at least every single reach, at most the sum, and at
most the universe *times the number of clusters*. -/
theorem C37_bounds_partial (s : MixtureSurface) (hs : MixtureWellFormed s)
    (ha : MixtureWeights s.p s.c (mixtureMatrix s)) (v : List ℚ) (hv : v.length = s.p) (r : List ℚ)
    (hr : PairwiseSurface.getReachVector s.curves v = .ok r) (hrange : MixtureReaches s r) :
    ∃ pt u, s.byImpressions v = .ok pt ∧ pt.reach 1 = .ok u ∧ (∀ x ∈ r, x ≤ u) ∧ u ≤ r.sum ∧
      u ≤ s.N * s.c := by
  obtain ⟨pt, h1, _, _, h2⟩ := C37_formula s hs v hv r hr
  have hlen : r.length = s.p := by
    rw [reachVector_length _ _ _ hr, hs.curves, hv, min_self]
  refine ⟨pt, _, h1, h2, ?_, ?_, ?_⟩
  · intro x hx
    obtain ⟨k, hk, rfl⟩ := List.getElem_of_mem hx
    have e : r[k] = r.getD k 0 := by
      rw [List.getD_eq_getElem?_getD, List.getElem?_eq_getElem hk]; rfl
    rw [e]
    exact le_mixtureUnion s.N hs.positive s.p s.c _ ha _ (fun i hi => (hrange i hi).1)
      (fun i hi => (hrange i hi).2) k (by omega)
  · rw [list_sum_getD, hlen]
    exact mixtureUnion_le_sum s.N hs.positive s.p s.c _ ha _ (fun i hi => (hrange i hi).1)
      (fun i hi => (hrange i hi).2)
  · exact mixtureUnion_le_clusters s.N hs.positive s.p s.c _ ha _ (fun i hi => (hrange i hi).1)
      (fun i hi => (hrange i hi).2)

/-- C37 (b), partial: with a single cluster the universe is a bound. -/
theorem C37_one_cluster_partial (s : MixtureSurface) (hs : MixtureWellFormed s) (hc : s.c = 1)
    (ha : MixtureWeights s.p s.c (mixtureMatrix s)) (v : List ℚ) (hv : v.length = s.p) (r : List ℚ)
    (hr : PairwiseSurface.getReachVector s.curves v = .ok r) (hrange : MixtureReaches s r) :
    ∃ pt u, s.byImpressions v = .ok pt ∧ pt.reach 1 = .ok u ∧ u ≤ s.N := by
  obtain ⟨pt, u, h1, h2, _, _, h3⟩ := C37_bounds_partial s hs ha v hv r hr hrange
  rw [hc] at h3
  exact ⟨pt, u, h1, h2, by simpa using h3⟩

/-- C37 (c): the predicted union is non-decreasing in the single reaches. -/
theorem C37_monotone (s : MixtureSurface) (hs : MixtureWellFormed s)
    (ha : MixtureWeights s.p s.c (mixtureMatrix s)) (v v' : List ℚ) (hv : v.length = s.p)
    (hv' : v'.length = s.p) (r r' : List ℚ)
    (hr : PairwiseSurface.getReachVector s.curves v = .ok r)
    (hr' : PairwiseSurface.getReachVector s.curves v' = .ok r')
    (hrange : MixtureReaches s r) (hrange' : MixtureReaches s r')
    (hle : ∀ i < s.p, r.getD i 0 ≤ r'.getD i 0) :
    ∃ pt pt' u u', s.byImpressions v = .ok pt ∧ s.byImpressions v' = .ok pt' ∧
      pt.reach 1 = .ok u ∧ pt'.reach 1 = .ok u' ∧ u ≤ u' := by
  obtain ⟨pt, h1, _, _, h2⟩ := C37_formula s hs v hv r hr
  obtain ⟨pt', h1', _, _, h2'⟩ := C37_formula s hs v' hv' r' hr'
  exact ⟨pt, pt', _, _, h1, h1', h2, h2', mixtureUnion_mono s.N hs.positive s.p s.c _ ha _ _
    (fun i hi => (hrange i hi).1) hle (fun i hi => (hrange' i hi).2)⟩

/-- C37 (d): if only publisher `k` reaches anybody, the prediction is its reach. -/
theorem C37_single_publisher (s : MixtureSurface) (hs : MixtureWellFormed s)
    (ha : MixtureWeights s.p s.c (mixtureMatrix s)) (v : List ℚ) (hv : v.length = s.p)
    (r : List ℚ) (hr : PairwiseSurface.getReachVector s.curves v = .ok r)
    (k : Nat) (hk : k < s.p) (h0 : ∀ i < s.p, i ≠ k → r.getD i 0 = 0) :
    ∃ pt, s.byImpressions v = .ok pt ∧ pt.reach 1 = .ok (r.getD k 0) := by
  obtain ⟨pt, h1, _, _, h2⟩ := C37_formula s hs v hv r hr
  refine ⟨pt, h1, ?_⟩
  rw [h2, mixtureUnion_single s.N hs.positive s.p s.c _ ha _ k hk h0]

/-- C37 (e): the constructor makes the universe twice the largest maximum reach, so reaches within
the curves' maxima are within the universe. -/
theorem C37_universe (curves : List SurfaceCurve) (points : List ReachPoint) (c : Nat) (a : List ℚ)
    (s : MixtureSurface) (h : MixtureSurface.new curves points c a = .ok s) :
    s.curves = curves ∧ s.a = a ∧ s.c = c ∧ (∀ q ∈ points, q.impressions.length = s.p) ∧
      (∀ cv ∈ curves, cv.maxReach * 2 ≤ s.N) ∧ ∃ cv ∈ curves, s.N = cv.maxReach * 2 := by
  unfold MixtureSurface.new at h
  cases points with
  | nil => cases h
  | cons pt pts =>
    simp only [bind, Except.bind] at h
    cases hm : pyMax (curves.map (·.maxReach)) with
    | error e => rw [hm] at h; cases h
    | ok m =>
      rw [hm] at h
      simp only at h
      split at h
      · cases h
      · rename_i hall
        simp only [pure, Except.pure, Except.ok.injEq] at h
        subst h
        rw [not_not, List.all_eq_true] at hall
        have hmax : (∀ x ∈ curves.map (·.maxReach), x ≤ m) ∧ m ∈ curves.map (·.maxReach) := by
          generalize curves.map (·.maxReach) = l at hm
          cases l with
          | nil => cases hm
          | cons x xs =>
            simp only [pyMax, Except.ok.injEq] at hm
            subst hm
            clear hall
            induction xs generalizing x with
            | nil => simp
            | cons y ys ih =>
              rw [List.foldl_cons]
              obtain ⟨i1, i2⟩ := ih (max x y)
              constructor
              · intro z hz
                simp only [List.mem_cons] at hz i1
                rcases hz with rfl | rfl | hz
                · exact le_trans (le_max_left _ _) (i1 _ (Or.inl rfl))
                · exact le_trans (le_max_right _ _) (i1 _ (Or.inl rfl))
                · exact i1 z (Or.inr hz)
              · rw [List.mem_cons] at i2
                rcases i2 with i2 | i2
                · rw [i2]
                  rcases max_choice x y with h | h <;> rw [h] <;> simp
                · simp [i2]
        refine ⟨rfl, rfl, rfl, ?_, ?_, ?_⟩
        · intro q hq
          simpa using hall q hq
        · intro cv hcv
          have := hmax.1 _ (List.mem_map.2 ⟨cv, hcv, rfl⟩)
          simp only
          linarith
        · obtain ⟨cv, hcv, he⟩ := List.mem_map.1 hmax.2
          exact ⟨cv, hcv, by simp only; rw [he]⟩

/-- C37 (refusals): without points the first point cannot be looked at; without curves there is no
largest maximum reach, and points of different numbers of publishers are refused. Everything else is
accepted. -/
theorem C37_refused (curves : List SurfaceCurve) (points : List ReachPoint) (c : Nat) (a : List ℚ) :
    (points = [] → MixtureSurface.new curves points c a = .error .indexError) ∧
    (points ≠ [] → (curves = [] ∨ ∃ p ∈ points, ∃ q ∈ points,
        p.impressions.length ≠ q.impressions.length) →
      MixtureSurface.new curves points c a = .error .valueError) ∧
    (points ≠ [] → curves ≠ [] →
      (∀ p ∈ points, ∀ q ∈ points, p.impressions.length = q.impressions.length) →
      ∃ s, MixtureSurface.new curves points c a = .ok s) := by
  refine ⟨by rintro rfl; rfl, ?_, ?_⟩
  · intro hp h
    cases points with
    | nil => exact absurd rfl hp
    | cons pt pts =>
      cases curves with
      | nil => rfl
      | cons cv cvs =>
        rcases h with h | ⟨p, hp, q, hq, hne⟩
        · cases h
        · unfold MixtureSurface.new
          simp only [List.map_cons, pyMax, bind, Except.bind]
          rw [if_pos]
          intro hall
          rw [List.all_eq_true] at hall
          have h1 := hall p hp
          have h2 := hall q hq
          rw [beq_iff_eq] at h1 h2
          exact hne (h1.trans h2.symm)
  · intro hp hc h
    cases points with
    | nil => exact absurd rfl hp
    | cons pt pts =>
      cases curves with
      | nil => exact absurd rfl hc
      | cons cv cvs =>
        unfold MixtureSurface.new
        simp only [List.map_cons, pyMax, bind, Except.bind]
        rw [if_neg]
        · exact ⟨_, rfl⟩
        · rw [not_not, List.all_eq_true]
          intro q hq
          rw [beq_iff_eq]
          exact h q hq pt (List.mem_cons_self ..)

/-- One point of two publishers and one of three. -/
example : ∃ p ∈ ([⟨[1, 2], [3], [], none, none⟩, ⟨[1, 2, 3], [3], [], none, none⟩] : List ReachPoint),
    ∃ q ∈ ([⟨[1, 2], [3], [], none, none⟩, ⟨[1, 2, 3], [3], [], none, none⟩] : List ReachPoint),
    p.impressions.length ≠ q.impressions.length :=
  ⟨_, List.mem_cons_self .., _, List.mem_cons_of_mem _ (List.mem_cons_self ..), by decide⟩

/-- Four publishers with at most ten people each; two are in each of two clusters. -/
def exMixture : MixtureSurface :=
  { curves := List.replicate 4 ⟨10, fun x => .ok (min x 10)⟩, p := 4, c := 2, N := 20, data := [],
    a := [1, 0, 1, 0, 0, 1, 0, 1] }

theorem exMixture_wellFormed : MixtureWellFormed exMixture := ⟨rfl, rfl, by norm_num [exMixture]⟩

theorem exMixture_weights : MixtureWeights exMixture.p exMixture.c (mixtureMatrix exMixture) :=
  ⟨by decide +kernel, by decide +kernel⟩

theorem exMixture_reaches :
    PairwiseSurface.getReachVector exMixture.curves [10, 12, 10, 11] = .ok [10, 10, 10, 10] := by
  decide +kernel

theorem exMixture_range : MixtureReaches exMixture [10, 10, 10, 10] := by
  unfold MixtureReaches
  decide +kernel

example : ∃ s, MixtureSurface.new exMixture.curves
    [{ impressions := [1, 2, 3, 4], kplusReaches := [9], frequencies := [], spends := none,
       universeSize? := none }] 2 exMixture.a = .ok s ∧ s.N = 20 ∧ s.p = 4 :=
  ⟨_, rfl, by decide +kernel, rfl⟩

/-- The prediction can exceed the universe: with a universe of 20, 30 people are predicted. -/
theorem C37_full_is_false : ¬ C37_full := by
  intro h
  obtain ⟨pt, u, h1, h2, _, _, h3⟩ := h exMixture exMixture_wellFormed exMixture_weights
    [10, 12, 10, 11] rfl [10, 10, 10, 10] exMixture_reaches exMixture_range
  obtain ⟨pt', h1', _, _, h2'⟩ := C37_formula exMixture exMixture_wellFormed
    [10, 12, 10, 11] rfl [10, 10, 10, 10] exMixture_reaches
  rw [h1] at h1'
  obtain rfl : pt = pt' := by simpa using h1'
  rw [h2] at h2'
  have hu := Except.ok.inj h2'
  have : mixtureUnion exMixture.N exMixture.p exMixture.c (mixtureMatrix exMixture)
      (fun i => ([10, 10, 10, 10] : List ℚ).getD i 0) = 30 := by decide +kernel
  rw [hu, this] at h3
  revert h3
  decide +kernel

/-! ## C38 -/

/-- The linear form `sum(a * z)`. -/
def linearForm (n : Nat) (a z : List ℚ) : ℚ := ∑ k ∈ range n, a.getD k 0 * z.getD k 0

/-- C38 as stated: for every weight vector the thetas are numbers, and the linear form with the
`z` computed from the same weights is the prediction divided by the universe size. -/
def C38_full : Prop :=
  ∀ (s : MixtureSurface), MixtureWellFormed s → MixtureWeights s.p s.c (mixtureMatrix s) →
    ∀ (r : List ℚ), r.length = s.p → MixtureReaches s r →
    ∃ th, s.thetas s.a r = some th ∧
      linearForm (s.p * s.c) s.a (s.zFromTheta th r)
        = mixtureUnion s.N s.p s.c (mixtureMatrix s) (fun i => r.getD i 0) / s.N

/-- The thetas of a cluster in which no publisher has weight are `0 / 0`. -/
theorem C38_full_is_false : ¬ C38_full := by
  intro h
  obtain ⟨th, h1, _⟩ := h ⟨[⟨10, fun x => .ok x⟩], 1, 2, 20, [], [1, 0]⟩
    ⟨rfl, rfl, by norm_num⟩ ⟨by decide +kernel, by decide +kernel⟩ [5] rfl
    (by unfold MixtureReaches; decide +kernel)
  revert h1
  have : MixtureSurface.thetas ⟨[⟨10, fun x => .ok x⟩], 1, 2, 20, [], [1, 0]⟩ [1, 0] [5] = none := by
    decide +kernel
  simp only [this]
  intro h
  cases h

theorem zFromTheta_getD (s : MixtureSurface) (th r : List ℚ) (i j : Nat) (hi : i < s.p) (hj : j < s.c) :
    (s.zFromTheta th r).getD (i * s.c + j) 0 = r.getD i 0 * th.getD j 0 / s.N := by
  unfold MixtureSurface.zFromTheta
  rw [flatMap_range_eq s.p s.c (fun i j => r.getD i 0 * th.getD j 0 / s.N),
    List.getD_eq_getElem?_getD, List.getElem?_map, List.getElem?_range (by
      have := flat_lt' s.p s.c i j hi hj; omega)]
  simp only [Option.map_some, Option.getD_some]
  rw [flat_div s.c i j hj, flat_mod s.c i j hj]

/-- C38, partial: true whenever every cluster has weight at some publisher that reaches somebody. -/
theorem C38_linear_form_partial (s : MixtureSurface) (hs : MixtureWellFormed s) (r : List ℚ)
    (hnz : ∀ j < s.c, ∑ i ∈ range s.p, mixtureMatrix s i j * r.getD i 0 ≠ 0) :
    ∃ th, s.thetas s.a r = some th ∧
      linearForm (s.p * s.c) s.a (s.zFromTheta th r)
        = mixtureUnion s.N s.p s.c (mixtureMatrix s) (fun i => r.getD i 0) / s.N := by
  have hN := hs.positive.ne'
  have hX : ∀ j i, s.getX s.a r j i = mixtureMatrix s i j * r.getD i 0 / s.N := fun _ _ => rfl
  have hsum : ∀ j, ((List.range s.p).map (s.getX s.a r j)).sum
      = (∑ i ∈ range s.p, mixtureMatrix s i j * r.getD i 0) / s.N := by
    intro j
    rw [list_range_sum, Finset.sum_div]
    rfl
  have hthj : ∀ j < s.c, s.getTheta s.a r j
      = some ((1 - ∏ i ∈ range s.p, (1 - mixtureMatrix s i j * r.getD i 0 / s.N))
        / ((∑ i ∈ range s.p, mixtureMatrix s i j * r.getD i 0) / s.N)) := by
    intro j hj
    unfold MixtureSurface.getTheta
    rw [hsum, if_neg (div_ne_zero (hnz j hj) hN)]
    rfl
  refine ⟨(List.range s.c).map (fun j =>
    (1 - ∏ i ∈ range s.p, (1 - mixtureMatrix s i j * r.getD i 0 / s.N))
        / ((∑ i ∈ range s.p, mixtureMatrix s i j * r.getD i 0) / s.N)), ?_, ?_⟩
  · unfold MixtureSurface.thetas
    have : ∀ l : List Nat, (∀ j ∈ l, j < s.c) → l.mapM (s.getTheta s.a r) = some (l.map (fun j =>
        (1 - ∏ i ∈ range s.p, (1 - mixtureMatrix s i j * r.getD i 0 / s.N))
        / ((∑ i ∈ range s.p, mixtureMatrix s i j * r.getD i 0) / s.N))) := by
      intro l
      induction l with
      | nil => intro _; rfl
      | cons j l ih =>
        intro hl
        rw [List.mapM_cons, hthj j (hl j (by simp)), ih (fun k hk => hl k (by simp [hk]))]
        rfl
    exact this _ (fun j hj => List.mem_range.1 hj)
  · unfold linearForm mixtureUnion
    rw [sum_range_mul, Finset.sum_comm, mul_comm, mul_div_assoc, div_self hN, mul_one]
    apply Finset.sum_congr rfl
    intro j hj
    have hj := Finset.mem_range.1 hj
    have hth : ∀ i, i < s.p → s.a.getD (i * s.c + j) 0 * (s.zFromTheta ((List.range s.c).map (fun j =>
        (1 - ∏ i ∈ range s.p, (1 - mixtureMatrix s i j * r.getD i 0 / s.N))
          / ((∑ i ∈ range s.p, mixtureMatrix s i j * r.getD i 0) / s.N))) r).getD (i * s.c + j) 0
        = mixtureMatrix s i j * r.getD i 0 *
          ((1 - ∏ i ∈ range s.p, (1 - mixtureMatrix s i j * r.getD i 0 / s.N))
          / ((∑ i ∈ range s.p, mixtureMatrix s i j * r.getD i 0) / s.N) / s.N) := by
      intro i hi
      rw [zFromTheta_getD s _ r i j hi hj, List.getD_eq_getElem?_getD (i := j), List.getElem?_map,
        List.getElem?_range hj]
      simp only [Option.map_some, Option.getD_some]
      have : s.a.getD (i * s.c + j) 0 = mixtureMatrix s i j := by
        unfold mixtureMatrix; rw [Nat.add_comm]
      rw [this]
      ring
    rw [Finset.sum_congr rfl (fun i hi => hth i (Finset.mem_range.1 hi)), ← Finset.sum_mul]
    have := hnz j hj
    field_simp

/-- Two publishers with both clusters in use. -/
def exMixture2 : MixtureSurface :=
  { curves := List.replicate 2 ⟨10, fun x => .ok (min x 10)⟩, p := 2, c := 2, N := 20, data := [],
    a := [3 / 4, 1 / 4, 3 / 4, 1 / 4] }

example : exMixture2.thetas exMixture2.a [10, 10] = some [13 / 16, 15 / 16] ∧
    linearForm 4 exMixture2.a (exMixture2.zFromTheta [13 / 16, 15 / 16] [10, 10]) = 54 / 64 := by
  decide +kernel

/-- C38: the quadratic program minimises half the sum of squared differences between the linear
forms and the observed reaches divided by the universe size, up to a constant. -/
theorem C38_objective (s : MixtureSurface) (n : Nat) (z : List (List ℚ)) (ys : List ℚ)
    (hlen : z.length = ys.length) (a : List ℚ) :
    qpObjective n (MixtureSurface.quadraticTerm z) (s.linearTerm z ys) (fun k => a.getD k 0)
      = (1 / 2) * squaredError (ys.map (· / s.N)) (z.map (linearForm n a))
        - (1 / 2) * ((ys.map (fun y => (y / s.N) ^ 2)).sum) := by
  unfold MixtureSurface.linearTerm
  induction z generalizing ys with
  | nil =>
    cases ys with
    | nil => simp [qpObjective, MixtureSurface.quadraticTerm, squaredError]
    | cons y ys => simp at hlen
  | cons z0 z ih =>
    cases ys with
    | nil => simp at hlen
    | cons y ys =>
      have ih := ih ys (by simpa using hlen)
      have e1 : MixtureSurface.quadraticTerm (z0 :: z) = fun i j =>
          z0.getD i 0 * z0.getD j 0 + MixtureSurface.quadraticTerm z i j := by
        funext i j
        simp [MixtureSurface.quadraticTerm]
      have e2 : (fun i => - (((y :: ys).zip (z0 :: z)).map (fun yz => yz.1 / s.N * yz.2.getD i 0)).sum)
          = fun i => - (y / s.N * z0.getD i 0)
            + - ((ys.zip z).map (fun yz => yz.1 / s.N * yz.2.getD i 0)).sum := by
        funext i
        simp only [List.zip_cons_cons, List.map_cons, List.sum_cons]
        ring
      rw [e1, e2, qpObjective_add, ih, qpObjective_one]
      simp only [squaredError, List.map_cons, List.zip_cons_cons, List.sum_cons]
      have e3 : innerUpTo n z0 (fun k => a.getD k 0) = linearForm n a z0 := by
        unfold innerUpTo linearForm
        apply Finset.sum_congr rfl
        intro i _
        ring
      rw [e3]
      ring

/-- C38: the constraint matrices say exactly that every publisher distributes a total weight of one
over the clusters. -/
theorem C38_constraints (s : MixtureSurface) (a : List ℚ) :
    s.Feasible a ↔ MixtureWeights s.p s.c (mixtureMatrix { s with a := a }) := by
  have h1 : ∀ k < s.p * s.c, ((List.range (s.p * s.c)).map
      (fun l => (if l = k then -1 else 0) * a.getD l 0)).sum = - a.getD k 0 := by
    intro k hk
    rw [list_range_sum, Finset.sum_eq_single_of_mem k (Finset.mem_range.2 hk)]
    · simp
    · intro l _ hne
      simp [hne]
  have h2 : ∀ i < s.p, ((List.range (s.p * s.c)).map
      (fun k => s.equalityMatrix i k * a.getD k 0)).sum
      = ∑ j ∈ range s.c, mixtureMatrix { s with a := a } i j := by
    intro i hi
    rw [list_range_sum, sum_range_mul, Finset.sum_eq_single_of_mem i (Finset.mem_range.2 hi)]
    · apply Finset.sum_congr rfl
      intro j hj
      have hj := Finset.mem_range.1 hj
      unfold MixtureSurface.equalityMatrix mixtureMatrix
      rw [flat_div s.c i j hj, if_pos rfl, one_mul, Nat.add_comm]
    · intro k _ hne
      apply Finset.sum_eq_zero
      intro j hj
      have hj := Finset.mem_range.1 hj
      unfold MixtureSurface.equalityMatrix
      rw [flat_div s.c k j hj, if_neg hne, zero_mul]
  unfold MixtureSurface.Feasible
  constructor
  · rintro ⟨g, e⟩
    constructor
    · intro i hi j hj
      have hlt := flat_lt' s.p s.c i j hi hj
      have := g (j + i * s.c) hlt
      rw [h1 _ hlt] at this
      unfold mixtureMatrix
      simp only
      linarith
    · intro i hi
      rw [← h2 i hi]
      exact e i hi
  · intro hw
    constructor
    · intro k hk
      rw [h1 k hk]
      have hc : 0 < s.c := by
        rcases Nat.eq_zero_or_pos s.c with h | h
        · rw [h] at hk; simp at hk
        · exact h
      have := hw.nonneg (k / s.c) ((Nat.div_lt_iff_lt_mul hc).2 hk) (k % s.c) (Nat.mod_lt _ hc)
      unfold mixtureMatrix at this
      simp only at this
      rw [Nat.mod_add_div'] at this
      linarith
    · intro i hi
      rw [h2 i hi]
      exact hw.total i hi

example : exMixture2.Feasible exMixture2.a ∧ ¬ exMixture2.Feasible [1, 1, 0, 0] := by
  unfold MixtureSurface.Feasible
  decide +kernel

/-! ## C64 -/

/-- C64: of two weight vectors, the one with the smaller loss has the smaller squared error. -/
def C64_full : Prop :=
  ∀ (s : MixtureSurface) (z : List (List ℚ)) (ys : List ℚ) (a a' : List ℚ),
    z.length = ys.length → a.length = s.p * s.c → a'.length = s.p * s.c →
    MixtureWeights s.p s.c (mixtureMatrix { s with a := a }) →
    MixtureWeights s.p s.c (mixtureMatrix { s with a := a' }) →
    MixtureSurface.loss (s.p * s.c) (MixtureSurface.quadraticTerm z) (s.linearTerm z ys) a
      < MixtureSurface.loss (s.p * s.c) (MixtureSurface.quadraticTerm z) (s.linearTerm z ys) a' →
    squaredError (ys.map (· / s.N)) (z.map (linearForm (s.p * s.c) a))
      ≤ squaredError (ys.map (· / s.N)) (z.map (linearForm (s.p * s.c) a'))

/-- What `_loss` computes: it lacks the factor one half of the objective, so it is the sum of
prediction times (prediction minus observation), which is least where the prediction is *half* the
observation. -/
theorem C64_loss_formula_partial (s : MixtureSurface) (n : Nat) (z : List (List ℚ)) (ys : List ℚ)
    (hlen : z.length = ys.length) (a : List ℚ) :
    MixtureSurface.loss n (MixtureSurface.quadraticTerm z) (s.linearTerm z ys) a
      = ((ys.zip z).map (fun yz => linearForm n a yz.2 * (linearForm n a yz.2 - yz.1 / s.N))).sum := by
  have h := C38_objective s n z ys hlen a
  have e : MixtureSurface.loss n (MixtureSurface.quadraticTerm z) (s.linearTerm z ys) a
      = 2 * qpObjective n (MixtureSurface.quadraticTerm z) (s.linearTerm z ys) (fun k => a.getD k 0)
        - ∑ i ∈ range n, s.linearTerm z ys i * a.getD i 0 := by
    unfold qpObjective MixtureSurface.loss
    simp only [list_range_sum]
    ring
  have e2 : ∑ i ∈ range n, s.linearTerm z ys i * a.getD i 0
      = - ((ys.zip z).map (fun yz => yz.1 / s.N * linearForm n a yz.2)).sum := by
    unfold MixtureSurface.linearTerm
    clear h e hlen
    induction ys generalizing z with
    | nil => simp
    | cons y ys ih =>
      cases z with
      | nil => simp
      | cons z0 z =>
        simp only [List.zip_cons_cons, List.map_cons, List.sum_cons]
        have : ∀ i, -(y / s.N * z0.getD i 0 + ((ys.zip z).map
            (fun yz => yz.1 / s.N * yz.2.getD i 0)).sum) * a.getD i 0
            = - (y / s.N * (a.getD i 0 * z0.getD i 0))
              + -((ys.zip z).map (fun yz => yz.1 / s.N * yz.2.getD i 0)).sum * a.getD i 0 := by
          intro i; ring
        simp only [this, Finset.sum_add_distrib]
        rw [ih z, Finset.sum_neg_distrib, ← Finset.mul_sum]
        unfold linearForm
        ring
  rw [e, e2, h]
  clear h e e2
  induction ys generalizing z with
  | nil => simp [squaredError]
  | cons y ys ih =>
    cases z with
    | nil => simp at hlen
    | cons z0 z =>
      have ih := ih z (by simpa using hlen)
      simp only [squaredError, List.zip_cons_cons, List.map_cons, List.sum_cons] at ih ⊢
      rw [← ih]
      ring

/-- On the example with observed reach 18.75, the weights `(1,0;1,0)` predict 16.25 and have the
smaller loss; the weights `(0,1;0,1)` predict exactly 18.75. -/
theorem C64_full_is_false : ¬ C64_full := by
  intro h
  have h1 := h exMixture2 [exMixture2.zFromTheta [13 / 16, 15 / 16] [10, 10]] [75 / 4]
    [1, 0, 1, 0] [0, 1, 0, 1] rfl rfl rfl ⟨by decide +kernel, by decide +kernel⟩
    ⟨by decide +kernel, by decide +kernel⟩ (by decide +kernel)
  simp only [squaredError, List.map_cons, List.map_nil, List.zip_cons_cons, List.zip_nil_right,
    List.sum_cons, List.sum_nil] at h1
  have e1 : linearForm (exMixture2.p * exMixture2.c) [1, 0, 1, 0]
      (exMixture2.zFromTheta [13 / 16, 15 / 16] [10, 10]) = 13 / 16 := by decide +kernel
  have e2 : linearForm (exMixture2.p * exMixture2.c) [0, 1, 0, 1]
      (exMixture2.zFromTheta [13 / 16, 15 / 16] [10, 10]) = 15 / 16 := by decide +kernel
  rw [e1, e2] at h1
  norm_num [exMixture2] at h1

end Verif
