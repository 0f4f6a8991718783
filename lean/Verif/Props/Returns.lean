import Verif.Props.ConservationMore
import Verif.Props.Planner
import Verif.Props.DataSet
import Verif.Props.Mixture
import Verif.Props.TwoPublishers
import Verif.Model.TrialModels

/-!
# C09, C30, C37, C84: overlapping publishers make each other less valuable

For the 1+ reach of a data set and for both surfaces: what two plans reach in total is at least what
their pointwise larger and their pointwise smaller plan reach in total.  So impressions added with one
publisher bring less, the more the other publishers deliver.  The surfaces are moreover concave in
every single publisher.
-/

namespace Verif

open Finset Verif.Spec

/-! ## C09: data sets -/

/-- Somebody is reached by the larger plan iff by one of the two, and by both if by the smaller. -/
theorem reached_iff {α : Type} [LinearOrder α] (g : RawLog → α → Int → Nat)
    (hg : ∀ l a b u, a ≤ b → g l a u ≤ g l b u) (u : Int) :
    ∀ (logs : List RawLog) (v w : List α), v.length = w.length →
    (1 ≤ ((logs.zip (List.zipWith max v w)).map (fun lv => g lv.1 lv.2 u)).sum ↔
      1 ≤ ((logs.zip v).map (fun lv => g lv.1 lv.2 u)).sum ∨
      1 ≤ ((logs.zip w).map (fun lv => g lv.1 lv.2 u)).sum) ∧
    (1 ≤ ((logs.zip (List.zipWith min v w)).map (fun lv => g lv.1 lv.2 u)).sum →
      1 ≤ ((logs.zip v).map (fun lv => g lv.1 lv.2 u)).sum ∧
      1 ≤ ((logs.zip w).map (fun lv => g lv.1 lv.2 u)).sum)
  | [], _, _, _ => by simp
  | _ :: _, [], [], _ => by simp
  | _ :: _, [], _ :: _, h => by simp at h
  | _ :: _, _ :: _, [], h => by simp at h
  | l :: logs, a :: v, b :: w, h => by
    obtain ⟨h1, h2⟩ := reached_iff g hg u logs v w (by simpa using h)
    simp only [List.zipWith_cons_cons, List.zip_cons_cons, List.map_cons, List.sum_cons]
    have m1 := hg l (min a b) a u (min_le_left _ _)
    have m2 := hg l (min a b) b u (min_le_right _ _)
    have m3 : g l (max a b) u = g l a u ∨ g l (max a b) u = g l b u := by
      rcases max_choice a b with e | e <;> rw [e] <;> simp
    have m4 := hg l a (max a b) u (le_max_left _ _)
    have m5 := hg l b (max a b) u (le_max_right _ _)
    refine ⟨?_, ?_⟩
    · constructor
      · intro h
        by_cases hz : 1 ≤ ((logs.zip (List.zipWith max v w)).map (fun lv => g lv.1 lv.2 u)).sum
        · rcases h1.1 hz with h | h <;> omega
        · omega
      · rintro (h | h)
        · by_cases hz : 1 ≤ ((logs.zip v).map (fun lv => g lv.1 lv.2 u)).sum
          · have := h1.2 (Or.inl hz); omega
          · omega
        · by_cases hz : 1 ≤ ((logs.zip w).map (fun lv => g lv.1 lv.2 u)).sum
          · have := h1.2 (Or.inr hz); omega
          · omega
    · intro h
      by_cases hz : 1 ≤ ((logs.zip (List.zipWith min v w)).map (fun lv => g lv.1 lv.2 u)).sum
      · have := h2 hz; omega
      · omega

theorem kPlusReach_submodular (a b hi lo : Int → Nat) (U : Set Int) (hU : U.Finite)
    (ha : ∀ u, 1 ≤ a u → u ∈ U) (hb : ∀ u, 1 ≤ b u → u ∈ U)
    (hhi : ∀ u, 1 ≤ hi u ↔ 1 ≤ a u ∨ 1 ≤ b u) (hlo : ∀ u, 1 ≤ lo u → 1 ≤ a u ∧ 1 ≤ b u) :
    kPlusReach hi 1 + kPlusReach lo 1 ≤ kPlusReach a 1 + kPlusReach b 1 := by
  unfold kPlusReach
  have fa : {u | 1 ≤ a u}.Finite := hU.subset ha
  have fb : {u | 1 ≤ b u}.Finite := hU.subset hb
  have e : {u | 1 ≤ hi u} = {u | 1 ≤ a u} ∪ {u | 1 ≤ b u} := by
    ext u; exact hhi u
  rw [e, ← Set.ncard_union_add_ncard_inter _ _ fa fb]
  exact Nat.add_le_add_left (Set.ncard_le_ncard (fun u hu => hlo u hu) (fa.inter_of_left _)) _

/-- **C09 (overlap).** Of two plans, the plan that takes the larger number of impressions with every
publisher and the plan that takes the smaller one together reach at most as many people as the two. -/
theorem C09_submodular_impressions (ds : DataSet) (logs : List Log)
    (hb : List.Forall₂ Built logs ds.data) (v w : List Nat) (hv : v.length = logs.length)
    (hw : w.length = logs.length) (F : Nat) (hF : 1 ≤ F) :
    ∃ p q hi lo x y h l,
      ds.reachByImpressions (v.map (fun n : Nat => (n : Int))) F = .ok p ∧
      ds.reachByImpressions (w.map (fun n : Nat => (n : Int))) F = .ok q ∧
      ds.reachByImpressions ((List.zipWith max v w).map (fun n : Nat => (n : Int))) F = .ok hi ∧
      ds.reachByImpressions ((List.zipWith min v w).map (fun n : Nat => (n : Int))) F = .ok lo ∧
      p.reach 1 = .ok x ∧ q.reach 1 = .ok y ∧ hi.reach 1 = .ok h ∧ lo.reach 1 = .ok l ∧
      h + l ≤ x + y := by
  obtain ⟨p, p1, _, _, p3, _⟩ := C07_reach_by_impressions ds logs hb v hv F hF
  obtain ⟨q, q1, _, _, q3, _⟩ := C07_reach_by_impressions ds logs hb w hw F hF
  obtain ⟨hi, h1, _, _, h3, _⟩ := C07_reach_by_impressions ds logs hb (List.zipWith max v w)
    (by simp [hv, hw]) F hF
  obtain ⟨lo, l1, _, _, l3, _⟩ := C07_reach_by_impressions ds logs hb (List.zipWith min v w)
    (by simp [hv, hw]) F hF
  refine ⟨p, q, hi, lo, _, _, _, _, p1, q1, h1, l1, p3 1 le_rfl hF, q3 1 le_rfl hF, h3 1 le_rfl hF,
    l3 1 le_rfl hF, ?_⟩
  have key := fun u => reached_iff exposuresAtImpressions
    (fun l a b u h => exposuresAtImpressions_mono l h u) u logs v w (by omega)
  have := kPlusReach_submodular (totalAtImpressions logs v) (totalAtImpressions logs w)
    (totalAtImpressions logs (List.zipWith max v w)) (totalAtImpressions logs (List.zipWith min v w))
    _ (allUsers_finite logs) (totalAtImpressions_mem logs v) (totalAtImpressions_mem logs w)
    (fun u => (key u).1) (fun u => (key u).2)
  exact_mod_cast this

/-- The same for spends. -/
theorem C09_submodular_spend (ds : DataSet) (logs : List Log)
    (hb : List.Forall₂ Built logs ds.data) (s t : List ℚ) (hs : s.length = logs.length)
    (ht : t.length = logs.length) (F : Nat) (hF : 1 ≤ F) :
    ∃ p q hi lo x y h l, ds.reachBySpend s F = .ok p ∧ ds.reachBySpend t F = .ok q ∧
      ds.reachBySpend (List.zipWith max s t) F = .ok hi ∧
      ds.reachBySpend (List.zipWith min s t) F = .ok lo ∧
      p.reach 1 = .ok x ∧ q.reach 1 = .ok y ∧ hi.reach 1 = .ok h ∧ lo.reach 1 = .ok l ∧
      h + l ≤ x + y := by
  obtain ⟨p, p1, _, _, _, p3, _⟩ := C08_reach_by_spend ds logs hb s hs F hF
  obtain ⟨q, q1, _, _, _, q3, _⟩ := C08_reach_by_spend ds logs hb t ht F hF
  obtain ⟨hi, h1, _, _, _, h3, _⟩ := C08_reach_by_spend ds logs hb (List.zipWith max s t)
    (by simp [hs, ht]) F hF
  obtain ⟨lo, l1, _, _, _, l3, _⟩ := C08_reach_by_spend ds logs hb (List.zipWith min s t)
    (by simp [hs, ht]) F hF
  refine ⟨p, q, hi, lo, _, _, _, _, p1, q1, h1, l1, p3 1 le_rfl hF, q3 1 le_rfl hF, h3 1 le_rfl hF,
    l3 1 le_rfl hF, ?_⟩
  have key := fun u => reached_iff exposuresAtSpend
    (fun l a b u h => exposuresAtSpend_mono l h u) u logs s t (by omega)
  have := kPlusReach_submodular (totalAtSpend logs s) (totalAtSpend logs t)
    (totalAtSpend logs (List.zipWith max s t)) (totalAtSpend logs (List.zipWith min s t))
    _ (allUsers_finite logs) (totalAtSpend_mem logs s) (totalAtSpend_mem logs t)
    (fun u => (key u).1) (fun u => (key u).2)
  exact_mod_cast this

/-- User 7 is reached by both publishers, so the joint plan reaches one person less than the two plans
apart. -/
example : (exDataSet.reachByImpressions [2, 0] 2).toOption.map (·.kplusReaches) = some [2, 0] ∧
    (exDataSet.reachByImpressions [0, 2] 2).toOption.map (·.kplusReaches) = some [2, 0] ∧
    (exDataSet.reachByImpressions [2, 2] 2).toOption.map (·.kplusReaches) = some [3, 1] ∧
    (exDataSet.reachByImpressions [0, 0] 2).toOption.map (·.kplusReaches) = some [0, 0] ∧
    List.zipWith max [2, 0] [0, 2] = [2, 2] ∧ List.zipWith min [2, 0] [0, 2] = [0, 0] := by
  refine ⟨by decide +kernel, by decide +kernel, by decide +kernel, by decide +kernel, rfl, rfl⟩

/-- The same for higher frequencies, which is not claimed and not so. -/
def HigherFrequencySubmodular : Prop :=
  ∀ (ds : DataSet) (logs : List Log), List.Forall₂ Built logs ds.data →
    ∀ (v w : List Nat), v.length = logs.length → w.length = logs.length →
    ∀ (F k : Nat), 1 ≤ k → k ≤ F → ∀ p q hi lo x y h l,
      ds.reachByImpressions (v.map (fun n : Nat => (n : Int))) F = .ok p →
      ds.reachByImpressions (w.map (fun n : Nat => (n : Int))) F = .ok q →
      ds.reachByImpressions ((List.zipWith max v w).map (fun n : Nat => (n : Int))) F = .ok hi →
      ds.reachByImpressions ((List.zipWith min v w).map (fun n : Nat => (n : Int))) F = .ok lo →
      p.reach k = .ok x → q.reach k = .ok y → hi.reach k = .ok h → lo.reach k = .ok l →
      h + l ≤ x + y

/-- It holds for 1+ reach only: two publishers that reach the same person once each reach nobody twice
apart, but somebody together. -/
theorem higher_frequency_not_submodular : ¬ HigherFrequencySubmodular := by
  intro h
  have := h exDataSet exLogs exBuilt [2, 0] [0, 2] rfl rfl 2 2 (by norm_num) le_rfl
    ⟨[2, 0], [2, 0], [2], some [2, 0], some 8⟩ ⟨[0, 2], [2, 0], [2], some [0, 1], some 8⟩
    ⟨[2, 2], [3, 1], [2], some [2, 1], some 8⟩ ⟨[0, 0], [0, 0], [0], some [0, 0], some 8⟩ 0 0 1 0
    (by decide +kernel) (by decide +kernel) (by decide +kernel) (by decide +kernel)
    (by decide +kernel) (by decide +kernel) (by decide +kernel) (by decide +kernel)
  norm_num at this

/-! ## Surfaces -/

/-- A reach curve as it should be: `g` is its 1+ reach, which does not decrease and stays between zero
and the maximum reach. -/
structure CurveShape (c : SurfaceCurve) (g : ℚ → ℚ) : Prop where
  value : ∀ x, 0 ≤ x → c.reachAt x = .ok (g x)
  mono : ∀ x y, 0 ≤ x → x ≤ y → g x ≤ g y
  nonneg : ∀ x, 0 ≤ x → 0 ≤ g x
  bounded : ∀ x, 0 ≤ x → g x ≤ c.maxReach

/-- Returns diminish along the curve. -/
def ConcaveReach (g : ℚ → ℚ) : Prop :=
  ∀ x y t, 0 ≤ x → 0 ≤ y → 0 ≤ t → t ≤ 1 → t * g x + (1 - t) * g y ≤ g (t * x + (1 - t) * y)

/-- Curve `i` of the list has the 1+ reach `g i`. -/
def CurveShapes (curves : List SurfaceCurve) (g : Nat → ℚ → ℚ) : Prop :=
  ∀ i (hi : i < curves.length), CurveShape curves[i] (g i)

theorem getD_nonneg_of {v : List ℚ} (h : ∀ x ∈ v, 0 ≤ x) (i : Nat) : 0 ≤ v.getD i 0 := by
  rw [List.getD_eq_getElem?_getD]
  cases e : v[i]? with
  | none => simp
  | some x => exact h x (List.mem_of_getElem? e)

theorem reachVector_of_shapes {curves : List SurfaceCurve} {g : Nat → ℚ → ℚ}
    (hg : CurveShapes curves g) (v : List ℚ) (hv : v.length = curves.length) (h0 : ∀ x ∈ v, 0 ≤ x) :
    ∃ r, PairwiseSurface.getReachVector curves v = .ok r ∧
      ∀ i < curves.length, r.getD i 0 = g i (v.getD i 0) := by
  refine ⟨(List.range curves.length).map (fun i => g i (v.getD i 0)), ?_, ?_⟩
  · unfold PairwiseSurface.getReachVector
    rw [mapM_ok_iff, List.forall₂_iff_get]
    refine ⟨by simp [hv], ?_⟩
    intro i h1 h2
    have hi : i < curves.length := by simpa using h2
    simp only [List.get_eq_getElem, List.getElem_zip, List.getElem_map, List.getElem_range]
    rw [(hg i hi).value _ (h0 _ (List.getElem_mem _)), List.getD_eq_getElem _ _ (by omega)]
  · intro i hi
    rw [List.getD_eq_getElem _ _ (by simpa using hi)]
    simp

theorem zipWith_getD (f : ℚ → ℚ → ℚ) (v w : List ℚ) (h : v.length = w.length) (i : Nat)
    (hi : i < v.length) : (List.zipWith f v w).getD i 0 = f (v.getD i 0) (w.getD i 0) := by
  rw [List.getD_eq_getElem _ _ (by simp; omega), List.getD_eq_getElem _ _ hi,
    List.getD_eq_getElem _ _ (by omega)]
  simp

theorem zipWith_nonneg {f : ℚ → ℚ → ℚ} (hf : ∀ a b, 0 ≤ a → 0 ≤ b → 0 ≤ f a b) :
    ∀ {v w : List ℚ}, (∀ x ∈ v, 0 ≤ x) → (∀ x ∈ w, 0 ≤ x) → ∀ x ∈ List.zipWith f v w, 0 ≤ x
  | [], _, _, _ => by simp
  | _ :: _, [], _, _ => by simp
  | a :: v, b :: w, hv, hw => by
    intro x hx
    rw [List.zipWith_cons_cons, List.mem_cons] at hx
    rcases hx with rfl | hx
    · exact hf _ _ (hv a (by simp)) (hw b (by simp))
    · exact zipWith_nonneg hf (fun y hy => hv y (by simp [hy])) (fun y hy => hw y (by simp [hy])) x hx

theorem unionReach_congr (p : Nat) (a : Nat → Nat → ℚ) (m r r' : Nat → ℚ)
    (h : ∀ i < p, r i = r' i) : unionReach p a m r = unionReach p a m r' := by
  unfold unionReach
  congr 1
  · exact Finset.sum_congr rfl (fun i hi => h i (Finset.mem_range.1 hi))
  · congr 1
    refine Finset.sum_congr rfl (fun i hi => Finset.sum_congr rfl (fun j hj => ?_))
    rw [h i (Finset.mem_range.1 hi), h j (Finset.mem_range.1 hj)]

theorem mixtureUnion_congr (N : ℚ) (p c : Nat) (a : Nat → Nat → ℚ) (r r' : Nat → ℚ)
    (h : ∀ i < p, r i = r' i) : mixtureUnion N p c a r = mixtureUnion N p c a r' := by
  unfold mixtureUnion
  congr 1
  refine Finset.sum_congr rfl (fun j _ => ?_)
  congr 1
  exact Finset.prod_congr rfl (fun i hi => by rw [h i (Finset.mem_range.1 hi)])

theorem rearrange (x y x' y' : ℚ) :
    x * y + x' * y' ≤ min x x' * min y y' + max x x' * max y y' := by
  rcases le_total x x' with h | h <;> rcases le_total y y' with k | k <;>
    simp only [min_eq_left, min_eq_right, max_eq_left, max_eq_right, h, k] <;>
    nlinarith [mul_nonneg (sub_nonneg.2 h) (sub_nonneg.2 k)]

theorem unionReach_submodular (p : Nat) (a : Nat → Nat → ℚ) (m r r' : Nat → ℚ)
    (ha : PlausibleOverlap p a) (hm : ∀ i < p, 0 < m i) :
    unionReach p a m (fun i => max (r i) (r' i)) + unionReach p a m (fun i => min (r i) (r' i)) ≤
      unionReach p a m r + unionReach p a m r' := by
  unfold unionReach
  have h1 : ∑ i ∈ range p, max (r i) (r' i) + ∑ i ∈ range p, min (r i) (r' i) =
      ∑ i ∈ range p, r i + ∑ i ∈ range p, r' i := by
    rw [← Finset.sum_add_distrib, ← Finset.sum_add_distrib]
    exact Finset.sum_congr rfl (fun i _ => max_add_min _ _)
  have h2 : ∑ i ∈ range p, ∑ j ∈ range p, a i j * r i * r j / max (m i) (m j) +
      ∑ i ∈ range p, ∑ j ∈ range p, a i j * r' i * r' j / max (m i) (m j) ≤
      ∑ i ∈ range p, ∑ j ∈ range p,
          a i j * max (r i) (r' i) * max (r j) (r' j) / max (m i) (m j) +
        ∑ i ∈ range p, ∑ j ∈ range p,
          a i j * min (r i) (r' i) * min (r j) (r' j) / max (m i) (m j) := by
    simp only [← Finset.sum_add_distrib]
    refine Finset.sum_le_sum (fun i hi => Finset.sum_le_sum (fun j hj => ?_))
    have hi := Finset.mem_range.1 hi
    have hj := Finset.mem_range.1 hj
    rw [← add_div, ← add_div]
    apply div_le_div_of_nonneg_right _ (le_max_of_le_left (hm i hi).le)
    have := mul_le_mul_of_nonneg_left (rearrange (r i) (r j) (r' i) (r' j)) (ha.nonneg i hi j hj)
    linarith
  linarith

theorem prod_max_min (p : Nat) (x y : Nat → ℚ) (hx : ∀ i < p, 0 ≤ x i) (hy : ∀ i < p, 0 ≤ y i) :
    ∏ i ∈ range p, x i + ∏ i ∈ range p, y i ≤
      ∏ i ∈ range p, max (x i) (y i) + ∏ i ∈ range p, min (x i) (y i) ∧
    ∏ i ∈ range p, x i ≤ ∏ i ∈ range p, max (x i) (y i) ∧
    ∏ i ∈ range p, y i ≤ ∏ i ∈ range p, max (x i) (y i) := by
  induction p with
  | zero => simp
  | succ p ih =>
    obtain ⟨h1, h2, h3⟩ := ih (fun i hi => hx i (by omega)) (fun i hi => hy i (by omega))
    have a0 := hx p (by omega)
    have b0 := hy p (by omega)
    have x0 : 0 ≤ ∏ i ∈ range p, x i :=
      Finset.prod_nonneg (fun i hi => hx i (by have := Finset.mem_range.1 hi; omega))
    have y0 : 0 ≤ ∏ i ∈ range p, y i :=
      Finset.prod_nonneg (fun i hi => hy i (by have := Finset.mem_range.1 hi; omega))
    simp only [Finset.prod_range_succ]
    generalize (∏ i ∈ range p, x i) = X at *
    generalize (∏ i ∈ range p, y i) = Y at *
    generalize (∏ i ∈ range p, max (x i) (y i)) = A at *
    generalize (∏ i ∈ range p, min (x i) (y i)) = B at *
    refine ⟨?_, mul_le_mul h2 (le_max_left _ _) a0 (x0.trans h2),
      mul_le_mul h3 (le_max_right _ _) b0 (y0.trans h3)⟩
    rcases le_total (x p) (y p) with h | h
    · rw [max_eq_right h, min_eq_left h]
      nlinarith [mul_nonneg (sub_nonneg.2 h) (sub_nonneg.2 h3),
        mul_nonneg a0 (sub_nonneg.2 h1)]
    · rw [max_eq_left h, min_eq_right h]
      nlinarith [mul_nonneg (sub_nonneg.2 h) (sub_nonneg.2 h2),
        mul_nonneg b0 (sub_nonneg.2 h1)]

theorem mixtureUnion_submodular (N : ℚ) (hN : 0 < N) (p c : Nat) (a : Nat → Nat → ℚ)
    (ha : MixtureWeights p c a) (r r' : Nat → ℚ) (h0 : ∀ i < p, 0 ≤ r i) (h0' : ∀ i < p, 0 ≤ r' i)
    (h1 : ∀ i < p, r i ≤ N) (h1' : ∀ i < p, r' i ≤ N) :
    mixtureUnion N p c a (fun i => max (r i) (r' i)) +
        mixtureUnion N p c a (fun i => min (r i) (r' i)) ≤
      mixtureUnion N p c a r + mixtureUnion N p c a r' := by
  unfold mixtureUnion
  rw [← mul_add, ← mul_add, ← Finset.sum_add_distrib, ← Finset.sum_add_distrib]
  apply mul_le_mul_of_nonneg_left _ hN.le
  apply Finset.sum_le_sum
  intro j hj
  have hj := Finset.mem_range.1 hj
  obtain ⟨k1, -, -⟩ := prod_max_min p (fun i => 1 - a i j * r i / N) (fun i => 1 - a i j * r' i / N)
    (fun i hi => by linarith [(share_range N hN p c a ha r h0 h1 i j hi hj).2])
    (fun i hi => by linarith [(share_range N hN p c a ha r' h0' h1' i j hi hj).2])
  have e1 : ∏ i ∈ range p, (1 - a i j * max (r i) (r' i) / N) =
      ∏ i ∈ range p, min (1 - a i j * r i / N) (1 - a i j * r' i / N) := by
    refine Finset.prod_congr rfl (fun i hi => ?_)
    have b0 := ha.nonneg i (Finset.mem_range.1 hi) j hj
    have mono : ∀ s t : ℚ, s ≤ t → 1 - a i j * t / N ≤ 1 - a i j * s / N := fun s t hst =>
      sub_le_sub_left (div_le_div_of_nonneg_right (mul_le_mul_of_nonneg_left hst b0) hN.le) _
    rcases le_total (r i) (r' i) with h | h
    · rw [max_eq_right h, min_eq_right (mono _ _ h)]
    · rw [max_eq_left h, min_eq_left (mono _ _ h)]
  have e2 : ∏ i ∈ range p, (1 - a i j * min (r i) (r' i) / N) =
      ∏ i ∈ range p, max (1 - a i j * r i / N) (1 - a i j * r' i / N) := by
    refine Finset.prod_congr rfl (fun i hi => ?_)
    have b0 := ha.nonneg i (Finset.mem_range.1 hi) j hj
    have mono : ∀ s t : ℚ, s ≤ t → 1 - a i j * t / N ≤ 1 - a i j * s / N := fun s t hst =>
      sub_le_sub_left (div_le_div_of_nonneg_right (mul_le_mul_of_nonneg_left hst b0) hN.le) _
    rcases le_total (r i) (r' i) with h | h
    · rw [min_eq_left h, max_eq_left (mono _ _ h)]
    · rw [min_eq_right h, max_eq_right (mono _ _ h)]
  rw [e1, e2]
  linarith

theorem mono_max {g : ℚ → ℚ} (hg : ∀ x y, 0 ≤ x → x ≤ y → g x ≤ g y) {x y : ℚ} (hx : 0 ≤ x)
    (hy : 0 ≤ y) : g (max x y) = max (g x) (g y) ∧ g (min x y) = min (g x) (g y) := by
  rcases le_total x y with h | h
  · rw [max_eq_right h, min_eq_left h, max_eq_right (hg x y hx h), min_eq_left (hg x y hx h)]
    exact ⟨rfl, rfl⟩
  · rw [max_eq_left h, min_eq_right h, max_eq_left (hg y x hy h), min_eq_right (hg y x hy h)]
    exact ⟨rfl, rfl⟩

/-- What a pairwise union surface over well-shaped curves predicts. -/
theorem pairwise_predict (s : PairwiseSurface) (hs : WellFormed s) (g : Nat → ℚ → ℚ)
    (hg : CurveShapes s.curves g) (v : List ℚ) (hv : v.length = s.p) (h0 : ∀ x ∈ v, 0 ≤ x) :
    ∃ pt, s.byImpressions v = .ok pt ∧ pt.reach 1 =
      .ok (unionReach s.p (surfaceMatrix s) (surfaceMax s) (fun i => g i (v.getD i 0))) := by
  obtain ⟨r, h1, h2⟩ := reachVector_of_shapes hg v (by rw [hv, hs.curves]) h0
  obtain ⟨pt, p1, -, -, p2⟩ := C30_formula s hs v hv r h1
  refine ⟨pt, p1, ?_⟩
  rw [p2, unionReach_congr _ _ _ _ _ (fun i hi => h2 i (by rw [hs.curves]; exact hi))]

/-- **C30 (overlap).** Of two plans, the plan that takes the larger number of impressions with every
publisher and the plan that takes the smaller one are together predicted to reach at most as many people
as the two. -/
theorem C30_submodular (s : PairwiseSurface) (hs : WellFormed s)
    (ha : PlausibleOverlap s.p (surfaceMatrix s)) (g : Nat → ℚ → ℚ) (hg : CurveShapes s.curves g)
    (v w : List ℚ) (hv : v.length = s.p) (hw : w.length = s.p) (hv0 : ∀ x ∈ v, 0 ≤ x)
    (hw0 : ∀ x ∈ w, 0 ≤ x) :
    ∃ p q hi lo x y h l, s.byImpressions v = .ok p ∧ s.byImpressions w = .ok q ∧
      s.byImpressions (List.zipWith max v w) = .ok hi ∧
      s.byImpressions (List.zipWith min v w) = .ok lo ∧
      p.reach 1 = .ok x ∧ q.reach 1 = .ok y ∧ hi.reach 1 = .ok h ∧ lo.reach 1 = .ok l ∧
      h + l ≤ x + y := by
  obtain ⟨p, p1, p2⟩ := pairwise_predict s hs g hg v hv hv0
  obtain ⟨q, q1, q2⟩ := pairwise_predict s hs g hg w hw hw0
  obtain ⟨hi, i1, i2⟩ := pairwise_predict s hs g hg (List.zipWith max v w) (by simp [hv, hw])
    (zipWith_nonneg (fun a b ha _ => le_max_of_le_left ha) hv0 hw0)
  obtain ⟨lo, l1, l2⟩ := pairwise_predict s hs g hg (List.zipWith min v w) (by simp [hv, hw])
    (zipWith_nonneg (fun a b ha hb => le_min ha hb) hv0 hw0)
  refine ⟨p, q, hi, lo, _, _, _, _, p1, q1, i1, l1, p2, q2, i2, l2, ?_⟩
  have key := unionReach_submodular s.p (surfaceMatrix s) (surfaceMax s)
    (fun i => g i (v.getD i 0)) (fun i => g i (w.getD i 0)) ha (surfaceMax_pos s hs)
  refine le_trans (le_of_eq ?_) key
  congr 1
  · apply unionReach_congr
    intro i hi
    rw [zipWith_getD max v w (by omega) i (by omega)]
    exact (mono_max (hg i (by rw [hs.curves]; exact hi)).mono (getD_nonneg_of hv0 i)
      (getD_nonneg_of hw0 i)).1
  · apply unionReach_congr
    intro i hi
    rw [zipWith_getD min v w (by omega) i (by omega)]
    exact (mono_max (hg i (by rw [hs.curves]; exact hi)).mono (getD_nonneg_of hv0 i)
      (getD_nonneg_of hw0 i)).2

/-- More impressions never predict less reach. -/
theorem pairwise_shapes_mono (s : PairwiseSurface) (hs : WellFormed s)
    (ha : PlausibleOverlap s.p (surfaceMatrix s)) (g : Nat → ℚ → ℚ) (hg : CurveShapes s.curves g)
    (v w : List ℚ) (hv : v.length = s.p) (hw : w.length = s.p) (hv0 : ∀ x ∈ v, 0 ≤ x)
    (hw0 : ∀ x ∈ w, 0 ≤ x) (hvw : ∀ i < s.p, v.getD i 0 ≤ w.getD i 0) (p q : ReachPoint) (x y : ℚ)
    (hp : s.byImpressions v = .ok p) (hq : s.byImpressions w = .ok q) (hx : p.reach 1 = .ok x)
    (hy : q.reach 1 = .ok y) : x ≤ y := by
  obtain ⟨p', p1, p2⟩ := pairwise_predict s hs g hg v hv hv0
  obtain ⟨q', q1, q2⟩ := pairwise_predict s hs g hg w hw hw0
  rw [p1] at hp
  rw [q1] at hq
  cases hp
  cases hq
  rw [p2] at hx
  rw [q2] at hy
  cases hx
  cases hy
  have hgi : ∀ i (hi : i < s.p), CurveShape (s.curves[i]'(by rw [hs.curves]; exact hi)) (g i) :=
    fun i hi => hg i (by rw [hs.curves]; exact hi)
  refine unionReach_mono s.p _ _ _ _ ha (surfaceMax_pos s hs)
    (fun i hi => (hgi i hi).nonneg _ (getD_nonneg_of hv0 i))
    (fun i hi => (hgi i hi).mono _ _ (getD_nonneg_of hv0 i) (hvw i hi)) (fun i hi => ?_)
  have := (hgi i hi).bounded _ (getD_nonneg_of hw0 i)
  refine this.trans (le_of_eq ?_)
  unfold surfaceMax
  rw [List.getD_eq_getElem _ _ (by rw [List.length_map, hs.curves]; exact hi), List.getElem_map]

/-- What a mixture surface over well-shaped curves predicts. -/
theorem mixture_predict (s : MixtureSurface) (hs : MixtureWellFormed s) (g : Nat → ℚ → ℚ)
    (hg : CurveShapes s.curves g) (v : List ℚ) (hv : v.length = s.p) (h0 : ∀ x ∈ v, 0 ≤ x) :
    ∃ pt, s.byImpressions v = .ok pt ∧ pt.reach 1 =
      .ok (mixtureUnion s.N s.p s.c (mixtureMatrix s) (fun i => g i (v.getD i 0))) := by
  obtain ⟨r, h1, h2⟩ := reachVector_of_shapes hg v (by rw [hv, hs.curves]) h0
  obtain ⟨pt, p1, -, -, p2⟩ := C37_formula s hs v hv r h1
  refine ⟨pt, p1, ?_⟩
  rw [p2, mixtureUnion_congr _ _ _ _ _ _ (fun i hi => h2 i (by rw [hs.curves]; exact hi))]

/-- **C37 (overlap).** The same for the mixture surface. -/
theorem C37_submodular (s : MixtureSurface) (hs : MixtureWellFormed s)
    (ha : MixtureWeights s.p s.c (mixtureMatrix s)) (g : Nat → ℚ → ℚ)
    (hg : CurveShapes s.curves g) (hN : ∀ c ∈ s.curves, c.maxReach ≤ s.N)
    (v w : List ℚ) (hv : v.length = s.p) (hw : w.length = s.p) (hv0 : ∀ x ∈ v, 0 ≤ x)
    (hw0 : ∀ x ∈ w, 0 ≤ x) :
    ∃ p q hi lo x y h l, s.byImpressions v = .ok p ∧ s.byImpressions w = .ok q ∧
      s.byImpressions (List.zipWith max v w) = .ok hi ∧
      s.byImpressions (List.zipWith min v w) = .ok lo ∧
      p.reach 1 = .ok x ∧ q.reach 1 = .ok y ∧ hi.reach 1 = .ok h ∧ lo.reach 1 = .ok l ∧
      h + l ≤ x + y := by
  obtain ⟨p, p1, p2⟩ := mixture_predict s hs g hg v hv hv0
  obtain ⟨q, q1, q2⟩ := mixture_predict s hs g hg w hw hw0
  obtain ⟨hi, i1, i2⟩ := mixture_predict s hs g hg (List.zipWith max v w) (by simp [hv, hw])
    (zipWith_nonneg (fun a b ha _ => le_max_of_le_left ha) hv0 hw0)
  obtain ⟨lo, l1, l2⟩ := mixture_predict s hs g hg (List.zipWith min v w) (by simp [hv, hw])
    (zipWith_nonneg (fun a b ha hb => le_min ha hb) hv0 hw0)
  refine ⟨p, q, hi, lo, _, _, _, _, p1, q1, i1, l1, p2, q2, i2, l2, ?_⟩
  have hc : ∀ i < s.p, ∀ x, 0 ≤ x → 0 ≤ g i x ∧ g i x ≤ s.N := by
    intro i hi x hx
    have hlt : i < s.curves.length := by rw [hs.curves]; exact hi
    exact ⟨(hg i hlt).nonneg x hx,
      ((hg i hlt).bounded x hx).trans (hN _ (List.getElem_mem hlt))⟩
  have key := mixtureUnion_submodular s.N hs.positive s.p s.c (mixtureMatrix s) ha
    (fun i => g i (v.getD i 0)) (fun i => g i (w.getD i 0))
    (fun i hi => (hc i hi _ (getD_nonneg_of hv0 i)).1) (fun i hi => (hc i hi _ (getD_nonneg_of hw0 i)).1)
    (fun i hi => (hc i hi _ (getD_nonneg_of hv0 i)).2) (fun i hi => (hc i hi _ (getD_nonneg_of hw0 i)).2)
  refine le_trans (le_of_eq ?_) key
  congr 1
  · apply mixtureUnion_congr
    intro i hi
    rw [zipWith_getD max v w (by omega) i (by omega)]
    exact (mono_max (hg i (by rw [hs.curves]; exact hi)).mono (getD_nonneg_of hv0 i)
      (getD_nonneg_of hw0 i)).1
  · apply mixtureUnion_congr
    intro i hi
    rw [zipWith_getD min v w (by omega) i (by omega)]
    exact (mono_max (hg i (by rw [hs.curves]; exact hi)).mono (getD_nonneg_of hv0 i)
      (getD_nonneg_of hw0 i)).2

/-! ### Returns of a single publisher -/

theorem unionReach_affine (p : Nat) (a : Nat → Nat → ℚ) (m r r' : Nat → ℚ)
    (ha : PlausibleOverlap p a) (k : Nat) (hk : ∀ i < p, i ≠ k → r i = r' i) (t : ℚ) :
    unionReach p a m (fun i => t * r i + (1 - t) * r' i) =
      t * unionReach p a m r + (1 - t) * unionReach p a m r' := by
  unfold unionReach
  have h1 : ∑ i ∈ range p, (t * r i + (1 - t) * r' i) =
      t * ∑ i ∈ range p, r i + (1 - t) * ∑ i ∈ range p, r' i := by
    rw [Finset.sum_add_distrib, ← Finset.mul_sum, ← Finset.mul_sum]
  have h2 : ∑ i ∈ range p, ∑ j ∈ range p,
      a i j * (t * r i + (1 - t) * r' i) * (t * r j + (1 - t) * r' j) / max (m i) (m j) =
      t * ∑ i ∈ range p, ∑ j ∈ range p, a i j * r i * r j / max (m i) (m j) +
      (1 - t) * ∑ i ∈ range p, ∑ j ∈ range p, a i j * r' i * r' j / max (m i) (m j) := by
    simp only [Finset.mul_sum, ← Finset.sum_add_distrib]
    refine Finset.sum_congr rfl (fun i hi => Finset.sum_congr rfl (fun j hj => ?_))
    have hi := Finset.mem_range.1 hi
    have hj := Finset.mem_range.1 hj
    by_cases e1 : i = k
    · by_cases e2 : j = k
      · have : a i j = 0 := by rw [e1, e2]; exact ha.diag k (e1 ▸ hi)
        rw [this]; simp
      · rw [hk j hj e2]; ring
    · rw [hk i hi e1]; ring
  rw [h1, h2]; ring

theorem mixtureUnion_affine (N : ℚ) (p c : Nat) (a : Nat → Nat → ℚ) (r r' : Nat → ℚ)
    (k : Nat) (hk : ∀ i < p, i ≠ k → r i = r' i) (t : ℚ) :
    mixtureUnion N p c a (fun i => t * r i + (1 - t) * r' i) =
      t * mixtureUnion N p c a r + (1 - t) * mixtureUnion N p c a r' := by
  have key : ∀ j, ∏ i ∈ range p, (1 - a i j * (t * r i + (1 - t) * r' i) / N) =
      t * ∏ i ∈ range p, (1 - a i j * r i / N) + (1 - t) * ∏ i ∈ range p, (1 - a i j * r' i / N) := by
    intro j
    by_cases hkp : k < p
    · have hmem : k ∈ range p := Finset.mem_range.2 hkp
      rw [← Finset.mul_prod_erase _ _ hmem, ← Finset.mul_prod_erase _ _ hmem,
        ← Finset.mul_prod_erase _ _ hmem]
      have e : ∀ i ∈ (range p).erase k, r i = r' i := fun i hi =>
        hk i (Finset.mem_range.1 (Finset.mem_of_mem_erase hi)) (Finset.ne_of_mem_erase hi)
      have e1 : ∏ i ∈ (range p).erase k, (1 - a i j * (t * r i + (1 - t) * r' i) / N) =
          ∏ i ∈ (range p).erase k, (1 - a i j * r' i / N) :=
        Finset.prod_congr rfl (fun i hi => by rw [e i hi]; ring)
      have e2 : ∏ i ∈ (range p).erase k, (1 - a i j * r i / N) =
          ∏ i ∈ (range p).erase k, (1 - a i j * r' i / N) :=
        Finset.prod_congr rfl (fun i hi => by rw [e i hi])
      rw [e1, e2]; ring
    · have e : ∀ i ∈ range p, r i = r' i := fun i hi =>
        hk i (Finset.mem_range.1 hi) (by have := Finset.mem_range.1 hi; omega)
      have e1 : ∏ i ∈ range p, (1 - a i j * (t * r i + (1 - t) * r' i) / N) =
          ∏ i ∈ range p, (1 - a i j * r' i / N) :=
        Finset.prod_congr rfl (fun i hi => by rw [e i hi]; ring)
      have e2 : ∏ i ∈ range p, (1 - a i j * r i / N) = ∏ i ∈ range p, (1 - a i j * r' i / N) :=
        Finset.prod_congr rfl (fun i hi => by rw [e i hi])
      rw [e1, e2]; ring
  unfold mixtureUnion
  simp only [key]
  have : ∀ j, (1 - (t * ∏ i ∈ range p, (1 - a i j * r i / N) +
      (1 - t) * ∏ i ∈ range p, (1 - a i j * r' i / N)) : ℚ) =
      t * (1 - ∏ i ∈ range p, (1 - a i j * r i / N)) +
      (1 - t) * (1 - ∏ i ∈ range p, (1 - a i j * r' i / N)) := fun j => by ring
  simp only [this]
  rw [Finset.sum_add_distrib, ← Finset.mul_sum, ← Finset.mul_sum]
  ring

/-- The plan in between: share `t` of the first and the rest of the second. -/
def mixPlans (t : ℚ) (v w : List ℚ) : List ℚ := List.zipWith (fun x y => t * x + (1 - t) * y) v w

theorem mixPlans_nonneg {t : ℚ} (t0 : 0 ≤ t) (t1 : t ≤ 1) {v w : List ℚ} (hv0 : ∀ x ∈ v, 0 ≤ x)
    (hw0 : ∀ x ∈ w, 0 ≤ x) : ∀ x ∈ mixPlans t v w, 0 ≤ x :=
  zipWith_nonneg (fun _ _ ha hb =>
    add_nonneg (mul_nonneg t0 ha) (mul_nonneg (by linarith) hb)) hv0 hw0

/-- **C30 (diminishing returns).** If two plans differ in one publisher only, whose curve is concave,
the plan in between is predicted to reach at least as many as the two reach on average. -/
theorem C30_diminishing (s : PairwiseSurface) (hs : WellFormed s)
    (ha : PlausibleOverlap s.p (surfaceMatrix s)) (g : Nat → ℚ → ℚ) (hg : CurveShapes s.curves g)
    (v w : List ℚ) (hv : v.length = s.p) (hw : w.length = s.p) (hv0 : ∀ x ∈ v, 0 ≤ x)
    (hw0 : ∀ x ∈ w, 0 ≤ x) (k : Nat) (hc : ConcaveReach (g k))
    (hd : ∀ i < s.p, i ≠ k → v.getD i 0 = w.getD i 0) (t : ℚ) (t0 : 0 ≤ t) (t1 : t ≤ 1) :
    ∃ p q m x y z, s.byImpressions v = .ok p ∧ s.byImpressions w = .ok q ∧
      s.byImpressions (mixPlans t v w) = .ok m ∧
      p.reach 1 = .ok x ∧ q.reach 1 = .ok y ∧ m.reach 1 = .ok z ∧ t * x + (1 - t) * y ≤ z := by
  obtain ⟨p, p1, p2⟩ := pairwise_predict s hs g hg v hv hv0
  obtain ⟨q, q1, q2⟩ := pairwise_predict s hs g hg w hw hw0
  obtain ⟨m, m1, m2⟩ := pairwise_predict s hs g hg (mixPlans t v w) (by simp [mixPlans, hv, hw])
    (mixPlans_nonneg t0 t1 hv0 hw0)
  refine ⟨p, q, m, _, _, _, p1, q1, m1, p2, q2, m2, ?_⟩
  rw [← unionReach_affine s.p (surfaceMatrix s) (surfaceMax s) _ _ ha k
    (fun i hi hne => by rw [hd i hi hne]) t]
  have s0 : 0 ≤ 1 - t := by linarith
  have hgi : ∀ i (hi : i < s.p), CurveShape (s.curves[i]'(by rw [hs.curves]; exact hi)) (g i) :=
    fun i hi => hg i (by rw [hs.curves]; exact hi)
  apply unionReach_mono s.p _ _ _ _ ha (surfaceMax_pos s hs)
  · intro i hi
    have h1 := (hgi i hi).nonneg _ (getD_nonneg_of hv0 i)
    have h2 := (hgi i hi).nonneg _ (getD_nonneg_of hw0 i)
    positivity
  · intro i hi
    rw [mixPlans, zipWith_getD _ v w (by omega) i (by omega)]
    by_cases e : i = k
    · rw [e]
      exact hc _ _ t (getD_nonneg_of hv0 k) (getD_nonneg_of hw0 k) t0 t1
    · rw [hd i hi e]
      rw [show t * w.getD i 0 + (1 - t) * w.getD i 0 = w.getD i 0 by ring]
      linarith
  · intro i hi
    have h1 := (hgi i hi).bounded _ (getD_nonneg_of (mixPlans_nonneg t0 t1 hv0 hw0) i)
    refine h1.trans (le_of_eq ?_)
    unfold surfaceMax
    rw [List.getD_eq_getElem _ _ (by rw [List.length_map, hs.curves]; exact hi)]
    simp

/-- **C37 (diminishing returns).** The same for the mixture surface. -/
theorem C37_diminishing (s : MixtureSurface) (hs : MixtureWellFormed s)
    (ha : MixtureWeights s.p s.c (mixtureMatrix s)) (g : Nat → ℚ → ℚ)
    (hg : CurveShapes s.curves g) (hN : ∀ c ∈ s.curves, c.maxReach ≤ s.N)
    (v w : List ℚ) (hv : v.length = s.p) (hw : w.length = s.p) (hv0 : ∀ x ∈ v, 0 ≤ x)
    (hw0 : ∀ x ∈ w, 0 ≤ x) (k : Nat) (hc : ConcaveReach (g k))
    (hd : ∀ i < s.p, i ≠ k → v.getD i 0 = w.getD i 0) (t : ℚ) (t0 : 0 ≤ t) (t1 : t ≤ 1) :
    ∃ p q m x y z, s.byImpressions v = .ok p ∧ s.byImpressions w = .ok q ∧
      s.byImpressions (mixPlans t v w) = .ok m ∧
      p.reach 1 = .ok x ∧ q.reach 1 = .ok y ∧ m.reach 1 = .ok z ∧ t * x + (1 - t) * y ≤ z := by
  obtain ⟨p, p1, p2⟩ := mixture_predict s hs g hg v hv hv0
  obtain ⟨q, q1, q2⟩ := mixture_predict s hs g hg w hw hw0
  obtain ⟨m, m1, m2⟩ := mixture_predict s hs g hg (mixPlans t v w) (by simp [mixPlans, hv, hw])
    (mixPlans_nonneg t0 t1 hv0 hw0)
  refine ⟨p, q, m, _, _, _, p1, q1, m1, p2, q2, m2, ?_⟩
  rw [← mixtureUnion_affine s.N s.p s.c (mixtureMatrix s) _ _ k
    (fun i hi hne => by rw [hd i hi hne]) t]
  have s0 : 0 ≤ 1 - t := by linarith
  have hgi : ∀ i (hi : i < s.p), CurveShape (s.curves[i]'(by rw [hs.curves]; exact hi)) (g i) :=
    fun i hi => hg i (by rw [hs.curves]; exact hi)
  apply mixtureUnion_mono s.N hs.positive s.p s.c _ ha
  · intro i hi
    have h1 := (hgi i hi).nonneg _ (getD_nonneg_of hv0 i)
    have h2 := (hgi i hi).nonneg _ (getD_nonneg_of hw0 i)
    positivity
  · intro i hi
    rw [mixPlans, zipWith_getD _ v w (by omega) i (by omega)]
    by_cases e : i = k
    · rw [e]
      exact hc _ _ t (getD_nonneg_of hv0 k) (getD_nonneg_of hw0 k) t0 t1
    · rw [hd i hi e]
      rw [show t * w.getD i 0 + (1 - t) * w.getD i 0 = w.getD i 0 by ring]
      linarith
  · intro i hi
    exact ((hgi i hi).bounded _ (getD_nonneg_of (mixPlans_nonneg t0 t1 hv0 hw0) i)).trans
      (hN _ (List.getElem_mem _))

/-! ### Examples -/

theorem exSurface_shapes : CurveShapes exSurface.curves
    (fun i x => if i = 0 then min x 40 else min (x / 2) 10) := by
  intro i hi
  have : i = 0 ∨ i = 1 := by
    have : i < 2 := hi
    omega
  rcases this with rfl | rfl
  · refine ⟨fun x _ => rfl, fun x y _ h => ?_, fun x h => ?_, fun x _ => min_le_right _ _⟩
    · exact min_le_min_right _ h
    · exact le_min h (by norm_num)
  · refine ⟨fun x _ => rfl, fun x y _ h => ?_, fun x h => ?_, fun x _ => min_le_right _ _⟩
    · exact min_le_min_right _ (by linarith)
    · exact le_min (by linarith) (by norm_num)

theorem exSurface_concave : ConcaveReach (fun x : ℚ => min x 40) :=
  fun x y t _ _ t0 t1 => min_concave x y 40 t t0 t1

/-- Together the two publishers reach less than apart. -/
example : (exSurface.byImpressions [20, 0]).toOption.map (·.kplusReaches) = some [20] ∧
    (exSurface.byImpressions [0, 10]).toOption.map (·.kplusReaches) = some [5] ∧
    (exSurface.byImpressions [20, 10]).toOption.map (·.kplusReaches) = some [95 / 4] ∧
    List.zipWith max [20, 0] [0, 10] = ([20, 10] : List ℚ) := by
  refine ⟨by decide +kernel, by decide +kernel, by decide +kernel, by decide +kernel⟩

/-- From 20 to 80 impressions with the first publisher: halfway the curve is already exhausted. -/
example : (exSurface.byImpressions [20, 10]).toOption.map (·.kplusReaches) = some [95 / 4] ∧
    (exSurface.byImpressions [80, 10]).toOption.map (·.kplusReaches) = some [85 / 2] ∧
    (exSurface.byImpressions (mixPlans (1 / 2) [20, 10] [80, 10])).toOption.map (·.kplusReaches) =
      some [85 / 2] := by
  refine ⟨by decide +kernel, by decide +kernel, by decide +kernel⟩

/-- The hypotheses on the mixture surface hold. -/
example : CurveShapes exMixture2.curves (fun _ x => min x 10) ∧
    (∀ c ∈ exMixture2.curves, c.maxReach ≤ exMixture2.N) ∧
    ConcaveReach (fun x : ℚ => min x 10) ∧
    (exMixture2.byImpressions [10, 0]).toOption.map (·.kplusReaches) = some [10] ∧
    (exMixture2.byImpressions [10, 10]).toOption.map (·.kplusReaches) = some [135 / 8] := by
  refine ⟨?_, ?_, fun x y t _ _ t0 t1 => min_concave x y 10 t t0 t1, by decide +kernel,
    by decide +kernel⟩
  · intro i hi
    have e : exMixture2.curves[i] = ⟨10, fun x => .ok (min x 10)⟩ :=
      List.getElem_replicate _
    rw [e]
    exact ⟨fun x _ => rfl, fun x y _ h => min_le_min_right _ h, fun x h => le_min h (by norm_num),
      fun x _ => min_le_right _ _⟩
  · intro c hc
    rw [List.eq_of_mem_replicate hc]
    norm_num [exMixture2]

/-! ## C84: plans by spend -/

/-- Goerg's curve has the shape asked for, and is concave. -/
theorem goerg_shape (m : GoergModel) (hm : ∃ data, GoergModel.new data = .ok m) (hr : 0 < m.reach) :
    CurveShape m.plannerCurve.surface (fun x => m.rho * (x / (x + m.rho))) ∧
      ConcaveReach (fun x => m.rho * (x / (x + m.rho))) := by
  obtain ⟨data, hm⟩ := hm
  obtain ⟨hrho, hb⟩ := goerg_rho_pos data m hm hr
  refine ⟨⟨?_, ?_, ?_, ?_⟩, ?_⟩
  · intro x hx
    obtain ⟨pt, p1, -, -, -, p5⟩ := goerg_byImpressions_ok m x 1 (by rw [hb]; positivity)
    have h := p5 1 le_rfl le_rfl
    rw [pow_one, hb] at h
    show (do let r ← m.byImpressions [x]; r.reach 1) = _
    have p1' : m.byImpressions [x] = .ok pt := p1
    rw [p1']
    exact h
  · intro x y hx hxy
    apply mul_le_mul_of_nonneg_left _ hrho.le
    rw [div_le_div_iff₀ (by positivity) (by linarith)]
    nlinarith
  · intro x hx
    have : 0 ≤ x + m.rho := by positivity
    positivity
  · intro x hx
    obtain ⟨t0, t1, -⟩ := goerg_ratio m.rho x hrho hx
    show m.rho * (x / (x + m.rho)) ≤ m.rho
    nlinarith
  · intro x y t hx hy t0 t1
    have := mul_le_mul_of_nonneg_left (goerg_concave hrho hx hy t0 t1) hrho.le
    linarith

/-- A curve of a planner as it should be: well-shaped, concave, and with a known cost per impression. -/
structure GoodCurve (c : PlannerCurve) (g : ℚ → ℚ) (cost : ℚ) : Prop where
  shape : CurveShape c.surface g
  concave : ConcaveReach g
  positive : 0 < cost
  converts : ∀ x, c.impressionsForSpend x = .ok (x / cost)

/-- The impressions that a spend buys with every publisher. -/
def bought (costs spend : List ℚ) : List ℚ := List.zipWith (fun c x => x / c) costs spend

theorem bought_nonneg : ∀ (costs : List ℚ), (∀ c ∈ costs, 0 < c) →
    ∀ spend : List ℚ, (∀ x ∈ spend, 0 ≤ x) → ∀ x ∈ bought costs spend, 0 ≤ x
  | [], _, _, _ => by simp [bought]
  | _ :: _, _, [], _ => by simp [bought]
  | c :: cs, hc, y :: ys, hy => by
    intro x hx
    rw [bought, List.zipWith_cons_cons, List.mem_cons] at hx
    rcases hx with rfl | hx
    · exact div_nonneg (hy y (by simp)) (hc c (by simp)).le
    · exact bought_nonneg cs (fun c' h => hc c' (by simp [h])) ys (fun z h => hy z (by simp [h])) x hx

/-- Buying commutes with taking the larger, the smaller or a mixture of two plans. -/
theorem bought_zipWith (f : ℚ → ℚ → ℚ) (hf : ∀ a b c, 0 < c → f a b / c = f (a / c) (b / c)) :
    ∀ (costs : List ℚ), (∀ c ∈ costs, 0 < c) → ∀ v w : List ℚ,
    bought costs (List.zipWith f v w) = List.zipWith f (bought costs v) (bought costs w)
  | [], _, _, _ => by simp [bought]
  | _ :: _, _, [], _ => by simp [bought]
  | _ :: _, _, _ :: _, [] => by simp [bought]
  | c :: cs, hc, a :: v, b :: w => by
    have ih := bought_zipWith f hf cs (fun c' h => hc c' (by simp [h])) v w
    unfold bought at ih ⊢
    simp only [List.zipWith_cons_cons, ih, hf a b c (hc c (by simp))]

theorem bought_getD (costs v : List ℚ) (hl : v.length = costs.length) (i : Nat)
    (hi : i < costs.length) : (bought costs v).getD i 0 = v.getD i 0 / costs.getD i 0 := by
  rw [List.getD_eq_getElem _ _ (by simp [bought]; omega), List.getD_eq_getElem _ _ (by omega),
    List.getD_eq_getElem _ _ hi]
  simp [bought]

theorem good_bySpend (curves : List PlannerCurve) (g : Nat → ℚ → ℚ) (costs : List ℚ)
    (hlen : costs.length = curves.length)
    (hgood : ∀ i (hi : i < curves.length), GoodCurve curves[i] (g i) (costs.getD i 0))
    (s : PairwiseSurface) (spend : List ℚ) (hl : spend.length = curves.length) (F : Int) :
    s.bySpend curves spend F = s.byImpressions (bought costs spend) := by
  unfold PairwiseSurface.bySpend
  apply C84_by_spend
  · simp [hl, hlen, bought]
  · intro i h1 h2 h3
    rw [(hgood i h1).converts, List.getD_eq_getElem _ _ (by omega)]
    simp [bought]

/-- **C84 (overlap and diminishing returns).** Planning by spend with well-shaped concave curves and the
pairwise union: more spend never predicts less reach; of two plans, the larger and the smaller together are predicted to reach at most as many
as the two; and if the two differ in one publisher only, spending an average of the two reaches at least
the average. -/
theorem C84_returns (curves : List PlannerCurve) (g : Nat → ℚ → ℚ) (costs : List ℚ)
    (hcosts : costs.length = curves.length)
    (hgood : ∀ i (hi : i < curves.length), GoodCurve curves[i] (g i) (costs.getD i 0))
    (s : PairwiseSurface) (hs : WellFormed s) (hc : s.curves = curves.map (·.surface))
    (ha : PlausibleOverlap s.p (surfaceMatrix s))
    (v w : List ℚ) (hv : v.length = s.p) (hw : w.length = s.p) (hv0 : ∀ x ∈ v, 0 ≤ x)
    (hw0 : ∀ x ∈ w, 0 ≤ x) (F : Int) :
    ∃ p q x y, s.bySpend curves v F = .ok p ∧ s.bySpend curves w F = .ok q ∧
      p.reach 1 = .ok x ∧ q.reach 1 = .ok y ∧
      ((∀ i < s.p, v.getD i 0 ≤ w.getD i 0) → x ≤ y) ∧
      (∃ hi lo h l, s.bySpend curves (List.zipWith max v w) F = .ok hi ∧
        s.bySpend curves (List.zipWith min v w) F = .ok lo ∧
        hi.reach 1 = .ok h ∧ lo.reach 1 = .ok l ∧ h + l ≤ x + y) ∧
      (∀ k < s.p, (∀ i < s.p, i ≠ k → v.getD i 0 = w.getD i 0) → ∀ t, 0 ≤ t → t ≤ 1 →
        ∃ m z, s.bySpend curves (mixPlans t v w) F = .ok m ∧
          m.reach 1 = .ok z ∧ t * x + (1 - t) * y ≤ z) := by
  have hlen : curves.length = s.p := by rw [← hs.curves, hc, List.length_map]
  have hpos : ∀ c ∈ costs, 0 < c := by
    intro c hc
    obtain ⟨i, hi, rfl⟩ := List.mem_iff_getElem.1 hc
    have := (hgood i (by omega)).positive
    rwa [List.getD_eq_getElem _ _ hi] at this
  have hg : CurveShapes s.curves g := by
    intro i hi
    have hi' : i < curves.length := by rw [hlen, ← hs.curves]; exact hi
    have := (hgood i hi').shape
    simp only [hc, List.getElem_map]
    exact this
  have bv := bought_nonneg costs hpos v hv0
  have bw := bought_nonneg costs hpos w hw0
  have lv : (bought costs v).length = s.p := by simp [bought, hv, hlen, hcosts]
  have lw : (bought costs w).length = s.p := by simp [bought, hw, hlen, hcosts]
  obtain ⟨p, q, hi, lo, x, y, h, l, p1, q1, i1, l1, p2, q2, i2, l2, hle⟩ :=
    C30_submodular s hs ha _ hg (bought costs v) (bought costs w) lv lw bv bw
  have by' := good_bySpend curves g costs hcosts hgood s
  refine ⟨p, q, x, y, ?_, ?_, p2, q2, fun hvw => pairwise_shapes_mono s hs ha g hg _ _ lv lw bv bw
    (fun i hi => ?_) p q x y p1 q1 p2 q2, ⟨hi, lo, h, l, ?_, ?_, i2, l2, hle⟩, ?_⟩
  · rw [by' v (by omega)]; exact p1
  · rw [by' w (by omega)]; exact q1
  · rw [bought_getD costs v (by omega) i (by omega), bought_getD costs w (by omega) i (by omega)]
    exact div_le_div_of_nonneg_right (hvw i hi) (hgood i (by omega)).positive.le
  · rw [by' _ (by simp [hv, hw, hlen]),
      bought_zipWith max (fun a b c hp => (max_div_div_right hp.le a b).symm) costs hpos]
    exact i1
  · rw [by' _ (by simp [hv, hw, hlen]),
      bought_zipWith min (fun a b c hp => (min_div_div_right hp.le a b).symm) costs hpos]
    exact l1
  · intro k hk hd t t0 t1
    obtain ⟨p', q', m, x', y', z, p1', q1', m1, p2', q2', m2, hle'⟩ :=
      C30_diminishing s hs ha _ hg (bought costs v) (bought costs w) lv lw bv bw k
        (hgood k (by omega)).concave (fun i hi hne => by
          rw [bought_getD costs v (by omega) i (by omega),
            bought_getD costs w (by omega) i (by omega), hd i hi hne]) t t0 t1
    rw [p1] at p1'
    rw [q1] at q1'
    cases p1'
    cases q1'
    rw [p2] at p2'
    rw [q2] at q2'
    cases p2'
    cases q2'
    refine ⟨m, z, ?_, m2, hle'⟩
    rw [by' _ (by simp [mixPlans, hv, hw, hlen]), mixPlans,
      bought_zipWith _ (fun a b c hp => by rw [add_div, mul_div_assoc, mul_div_assoc]) costs hpos]
    exact m1

/-! ### The curves of a trial -/

theorem cost_converts {cpi : Option ℚ} {c : ℚ} (h : cpi = some c) (h0 : 0 < c) (x : ℚ) :
    (match (match cpi with | none => none | some c => if c = 0 then none else some c) with
      | none => .error .valueError
      | some c => .ok (x / c) : Except PyErr ℚ) = .ok (x / c) := by
  rw [h]
  simp [h0.ne']

/-- A curve of a trial that has been fitted to somebody reached, at a known cost. -/
inductive FittedCurve (L : Solvers) : TrialCurve OptimisedCurve → Prop where
  | goerg (m : GoergModel) (data points : List ReachPoint) (c : ℚ) :
      GoergModel.new points = .ok m → 0 < m.reach → m.cpi = some c → 0 < c →
      FittedCurve L (.goerg m data)
  | gamma (m : GammaPoisson.Model) (N Imax alpha beta c : ℚ) : GpFit m N Imax alpha beta → 0 ≤ N →
      IsTail ((L.gamma m.extrapolationValue).gp alpha beta) → m.cpi = some c → 0 < c →
      FittedCurve L (.fitted (.gamma m))
  | inflated (m : KInflated.Model) (f : KInflated.Fitted) (c : ℚ) : m.fitted = some f → GoodFit f →
      m.cpi = some c → 0 < c → FittedCurve L (.fitted (.inflated m))

theorem reach_one_getD {pt : ReachPoint} {x : ℚ} (h : pt.kplusReaches[0]? = some x) :
    pt.reach 1 = .ok x := by
  cases e : pt.kplusReaches with
  | nil => rw [e] at h; simp at h
  | cons a l =>
    rw [e] at h
    simp only [List.getElem?_cons_zero, Option.some.injEq] at h
    unfold ReachPoint.reach
    rw [e, ← h]
    simp [pyIndex]

theorem gamma_good (L : Solvers) (m : GammaPoisson.Model) (N Imax alpha beta c : ℚ)
    (hm : GpFit m N Imax alpha beta) (hN : 0 ≤ N)
    (hg : IsTail ((L.gamma m.extrapolationValue).gp alpha beta)) (hc : m.cpi = some c) (h0 : 0 < c) :
    GoodCurve (L.plannerCurve (.fitted (.gamma m)))
      (fun x => N * seenAtLeast GammaPoisson.maxComputationalFrequency
        ((L.gamma m.extrapolationValue).gp alpha beta) 1 (gpShare x Imax)) c := by
  have hmax : Solvers.maxReach (.gamma m) = N := by simp [Solvers.maxReach, hm.maxReach]
  refine ⟨⟨?_, ?_, ?_, ?_⟩, ?_, h0, fun x => cost_converts hc h0 x⟩
  · intro x hx
    obtain ⟨p, h1, -, h2, h3⟩ := C54_formula GammaPoisson.maxComputationalFrequency
      (L.gamma m.extrapolationValue).gp m N Imax alpha beta hm x hx 1
    have h4 := h3 0 (by decide)
    show (do
      let r ← orNan (m.byImpressions GammaPoisson.maxComputationalFrequency
        (L.gamma m.extrapolationValue).gp [x])
      r.reach 1) = _
    have h1' : m.byImpressions GammaPoisson.maxComputationalFrequency
        (L.gamma m.extrapolationValue).gp [x] = .ok (some p) := h1
    rw [h1']
    exact reach_one_getD h4
  · intro x y hx hxy
    refine mul_le_mul_of_nonneg_left ?_ hN
    have hle : gpShare x Imax ≤ gpShare y Imax := by
      unfold gpShare
      exact div_le_div_of_nonneg_right (min_le_min_right _ hxy) (by linarith [hm.one_le])
    exact Finset.sum_le_sum (fun n hn => mul_le_mul_of_nonneg_left
      (binTail_mono n 1 (gpShare_bounds hx hm.one_le).1 hle
        (gpShare_bounds (hx.trans hxy) hm.one_le).2.le) (hg.1 n (Finset.mem_Icc.1 hn).1))
  · intro x hx
    refine mul_nonneg hN (Finset.sum_nonneg (fun n hn => mul_nonneg (hg.1 n (Finset.mem_Icc.1 hn).1)
      (binTail_nonneg n 1 (gpShare_bounds hx hm.one_le).1 (gpShare_bounds hx hm.one_le).2.le)))
  · intro x hx
    show _ ≤ Solvers.maxReach (.gamma m)
    rw [hmax]
    refine (mul_le_mul_of_nonneg_left ?_ hN).trans (mul_one N).le
    refine le_trans (Finset.sum_le_sum (fun n hn => ?_)) (hg.2 GammaPoisson.maxComputationalFrequency)
    have := mul_le_mul_of_nonneg_left (binTail_le_one n 1 (gpShare_bounds hx hm.one_le).1
      (gpShare_bounds hx hm.one_le).2.le) (hg.1 n (Finset.mem_Icc.1 hn).1)
    linarith
  · intro x y t hx hy t0 t1
    have s0 : 0 ≤ 1 - t := by linarith
    obtain ⟨p, p', q, h1, h2, h3, h4⟩ := C54_diminishing GammaPoisson.maxComputationalFrequency
      (L.gamma m.extrapolationValue).gp m N Imax alpha beta hm hN hg.1 x y t hx hy t0 t1 1
    have key : ∀ (z : ℚ) (r : ReachPoint), 0 ≤ z →
        m.byImpressions GammaPoisson.maxComputationalFrequency
          (L.gamma m.extrapolationValue).gp [z] (1 : ℕ) = .ok (some r) →
        r.kplusReaches.getD 0 0 = N * seenAtLeast GammaPoisson.maxComputationalFrequency
          ((L.gamma m.extrapolationValue).gp alpha beta) 1 (gpShare z Imax) := by
      intro z r hz hr
      obtain ⟨p, e1, -, e2, e3⟩ := C54_formula GammaPoisson.maxComputationalFrequency
        (L.gamma m.extrapolationValue).gp m N Imax alpha beta hm z hz 1
      rw [e1] at hr
      cases hr
      rw [List.getD_eq_getElem?_getD, e3 0 (by decide)]
      rfl
    rw [key x p hx h1, key y p' hy h2, key _ q (by positivity) h3] at h4
    exact h4

theorem inflated_good (L : Solvers) (m : KInflated.Model) (f : KInflated.Fitted) (c : ℚ)
    (hf : m.fitted = some f) (hgood : GoodFit f) (hc : m.cpi = some c) (h0 : 0 < c) :
    GoodCurve (L.plannerCurve (.fitted (.inflated m)))
      (fun x => f.maxReach * shownAtLeast f.dist.pmf 1 (share f x)) c := by
  have hmax : Solvers.maxReach (.inflated m) = f.maxReach := by simp [Solvers.maxReach, hf]
  refine ⟨⟨?_, ?_, ?_, ?_⟩, ?_, h0, fun x => cost_converts hc h0 x⟩
  · intro x hx
    have hp := C40_formula f hgood x hx 1 le_rfl
    have hfit : m.fit L.inflated KInflated.maxComputationalFrequency (some (x + 1)) = .ok m := by
      unfold KInflated.Model.fit; rw [hf]
    have hb : ∃ p, m.byImpressions L.inflated KInflated.maxComputationalFrequency [x] =
        .ok (m, some p) ∧
        p.kplusReaches = [f.maxReach * shownAtLeast f.dist.pmf 1 (share f x)] := by
      unfold KInflated.Model.byImpressions
      simp only [hfit, hf, bind, Except.bind]
      have hp' : KInflated.predict f x 1 =
          .ok (some [f.maxReach * shownAtLeast f.dist.pmf 1 (share f x)]) := by
        have := hp
        simpa using this
      rw [hp']
      simp only [KInflated.Model.toPoint, KInflated.Model.truthyCpi, hc, h0.ne', if_false]
      exact ⟨_, rfl, rfl⟩
    obtain ⟨p, hb1, hb2⟩ := hb
    show L.reachAt (.inflated m) x = _
    unfold Solvers.reachAt
    simp only [hb1, orNan, Except.map, bind, Except.bind]
    exact reach_one_getD (by rw [hb2]; rfl)
  · intro x y hx hxy
    have hI := lt_of_lt_of_le hgood.1 (inventory_ge hgood)
    refine mul_le_mul_of_nonneg_left (shownAtLeast_mono hgood.2.1.1 (share_bounds hgood hx).1 ?_
      (share_bounds hgood (hx.trans hxy)).2 1) hgood.1.le
    exact min_le_min_right _ (div_le_div_of_nonneg_right hxy hI.le)
  · intro x hx
    obtain ⟨l, h1, -, -, h4⟩ := C40_bounds f hgood x hx 1 le_rfl
    rw [C40_formula f hgood x hx 1 le_rfl] at h1
    cases h1
    exact (h4 _ (by simp)).1
  · intro x hx
    show _ ≤ Solvers.maxReach (.inflated m)
    rw [hmax]
    obtain ⟨l, h1, -, -, h4⟩ := C40_bounds f hgood x hx 1 le_rfl
    rw [C40_formula f hgood x hx 1 le_rfl] at h1
    cases h1
    exact (h4 _ (by simp)).2
  · intro x y t hx hy t0 t1
    have s0 : 0 ≤ 1 - t := by linarith
    obtain ⟨l, l', q, h1, h2, h3, h4⟩ := C40_diminishing f hgood x y t hx hy t0 t1 1 le_rfl
    rw [C40_formula f hgood x hx 1 le_rfl] at h1
    rw [C40_formula f hgood y hy 1 le_rfl] at h2
    rw [C40_formula f hgood _ (by positivity) 1 le_rfl] at h3
    cases h1
    cases h2
    cases h3
    simpa using h4

/-- Every such curve is well-shaped and concave and has a cost. -/
theorem fitted_good (L : Solvers) (c : TrialCurve OptimisedCurve) (h : FittedCurve L c) :
    ∃ g cost, GoodCurve (L.plannerCurve c) g cost := by
  cases h with
  | goerg m data points c h1 h2 h3 h4 =>
    obtain ⟨k1, k2⟩ := goerg_shape m ⟨points, h1⟩ h2
    exact ⟨_, c, k1, k2, h4, fun x => cost_converts h3 h4 x⟩
  | gamma m N Imax alpha beta c h1 h2 h3 h4 h5 => exact ⟨_, c, gamma_good L m N Imax alpha beta c h1 h2 h3 h4 h5⟩
  | inflated m f c h1 h2 h3 h4 => exact ⟨_, c, inflated_good L m f c h1 h2 h3 h4⟩

/-- **C84 (the curves of a trial).** A pairwise surface over any mixture of fitted Goerg, gamma-Poisson
and k-inflated curves answers every query with non-negative spends; its predictions are non-decreasing
and submodular in the spends and concave in the spend with every single publisher. -/
theorem C84_trial_returns (L : Solvers) (curves : List (TrialCurve OptimisedCurve))
    (hcurves : ∀ c ∈ curves, FittedCurve L c) (s : PairwiseSurface) (hs : WellFormed s)
    (hc : s.curves = curves.map (fun c => (L.plannerCurve c).surface))
    (ha : PlausibleOverlap s.p (surfaceMatrix s))
    (v w : List ℚ) (hv : v.length = s.p) (hw : w.length = s.p) (hv0 : ∀ x ∈ v, 0 ≤ x)
    (hw0 : ∀ x ∈ w, 0 ≤ x) (F : Int) :
    ∃ p q x y, s.bySpend (curves.map L.plannerCurve) v F = .ok p ∧
      s.bySpend (curves.map L.plannerCurve) w F = .ok q ∧ p.reach 1 = .ok x ∧ q.reach 1 = .ok y ∧
      ((∀ i < s.p, v.getD i 0 ≤ w.getD i 0) → x ≤ y) ∧
      (∃ hi lo h l, s.bySpend (curves.map L.plannerCurve) (List.zipWith max v w) F = .ok hi ∧
        s.bySpend (curves.map L.plannerCurve) (List.zipWith min v w) F = .ok lo ∧
        hi.reach 1 = .ok h ∧ lo.reach 1 = .ok l ∧ h + l ≤ x + y) ∧
      (∀ k < s.p, (∀ i < s.p, i ≠ k → v.getD i 0 = w.getD i 0) → ∀ t, 0 ≤ t → t ≤ 1 →
        ∃ m z, s.bySpend (curves.map L.plannerCurve) (mixPlans t v w) F = .ok m ∧
          m.reach 1 = .ok z ∧ t * x + (1 - t) * y ≤ z) := by
  have hex : ∀ i : Nat, ∃ gc : (ℚ → ℚ) × ℚ, ∀ hi : i < curves.length,
      GoodCurve (L.plannerCurve curves[i]) gc.1 gc.2 := by
    intro i
    by_cases hi : i < curves.length
    · obtain ⟨g, cost, h⟩ := fitted_good L curves[i] (hcurves _ (List.getElem_mem hi))
      exact ⟨(g, cost), fun _ => h⟩
    · exact ⟨(fun _ => 0, 0), fun h => absurd h hi⟩
  choose gc hgc using hex
  refine C84_returns (curves.map L.plannerCurve) (fun i => (gc i).1)
    ((List.range curves.length).map (fun i => (gc i).2)) (by simp) ?_ s hs
    (by rw [hc, List.map_map]; rfl) ha v w hv hw hv0 hw0 F
  intro i hi
  have hi' : i < curves.length := by simpa using hi
  have := hgc i hi'
  rw [List.getD_eq_getElem _ _ (by simpa using hi')]
  simpa using this

/-- A Goerg curve and a k-inflated curve with known costs. -/
def exMixedCurves : List (TrialCurve OptimisedCurve) :=
  [.goerg exGoerg [], .fitted (.inflated
    { point := exGoergPoint, kmax := 0, extrapolationValue := 1, cpi := some 2, fitted := some exFit })]

def exMixedSurface (L : Solvers) : PairwiseSurface :=
  ⟨exMixedCurves.map (fun c => (L.plannerCurve c).surface), 2, [], [0, 1 / 2, 1 / 2, 0]⟩

example (L : Solvers) : (∀ c ∈ exMixedCurves, FittedCurve L c) ∧ WellFormed (exMixedSurface L) ∧
    PlausibleOverlap (exMixedSurface L).p (surfaceMatrix (exMixedSurface L)) := by
  refine ⟨?_, ⟨rfl, rfl, ?_⟩, plausible_two (1 / 2) (by norm_num) (by norm_num)⟩
  · intro c hc
    simp only [exMixedCurves, List.mem_cons, List.not_mem_nil, or_false] at hc
    rcases hc with rfl | rfl
    · exact .goerg exGoerg [] [exGoergPoint] (1 / 20) (by decide +kernel) (by decide +kernel) rfl
        (by norm_num)
    · exact .inflated _ exFit 2 rfl (by unfold GoodFit IsDistribution; decide +kernel) rfl (by norm_num)
  · intro c hc
    simp only [exMixedSurface, exMixedCurves, List.map_cons, List.map_nil, List.mem_cons,
      List.not_mem_nil, or_false] at hc
    rcases hc with rfl | rfl
    · show (0 : ℚ) < exGoerg.maxReach
      decide +kernel
    · show (0 : ℚ) < exFit.maxReach
      decide +kernel

/-- Two publishers fitted to observed points; spending with both brings less than apart. -/
example : ∃ m₁ m₂ : GoergModel,
    GoergModel.new [⟨[20], [10], [], some [40], none⟩] = .ok m₁ ∧
    GoergModel.new [⟨[30], [20], [], some [15], none⟩] = .ok m₂ ∧
    let s : PairwiseSurface := ⟨[m₁.plannerCurve.surface, m₂.plannerCurve.surface], 2, [],
      [0, 1 / 2, 1 / 2, 0]⟩
    let plan := fun v => ((s.bySpend [m₁.plannerCurve, m₂.plannerCurve] v 1).toOption.map
      (·.kplusReaches))
    plan [40, 0] = some [10] ∧ plan [0, 15] = some [20] ∧ plan [40, 15] = some [85 / 3] ∧
    plan (mixPlans (1 / 2) [40, 0] [0, 0]) = some [20 / 3] := by
  refine ⟨⟨20, 10, 20, 20, some 2⟩, ⟨30, 20, 60, 60, some (1 / 2)⟩, by decide +kernel,
    by decide +kernel, by decide +kernel, by decide +kernel, by decide +kernel, by decide +kernel⟩

end Verif
