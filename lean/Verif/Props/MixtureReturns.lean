import Verif.Props.Returns

/-!
# C84 for generalized mixture surfaces
-/

namespace Verif

open Verif.Spec

/-- More impressions never predict less reach. -/
theorem mixture_shapes_mono (s : MixtureSurface) (hs : MixtureWellFormed s)
    (ha : MixtureWeights s.p s.c (mixtureMatrix s)) (g : Nat → ℚ → ℚ) (hg : CurveShapes s.curves g)
    (hN : ∀ c ∈ s.curves, c.maxReach ≤ s.N)
    (v w : List ℚ) (hv : v.length = s.p) (hw : w.length = s.p) (hv0 : ∀ x ∈ v, 0 ≤ x)
    (hw0 : ∀ x ∈ w, 0 ≤ x) (hvw : ∀ i < s.p, v.getD i 0 ≤ w.getD i 0) (p q : ReachPoint) (x y : ℚ)
    (hp : s.byImpressions v = .ok p) (hq : s.byImpressions w = .ok q) (hx : p.reach 1 = .ok x)
    (hy : q.reach 1 = .ok y) : x ≤ y := by
  obtain ⟨p', p1, p2⟩ := mixture_predict s hs g hg v hv hv0
  obtain ⟨q', q1, q2⟩ := mixture_predict s hs g hg w hw hw0
  rw [p1] at hp
  rw [q1] at hq
  cases hp
  cases hq
  rw [p2] at hx
  rw [q2] at hy
  cases hx
  cases hy
  have hgi : ∀ i (hi : i < s.p), CurveShape (s.curves[i]'(by rw [hs.curves]; exact hi)) (g i) :=
    fun i hi => hg i (by rw [hs.curves]; exact hi)
  exact mixtureUnion_mono s.N hs.positive s.p s.c _ ha _ _
    (fun i hi => (hgi i hi).nonneg _ (getD_nonneg_of hv0 i))
    (fun i hi => (hgi i hi).mono _ _ (getD_nonneg_of hv0 i) (hvw i hi))
    (fun i hi => ((hgi i hi).bounded _ (getD_nonneg_of hw0 i)).trans (hN _ (List.getElem_mem _)))

theorem good_mixture_bySpend (curves : List PlannerCurve) (g : Nat → ℚ → ℚ) (costs : List ℚ)
    (hlen : costs.length = curves.length)
    (hgood : ∀ i (hi : i < curves.length), GoodCurve curves[i] (g i) (costs.getD i 0))
    (s : MixtureSurface) (spend : List ℚ) (hl : spend.length = curves.length) (F : Int) :
    s.bySpend curves spend F = s.byImpressions (bought costs spend) := by
  unfold MixtureSurface.bySpend
  apply C84_by_spend
  · simp [hl, hlen, bought]
  · intro i h1 h2 h3
    rw [(hgood i h1).converts, List.getD_eq_getElem _ _ (by omega)]
    simp [bought]

/-- **C84 (mixture surfaces).** The same for the generalized mixture surface, if no curve exceeds the
universe. -/
theorem C84_mixture_returns (curves : List PlannerCurve) (g : Nat → ℚ → ℚ) (costs : List ℚ)
    (hcosts : costs.length = curves.length)
    (hgood : ∀ i (hi : i < curves.length), GoodCurve curves[i] (g i) (costs.getD i 0))
    (s : MixtureSurface) (hs : MixtureWellFormed s) (hc : s.curves = curves.map (·.surface))
    (ha : MixtureWeights s.p s.c (mixtureMatrix s))
    (hN : ∀ c ∈ s.curves, c.maxReach ≤ s.N)
    (v w : List ℚ) (hv : v.length = s.p) (hw : w.length = s.p) (hv0 : ∀ x ∈ v, 0 ≤ x)
    (hw0 : ∀ x ∈ w, 0 ≤ x) (F : Int) :
    ∃ p q x y, s.bySpend curves v F = .ok p ∧ s.bySpend curves w F = .ok q ∧
      p.reach 1 = .ok x ∧ q.reach 1 = .ok y ∧
      ((∀ i < s.p, v.getD i 0 ≤ w.getD i 0) → x ≤ y) ∧
      (∃ hi lo h l, s.bySpend curves (List.zipWith max v w) F = .ok hi ∧
        s.bySpend curves (List.zipWith min v w) F = .ok lo ∧
        hi.reach 1 = .ok h ∧ lo.reach 1 = .ok l ∧ h + l ≤ x + y) ∧
      (∀ k < s.p, (∀ i < s.p, i ≠ k → v.getD i 0 = w.getD i 0) → ∀ t, 0 ≤ t → t ≤ 1 →
        ∃ m z, s.bySpend curves (mixPlans t v w) F = .ok m ∧
          m.reach 1 = .ok z ∧ t * x + (1 - t) * y ≤ z) := by
  have hlen : curves.length = s.p := by rw [← hs.curves, hc, List.length_map]
  have hpos : ∀ c ∈ costs, 0 < c := by
    intro c hc
    obtain ⟨i, hi, rfl⟩ := List.mem_iff_getElem.1 hc
    have := (hgood i (by omega)).positive
    rwa [List.getD_eq_getElem _ _ hi] at this
  have hg : CurveShapes s.curves g := by
    intro i hi
    have hi' : i < curves.length := by rw [hlen, ← hs.curves]; exact hi
    have := (hgood i hi').shape
    simp only [hc, List.getElem_map]
    exact this
  have bv := bought_nonneg costs hpos v hv0
  have bw := bought_nonneg costs hpos w hw0
  have lv : (bought costs v).length = s.p := by simp [bought, hv, hlen, hcosts]
  have lw : (bought costs w).length = s.p := by simp [bought, hw, hlen, hcosts]
  obtain ⟨p, q, hi, lo, x, y, h, l, p1, q1, i1, l1, p2, q2, i2, l2, hle⟩ :=
    C37_submodular s hs ha _ hg hN (bought costs v) (bought costs w) lv lw bv bw
  have by' := good_mixture_bySpend curves g costs hcosts hgood s
  refine ⟨p, q, x, y, ?_, ?_, p2, q2, fun hvw => mixture_shapes_mono s hs ha g hg hN _ _ lv lw bv bw
    (fun i hi => ?_) p q x y p1 q1 p2 q2, ⟨hi, lo, h, l, ?_, ?_, i2, l2, hle⟩, ?_⟩
  · rw [by' v (by omega)]; exact p1
  · rw [by' w (by omega)]; exact q1
  · rw [bought_getD costs v (by omega) i (by omega), bought_getD costs w (by omega) i (by omega)]
    exact div_le_div_of_nonneg_right (hvw i hi) (hgood i (by omega)).positive.le
  · rw [by' _ (by simp [hv, hw, hlen]),
      bought_zipWith max (fun a b c hp => (max_div_div_right hp.le a b).symm) costs hpos]
    exact i1
  · rw [by' _ (by simp [hv, hw, hlen]),
      bought_zipWith min (fun a b c hp => (min_div_div_right hp.le a b).symm) costs hpos]
    exact l1
  · intro k hk hd t t0 t1
    obtain ⟨p', q', m, x', y', z, p1', q1', m1, p2', q2', m2, hle'⟩ :=
      C37_diminishing s hs ha _ hg hN (bought costs v) (bought costs w) lv lw bv bw k
        (hgood k (by omega)).concave (fun i hi hne => by
          rw [bought_getD costs v (by omega) i (by omega),
            bought_getD costs w (by omega) i (by omega), hd i hi hne]) t t0 t1
    rw [p1] at p1'
    rw [q1] at q1'
    cases p1'
    cases q1'
    rw [p2] at p2'
    rw [q2] at q2'
    cases p2'
    cases q2'
    refine ⟨m, z, ?_, m2, hle'⟩
    rw [by' _ (by simp [mixPlans, hv, hw, hlen]), mixPlans,
      bought_zipWith _ (fun a b c hp => by rw [add_div, mul_div_assoc, mul_div_assoc]) costs hpos]
    exact m1

/-- **C84 (mixture surfaces over the curves of a trial).** A generalized mixture surface over any mixture
of fitted Goerg, gamma-Poisson and k-inflated curves, none of which exceeds the universe: every query with
non-negative spends is answered, the predictions are non-decreasing and submodular in the spends and
concave in the spend with every single publisher. -/
theorem C84_mixture_trial_returns (L : Solvers) (curves : List (TrialCurve OptimisedCurve))
    (hcurves : ∀ c ∈ curves, FittedCurve L c) (s : MixtureSurface) (hs : MixtureWellFormed s)
    (hc : s.curves = curves.map (fun c => (L.plannerCurve c).surface))
    (ha : MixtureWeights s.p s.c (mixtureMatrix s))
    (hN : ∀ c ∈ s.curves, c.maxReach ≤ s.N)
    (v w : List ℚ) (hv : v.length = s.p) (hw : w.length = s.p) (hv0 : ∀ x ∈ v, 0 ≤ x)
    (hw0 : ∀ x ∈ w, 0 ≤ x) (F : Int) :
    ∃ p q x y, s.bySpend (curves.map L.plannerCurve) v F = .ok p ∧
      s.bySpend (curves.map L.plannerCurve) w F = .ok q ∧ p.reach 1 = .ok x ∧ q.reach 1 = .ok y ∧
      ((∀ i < s.p, v.getD i 0 ≤ w.getD i 0) → x ≤ y) ∧
      (∃ hi lo h l, s.bySpend (curves.map L.plannerCurve) (List.zipWith max v w) F = .ok hi ∧
        s.bySpend (curves.map L.plannerCurve) (List.zipWith min v w) F = .ok lo ∧
        hi.reach 1 = .ok h ∧ lo.reach 1 = .ok l ∧ h + l ≤ x + y) ∧
      (∀ k < s.p, (∀ i < s.p, i ≠ k → v.getD i 0 = w.getD i 0) → ∀ t, 0 ≤ t → t ≤ 1 →
        ∃ m z, s.bySpend (curves.map L.plannerCurve) (mixPlans t v w) F = .ok m ∧
          m.reach 1 = .ok z ∧ t * x + (1 - t) * y ≤ z) := by
  have hex : ∀ i : Nat, ∃ gc : (ℚ → ℚ) × ℚ, ∀ hi : i < curves.length,
      GoodCurve (L.plannerCurve curves[i]) gc.1 gc.2 := by
    intro i
    by_cases hi : i < curves.length
    · obtain ⟨g, cost, h⟩ := fitted_good L curves[i] (hcurves _ (List.getElem_mem hi))
      exact ⟨(g, cost), fun _ => h⟩
    · exact ⟨(fun _ => 0, 0), fun h => absurd h hi⟩
  choose gc hgc using hex
  refine C84_mixture_returns (curves.map L.plannerCurve) (fun i => (gc i).1)
    ((List.range curves.length).map (fun i => (gc i).2)) (by simp) ?_ s hs
    (by rw [hc, List.map_map]; rfl) ha hN v w hv hw hv0 hw0 F
  intro i hi
  have hi' : i < curves.length := by simpa using hi
  have := hgc i hi'
  rw [List.getD_eq_getElem _ _ (by simpa using hi')]
  simpa using this

/-- The curves of `exMixedCurves` in two clusters. -/
def exMixedMixture (L : Solvers) : MixtureSurface :=
  { curves := exMixedCurves.map (fun c => (L.plannerCurve c).surface), N := 1000, p := 2, c := 2,
    data := [], a := [1 / 2, 1 / 2, 1 / 4, 3 / 4] }

theorem exMixedCurves_fitted (L : Solvers) : ∀ c ∈ exMixedCurves, FittedCurve L c := by
  intro c hc
  simp only [exMixedCurves, List.mem_cons, List.not_mem_nil, or_false] at hc
  rcases hc with rfl | rfl
  · exact .goerg exGoerg [] [exGoergPoint] (1 / 20) (by decide +kernel) (by decide +kernel) rfl
      (by norm_num)
  · exact .inflated _ exFit 2 rfl (by unfold GoodFit IsDistribution; decide +kernel) rfl (by norm_num)

example (L : Solvers) : (∀ c ∈ exMixedCurves, FittedCurve L c) ∧ MixtureWellFormed (exMixedMixture L) ∧
    MixtureWeights (exMixedMixture L).p (exMixedMixture L).c (mixtureMatrix (exMixedMixture L)) ∧
    ∀ c ∈ (exMixedMixture L).curves, c.maxReach ≤ (exMixedMixture L).N := by
  refine ⟨exMixedCurves_fitted L, ⟨rfl, rfl, by norm_num [exMixedMixture]⟩, ⟨?_, ?_⟩, ?_⟩
  · show ∀ i < 2, ∀ j < 2, (0 : ℚ) ≤ [1 / 2, 1 / 2, 1 / 4, 3 / 4].getD (j + i * 2) 0
    decide +kernel
  · show ∀ i < 2, ∑ j ∈ Finset.range 2, [1 / 2, 1 / 2, 1 / 4, 3 / 4].getD (j + i * 2) (0 : ℚ) = 1
    decide +kernel
  · intro c hc
    simp only [exMixedMixture, exMixedCurves, List.map_cons, List.map_nil, List.mem_cons,
      List.not_mem_nil, or_false] at hc
    rcases hc with rfl | rfl
    · show exGoerg.maxReach ≤ (1000 : ℚ)
      decide +kernel
    · show exFit.maxReach ≤ (1000 : ℚ)
      decide +kernel

end Verif
