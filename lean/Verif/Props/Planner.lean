import Verif.Props.Pairwise
import Verif.Props.Strategy
import Verif.Props.Noiseless
import Verif.Props.ReachCurve
import Verif.Model.Planner
import Mathlib.Tactic.Linarith
import Mathlib.Tactic.FieldSimp

/-!
# Results about surfaces queried by spend and about the planner (C84 to C86)
-/

namespace Verif

open Verif.Spec

/-! ## C84: surfaces queried by spend -/

/-- **C84 (a).** If every curve converts the spend of its publisher, `by_spend` is `by_impressions`
at these impressions; `max_frequency` is handed on.  This holds for any number of spends: curves
without a spend and spends without a curve are ignored. -/
theorem C84_by_spend (curves : List PlannerCurve)
    (byImpressions : List ℚ → Int → Except PyErr ReachPoint) (spend imps : List ℚ) (F : Int)
    (hlen : imps.length = min curves.length spend.length)
    (h : ∀ i (h1 : i < curves.length) (h2 : i < spend.length) (h3 : i < imps.length),
      curves[i].impressionsForSpend spend[i] = .ok imps[i]) :
    surfaceBySpend curves byImpressions spend F = byImpressions imps F := by
  have : (curves.zip spend).mapM (fun cs => cs.1.impressionsForSpend cs.2) = .ok imps := by
    rw [mapM_ok_iff, List.forall₂_iff_get]
    refine ⟨by simp [hlen], ?_⟩
    intro i h1 h2
    simp only [List.length_zip] at h1
    simpa using h i (by omega) (by omega) (by omega)
  simp only [surfaceBySpend, this, bind, Except.bind]

/-- **C84 (b).** If a curve cannot convert the spend of its publisher (an unknown cost), `by_spend`
fails with the exception of the first such curve. -/
theorem C84_unknown_cost (curves : List PlannerCurve)
    (byImpressions : List ℚ → Int → Except PyErr ReachPoint) (spend : List ℚ) (F : Int) (i : Nat)
    (h1 : i < curves.length) (h2 : i < spend.length) (e : PyErr)
    (he : curves[i].impressionsForSpend spend[i] = .error e)
    (hfirst : ∀ j (hj : j < i), ∃ n, curves[j].impressionsForSpend spend[j] = .ok n) :
    surfaceBySpend curves byImpressions spend F = .error e := by
  have : (curves.zip spend).mapM (fun cs => cs.1.impressionsForSpend cs.2) = .error e := by
    clear byImpressions F
    induction i generalizing curves spend with
    | zero =>
      obtain ⟨c, curves, rfl⟩ := List.exists_cons_of_length_pos h1
      obtain ⟨s, spend, rfl⟩ := List.exists_cons_of_length_pos h2
      simp only [List.getElem_cons_zero] at he
      simp [List.mapM_cons, he, bind, Except.bind]
    | succ i ih =>
      obtain ⟨c, curves, rfl⟩ := List.exists_cons_of_length_pos (Nat.zero_lt_of_lt h1)
      obtain ⟨s, spend, rfl⟩ := List.exists_cons_of_length_pos (Nat.zero_lt_of_lt h2)
      simp only [List.length_cons, Nat.add_lt_add_iff_right, List.getElem_cons_succ] at h1 h2 he
      obtain ⟨n, hn⟩ := hfirst 0 (by omega)
      simp only [List.getElem_cons_zero] at hn
      have := ih curves spend h1 h2 he (fun j hj => hfirst (j + 1) (by omega))
      simp [List.mapM_cons, hn, this, bind, Except.bind]
  simp only [surfaceBySpend, this, bind, Except.bind]

theorem mapM_error_of {α β : Type} (f : α → Except PyErr β) (e : PyErr) : ∀ l : List α,
    (∀ x ∈ l, (∃ y, f x = .ok y) ∨ f x = .error e) → (∃ x ∈ l, f x = .error e) →
    l.mapM f = .error e
  | [], _, h => by obtain ⟨x, hx, _⟩ := h; cases hx
  | a :: l, h1, h2 => by
    rcases h1 a (by simp) with ⟨y, hy⟩ | ha
    · have : l.mapM f = .error e := mapM_error_of f e l (fun x hx => h1 x (by simp [hx])) (by
        obtain ⟨x, hx, hxe⟩ := h2
        rcases List.mem_cons.1 hx with rfl | hx
        · rw [hy] at hxe; cases hxe
        · exact ⟨x, hx, hxe⟩)
      simp [List.mapM_cons, hy, this, bind, Except.bind]
    · simp [List.mapM_cons, ha, bind, Except.bind]

theorem pyIndex_ge {α : Type} (l : List α) (i : Nat) (h : l.length ≤ i) :
    pyIndex l (i : Int) = .error .indexError := by
  unfold pyIndex
  have h0 : ¬ (i : Int) < 0 := by omega
  simp only [h0, if_false, Int.toNat_natCast, List.getElem?_eq_none h]

/-- **C84 (c).** With too few spends a pairwise surface fails with an `IndexError`, unless a curve
fails before. -/
theorem C84_too_few (curves : List PlannerCurve) (s : PairwiseSurface) (hs : WellFormed s)
    (hc : s.curves = curves.map (·.surface)) (spend imps r : List ℚ) (F : Int)
    (hfew : spend.length < s.p) (hlen : imps.length = spend.length)
    (h : ∀ i (h1 : i < curves.length) (h2 : i < spend.length) (h3 : i < imps.length),
      curves[i].impressionsForSpend spend[i] = .ok imps[i])
    (hr : PairwiseSurface.getReachVector s.curves imps = .ok r) :
    s.bySpend curves spend F = .error .indexError := by
  have hcl : curves.length = s.p := by rw [← hs.curves, hc, List.length_map]
  unfold PairwiseSurface.bySpend
  rw [C84_by_spend curves _ spend imps F (by omega) h]
  have hrl : r.length = spend.length := by
    rw [reachVector_length _ _ _ hr, hs.curves]; omega
  unfold PairwiseSurface.byImpressions
  have : (PairwiseSurface.indexPairs s.p).mapM (s.overlapTerm r) = .error .indexError := by
    have hterm : ∀ i < s.p, ∀ j < s.p, (i < r.length ∧ j < r.length →
        ∃ y, s.overlapTerm r (i, j) = .ok y) ∧
        (¬ (i < r.length ∧ j < r.length) → s.overlapTerm r (i, j) = .error .indexError) := by
      intro i hi j hj
      have ha := pyIndex_nat s.a (i * s.p + j) (by rw [hs.params]; exact flat_lt _ _ _ hi hj)
      have hdiv : ∃ d, PairwiseSurface.pairDivisor s.curves i j = .ok d := by
        have hi' : i < s.curves.length := by rw [hs.curves]; exact hi
        have hj' : j < s.curves.length := by rw [hs.curves]; exact hj
        unfold PairwiseSurface.pairDivisor
        rw [pyIndex_nat s.curves i hi', pyIndex_nat s.curves j hj']
        simp only [bind, Except.bind]
        have := hs.positive _ (List.getElem_mem hi')
        rw [if_neg]
        · exact ⟨_, rfl⟩
        · have h2 : s.curves[i].maxReach ≤ max s.curves[i].maxReach s.curves[j].maxReach :=
            le_max_left _ _
          intro h0
          linarith
      obtain ⟨d, hd⟩ := hdiv
      unfold PairwiseSurface.overlapTerm
      constructor
      · rintro ⟨h1, h2⟩
        simp only [ha, pyIndex_nat r i h1, pyIndex_nat r j h2, hd, bind, Except.bind, pure,
          Except.pure]
        exact ⟨_, rfl⟩
      · intro hn
        by_cases h1 : i < r.length
        · have h2 : r.length ≤ j := by
            by_contra h
            exact hn ⟨h1, by omega⟩
          simp only [ha, pyIndex_nat r i h1, pyIndex_ge r j h2, bind, Except.bind]
        · simp only [ha, pyIndex_ge r i (by omega), bind, Except.bind]
    have hmem : ∀ ij : Nat × Nat, ij ∈ PairwiseSurface.indexPairs s.p ↔ ij.1 < s.p ∧ ij.2 < s.p := by
      rintro ⟨i, j⟩
      simp [PairwiseSurface.indexPairs]
    apply mapM_error_of
    · rintro ⟨i, j⟩ hij
      obtain ⟨hi, hj⟩ := (hmem _).1 hij
      by_cases h : i < r.length ∧ j < r.length
      · exact Or.inl ((hterm i hi j hj).1 h)
      · exact Or.inr ((hterm i hi j hj).2 h)
    · refine ⟨(0, r.length), (hmem _).2 ⟨by simp; omega, by simp; omega⟩, ?_⟩
      exact (hterm 0 (by omega) r.length (by omega)).2 (by simp)
  simp only [hr, this, bind, Except.bind]

/-- **C84 (d).** Spends beyond the number of curves are silently ignored. -/
theorem C84_too_many (curves : List PlannerCurve)
    (byImpressions : List ℚ → Int → Except PyErr ReachPoint) (spend extra : List ℚ) (F : Int)
    (h : spend.length = curves.length) :
    surfaceBySpend curves byImpressions (spend ++ extra) F =
      surfaceBySpend curves byImpressions spend F := by
  unfold surfaceBySpend
  have : curves.zip (spend ++ extra) = curves.zip spend := by
    have := List.zip_append (l₁ := curves) (r₁ := []) (l₂ := spend) (r₂ := extra) h.symm
    simpa using this
  rw [this]

/-- **C84 (full statement on refusals, false).** A spend vector of the wrong length is refused, as it
is by the ground truth (C10). -/
def C84_refused_full : Prop :=
  ∀ (curves : List PlannerCurve) (s : PairwiseSurface) (spend : List ℚ) (F : Int),
    WellFormed s → s.curves = curves.map (·.surface) → spend.length ≠ s.p →
    ∃ e, s.bySpend curves spend F = .error e

/-- **C84 (full statement on frequencies, false).** The predicted point has as many frequencies as
were asked for. -/
def C84_frequency_full : Prop :=
  ∀ (curves : List PlannerCurve) (s : PairwiseSurface) (spend : List ℚ) (F : Nat) (pt : ReachPoint),
    WellFormed s → s.curves = curves.map (·.surface) → spend.length = s.p →
    s.bySpend curves spend F = .ok pt → pt.maxFrequency = F

/-- A cost of `c` per impression, and `m x / (x + m)` people for `x` impressions. -/
def exPlannerCurve (m c : ℚ) : PlannerCurve :=
  ⟨⟨m, fun x => .ok (m * x / (x + m))⟩, fun s => .ok (s / c)⟩

/-- Two publishers that share half of what they could. -/
def exPlannerSurface : PairwiseSurface :=
  ⟨[(exPlannerCurve 10 1).surface, (exPlannerCurve 20 2).surface], 2, [], [0, 1 / 2, 1 / 2, 0]⟩

theorem exPlannerSurface_wf : WellFormed exPlannerSurface := by
  refine ⟨rfl, rfl, ?_⟩
  intro c hc
  simp only [exPlannerSurface, List.mem_cons, List.not_mem_nil, or_false] at hc
  rcases hc with rfl | rfl <;> simp [exPlannerCurve]

theorem C84_refused_full_is_false : ¬ C84_refused_full := by
  intro h
  obtain ⟨e, he⟩ := h [exPlannerCurve 10 1, exPlannerCurve 20 2] exPlannerSurface [10, 40, 99] 1
    exPlannerSurface_wf rfl (by decide)
  have : (exPlannerSurface.bySpend [exPlannerCurve 10 1, exPlannerCurve 20 2]
      [10, 40, 99] 1).toOption.isSome = true := by decide +kernel
  rw [he] at this
  cases this

theorem C84_frequency_full_is_false : ¬ C84_frequency_full := by
  intro h
  have h2 : (exPlannerSurface.bySpend [exPlannerCurve 10 1, exPlannerCurve 20 2]
      [10, 40] 3).toOption.map (·.maxFrequency) = some 1 := by decide +kernel
  rcases hp : exPlannerSurface.bySpend [exPlannerCurve 10 1, exPlannerCurve 20 2] [10, 40] 3
    with e | pt
  · rw [hp] at h2; cases h2
  · have := h _ _ [10, 40] 3 pt exPlannerSurface_wf rfl rfl hp
    rw [hp] at h2
    simp only [Except.toOption, Option.map_some, Option.some.injEq] at h2
    omega

/-- **C84 (partial, frequencies).** Whatever is asked for, the point predicted by a pairwise or a
mixture surface has exactly one reach.  Missing: the other frequencies
(`C84_frequency_full_is_false`). -/
theorem C84_frequency_partial (curves : List PlannerCurve) (spend : List ℚ) (F : Int)
    (pt : ReachPoint) :
    (∀ s : PairwiseSurface, s.bySpend curves spend F = .ok pt → pt.maxFrequency = 1) ∧
    (∀ s : MixtureSurface, s.bySpend curves spend F = .ok pt → pt.maxFrequency = 1) := by
  have hnew : ∀ (v : List ℚ) (y : ℚ), ReachPoint.new v [y] = .ok pt → pt.maxFrequency = 1 := by
    intro v y h
    unfold ReachPoint.new at h
    split at h
    · cases h
    · rw [← Except.ok.inj h]; rfl
  constructor
  · intro s h
    unfold PairwiseSurface.bySpend surfaceBySpend PairwiseSurface.byImpressions at h
    simp only [bind, Except.bind] at h
    split at h
    · cases h
    split at h
    · cases h
    split at h
    · cases h
    exact hnew _ _ h
  · intro s h
    unfold MixtureSurface.bySpend surfaceBySpend MixtureSurface.byImpressions at h
    simp only [bind, Except.bind] at h
    split at h
    · cases h
    split at h
    · cases h
    split at h
    · cases h
    exact hnew _ _ h

/-- Two spends for two publishers, one too few, one too many, an unknown cost. -/
example :
    let c1 := exPlannerCurve 10 1
    let c2 := exPlannerCurve 20 2
    let unknown : PlannerCurve := { c2 with impressionsForSpend := fun _ => .error .valueError }
    ((exPlannerSurface.bySpend [c1, c2] [10, 40] 1).toOption.map (fun r => (r.impressions,
      r.kplusReaches))) = some ([10, 20], [55 / 4]) ∧
    exPlannerSurface.bySpend [c1, c2] [10] 1 = .error .indexError ∧
    exPlannerSurface.bySpend [c1, c2] ([10, 40] ++ [99]) 1 =
      exPlannerSurface.bySpend [c1, c2] [10, 40] 1 ∧
    exPlannerSurface.bySpend [c1, unknown] [10, 40] 1 = .error .valueError := by
  refine ⟨by decide +kernel, ?_, C84_too_many _ _ _ _ _ rfl, ?_⟩
  · refine C84_too_few _ _ exPlannerSurface_wf rfl [10] [10] [5] 1 (by decide) rfl ?_ (by decide +kernel)
    intro i h1 h2 h3
    have : i = 0 := by simpa using h2
    subst this
    norm_num [exPlannerCurve]
  · refine C84_unknown_cost _ _ _ _ 1 (by decide) (by decide) _ rfl ?_
    intro j hj
    have : j = 0 := by omega
    subst this
    exact ⟨10, by norm_num [exPlannerCurve]⟩

/-- A fitted Goerg curve as part of a surface. -/
theorem plannerCurve_reachAt (data : List ReachPoint) (m : GoergModel) (hm : GoergModel.new data = .ok m)
    (hr : 0 < m.reach) (x : ℚ) (hx : 0 ≤ x) :
    m.plannerCurve.surface.reachAt x = .ok (m.rho * (x / (x + m.rho))) ∧ 0 < m.rho := by
  obtain ⟨hrho, hb⟩ := goerg_rho_pos data m hm hr
  obtain ⟨pt, p1, _, _, _, p5⟩ := goerg_byImpressions_ok m x 1 (by rw [hb]; positivity)
  have := p5 1 le_rfl le_rfl
  rw [pow_one, hb] at this
  refine ⟨?_, hrho⟩
  have p1' : m.byImpressions [x] 1 = .ok pt := p1
  have this' : pt.reach 1 = .ok (m.rho * (x / (x + m.rho))) := this
  simp only [GoergModel.plannerCurve, p1', this', bind, Except.bind]

/-- **C84 (e).** Over Goerg curves with positive cost, a pairwise surface with plausible parameters
predicts for every non-negative spend vector, at least the largest reach of a single publisher and
at most their sum, and more spend never predicts less reach. -/
theorem C84_monotone (ms : List GoergModel) (s : PairwiseSurface) (hs : WellFormed s)
    (hc : s.curves = ms.map (fun m => m.plannerCurve.surface))
    (ha : PlausibleOverlap s.p (surfaceMatrix s))
    (hms : ∀ m ∈ ms, (∃ data, GoergModel.new data = .ok m) ∧ 0 < m.reach ∧ ∃ c, m.cpi = some c ∧ 0 < c)
    (spend spend' : List ℚ) (hl : spend.length = s.p) (h0 : ∀ x ∈ spend, 0 ≤ x)
    (hle : List.Forall₂ (· ≤ ·) spend spend') (F : Int) :
    ∃ pt pt' u u', s.bySpend (ms.map GoergModel.plannerCurve) spend F = .ok pt ∧
      s.bySpend (ms.map GoergModel.plannerCurve) spend' F = .ok pt' ∧
      pt.reach 1 = .ok u ∧ pt'.reach 1 = .ok u' ∧ u ≤ u' := by
  have hml : ms.length = s.p := by rw [← hs.curves, hc, List.length_map]
  -- costs
  have hcost : ∀ i (hi : i < ms.length), ∃ c, ms[i].truthyCpi = some c ∧ 0 < c := by
    intro i hi
    obtain ⟨_, _, c, hcpi, hpos⟩ := hms _ (List.getElem_mem hi)
    refine ⟨c, ?_, hpos⟩
    unfold GoergModel.truthyCpi
    rw [hcpi]
    simp [hpos.ne']
  -- one query
  have key : ∀ sp : List ℚ, sp.length = s.p → (∀ x ∈ sp, 0 ≤ x) →
      ∃ imps r : List ℚ, imps.length = s.p ∧ r.length = s.p ∧
        (∀ i (hi : i < s.p) (h1 : i < sp.length) (h2 : i < imps.length) (h3 : i < ms.length),
          ∃ c, ms[i].truthyCpi = some c ∧ 0 < c ∧ imps[i] = sp[i] / c) ∧
        s.bySpend (ms.map GoergModel.plannerCurve) sp F = s.byImpressions imps ∧
        PairwiseSurface.getReachVector s.curves imps = .ok r ∧
        (∀ i (h2 : i < imps.length) (h3 : i < ms.length) (h4 : i < r.length),
          0 ≤ imps[i] ∧ 0 < ms[i].rho ∧ r[i] = ms[i].rho * (imps[i] / (imps[i] + ms[i].rho))) ∧
        ReachesInRange s r := by
    intro sp hsp hsp0
    refine ⟨(ms.zip sp).map (fun x => x.2 / (x.1.truthyCpi.getD 1)),
      (ms.zip sp).map (fun x => x.1.rho * (x.2 / (x.1.truthyCpi.getD 1) /
        (x.2 / (x.1.truthyCpi.getD 1) + x.1.rho))), by simp [hml, hsp], by simp [hml, hsp],
      ?_, ?_, ?_, ?_, ?_⟩
    · intro i hi h1 h2 h3
      obtain ⟨c, hc1, hc2⟩ := hcost i h3
      exact ⟨c, hc1, hc2, by simp [hc1]⟩
    · unfold PairwiseSurface.bySpend
      refine C84_by_spend _ _ _ _ _ (by simp) ?_
      intro i h1 h2 h3
      simp only [List.length_map] at h1
      obtain ⟨c, hc1, hc2⟩ := hcost i h1
      simp [GoergModel.plannerCurve, GoergModel.impressionsForSpend, hc1]
    · unfold PairwiseSurface.getReachVector
      rw [mapM_ok_iff, List.forall₂_iff_get]
      refine ⟨by simp [hc, hml, hsp], ?_⟩
      intro i h1 h2
      simp only [hc, List.length_zip, List.length_map] at h1
      obtain ⟨c, hc1, hc2⟩ := hcost i (by omega)
      obtain ⟨⟨data, hd⟩, hr, _⟩ := hms _ (List.getElem_mem (show i < ms.length by omega))
      have hx : 0 ≤ sp[i]'(by omega) / c := div_nonneg (hsp0 _ (List.getElem_mem _)) hc2.le
      have := (plannerCurve_reachAt data _ hd hr _ hx).1
      simp only [List.get_eq_getElem, List.getElem_zip, List.getElem_map, hc, hc1, Option.getD_some]
      exact this
    · intro i h2 h3 h4
      simp only [List.length_map, List.length_zip] at h2
      obtain ⟨c, hc1, hc2⟩ := hcost i h3
      obtain ⟨⟨data, hd⟩, hr, _⟩ := hms _ (List.getElem_mem h3)
      have hx : 0 ≤ sp[i]'(by omega) / c := div_nonneg (hsp0 _ (List.getElem_mem _)) hc2.le
      refine ⟨by simpa [hc1] using hx, (plannerCurve_reachAt data _ hd hr 0 le_rfl).2, by simp⟩
    · intro i hi
      have h3 : i < ms.length := by omega
      obtain ⟨c, hc1, hc2⟩ := hcost i h3
      obtain ⟨⟨data, hd⟩, hr, _⟩ := hms _ (List.getElem_mem h3)
      have hx : 0 ≤ sp[i]'(by omega) / c := div_nonneg (hsp0 _ (List.getElem_mem _)) hc2.le
      have hrho := (plannerCurve_reachAt data _ hd hr 0 le_rfl).2
      obtain ⟨t0, t1, _⟩ := goerg_ratio ms[i].rho _ hrho hx
      have e : ((ms.zip sp).map (fun x => x.1.rho * (x.2 / (x.1.truthyCpi.getD 1) /
          (x.2 / (x.1.truthyCpi.getD 1) + x.1.rho)))).getD i 0 =
          ms[i].rho * (sp[i]'(by omega) / c / (sp[i]'(by omega) / c + ms[i].rho)) := by
        rw [List.getD_eq_getElem?_getD, List.getElem?_eq_getElem (by simp; omega)]
        simp [hc1]
      have e2 : surfaceMax s i = ms[i].rho := by
        unfold surfaceMax
        rw [hc, List.getD_eq_getElem?_getD, List.getElem?_eq_getElem (by simp; omega)]
        simp [GoergModel.plannerCurve, GoergModel.maxReach]
      rw [e, e2]
      refine ⟨by positivity, ?_⟩
      have := mul_le_mul_of_nonneg_left t1.le hrho.le
      linarith
  have hl' : spend'.length = s.p := by rw [← hle.length_eq, hl]
  have h0' : ∀ x ∈ spend', 0 ≤ x := by
    intro x hx
    obtain ⟨k, hk, rfl⟩ := List.getElem_of_mem hx
    have := (List.forall₂_iff_get.1 hle).2 k (by omega) hk
    have h1 := h0 _ (List.getElem_mem (show k < spend.length by omega))
    simp only [List.get_eq_getElem] at this
    linarith
  obtain ⟨imps, r, a1, a2, a3, a4, a5, a6, a7⟩ := key spend hl h0
  obtain ⟨imps', r', b1, b2, b3, b4, b5, b6, b7⟩ := key spend' hl' h0'
  have hrr : List.Forall₂ (· ≤ ·) r r' := by
    rw [List.forall₂_iff_get]
    refine ⟨by omega, ?_⟩
    intro i h1 h2
    have hi : i < s.p := by omega
    obtain ⟨c, hc1, hc2, hc3⟩ := a3 i hi (by omega) (by omega) (by omega)
    obtain ⟨c', hc1', hc2', hc3'⟩ := b3 i hi (by omega) (by omega) (by omega)
    rw [hc1] at hc1'
    cases hc1'
    obtain ⟨x0, hrho, hx⟩ := a6 i (by omega) (by omega) h1
    obtain ⟨x0', _, hx'⟩ := b6 i (by omega) (by omega) h2
    have hsp := (List.forall₂_iff_get.1 hle).2 i (by omega) (by omega)
    simp only [List.get_eq_getElem] at hsp ⊢
    rw [hx, hx']
    apply mul_le_mul_of_nonneg_left _ hrho.le
    have hle2 : imps[i]'(by omega) ≤ imps'[i]'(by omega) := by
      rw [hc3, hc3']
      exact div_le_div_of_nonneg_right hsp hc2.le
    rw [div_le_div_iff₀ (by linarith) (by linarith)]
    nlinarith
  obtain ⟨pt, pt', u, u', g1, g2, g3, g4, g5⟩ := C30_monotone s hs ha imps imps' a1 b1 r r' a5 b5 a7
    b7 hrr
  exact ⟨pt, pt', u, u', by rw [a4]; exact g1, by rw [b4]; exact g2, g3, g4, g5⟩

/-- Curves fitted to 10 people with 20 impressions for 40, and 20 people with 30 impressions for 15. -/
example : ∃ m₁ m₂ : GoergModel,
    GoergModel.new [⟨[20], [10], [], some [40], none⟩] = .ok m₁ ∧
    GoergModel.new [⟨[30], [20], [], some [15], none⟩] = .ok m₂ ∧
    let s : PairwiseSurface := ⟨[m₁.plannerCurve.surface, m₂.plannerCurve.surface], 2, [],
      [0, 1 / 2, 1 / 2, 0]⟩
    WellFormed s ∧ PlausibleOverlap s.p (surfaceMatrix s) ∧
    ∃ pt pt' u u', s.bySpend [m₁.plannerCurve, m₂.plannerCurve] [40, 5] 1 = .ok pt ∧
      s.bySpend [m₁.plannerCurve, m₂.plannerCurve] [40, 15] 1 = .ok pt' ∧
      pt.reach 1 = .ok u ∧ pt'.reach 1 = .ok u' ∧ u ≤ u' := by
  have e₁ := (goerg_new_ok_iff [⟨[20], [10], [], some [40], none⟩] ⟨20, 10, 20, 20, some 2⟩).2
    ⟨_, 20, 10, rfl, rfl, by norm_num, rfl, by norm_num, rfl, rfl, by norm_num, by norm_num, by norm_num⟩
  have e₂ := (goerg_new_ok_iff [⟨[30], [20], [], some [15], none⟩] ⟨30, 20, 60, 60, some (1 / 2)⟩).2
    ⟨_, 30, 20, rfl, rfl, by norm_num, rfl, by norm_num, rfl, rfl, by norm_num, by norm_num, by norm_num⟩
  refine ⟨_, _, e₁, e₂, ?_⟩
  intro s
  have hwf : WellFormed s := by
    refine ⟨rfl, rfl, ?_⟩
    intro c hc
    simp only [s, List.mem_cons, List.not_mem_nil, or_false] at hc
    rcases hc with rfl | rfl <;> norm_num [GoergModel.plannerCurve, GoergModel.maxReach]
  have hpl : PlausibleOverlap s.p (surfaceMatrix s) := by
    refine ⟨?_, ?_, ?_, ?_, ?_⟩
    all_goals unfold s surfaceMatrix
    all_goals decide +kernel
  refine ⟨hwf, hpl, C84_monotone [⟨20, 10, 20, 20, some 2⟩, ⟨30, 20, 60, 60, some (1 / 2)⟩] s hwf rfl
    hpl ?_ [40, 5] [40, 15] rfl (by simp) ?_ 1⟩
  · intro m hm
    simp only [List.mem_cons, List.not_mem_nil, or_false] at hm
    rcases hm with rfl | rfl
    · exact ⟨⟨_, e₁⟩, by norm_num, 2, rfl, by norm_num⟩
    · exact ⟨⟨_, e₂⟩, by norm_num, 1 / 2, rfl, by norm_num⟩
  · exact .cons le_rfl (.cons (by norm_num) .nil)

end Verif
