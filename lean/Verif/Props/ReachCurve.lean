import Verif.Model.ReachCurve
import Verif.Props.DataSet
import Mathlib.Tactic.Positivity
import Mathlib.Tactic.FieldSimp
import Mathlib.Tactic.Ring
import Mathlib.Tactic.Linarith
import Mathlib.Tactic.NormNum
import Mathlib.Data.Rat.Floor

/-!
# C26, C27, C28, C42: quantile search, Goerg's model, ground truth curve
-/

namespace Verif

open Verif.Spec

/-! ## C26 -/

theorem bisectLoop_spec (f : Nat → ℚ) (target : ℚ) (lower upper : Nat) (hlt : lower < upper)
    (hl : f lower ≤ target) (hu : target < f upper) :
    ∃ n, ReachCurve.bisectLoop (fun n => .ok (f n)) target lower upper = .ok n ∧
      f n ≤ target ∧ target < f (n + 1) := by
  induction h : upper - lower using Nat.strong_induction_on generalizing lower upper with
  | _ d ih =>
    unfold ReachCurve.bisectLoop
    by_cases h1 : upper - lower > 1
    · rw [dif_pos h1]
      simp only
      by_cases h2 : f ((upper + lower) / 2) ≤ target
      · rw [if_pos h2]
        exact ih _ (by omega) _ _ (by omega) h2 hu rfl
      · rw [if_neg h2]
        exact ih _ (by omega) _ _ (by omega) hl (not_le.1 h2) rfl
    · rw [dif_neg h1]
      refine ⟨lower, rfl, hl, ?_⟩
      have : upper = lower + 1 := by omega
      rwa [← this]

theorem doublingLoop_spec (f : Nat → ℚ) (target : ℚ) (d niter lower : Nat) (hd : niter + d = 60)
    (hl : f lower ≤ target) (hlow : lower < 2 ^ niter) :
    (ReachCurve.doublingLoop (fun n => .ok (f n)) target lower (2 ^ niter) niter
        = .error .overflowError ∧ ∀ k, niter ≤ k → k ≤ 60 → f (2 ^ k) ≤ target) ∨
    (∃ lo up, ReachCurve.doublingLoop (fun n => .ok (f n)) target lower (2 ^ niter) niter
        = .ok (lo, up) ∧ lo < up ∧ f lo ≤ target ∧ target < f up ∧
          ∃ k, niter ≤ k ∧ k ≤ 60 ∧ up = 2 ^ k) := by
  induction d generalizing niter lower with
  | zero =>
    unfold ReachCurve.doublingLoop
    by_cases h1 : f (2 ^ niter) ≤ target
    · rw [if_pos h1, dif_pos (by omega)]
      refine .inl ⟨rfl, fun k hk hk' => ?_⟩
      have : k = niter := by omega
      rwa [this]
    · rw [if_neg h1]
      exact .inr ⟨_, _, rfl, hlow, hl, not_le.1 h1, niter, le_rfl, by omega, rfl⟩
  | succ d ih =>
    unfold ReachCurve.doublingLoop
    by_cases h1 : f (2 ^ niter) ≤ target
    · rw [if_pos h1, dif_neg (by omega)]
      have hp : 2 * 2 ^ niter = 2 ^ (niter + 1) := by ring
      rw [hp]
      have hpos : 0 < 2 ^ niter := Nat.pos_of_ne_zero (by positivity)
      rcases ih (niter + 1) (2 ^ niter) (by omega) h1 (by omega) with ⟨h2, h3⟩ |
        ⟨lo, up, h2, h3, h4, h5, k, hk1, hk2, hk3⟩
      · refine .inl ⟨h2, fun k hk hk' => ?_⟩
        rcases Nat.eq_or_lt_of_le hk with rfl | h
        · exact h1
        · exact h3 k h hk'
      · exact .inr ⟨lo, up, h2, h3, h4, h5, k, by omega, hk2, hk3⟩
    · rw [if_neg h1]
      exact .inr ⟨_, _, rfl, hlow, hl, not_le.1 h1, niter, le_rfl, by omega, rfl⟩

/-- C26 (a): for any curve starting at or below the target the search always terminates; either
it finds `n` with `reach(n) ≤ target < reach(n+1)`, or the curve was still at or below the target
at `1, 2, 4, …, 2^60` and it raises `OverflowError`. -/
theorem C26_search (f : Nat → ℚ) (M q : ℚ) (hq : 0 < q ∧ q < 1) (h0 : f 0 ≤ M * q) :
    (∃ n, ReachCurve.byQuantile M (fun n => .ok (f n)) q = .ok n ∧ f n ≤ M * q ∧
        M * q < f (n + 1) ∧ ∃ k ≤ 60, M * q < f (2 ^ k)) ∨
    (ReachCurve.byQuantile M (fun n => .ok (f n)) q = .error .overflowError ∧
        ∀ k ≤ 60, f (2 ^ k) ≤ M * q) := by
  unfold ReachCurve.byQuantile
  rw [if_neg (by simpa using hq)]
  rcases doublingLoop_spec f (M * q) 60 0 0 rfl h0 (by norm_num) with ⟨h2, h3⟩ |
    ⟨lo, up, h2, h3, h4, h5, k, _, hk2, hk3⟩
  · right
    simp only [pow_zero] at h2
    rw [h2]
    exact ⟨rfl, fun k hk => h3 k (Nat.zero_le _) hk⟩
  · left
    simp only [pow_zero] at h2
    rw [h2]
    obtain ⟨n, hn, hn1, hn2⟩ := bisectLoop_spec f (M * q) lo up h3 h4 h5
    exact ⟨n, hn, hn1, hn2, k, hk2, hk3 ▸ h5⟩

/-- C26 (b): for a non-decreasing curve the answer is the largest input whose reach does not
exceed the target, and `OverflowError` is raised exactly when the curve is still at or below the
target after all doublings. -/
theorem C26_monotone_curve (f : Nat → ℚ) (hf : Monotone f) (M q : ℚ) (hq : 0 < q ∧ q < 1)
    (h0 : f 0 ≤ M * q) :
    (M * q < f (2 ^ 60) → ∃ n, ReachCurve.byQuantile M (fun n => .ok (f n)) q = .ok n ∧
        ∀ m, f m ≤ M * q ↔ m ≤ n) ∧
    (f (2 ^ 60) ≤ M * q ↔
      ReachCurve.byQuantile M (fun n => .ok (f n)) q = .error .overflowError) := by
  rcases C26_search f M q hq h0 with ⟨n, h1, h2, h3, k, hk, h4⟩ | ⟨h1, h2⟩
  · refine ⟨fun _ => ⟨n, h1, fun m => ⟨fun hm => ?_, fun hm => (hf hm).trans h2⟩⟩, ?_⟩
    · by_contra hc
      exact absurd (hf (show n + 1 ≤ m by omega)) (not_le.2 (lt_of_le_of_lt hm h3))
    · rw [h1]
      simp only [reduceCtorEq, iff_false, not_le]
      exact lt_of_lt_of_le h4 (hf (Nat.pow_le_pow_right (by norm_num) hk))
  · refine ⟨fun h => absurd (h2 60 le_rfl) (not_le.2 h), ?_⟩
    exact ⟨fun _ => h1, fun _ => h2 60 le_rfl⟩

/-- C26 (c): quantiles outside the open unit interval are refused. -/
theorem C26_quantile_range (g : Nat → Except PyErr ℚ) (M q : ℚ) (hq : q ≤ 0 ∨ 1 ≤ q) :
    ReachCurve.byQuantile M g q = .error .valueError := by
  unfold ReachCurve.byQuantile
  rw [if_pos (by rintro ⟨h1, h2⟩; rcases hq with h | h <;> linarith)]

/-- a curve that climbs linearly to 10; half of it is passed between 5 and 6 -/
example : ReachCurve.byQuantile 10 (fun n => .ok (min (n : ℚ) 10)) (1 / 2) = .ok 5 ∧
    Monotone (fun n : Nat => min (n : ℚ) 10) := by
  refine ⟨by decide +kernel, fun a b h => ?_⟩
  exact min_le_min_right _ (by exact_mod_cast h)

/-! ## C27 -/

theorem reachPoint_reach_one (d : ReachPoint) (r : ℚ) :
    d.reach 1 = .ok r ↔ d.kplusReaches[0]? = some r := by
  unfold ReachPoint.reach
  cases h : d.kplusReaches with
  | nil => simp
  | cons a l =>
    rw [if_pos (by simp)]
    simp [pyIndex]

theorem goerg_new_ok_iff (data : List ReachPoint) (m : GoergModel) :
    GoergModel.new data = .ok m ↔
      ∃ d i r, data = [d] ∧ d.impressions = [i] ∧ 1 / 1000 ≤ i ∧ d.reach 1 = .ok r ∧ r < i ∧
        m.impressions = i ∧ m.reach = r ∧ m.rho = i * r / (i - r) ∧ m.beta = i * r / (i - r) ∧
        m.cpi = (d.spends.bind List.head?).map (· / i) := by
  have hcpi : ∀ (sp : Option (List ℚ)) (i : ℚ), GoergModel.costPerImpression sp i =
      .ok ((sp.bind List.head?).map (· / i)) := by
    intro sp i
    unfold GoergModel.costPerImpression
    rcases sp with _ | (_ | ⟨a, l⟩) <;> simp [ReachPoint.truthySpends, pyIndex, bind, Except.bind,
      pure, Except.pure]
  rcases data with _ | ⟨d, _ | ⟨d', l⟩⟩
  · simp [GoergModel.new, checkCurveData, checkSurfaceData, bind, Except.bind]
  · obtain ⟨mi, mr, mrho, mbeta, mcpi⟩ := m
    simp only [GoergModel.new, checkCurveData, checkSurfaceData, bind, Except.bind,
      List.all_cons, List.all_nil]
    rcases hi : d.impressions with _ | ⟨i, _ | ⟨i', l⟩⟩
    · simp [hi]
    · simp only [List.length_cons, List.length_nil, decide_true, Bool.and_true, if_true,
        ne_eq, not_true_eq_false, if_false, pyIndex]
      simp only [lt_self_iff_false, if_false, Int.toNat_zero, List.getElem?_cons_zero]
      by_cases h1 : i < 1 / 1000
      · rw [if_pos h1]
        simp only [reduceCtorEq, false_iff]
        rintro ⟨d0, i0, r0, h, h', h'', _⟩
        simp only [List.cons.injEq, and_true] at h
        subst h
        rw [hi] at h'
        simp only [List.cons.injEq, and_true] at h'
        subst h'
        linarith
      · rw [if_neg h1]
        cases hr : d.reach 1 with
        | error e =>
          simp only [reduceCtorEq, false_iff]
          rintro ⟨d0, i0, r0, h, h', h'', h3, _⟩
          simp only [List.cons.injEq, and_true] at h
          subst h
          rw [hr] at h3
          simp at h3
        | ok r =>
          simp only
          by_cases h2 : i ≤ r
          · rw [if_pos h2]
            simp only [reduceCtorEq, false_iff]
            rintro ⟨d0, i0, r0, h, h', h'', h3, h4, _⟩
            simp only [List.cons.injEq, and_true] at h
            subst h
            rw [hi] at h'
            rw [hr] at h3
            simp only [List.cons.injEq, and_true] at h'
            simp only [Except.ok.injEq] at h3
            subst h' h3
            linarith
          · rw [if_neg h2, hcpi]
            simp only [pure, Except.pure, Except.ok.injEq, GoergModel.mk.injEq]
            constructor
            · rintro ⟨rfl, rfl, rfl, rfl, rfl⟩
              exact ⟨d, i, r, rfl, hi, not_lt.1 h1, hr, not_le.1 h2, rfl, rfl, rfl, rfl, rfl⟩
            · rintro ⟨d0, i0, r0, h, h', h'', h3, h4, h5, h6, h7, h8, h9⟩
              simp only [List.cons.injEq, and_true] at h
              subst h
              rw [hi] at h'
              rw [hr] at h3
              simp only [List.cons.injEq, and_true] at h'
              simp only [Except.ok.injEq] at h3
              subst h' h3
              exact ⟨h5.symm, h6.symm, h7.symm, h8.symm, h9.symm⟩
    · simp [hi]
  · constructor
    · intro h
      exfalso
      unfold GoergModel.new at h
      cases hc : checkCurveData (d :: d' :: l) with
      | error e => rw [hc] at h; simp [bind, Except.bind] at h
      | ok u => rw [hc] at h; simp [bind, Except.bind] at h
    · rintro ⟨d0, i, r, h, _⟩
      simp at h

/-- C27 (a): fitting succeeds exactly for one one-dimensional point with at least 0.001
impressions whose reach is known and below the impressions. -/
theorem C27_fit_accepts_iff (data : List ReachPoint) :
    (∃ m, GoergModel.new data = .ok m) ↔
      ∃ d i r, data = [d] ∧ d.impressions = [i] ∧ 1 / 1000 ≤ i ∧ d.reach 1 = .ok r ∧ r < i := by
  constructor
  · rintro ⟨m, hm⟩
    obtain ⟨d, i, r, h1, h2, h3, h4, h5, _⟩ := (goerg_new_ok_iff data m).1 hm
    exact ⟨d, i, r, h1, h2, h3, h4, h5⟩
  · rintro ⟨d, i, r, h1, h2, h3, h4, h5⟩
    exact ⟨⟨i, r, _, _, _⟩, (goerg_new_ok_iff data _).2
      ⟨d, i, r, h1, h2, h3, h4, h5, rfl, rfl, rfl, rfl, rfl⟩⟩

/-- C27 (b): refusals are `ValueError`s. -/
theorem C27_refusal_is_value_error (data : List ReachPoint) (e : PyErr)
    (h : GoergModel.new data = .error e) : e = .valueError := by
  have hreach : ∀ (d : ReachPoint) (e : PyErr), d.reach 1 = .error e → e = .valueError := by
    intro d e h
    unfold ReachPoint.reach at h
    cases hk : d.kplusReaches with
    | nil => rw [hk] at h; simpa using h.symm
    | cons a l =>
      rw [hk, if_pos (by simp)] at h
      simp [pyIndex] at h
  have hcpi : ∀ (sp : Option (List ℚ)) (i : ℚ) (e : PyErr),
      GoergModel.costPerImpression sp i ≠ .error e := by
    intro sp i e
    unfold GoergModel.costPerImpression
    rcases sp with _ | (_ | ⟨a, l⟩) <;> simp [ReachPoint.truthySpends, pyIndex, bind, Except.bind,
      pure, Except.pure]
  have hcheck : ∀ e, checkCurveData data = .error e → e = .valueError := by
    intro e he
    unfold checkCurveData checkSurfaceData at he
    rcases data with _ | ⟨d, l⟩
    · simpa [bind, Except.bind] using he.symm
    · simp only [bind, Except.bind] at he
      split at he
      · rename_i e' he'
        split at he' <;> simp_all
      · split at he <;> simp_all
  unfold GoergModel.new at h
  cases hc : checkCurveData data with
  | error e' =>
    rw [hc] at h
    simp only [bind, Except.bind, Except.error.injEq] at h
    exact h ▸ hcheck e' hc
  | ok u =>
    rw [hc] at h
    simp only [bind, Except.bind] at h
    rcases data with _ | ⟨d, _ | ⟨d', l⟩⟩
    · simpa using h.symm
    · unfold checkCurveData checkSurfaceData at hc
      rcases hi : d.impressions with _ | ⟨i, _ | ⟨i', l⟩⟩
      · simp [hi, bind, Except.bind] at hc
      · simp only [hi, pyIndex] at h
        simp only [lt_self_iff_false, if_false, Int.toNat_zero, List.getElem?_cons_zero] at h
        split at h
        · simpa using h.symm
        · cases hr : d.reach 1 with
          | error e' =>
            rw [hr] at h
            simp only [Except.error.injEq] at h
            exact h ▸ hreach d e' hr
          | ok r =>
            rw [hr] at h
            simp only at h
            split at h
            · simpa using h.symm
            · cases hx : GoergModel.costPerImpression d.spends i with
              | error e' => exact absurd hx (hcpi _ _ _)
              | ok c => rw [hx] at h; simp [pure, Except.pure] at h
      · simp [hi, bind, Except.bind] at hc
    · simpa using h.symm

/-- What a successful query returns. -/
theorem goerg_byImpressions_ok (m : GoergModel) (x : ℚ) (F : Nat) (hx : x + m.beta ≠ 0) :
    ∃ pt, m.byImpressions [x] F = .ok pt ∧ pt.impressions = [x] ∧ pt.maxFrequency = F ∧
      pt.spends = m.truthyCpi.map (fun c => [x * c]) ∧
      ∀ k : Nat, 1 ≤ k → k ≤ F → pt.reach k = .ok (m.rho * (x / (x + m.beta)) ^ k) := by
  unfold GoergModel.byImpressions
  simp only
  rw [if_neg (by simp [hx])]
  have hk : ∀ pt : ReachPoint, pt.kplusReaches = m.kplus x F → pt.maxFrequency = F ∧
      ∀ k : Nat, 1 ≤ k → k ≤ F → pt.reach k = .ok (m.rho * (x / (x + m.beta)) ^ k) := by
    intro pt hpt
    have hlen : (m.kplus x F).length = F := by simp [GoergModel.kplus]
    refine ⟨by rw [ReachPoint.maxFrequency, hpt, hlen], ?_⟩
    intro k hk1 hk2
    unfold ReachPoint.reach
    rw [hpt, if_pos (by rw [hlen]; omega)]
    obtain ⟨j, rfl⟩ : ∃ j, k = j + 1 := ⟨k - 1, by omega⟩
    have : ((j + 1 : Nat) : Int) - 1 = (j : Int) := by omega
    rw [this, pyIndex_nat (h := by rw [hlen]; omega)]
    simp [GoergModel.kplus]
  cases m.truthyCpi with
  | none =>
    simp only [ReachPoint.new]
    refine ⟨_, rfl, rfl, (hk _ rfl).1, rfl, (hk _ rfl).2⟩
  | some c =>
    simp only [ReachPoint.new]
    refine ⟨_, rfl, rfl, (hk _ rfl).1, rfl, (hk _ rfl).2⟩

theorem goerg_at_training (i r : ℚ) (hi : 0 < i) (hr : r < i) :
    i + i * r / (i - r) ≠ 0 ∧
    i * r / (i - r) * (i / (i + i * r / (i - r))) = r := by
  have h1 : i - r ≠ 0 := by linarith
  have h2 : i + i * r / (i - r) = i ^ 2 / (i - r) := by
    field_simp
    ring
  rw [h2]
  have h3 : i ≠ 0 := hi.ne'
  refine ⟨by positivity, ?_⟩
  field_simp

/-- C27 (c): the fitted curve passes through the training point: at the observed impressions it
predicts the observed reach.  The case of zero reach is included. -/
theorem C27_reproduces_training_point (d : ReachPoint) (m : GoergModel)
    (hm : GoergModel.new [d] = .ok m) :
    ∃ i r pt, d.impressions = [i] ∧ d.reach 1 = .ok r ∧
      m.byImpressions [i] = .ok pt ∧ pt.impressions = [i] ∧ pt.reach 1 = .ok r := by
  obtain ⟨d0, i, r, h1, h2, h3, h4, h5, h6, h7, h8, h9, h10⟩ := (goerg_new_ok_iff _ m).1 hm
  simp only [List.cons.injEq, and_true] at h1
  subst h1
  obtain ⟨g1, g2⟩ := goerg_at_training i r (by linarith) h5
  obtain ⟨pt, p1, p2, _, _, p3⟩ := goerg_byImpressions_ok m i 1 (by rw [h9]; exact g1)
  refine ⟨i, r, pt, h2, h4, p1, p2, ?_⟩
  have := p3 1 le_rfl le_rfl
  rw [h8, h9, pow_one, g2] at this
  exact this

/-- C27 (d): if a non-zero spend was observed, the curve also predicts the observed reach at the
observed spend, and reports the observed impressions there. -/
theorem C27_reproduces_training_spend (d : ReachPoint) (m : GoergModel)
    (hm : GoergModel.new [d] = .ok m) (s : ℚ) (hs : d.spends = some [s]) (hs0 : s ≠ 0) :
    ∃ i r pt, d.impressions = [i] ∧ d.reach 1 = .ok r ∧
      m.bySpend [s] = .ok pt ∧ pt.impressions = [i] ∧ pt.spends = some [s] ∧
        pt.reach 1 = .ok r := by
  obtain ⟨d0, i, r, h1, h2, h3, h4, h5, h6, h7, h8, h9, h10⟩ := (goerg_new_ok_iff _ m).1 hm
  simp only [List.cons.injEq, and_true] at h1
  subst h1
  have hi : 0 < i := by linarith
  obtain ⟨g1, g2⟩ := goerg_at_training i r hi h5
  obtain ⟨pt, p1, p2, _, p4, p3⟩ := goerg_byImpressions_ok m i 1 (by rw [h9]; exact g1)
  have hc : m.truthyCpi = some (s / i) := by
    unfold GoergModel.truthyCpi
    rw [h10, hs]
    simp [hs0, hi.ne']
  have hsi : s / (s / i) = i := by field_simp
  refine ⟨i, r, pt, h2, h4, ?_, p2, ?_, ?_⟩
  · unfold GoergModel.bySpend
    rw [hc]
    simp only
    rw [hsi]
    exact p1
  · rw [p4, hc]
    simp only [Option.map_some]
    congr 2
    field_simp
  · have := p3 1 le_rfl le_rfl
    rw [h8, h9, pow_one, g2] at this
    exact this

/-- A training point: 100 impressions reach 20 people for a spend of 5. -/
def exGoergPoint : ReachPoint :=
  { impressions := [100], kplusReaches := [20], frequencies := [], spends := some [5],
    universeSize? := none }

/-- The model fitted to it: at most 25 people can be reached. -/
def exGoerg : GoergModel :=
  { impressions := 100, reach := 20, rho := 25, beta := 25, cpi := some (1 / 20) }

example : GoergModel.new [exGoergPoint] = .ok exGoerg := by decide +kernel

example : (exGoerg.byImpressions [100] 2).toOption.map (·.kplusReaches) = some [20, 16] ∧
    (exGoerg.bySpend [5] 1).toOption.map (·.kplusReaches) = some [20] ∧
    GoergModel.new [] = .error .valueError ∧
    GoergModel.new [exGoergPoint, exGoergPoint] = .error .valueError := by
  refine ⟨by decide +kernel, by decide +kernel, by decide +kernel, by decide +kernel⟩

/-! ## C28 -/

theorem goerg_rho_pos (data : List ReachPoint) (m : GoergModel) (hm : GoergModel.new data = .ok m)
    (hr : 0 < m.reach) : 0 < m.rho ∧ m.beta = m.rho := by
  obtain ⟨d0, i, r, h1, h2, h3, h4, h5, h6, h7, h8, h9, h10⟩ := (goerg_new_ok_iff _ m).1 hm
  rw [h7] at hr
  refine ⟨?_, by rw [h8, h9]⟩
  rw [h8]
  have : 0 < i - r := by linarith
  have : 0 < i := by linarith
  positivity

theorem goerg_ratio (rho x : ℚ) (hrho : 0 < rho) (hx : 0 ≤ x) :
    0 ≤ x / (x + rho) ∧ x / (x + rho) < 1 ∧ rho * (x / (x + rho)) ≤ x := by
  have hpos : 0 < x + rho := by linarith
  refine ⟨by positivity, ?_, ?_⟩
  · rw [div_lt_one hpos]; linarith
  · rw [← mul_div_assoc, div_le_iff₀ hpos]; nlinarith

theorem goerg_ratio_mono (rho x x' : ℚ) (hrho : 0 < rho) (hx : 0 ≤ x) (hxx : x ≤ x') :
    x / (x + rho) ≤ x' / (x' + rho) := by
  rw [div_le_div_iff₀ (by linarith) (by linarith)]
  nlinarith

/-- C28 (a): on a model fitted to a positive reach, every query with non-negative impressions
succeeds and its k+ reaches are non-negative, strictly below the model's maximum reach and at
most the number of impressions. -/
theorem C28_bounds_partial (data : List ReachPoint) (m : GoergModel) (hm : GoergModel.new data = .ok m)
    (hr : 0 < m.reach) (x : ℚ) (hx : 0 ≤ x) (F : Nat) :
    ∃ pt, m.byImpressions [x] F = .ok pt ∧ pt.maxFrequency = F ∧
      ∀ k : Nat, 1 ≤ k → k ≤ F → ∃ y, pt.reach k = .ok y ∧ 0 ≤ y ∧ y < m.maxReach ∧ y ≤ x := by
  obtain ⟨hrho, hb⟩ := goerg_rho_pos data m hm hr
  obtain ⟨pt, p1, _, p3, _, p5⟩ := goerg_byImpressions_ok m x F (by rw [hb]; positivity)
  refine ⟨pt, p1, p3, fun k hk hkF => ⟨_, p5 k hk hkF, ?_⟩⟩
  rw [hb]
  obtain ⟨t0, t1, t2⟩ := goerg_ratio m.rho x hrho hx
  have t3 : (x / (x + m.rho)) ^ k ≤ x / (x + m.rho) := pow_le_of_le_one t0 t1.le (by omega)
  have t4 : m.rho * (x / (x + m.rho)) ^ k ≤ m.rho * (x / (x + m.rho)) :=
    mul_le_mul_of_nonneg_left t3 hrho.le
  refine ⟨by positivity, ?_, t4.trans t2⟩
  unfold GoergModel.maxReach
  nlinarith

/-- C28 (b): more impressions never give less k+ reach, and k+ reach does not increase with k. -/
theorem C28_monotone_partial (data : List ReachPoint) (m : GoergModel) (hm : GoergModel.new data = .ok m)
    (hr : 0 < m.reach) (x x' : ℚ) (hx : 0 ≤ x) (hxx : x ≤ x') (F k k' : Nat) (hk : 1 ≤ k)
    (hkk : k ≤ k') (hk' : k' ≤ F) :
    ∃ pt pt' y y' z, m.byImpressions [x] F = .ok pt ∧ m.byImpressions [x'] F = .ok pt' ∧
      pt.reach k = .ok y ∧ pt'.reach k = .ok y' ∧ pt.reach k' = .ok z ∧ y ≤ y' ∧ z ≤ y := by
  obtain ⟨hrho, hb⟩ := goerg_rho_pos data m hm hr
  obtain ⟨pt, p1, _, p3, _, p5⟩ := goerg_byImpressions_ok m x F (by rw [hb]; positivity)
  obtain ⟨pt', p1', _, p3', _, p5'⟩ := goerg_byImpressions_ok m x' F
    (by rw [hb]; exact (by linarith : (0 : ℚ) < x' + m.rho).ne')
  refine ⟨pt, pt', _, _, _, p1, p1', p5 k hk (by omega), p5' k hk (by omega),
    p5 k' (by omega) hk', ?_, ?_⟩
  · rw [hb]
    exact mul_le_mul_of_nonneg_left
      (pow_le_pow_left₀ (goerg_ratio m.rho x hrho hx).1 (goerg_ratio_mono m.rho x x' hrho hx hxx) k)
      hrho.le
  · rw [hb]
    obtain ⟨t0, t1, _⟩ := goerg_ratio m.rho x hrho hx
    exact mul_le_mul_of_nonneg_left (pow_le_pow_of_le_one t0 t1.le hkk) hrho.le

/-- C28 (c): `by_spend` is the same curve rescaled by the cost per impression, and
`impressions_for_spend` is that rescaling; both are refused when no cost is known. -/
theorem C28_by_spend (d : ReachPoint) (m : GoergModel) (hm : GoergModel.new [d] = .ok m)
    (F : Int) :
    (∀ i s, d.impressions = [i] → d.spends = some [s] → s ≠ 0 →
      ∀ n, m.bySpend [n * (s / i)] F = m.byImpressions [n] F ∧
        m.impressionsForSpend (n * (s / i)) = .ok n) ∧
    ((d.spends = none ∨ d.spends = some [0]) →
      ∀ s, m.bySpend s F = .error .valueError ∧
        ∀ x, m.impressionsForSpend x = .error .valueError) := by
  obtain ⟨d0, i, r, h1, h2, h3, h4, h5, h6, h7, h8, h9, h10⟩ := (goerg_new_ok_iff _ m).1 hm
  simp only [List.cons.injEq, and_true] at h1
  subst h1
  have hi : 0 < i := by linarith
  constructor
  · intro i' s hi' hs hs0 n
    rw [h2] at hi'
    simp only [List.cons.injEq, and_true] at hi'
    subst hi'
    have hc : m.truthyCpi = some (s / i) := by
      unfold GoergModel.truthyCpi
      rw [h10, hs]
      simp [hs0, hi.ne']
    have hn : n * (s / i) / (s / i) = n := by field_simp
    unfold GoergModel.bySpend GoergModel.impressionsForSpend
    rw [hc]
    simp only
    rw [hn]
    exact ⟨rfl, rfl⟩
  · intro hs s
    have hc : m.truthyCpi = none := by
      unfold GoergModel.truthyCpi
      rw [h10]
      rcases hs with hs | hs <;> rw [hs] <;> simp
    unfold GoergModel.bySpend GoergModel.impressionsForSpend
    rw [hc]
    exact ⟨rfl, fun _ => rfl⟩

/-- C28 (d): a model fitted to zero reach predicts zero everywhere, except that asking for zero
impressions divides by zero (an exception for Python numbers, `nan` for numpy numbers). -/
theorem C28_zero_reach (data : List ReachPoint) (m : GoergModel) (hm : GoergModel.new data = .ok m)
    (hr : m.reach = 0) (F : Nat) (hF : 1 ≤ F) :
    m.byImpressions [0] F = .error .zeroDivision ∧
    ∀ x, 0 < x → ∃ pt, m.byImpressions [x] F = .ok pt ∧
      ∀ k : Nat, 1 ≤ k → k ≤ F → pt.reach k = .ok 0 := by
  obtain ⟨d0, i, r, h1, h2, h3, h4, h5, h6, h7, h8, h9, h10⟩ := (goerg_new_ok_iff _ m).1 hm
  have hr0 : r = 0 := by rw [← h7, hr]
  have hrho : m.rho = 0 := by rw [h8, hr0]; simp
  have hb : m.beta = 0 := by rw [h9, hr0]; simp
  constructor
  · unfold GoergModel.byImpressions
    simp only
    rw [if_pos ⟨by exact_mod_cast hF, by rw [hb]; simp⟩]
  · intro x hx
    obtain ⟨pt, p1, _, p3, _, p5⟩ := goerg_byImpressions_ok m x F (by rw [hb]; linarith)
    refine ⟨pt, p1, fun k hk hkF => ?_⟩
    rw [p5 k hk hkF, hrho]
    simp

example : GoergModel.new [exGoergPoint] = .ok exGoerg ∧ 0 < exGoerg.reach ∧
    (exGoerg.byImpressions [25] 2).toOption.map (·.kplusReaches) = some [25 / 2, 25 / 4] ∧
    exGoerg.impressionsForSpend (5 / 4) = .ok 25 := by
  refine ⟨by decide +kernel, by decide +kernel, by decide +kernel, by decide +kernel⟩

example : GoergModel.new [{ exGoergPoint with kplusReaches := [0] }]
    = .ok { impressions := 100, reach := 0, rho := 0, beta := 0, cpi := some (1 / 20) } := by
  decide +kernel

/-! ## C59: quantiles of Goerg's model -/

theorem goerg_reachAt (data : List ReachPoint) (m : GoergModel) (hm : GoergModel.new data = .ok m)
    (hr : 0 < m.reach) :
    (fun n : Nat => (do let r ← m.byImpressions [(n : ℚ)]; r.reach 1 : Except PyErr ℚ))
      = fun n : Nat => .ok (m.rho * ((n : ℚ) / (n + m.rho))) := by
  obtain ⟨hrho, hb⟩ := goerg_rho_pos data m hm hr
  funext n
  obtain ⟨pt, p1, _, _, _, p5⟩ := goerg_byImpressions_ok m (n : ℚ) 1 (by rw [hb]; positivity)
  have p1' : m.byImpressions [(n : ℚ)] = .ok pt := p1
  rw [p1']
  have := p5 1 le_rfl le_rfl
  rw [hb, pow_one] at this
  exact this

theorem goerg_le_target_iff (rho q x : ℚ) (hrho : 0 < rho) (hq : 0 < q ∧ q < 1) (hx : 0 ≤ x) :
    rho * (x / (x + rho)) ≤ rho * q ↔ x ≤ rho * q / (1 - q) := by
  rw [mul_le_mul_iff_right₀ hrho, div_le_iff₀ (by linarith), le_div_iff₀ (by linarith [hq.2])]
  constructor <;> intro h <;> linarith

/-- C59 (a): the quantile search on a fitted Goerg model returns the closed form
`⌊ρ q / (1 - q)⌋` as long as that bound is below `2^60`. -/
theorem C59_goerg_quantile (data : List ReachPoint) (m : GoergModel)
    (hm : GoergModel.new data = .ok m) (hr : 0 < m.reach) (q : ℚ) (hq : 0 < q ∧ q < 1)
    (hbound : m.maxReach * q / (1 - q) < 2 ^ 60) :
    m.impressionsAtReachQuantile q = .ok ⌊m.maxReach * q / (1 - q)⌋₊ := by
  obtain ⟨hrho, hb⟩ := goerg_rho_pos data m hm hr
  unfold GoergModel.impressionsAtReachQuantile
  rw [goerg_reachAt data m hm hr]
  unfold GoergModel.maxReach at hbound ⊢
  have hX : 0 ≤ m.rho * q / (1 - q) := div_nonneg (mul_nonneg hrho.le hq.1.le) (by linarith [hq.2])
  have hf : Monotone (fun n : Nat => m.rho * ((n : ℚ) / (n + m.rho))) := fun a b hab =>
    mul_le_mul_of_nonneg_left (goerg_ratio_mono m.rho a b hrho (by positivity)
      (by exact_mod_cast hab)) hrho.le
  have h0 : (fun n : Nat => m.rho * ((n : ℚ) / (n + m.rho))) 0 ≤ m.rho * q := by
    simp only [Nat.cast_zero, zero_div, mul_zero]
    exact mul_nonneg hrho.le hq.1.le
  have h60 : m.rho * q < (fun n : Nat => m.rho * ((n : ℚ) / (n + m.rho))) (2 ^ 60) := by
    rw [← not_le]
    intro h
    have := (goerg_le_target_iff m.rho q _ hrho hq (by positivity)).1 h
    push_cast at this
    linarith
  obtain ⟨n, hn, hmax⟩ := (C26_monotone_curve _ hf m.rho q hq h0).1 h60
  rw [hn]
  congr 1
  have key : ∀ k : Nat, k ≤ n ↔ k ≤ ⌊m.rho * q / (1 - q)⌋₊ := by
    intro k
    rw [← hmax k, Nat.le_floor_iff hX]
    exact goerg_le_target_iff m.rho q k hrho hq (by positivity)
  exact le_antisymm ((key n).1 le_rfl) ((key _).2 le_rfl)

/-- C59 (b): above that, and for a model fitted to zero reach, it raises `OverflowError`. -/
theorem C59_goerg_quantile_overflow (data : List ReachPoint) (m : GoergModel)
    (hm : GoergModel.new data = .ok m) (q : ℚ) (hq : 0 < q ∧ q < 1)
    (h : m.reach = 0 ∨ (0 < m.reach ∧ 2 ^ 60 ≤ m.maxReach * q / (1 - q))) :
    m.impressionsAtReachQuantile q = .error .overflowError := by
  rcases h with hr | ⟨hr, hbound⟩
  · obtain ⟨d0, i, r, h1, h2, h3, h4, h5, h6, h7, h8, h9, h10⟩ := (goerg_new_ok_iff _ m).1 hm
    have hr0 : r = 0 := by rw [← h7, hr]
    have hrho : m.rho = 0 := by rw [h8, hr0]; simp
    -- the search never evaluates the curve at zero
    have hloop : ∀ d niter lower upper : Nat, niter + d = 60 → 0 < upper →
        ReachCurve.doublingLoop
          (fun n : Nat => (do let r ← m.byImpressions [(n : ℚ)]; r.reach 1 : Except PyErr ℚ))
          (m.maxReach * q) lower upper niter = .error .overflowError := by
      intro d
      induction d with
      | zero =>
        intro niter lower upper hd hu
        obtain ⟨pt, p1, p2⟩ := (C28_zero_reach data m hm hr 1 le_rfl).2 (upper : ℚ)
          (by exact_mod_cast hu)
        have p1' : m.byImpressions [(upper : ℚ)] = .ok pt := p1
        have p2' : pt.reach 1 = .ok 0 := p2 1 le_rfl le_rfl
        unfold ReachCurve.doublingLoop
        rw [p1']
        simp only [bind, Except.bind, p2']
        rw [if_pos (by simp [GoergModel.maxReach, hrho]), dif_pos (by omega)]
      | succ d ih =>
        intro niter lower upper hd hu
        obtain ⟨pt, p1, p2⟩ := (C28_zero_reach data m hm hr 1 le_rfl).2 (upper : ℚ)
          (by exact_mod_cast hu)
        have p1' : m.byImpressions [(upper : ℚ)] = .ok pt := p1
        have p2' : pt.reach 1 = .ok 0 := p2 1 le_rfl le_rfl
        unfold ReachCurve.doublingLoop
        rw [p1']
        simp only [bind, Except.bind, p2']
        rw [if_pos (by simp [GoergModel.maxReach, hrho]), dif_neg (by omega)]
        exact ih _ _ _ (by omega) (by omega)
    unfold GoergModel.impressionsAtReachQuantile ReachCurve.byQuantile
    rw [if_neg (by simpa using hq), hloop 60 0 0 1 rfl one_pos]
    rfl
  · obtain ⟨hrho, hb⟩ := goerg_rho_pos data m hm hr
    unfold GoergModel.impressionsAtReachQuantile
    rw [goerg_reachAt data m hm hr]
    unfold GoergModel.maxReach at hbound ⊢
    have hf : Monotone (fun n : Nat => m.rho * ((n : ℚ) / (n + m.rho))) := fun a b hab =>
      mul_le_mul_of_nonneg_left (goerg_ratio_mono m.rho a b hrho (by positivity)
        (by exact_mod_cast hab)) hrho.le
    have h0 : (fun n : Nat => m.rho * ((n : ℚ) / (n + m.rho))) 0 ≤ m.rho * q := by
      simp only [Nat.cast_zero, zero_div, mul_zero]
      exact mul_nonneg hrho.le hq.1.le
    refine (C26_monotone_curve _ hf m.rho q hq h0).2.1 ?_
    refine (goerg_le_target_iff m.rho q _ hrho hq (by positivity)).2 ?_
    push_cast
    exact hbound

/-- 80% of the 25 reachable people need 100 impressions. -/
example : exGoerg.impressionsAtReachQuantile (4 / 5) = .ok 100 ∧
    exGoerg.maxReach * (4 / 5) / (1 - 4 / 5) = 100 := by
  refine ⟨by decide +kernel, by decide +kernel⟩

/-! ## C42 -/

theorem sum_single {α : Type} (g : Log → α → Nat) (z x : α) :
    ∀ (logs : List Log) (i : Nat) (hi : i < logs.length),
      (∀ j (hj : j < logs.length), j ≠ i → g logs[j] z = 0) →
      ((logs.zip ((List.replicate logs.length z).modify i (fun _ => x))).map
        (fun lx => g lx.1 lx.2)).sum = g logs[i] x := by
  intro logs
  induction logs with
  | nil => intro i hi; simp at hi
  | cons log logs ih =>
    intro i hi hz
    cases i with
    | zero =>
      simp only [List.length_cons, List.replicate_succ, List.modify_zero_cons, List.zip_cons_cons,
        List.map_cons, List.sum_cons, List.getElem_cons_zero]
      have : ((logs.zip (List.replicate logs.length z)).map (fun lx => g lx.1 lx.2)).sum = 0 := by
        rw [List.sum_eq_zero_iff]
        intro y hy
        obtain ⟨⟨l, a⟩, hla, rfl⟩ := List.mem_map.1 hy
        obtain ⟨j, hj, hje⟩ := List.getElem_of_mem hla
        simp only [List.length_zip, List.length_replicate, min_self] at hj
        rw [List.getElem_zip, Prod.mk.injEq, List.getElem_replicate] at hje
        obtain ⟨rfl, rfl⟩ := hje
        exact hz (j + 1) (by simpa using hj) (by omega)
      rw [this]; simp
    | succ i =>
      simp only [List.length_cons, List.replicate_succ, List.modify_succ_cons, List.zip_cons_cons,
        List.map_cons, List.sum_cons, List.getElem_cons_succ]
      rw [ih i (by simpa using hi) (fun j hj hne => by
        have := hz (j + 1) (by simpa using hj) (by omega)
        simpa using this)]
      have := hz 0 (by simp) (by omega)
      simp only [List.getElem_cons_zero] at this
      omega

theorem groundTruth_new {ds : DataSet} {logs : List Log} (hb : List.Forall₂ Built logs ds.data)
    (i : Nat) (hi : i < logs.length) :
    ∃ m, GroundTruthCurve.new ds i = .ok m ∧ m.dataSet = ds ∧ m.publisherIndex = i ∧
      m.maxReach = (users logs[i]).ncard := by
  have hlen := hb.length_eq
  refine ⟨_, by unfold GroundTruthCurve.new; rw [pyIndex_nat _ _ (by omega)]; rfl, rfl, rfl, ?_⟩
  have hbi := (List.forall₂_iff_get.1 hb).2 i hi (by omega)
  simp only [List.get_eq_getElem] at hbi
  obtain ⟨nm, rnd, hnew⟩ := hbi
  obtain ⟨mx, _, hp⟩ := (new_ok_iff _ _ _ _).1 hnew
  rw [hp]
  simp only
  rw [lenSet_eq_ncard]
  congr 1
  ext u
  simp [users]

theorem pyModify_replicate {α : Type} (n i : Nat) (hi : i < n) (z : α) (f : α → α) :
    pyModify (List.replicate n z) (i : Int) f = .ok ((List.replicate n z).modify i f) := by
  unfold pyModify
  have : ¬ ((i : Int) < 0) := by omega
  simp [this, hi]

/-- C42 (a): the ground-truth curve of publisher `i` at `n` impressions reports the k+ reaches of
that publisher's own log alone, and its maximum reach is the number of that publisher's users. -/
theorem C42_by_impressions (ds : DataSet) (logs : List Log)
    (hb : List.Forall₂ Built logs ds.data) (i : Nat) (hi : i < logs.length) (n F : Nat)
    (hF : 1 ≤ F) :
    ∃ m r, GroundTruthCurve.new ds i = .ok m ∧ m.maxReach = (users logs[i]).ncard ∧
      m.byImpressions [(n : Int)] F = .ok r ∧ r.maxFrequency = F ∧
      ∀ k : Nat, 1 ≤ k → k ≤ F →
        r.reach k = .ok (kPlusReach (exposuresAtImpressions logs[i] n) k : ℚ) := by
  obtain ⟨m, hm, hds, hidx, hmax⟩ := groundTruth_new hb i hi
  have hlen := hb.length_eq
  obtain ⟨r, h1, _, h2, h3, _⟩ := C07_reach_by_impressions ds logs hb
    ((List.replicate logs.length 0).modify i (fun _ => n)) (by simp) F hF
  refine ⟨m, r, hm, hmax, ?_, h2, ?_⟩
  · unfold GroundTruthCurve.byImpressions
    simp only [hds, hidx]
    rw [pyModify_replicate _ _ (by unfold DataSet.publisherCount; omega)]
    have : (List.replicate ds.publisherCount (0 : Int)).modify i (fun _ => (n : Int))
        = ((List.replicate logs.length 0).modify i (fun _ => n)).map (fun n : Nat => (n : Int)) := by
      unfold DataSet.publisherCount
      rw [← hlen]
      apply List.ext_getElem (by simp)
      intro j h1 h2
      simp only [List.getElem_map, List.getElem_modify, List.getElem_replicate]
      split <;> simp
    rw [this]
    exact h1
  · intro k hk1 hk2
    rw [h3 k hk1 hk2]
    congr 3
    funext u
    unfold totalAtImpressions
    exact sum_single (fun l n => exposuresAtImpressions l n u) 0 n logs i hi
      (fun j hj _ => exposuresAtImpressions_zero _ _)

/-- The full claim for spends. -/
def C42_by_spend_full : Prop :=
  ∀ (ds : DataSet) (logs : List Log), List.Forall₂ Built logs ds.data →
    ∀ (i : Nat) (hi : i < logs.length) (s : ℚ) (F : Nat), 1 ≤ F →
    ∃ m r, GroundTruthCurve.new ds i = .ok m ∧ m.bySpend [s] F = .ok r ∧
      ∀ k : Nat, 1 ≤ k → k ≤ F → r.reach k = .ok (kPlusReach (exposuresAtSpend logs[i] s) k : ℚ)

/-- Two publishers, the second of which has a free impression. -/
def exFreeLogs : List Log := [[(1, 1)], [(2, 0)]]

def exFreeDataSet : DataSet :=
  { data := [{ data := [(1, 1)], spends := [1], maxSpend := 1, maxReach := 1, name := "a" },
             { data := [(2, 0)], spends := [0], maxSpend := 0, maxReach := 1, name := "b" }],
    maximumReach := 2, name := "free", universeSize := 4 }

/-- The full claim is false: a free impression at another publisher is counted although nothing
is spent there (ground_truth_reach_curve_model.py:69-71 with publisher_data.py:155). -/
theorem C42_by_spend_full_is_false : ¬ C42_by_spend_full := by
  intro h
  obtain ⟨m, r, hm, hr, hk⟩ := h exFreeDataSet exFreeLogs
    (List.Forall₂.cons ⟨"a", "", by decide +kernel⟩
      (List.Forall₂.cons ⟨"b", "", by decide +kernel⟩ List.Forall₂.nil)) 0 (by decide) 1 1 le_rfl
  have h1 := hk 1 le_rfl le_rfl
  have hset : {u | 1 ≤ exposuresAtSpend (exFreeLogs[0]'(by decide)) 1 u} = {1} := by
    ext u
    by_cases hu : u = 1 <;> simp [exposuresAtSpend, exFreeLogs, hu, eq_comm]
  unfold kPlusReach at h1
  rw [hset, Set.ncard_singleton] at h1
  have hm' : GroundTruthCurve.new exFreeDataSet 0 = .ok ⟨exFreeDataSet, 0, 1⟩ := by rfl
  have : m = ⟨exFreeDataSet, 0, 1⟩ := by
    have := hm.symm.trans hm'
    simpa using this
  subst this
  have hr' : (GroundTruthCurve.bySpend ⟨exFreeDataSet, 0, 1⟩ [1] 1).bind (·.reach 1) = .ok 2 := by
    decide +kernel
  have hr2 : GroundTruthCurve.bySpend ⟨exFreeDataSet, 0, 1⟩ [1] 1 = .ok r := hr
  rw [hr2] at hr'
  simp only [Except.bind] at hr'
  have h1' : r.reach 1 = .ok ((1 : Nat) : ℚ) := h1
  rw [h1'] at hr'
  simp at hr'

/-- C42 (b), partial: if no *other* publisher has free impressions, the ground-truth curve of
publisher `i` at spend `s` reports the k+ reaches of that publisher's own log alone.  Missing:
data sets in which another publisher has impressions of cost zero or less. -/
theorem C42_by_spend_partial (ds : DataSet) (logs : List Log)
    (hb : List.Forall₂ Built logs ds.data) (i : Nat) (hi : i < logs.length)
    (hpos : ∀ j (hj : j < logs.length), j ≠ i → ∀ e ∈ logs[j], 0 < e.2)
    (s : ℚ) (F : Nat) (hF : 1 ≤ F) :
    ∃ m r, GroundTruthCurve.new ds i = .ok m ∧ m.bySpend [s] F = .ok r ∧ r.maxFrequency = F ∧
      ∀ k : Nat, 1 ≤ k → k ≤ F →
        r.reach k = .ok (kPlusReach (exposuresAtSpend logs[i] s) k : ℚ) := by
  obtain ⟨m, hm, hds, hidx, hmax⟩ := groundTruth_new hb i hi
  have hlen := hb.length_eq
  obtain ⟨r, h1, _, _, h2, h3, _⟩ := C08_reach_by_spend ds logs hb
    ((List.replicate logs.length 0).modify i (fun _ => s)) (by simp) F hF
  refine ⟨m, r, hm, ?_, h2, ?_⟩
  · unfold GroundTruthCurve.bySpend
    simp only [hds, hidx]
    rw [pyModify_replicate _ _ (by unfold DataSet.publisherCount; omega)]
    unfold DataSet.publisherCount
    rw [← hlen]
    exact h1
  · intro k hk1 hk2
    rw [h3 k hk1 hk2]
    congr 3
    funext u
    unfold totalAtSpend
    refine sum_single (fun l s => exposuresAtSpend l s u) 0 s logs i hi ?_
    intro j hj hne
    unfold exposuresAtSpend
    rw [List.countP_eq_zero]
    intro e he
    have := hpos j hj hne e he
    simp only [decide_eq_true_eq, not_and, not_le]
    exact fun _ => this

/-- C42 (c): errors: a publisher index out of range is an `IndexError`, a vector that does not
have exactly one entry a `ValueError`. -/
theorem C42_errors (ds : DataSet) (i : Nat) (hi : ds.publisherCount ≤ i) :
    GroundTruthCurve.new ds i = .error .indexError ∧
    ∀ (m : GroundTruthCurve) (v : List Int) (w : List ℚ) (F : Int), v.length ≠ 1 → w.length ≠ 1 →
      m.byImpressions v F = .error .valueError ∧ m.bySpend w F = .error .valueError := by
  constructor
  · unfold GroundTruthCurve.new pyIndex
    have : ¬ ((i : Int) < 0) := by omega
    simp only [this, if_false, Int.toNat_natCast]
    rw [List.getElem?_eq_none hi]
    rfl
  · intro m v w F hv hw
    constructor
    · rcases v with _ | ⟨a, _ | ⟨b, l⟩⟩ <;> simp_all [GroundTruthCurve.byImpressions]
    · rcases w with _ | ⟨a, _ | ⟨b, l⟩⟩ <;> simp_all [GroundTruthCurve.bySpend]

/-- C42 (d): on the ground truth curve the quantile search never overflows for logs of at most
`2^60` impressions: it returns the largest impression count at which the true reach does not
exceed the target. -/
theorem C42_quantile (ds : DataSet) (logs : List Log)
    (hb : List.Forall₂ Built logs ds.data) (i : Nat) (hi : i < logs.length)
    (hsize : logs[i].length ≤ 2 ^ 60) (q : ℚ) (hq : 0 < q ∧ q < 1) :
    ∃ m n, GroundTruthCurve.new ds i = .ok m ∧ m.impressionsAtReachQuantile q = .ok n ∧
      ∀ j : Nat, (kPlusReach (exposuresAtImpressions logs[i] j) 1 : ℚ) ≤
          ((users logs[i]).ncard : ℚ) * q ↔ j ≤ n := by
  obtain ⟨m, hm, hds, hidx, hmax⟩ := groundTruth_new hb i hi
  have hfun : (fun n : Nat => (do let r ← m.byImpressions [(n : Int)]; r.reach 1 : Except PyErr ℚ))
      = fun n : Nat => .ok (kPlusReach (exposuresAtImpressions logs[i] n) 1 : ℚ) := by
    funext n
    obtain ⟨m', r, hm', _, h1, _, h2⟩ := C42_by_impressions ds logs hb i hi n 1 le_rfl
    have : m = m' := by
      have := hm.symm.trans hm'
      simpa using this
    subst this
    have h1' : m.byImpressions [(n : Int)] = .ok r := h1
    rw [h1']
    exact h2 1 le_rfl le_rfl
  have hne : logs[i] ≠ [] := by
    have hlen := hb.length_eq
    have hbi := (List.forall₂_iff_get.1 hb).2 i hi (by omega)
    exact hbi.ne_nil
  have hfin : (users logs[i]).Finite := by
    refine (allUsers_finite logs).subset ?_
    intro u hu
    exact ⟨logs[i], List.getElem_mem _, hu⟩
  have hmem : ∀ n u, 1 ≤ exposuresAtImpressions logs[i] n u → u ∈ users logs[i] :=
    fun n u h => exposuresAtImpressions_mem _ _ _ h
  have hmono : Monotone (fun n : Nat =>
      (kPlusReach (exposuresAtImpressions logs[i] n) 1 : ℚ)) := by
    intro a b hab
    have := kPlusReach_mono_total _ _ _ hfin (hmem b)
      (fun u => exposuresAtImpressions_mono logs[i] hab u) 1 le_rfl
    exact Nat.cast_le.2 this
  have hzero : kPlusReach (exposuresAtImpressions logs[i] 0) 1 = 0 := by
    unfold kPlusReach
    simp [exposuresAtImpressions_zero]
  have hcard : 0 < (users logs[i]).ncard := by
    rw [Set.ncard_pos hfin]
    obtain ⟨e, he⟩ := List.exists_mem_of_ne_nil _ hne
    exact ⟨e.1, e, he, rfl⟩
  have hall : kPlusReach (exposuresAtImpressions logs[i] (2 ^ 60)) 1 = (users logs[i]).ncard := by
    unfold kPlusReach
    congr 1
    ext u
    simp only [Set.mem_ofPred_eq]
    refine ⟨hmem _ u, ?_⟩
    rintro ⟨e, he, rfl⟩
    rw [← take_sort_count, List.take_of_length_le
      (by rw [(sortBySpend_perm logs[i]).length_eq]; exact hsize), Nat.one_le_iff_ne_zero,
      ← Nat.pos_iff_ne_zero, List.count_pos_iff]
    exact List.mem_map.2 ⟨e, (sortBySpend_perm _).mem_iff.2 he, rfl⟩
  have hcardQ : (0 : ℚ) < (users logs[i]).ncard := by exact_mod_cast hcard
  have h0 : (fun n : Nat => (kPlusReach (exposuresAtImpressions logs[i] n) 1 : ℚ)) 0 ≤
      ((users logs[i]).ncard : ℚ) * q := by
    simp only [hzero, Nat.cast_zero]
    exact mul_nonneg hcardQ.le hq.1.le
  obtain ⟨n, hn, hn'⟩ := (C26_monotone_curve _ hmono _ q hq h0).1 (by
    rw [hall]
    nlinarith [hq.2])
  refine ⟨m, n, hm, ?_, hn'⟩
  unfold GroundTruthCurve.impressionsAtReachQuantile
  rw [hfun, hmax]
  exact hn

example : (((GroundTruthCurve.new exDataSet 0).bind (·.byImpressions [2] 2)).toOption.map
    (·.kplusReaches)) = some [2, 0] := by decide +kernel

example : (((GroundTruthCurve.new exDataSet 1).bind (·.bySpend [1] 2)).toOption.map
    (·.kplusReaches)) = some [2, 0] ∧ ∀ e ∈ exLogs[0], 0 < e.2 := by
  constructor <;> decide +kernel

example : (GroundTruthCurve.new exDataSet 0).bind (·.impressionsAtReachQuantile (1 / 2))
    = .ok 1 := by decide +kernel

/-- C42 (e), partial: on the ground truth curve the quantile search by spend returns the largest
whole spend at which the true reach does not exceed the target, if no impression costs more than
`2^60` and free impressions do not already reach more than the target.  Missing: as in (b), data sets
in which another publisher has impressions of cost zero or less. -/
theorem C42_spend_quantile_partial (ds : DataSet) (logs : List Log)
    (hb : List.Forall₂ Built logs ds.data) (i : Nat) (hi : i < logs.length)
    (hpos : ∀ j (hj : j < logs.length), j ≠ i → ∀ e ∈ logs[j], 0 < e.2)
    (hsize : ∀ e ∈ logs[i], e.2 ≤ 2 ^ 60) (q : ℚ) (hq : 0 < q ∧ q < 1)
    (hfree : (kPlusReach (exposuresAtSpend logs[i] 0) 1 : ℚ) ≤ ((users logs[i]).ncard : ℚ) * q) :
    ∃ m n, GroundTruthCurve.new ds i = .ok m ∧ m.spendAtReachQuantile q = .ok n ∧
      ∀ j : Nat, (kPlusReach (exposuresAtSpend logs[i] j) 1 : ℚ) ≤
          ((users logs[i]).ncard : ℚ) * q ↔ j ≤ n := by
  obtain ⟨m, hm, hds, hidx, hmax⟩ := groundTruth_new hb i hi
  have hfun : (fun n : Nat => (do let r ← m.bySpend [(n : ℚ)]; r.reach 1 : Except PyErr ℚ))
      = fun n : Nat => .ok (kPlusReach (exposuresAtSpend logs[i] n) 1 : ℚ) := by
    funext n
    obtain ⟨m', r, hm', h1, _, h2⟩ := C42_by_spend_partial ds logs hb i hi hpos n 1 le_rfl
    have : m = m' := by
      have := hm.symm.trans hm'
      simpa using this
    subst this
    have h1' : m.bySpend [(n : ℚ)] = .ok r := h1
    rw [h1']
    exact h2 1 le_rfl le_rfl
  have hne : logs[i] ≠ [] := by
    have hlen := hb.length_eq
    have hbi := (List.forall₂_iff_get.1 hb).2 i hi (by omega)
    exact hbi.ne_nil
  have hfin : (users logs[i]).Finite := by
    refine (allUsers_finite logs).subset ?_
    intro u hu
    exact ⟨logs[i], List.getElem_mem _, hu⟩
  have hmem : ∀ (n : Nat) u, 1 ≤ exposuresAtSpend logs[i] n u → u ∈ users logs[i] :=
    fun n u h => exposuresAtSpend_mem _ _ _ h
  have hmono : Monotone (fun n : Nat =>
      (kPlusReach (exposuresAtSpend logs[i] n) 1 : ℚ)) := by
    intro a b hab
    have := kPlusReach_mono_total _ _ _ hfin (hmem b)
      (fun u => exposuresAtSpend_mono logs[i] (s := (a : ℚ)) (by exact_mod_cast hab) u) 1 le_rfl
    exact Nat.cast_le.2 this
  have hcard : 0 < (users logs[i]).ncard := by
    rw [Set.ncard_pos hfin]
    obtain ⟨e, he⟩ := List.exists_mem_of_ne_nil _ hne
    exact ⟨e.1, e, he, rfl⟩
  have hall : kPlusReach (exposuresAtSpend logs[i] ((2 ^ 60 : Nat) : ℚ)) 1 =
      (users logs[i]).ncard := by
    unfold kPlusReach
    congr 1
    ext u
    simp only [Set.mem_ofPred_eq]
    refine ⟨hmem _ u, ?_⟩
    rintro ⟨e, he, rfl⟩
    unfold exposuresAtSpend
    rw [Nat.one_le_iff_ne_zero, ← Nat.pos_iff_ne_zero, List.countP_pos_iff]
    refine ⟨e, he, ?_⟩
    have := hsize e he
    simp only [decide_eq_true_eq, true_and]
    exact_mod_cast this
  have hcardQ : (0 : ℚ) < (users logs[i]).ncard := by exact_mod_cast hcard
  obtain ⟨n, hn, hn'⟩ := (C26_monotone_curve _ hmono _ q hq (by simpa using hfree)).1 (by
    rw [hall]
    nlinarith [hq.2])
  refine ⟨m, n, hm, ?_, hn'⟩
  unfold GroundTruthCurve.spendAtReachQuantile
  rw [hfun, hmax]
  exact hn

example : (GroundTruthCurve.new exDataSet 0).bind (·.spendAtReachQuantile (1 / 2)) = .ok 1 ∧
    (∀ e ∈ exLogs[0], e.2 ≤ 2 ^ 60) ∧ ∀ e ∈ exLogs[1], 0 < e.2 := by decide +kernel

/-- C28: a query to Goerg's model for any number of publishers other than one is refused. -/
theorem C28_refused (m : GoergModel) (xs : List ℚ) (h : xs.length ≠ 1) (F : Int) :
    m.byImpressions xs F = .error .valueError ∧ m.bySpend xs F = .error .valueError := by
  have hs : m.bySpend xs F = .error .valueError := by
    unfold GoergModel.bySpend
    cases m.truthyCpi with
    | none => rfl
    | some c =>
      match xs, h with
      | [], _ => rfl
      | _ :: _ :: _, _ => rfl
  refine ⟨?_, hs⟩
  match xs, h with
  | [], _ => rfl
  | _ :: _ :: _, _ => rfl

example : ([3, 4] : List ℚ).length ≠ 1 := by decide

end Verif
