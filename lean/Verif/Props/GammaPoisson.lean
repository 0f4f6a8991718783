import Verif.Model.GammaPoisson
import Verif.Lemmas.Thinning
import Verif.Props.ReachCurve
import Verif.Props.KInflatedFit

/-!
# C54, C74-C76: the gamma-Poisson model
-/

namespace Verif

open Finset GammaPoisson

/-! ## C54 -/

/-- Probability that a user sees at least `k` impressions, if the inventory of a user is distributed
according to `g`, cut off after `M` impressions, and every impression is shown with probability `p`
(specification). -/
def seenAtLeast (M : Nat) (g : Nat → ℚ) (k : Nat) (p : ℚ) : ℚ :=
  ∑ n ∈ Finset.Icc 1 M, g n * binTail n k p

/-- The share of the inventory that is shown (specification): never the whole inventory. -/
def gpShare (I Imax : ℚ) : ℚ := min I (Imax - 1) / Imax

theorem sum_Icc_one' (g : Nat → ℚ) (m : Nat) :
    ∑ n ∈ Finset.Icc 1 m, g n = ∑ i ∈ Finset.range m, g (i + 1) := by
  rw [sum_Icc_one]
  exact Finset.sum_congr rfl (fun i _ => by rw [add_comm])

theorem inventoryPmf_length (M : Nat) (gp : ℚ → ℚ → Nat → ℚ) (alpha beta : ℚ) :
    (inventoryPmf M gp alpha beta).length = M + 1 := by simp [inventoryPmf]

theorem inventoryPmf_succ (M : Nat) (gp : ℚ → ℚ → Nat → ℚ) (alpha beta : ℚ) {i : Nat} (h : i < M) :
    (inventoryPmf M gp alpha beta).getD (i + 1) 0 = gp alpha beta (i + 1) := by
  unfold inventoryPmf
  rw [List.getD_cons_succ, List.getD_eq_getElem _ _ (by simpa using h), List.getElem_map,
    List.getElem_range']
  congr 1
  omega

theorem shownAtLeast_inventory (M : Nat) (gp : ℚ → ℚ → Nat → ℚ) (alpha beta : ℚ) (k : Nat) (p : ℚ) :
    shownAtLeast (inventoryPmf M gp alpha beta) k p = seenAtLeast M (gp alpha beta) k p := by
  unfold shownAtLeast seenAtLeast
  rw [inventoryPmf_length, Finset.sum_range_succ', sum_Icc_one']
  have : (inventoryPmf M gp alpha beta).getD 0 0 = 0 := rfl
  rw [this, zero_mul, add_zero]
  apply Finset.sum_congr rfl
  intro i hi
  rw [inventoryPmf_succ M gp alpha beta (Finset.mem_range.1 hi)]

theorem inventoryPmf_nonneg {M : Nat} {gp : ℚ → ℚ → Nat → ℚ} {alpha beta : ℚ}
    (hg : IsTail (gp alpha beta)) : ∀ x ∈ inventoryPmf M gp alpha beta, 0 ≤ x := by
  intro x hx
  unfold inventoryPmf at hx
  rcases List.mem_cons.1 hx with rfl | h
  · exact le_refl _
  · obtain ⟨n, hn, rfl⟩ := List.mem_map.1 h
    exact hg.1 n (List.mem_range'_1.1 hn).1

theorem inventoryPmf_sum (M : Nat) (gp : ℚ → ℚ → Nat → ℚ) (alpha beta : ℚ) :
    (inventoryPmf M gp alpha beta).sum = ∑ n ∈ Finset.Icc 1 M, gp alpha beta n := by
  unfold inventoryPmf
  rw [List.sum_cons, zero_add, list_sum_range', sum_Icc_one]

theorem seenAtLeast_end (M : Nat) (g : Nat → ℚ) (p : ℚ) : seenAtLeast M g (M + 1) p = 0 := by
  unfold seenAtLeast
  apply Finset.sum_eq_zero
  intro n hn
  rw [binTail_of_lt (by have := (Finset.mem_Icc.1 hn).2; omega), mul_zero]

theorem gpShare_bounds {I Imax : ℚ} (hI : 0 ≤ I) (hmax : 1 ≤ Imax) :
    0 ≤ gpShare I Imax ∧ gpShare I Imax < 1 := by
  have h0 : 0 < Imax := by linarith
  unfold gpShare
  refine ⟨div_nonneg (le_min hI (by linarith)) h0.le, ?_⟩
  rw [div_lt_one h0]
  exact lt_of_le_of_lt (min_le_right _ _) (by linarith)

theorem gp_servedShare {I Imax : ℚ} (hI : 0 ≤ I) (hmax : 1 ≤ Imax) :
    GammaPoisson.servedShare I Imax = some (gpShare I Imax) := by
  have h := gpShare_bounds hI hmax
  unfold GammaPoisson.servedShare
  rw [if_neg (by linarith)]
  simp only
  rw [if_pos (show _ from ⟨h.1, h.2.le⟩)]
  rfl

theorem kplus_telescope (f : Nat → ℚ) (m c : Nat) (h : f (m + c) = 0) :
    kplusFromHist ((List.range' m c).map (fun k => f k - f (k + 1))) = (List.range' m c).map f := by
  have ht := kplusFromHist_telescope f m c
  rw [h] at ht
  have hz : ∀ l : List ℚ, kplusFromHist (l ++ [0]) = kplusFromHist l ++ [0] := by
    intro l
    induction l with
    | nil => simp [kplusFromHist, npCumsum]
    | cons a l ih => rw [List.cons_append, kplusFromHist_cons, ih, kplusFromHist_cons]; simp
  rw [hz, List.range'_concat, List.map_append] at ht
  exact (List.append_inj' ht rfl).1

/-- The list of all k+ reaches. -/
theorem gp_predict (M : Nat) (gp : ℚ → ℚ → Nat → ℚ) (N Imax alpha beta I : ℚ) (hI : 0 ≤ I)
    (hmax : 1 ≤ Imax) :
    GammaPoisson.predict M gp N Imax alpha beta I = .ok (some ((List.range' 1 M).map (fun k =>
      N * seenAtLeast M (gp alpha beta) k (gpShare I Imax)))) := by
  unfold GammaPoisson.predict
  rw [gp_servedShare hI hmax]
  simp only [expectedHistogram, kreach_range', bind, Except.bind, pure, Except.pure]
  congr 2
  rw [List.map_map]
  have hm : (List.range' 1 M).map ((fun x => N * x) ∘
      fun k => shownExactly (inventoryPmf M gp alpha beta) k (gpShare I Imax)) =
      (List.range' 1 M).map (fun k =>
        N * seenAtLeast M (gp alpha beta) k (gpShare I Imax) -
        N * seenAtLeast M (gp alpha beta) (k + 1) (gpShare I Imax)) := by
    apply List.map_congr_left
    intro k _
    simp only [Function.comp_apply]
    rw [shownExactly_eq, shownAtLeast_inventory, shownAtLeast_inventory]; ring
  rw [hm]
  refine kplus_telescope (fun k => N * seenAtLeast M (gp alpha beta) k (gpShare I Imax)) 1 M ?_
  rw [add_comm, seenAtLeast_end, mul_zero]

/-- A fitted model with at least one impression in the inventory. -/
structure GpFit (m : GammaPoisson.Model) (N Imax alpha beta : ℚ) : Prop where
  params : m.params = some (Imax, alpha, beta)
  maxReach : m.maxReach = some N
  one_le : 1 ≤ Imax

theorem gp_toPoint (m : GammaPoisson.Model) (I : ℚ) (F : Int) (l : List ℚ) :
    ∃ p, m.toPoint I F (some l) = .ok (some p) ∧ p.impressions = [I] ∧
      p.kplusReaches = pySliceTo l F := by
  unfold GammaPoisson.Model.toPoint
  simp only
  split
  · exact ⟨_, rfl, rfl, rfl⟩
  · exact ⟨_, rfl, rfl, rfl⟩

/-- **C54 (formula).** For every fitted model and non-negative number of impressions, the predicted
k+ reach is the population times the probability of seeing at least `k` impressions. -/
theorem C54_formula (M : Nat) (gp : ℚ → ℚ → Nat → ℚ) (m : GammaPoisson.Model)
    (N Imax alpha beta : ℚ) (hm : GpFit m N Imax alpha beta) (I : ℚ) (hI : 0 ≤ I) (F : Nat) :
    ∃ p, m.byImpressions M gp [I] F = .ok (some p) ∧ p.impressions = [I] ∧
      p.kplusReaches.length = min F M ∧ ∀ k, k < min F M → p.kplusReaches[k]? =
        some (N * seenAtLeast M (gp alpha beta) (k + 1) (gpShare I Imax)) := by
  obtain ⟨p, h1, h2, h3⟩ := gp_toPoint m I F ((List.range' 1 M).map (fun k =>
      N * seenAtLeast M (gp alpha beta) k (gpShare I Imax)))
  have h4 : ((F : Int) < 0) = False := by simp
  have h5 : p.kplusReaches = ((List.range' 1 M).map (fun k =>
      N * seenAtLeast M (gp alpha beta) k (gpShare I Imax))).take F := by
    rw [h3]
    unfold pySliceTo
    rw [if_neg (by omega), Int.toNat_natCast]
  refine ⟨p, ?_, h2, ?_, ?_⟩
  · unfold GammaPoisson.Model.byImpressions
    simp only [hm.params, hm.maxReach, gp_predict M gp N Imax alpha beta I hI hm.one_le, bind,
      Except.bind]
    exact h1
  · rw [h5]; simp
  · intro k hk
    rw [h5, List.getElem?_take_of_lt (by omega), List.getElem?_map, List.getElem?_range' (by omega)]
    simp only [Option.map_some, one_mul]
    rw [add_comm 1 k]

/-- **C54 (coherence).** Predicted k+ reaches are non-negative, do not increase with `k`, and do not
exceed the population. -/
theorem C54_coherent (M : Nat) (gp : ℚ → ℚ → Nat → ℚ) (m : GammaPoisson.Model)
    (N Imax alpha beta : ℚ) (hm : GpFit m N Imax alpha beta) (hN : 0 ≤ N)
    (hg : IsTail (gp alpha beta)) (I : ℚ) (hI : 0 ≤ I) (F : Nat) :
    ∃ p, m.byImpressions M gp [I] F = .ok (some p) ∧
      p.kplusReaches.Pairwise (fun x y => y ≤ x) ∧ ∀ x ∈ p.kplusReaches, 0 ≤ x ∧ x ≤ N := by
  obtain ⟨p, h1, -, h2, h3⟩ := C54_formula M gp m N Imax alpha beta hm I hI F
  obtain ⟨b0, b1⟩ := gpShare_bounds hI hm.one_le
  refine ⟨p, h1, ?_, ?_⟩
  · rw [List.pairwise_iff_getElem]
    intro i j hi hj hij
    have e1 := h3 i (by omega)
    have e2 := h3 j (by omega)
    rw [List.getElem?_eq_getElem hi] at e1
    rw [List.getElem?_eq_getElem hj] at e2
    rw [Option.some.inj e1, Option.some.inj e2]
    apply mul_le_mul_of_nonneg_left _ hN
    rw [← shownAtLeast_inventory, ← shownAtLeast_inventory]
    exact shownAtLeast_antitone (inventoryPmf_nonneg hg) b0 b1.le (by omega)
  · intro x hx
    obtain ⟨i, hi, rfl⟩ := List.getElem_of_mem hx
    have e1 := h3 i (by omega)
    rw [List.getElem?_eq_getElem hi] at e1
    rw [Option.some.inj e1]
    have hs := shownAtLeast_le_sum (inventoryPmf_nonneg (M := M) hg) b0 b1.le (i + 1)
    rw [inventoryPmf_sum, shownAtLeast_inventory] at hs
    have hn := shownAtLeast_nonneg (inventoryPmf_nonneg (M := M) hg) b0 b1.le (i + 1)
    rw [shownAtLeast_inventory] at hn
    refine ⟨mul_nonneg hN hn, ?_⟩
    have := hg.2 M
    nlinarith

/-- **C54 (requested frequencies).** Asking for more frequencies only adds entries. -/
theorem C54_max_frequency (M : Nat) (gp : ℚ → ℚ → Nat → ℚ) (m : GammaPoisson.Model)
    (N Imax alpha beta : ℚ) (hm : GpFit m N Imax alpha beta) (I : ℚ) (hI : 0 ≤ I) (F F' : Nat)
    (hF : F ≤ F') :
    ∃ p p', m.byImpressions M gp [I] F = .ok (some p) ∧
      m.byImpressions M gp [I] F' = .ok (some p') ∧
      p.kplusReaches = p'.kplusReaches.take F := by
  obtain ⟨p, h1, -, h2, h3⟩ := C54_formula M gp m N Imax alpha beta hm I hI F
  obtain ⟨p', h1', -, h2', h3'⟩ := C54_formula M gp m N Imax alpha beta hm I hI F'
  refine ⟨p, p', h1, h1', ?_⟩
  apply List.ext_getElem?
  intro k
  by_cases hk : k < min F M
  · rw [h3 k hk, List.getElem?_take_of_lt (by omega), h3' k (by omega)]
  · rw [List.getElem?_eq_none (by omega), List.getElem?_eq_none (by rw [List.length_take]; omega)]

/-- **C54 (monotone).** More impressions never lower a predicted k+ reach, and beyond one impression
less than the inventory nothing changes. -/
theorem C54_monotone (M : Nat) (gp : ℚ → ℚ → Nat → ℚ) (m : GammaPoisson.Model)
    (N Imax alpha beta : ℚ) (hm : GpFit m N Imax alpha beta) (hN : 0 ≤ N)
    (hg : IsTail (gp alpha beta)) (I I' : ℚ) (hI : 0 ≤ I) (hII : I ≤ I') (F : Nat) :
    ∃ p p', m.byImpressions M gp [I] F = .ok (some p) ∧
      m.byImpressions M gp [I'] F = .ok (some p') ∧
      List.Forall₂ (· ≤ ·) p.kplusReaches p'.kplusReaches ∧
      (Imax - 1 ≤ I → p.kplusReaches = p'.kplusReaches) := by
  obtain ⟨p, h1, -, h2, h3⟩ := C54_formula M gp m N Imax alpha beta hm I hI F
  obtain ⟨p', h1', -, h2', h3'⟩ := C54_formula M gp m N Imax alpha beta hm I' (le_trans hI hII) F
  obtain ⟨b0, b1⟩ := gpShare_bounds hI hm.one_le
  obtain ⟨c0, c1⟩ := gpShare_bounds (le_trans hI hII) hm.one_le
  have hle : gpShare I Imax ≤ gpShare I' Imax := by
    unfold gpShare
    exact div_le_div_of_nonneg_right (min_le_min_right _ hII) (by linarith [hm.one_le])
  refine ⟨p, p', h1, h1', ?_, ?_⟩
  · rw [List.forall₂_iff_get]
    refine ⟨by omega, ?_⟩
    intro i hi hi'
    have e1 := h3 i (by omega)
    have e2 := h3' i (by omega)
    rw [List.getElem?_eq_getElem hi] at e1
    rw [List.getElem?_eq_getElem hi'] at e2
    simp only [List.get_eq_getElem]
    rw [Option.some.inj e1, Option.some.inj e2]
    apply mul_le_mul_of_nonneg_left _ hN
    rw [← shownAtLeast_inventory, ← shownAtLeast_inventory]
    exact shownAtLeast_mono (inventoryPmf_nonneg hg) b0 hle c1.le _
  · intro hsat
    have : gpShare I Imax = gpShare I' Imax := by
      unfold gpShare
      rw [min_eq_right hsat, min_eq_right (le_trans hsat hII)]
    apply List.ext_getElem?
    intro k
    by_cases hk : k < min F M
    · rw [h3 k hk, h3' k hk, this]
    · rw [List.getElem?_eq_none (by omega), List.getElem?_eq_none (by omega)]

/-- **C54 (spend).** With a known cost, `by_spend` is `by_impressions` at the spend divided by the
cost per impression; without one it fails. -/
theorem C54_by_spend (M : Nat) (gp : ℚ → ℚ → Nat → ℚ) (m : GammaPoisson.Model) (s : ℚ) (F : Int) :
    (∀ c, m.cpi = some c → c ≠ 0 → m.bySpend M gp [s] F = m.byImpressions M gp [s / c] F) ∧
    ((m.cpi = none ∨ m.cpi = some 0) → m.bySpend M gp [s] F = .error .valueError) := by
  constructor
  · intro c hc hc0
    unfold GammaPoisson.Model.bySpend Model.impressionsForSpend Model.truthyCpi
    simp only [hc, if_neg hc0, bind, Except.bind]
  · rintro (hc | hc) <;>
    · unfold GammaPoisson.Model.bySpend Model.impressionsForSpend Model.truthyCpi
      simp [hc, bind, Except.bind]

/-- **C54 (point).** The point returned for a query carries the impressions asked for and, if the cost
per impression is known and not zero, what they cost. -/
theorem C54_point (M : Nat) (gp : ℚ → ℚ → Nat → ℚ) (m : GammaPoisson.Model) (I : ℚ) (F : Int)
    (p : ReachPoint) (h : m.byImpressions M gp [I] F = .ok (some p)) :
    p.impressions = [I] ∧ (∀ c, m.cpi = some c → c ≠ 0 → p.spends = some [I * c]) ∧
    (m.cpi = none ∨ m.cpi = some 0 → p.spends = none) := by
  have key : ∀ l, m.toPoint I F l = .ok (some p) → p.impressions = [I] ∧
      (∀ c, m.cpi = some c → c ≠ 0 → p.spends = some [I * c]) ∧
      (m.cpi = none ∨ m.cpi = some 0 → p.spends = none) := by
    intro l hl
    cases l with
    | none => simp [GammaPoisson.Model.toPoint] at hl
    | some l =>
      unfold GammaPoisson.Model.toPoint GammaPoisson.Model.truthyCpi at hl
      cases hc : m.cpi with
      | none =>
        rw [hc] at hl
        cases hl
        exact ⟨rfl, by simp, fun _ => rfl⟩
      | some c =>
        rw [hc] at hl
        by_cases hz : c = 0
        · simp only [if_pos hz] at hl
          cases hl
          refine ⟨rfl, ?_, fun _ => rfl⟩
          intro c' hc' hne
          cases hc'
          exact absurd hz hne
        · simp only [if_neg hz] at hl
          cases hl
          refine ⟨rfl, ?_, ?_⟩
          · intro c' hc' _
            cases hc'; rfl
          · rintro (h' | h')
            · cases h'
            · cases h'; exact absurd rfl hz
  unfold GammaPoisson.Model.byImpressions at h
  simp only at h
  split at h
  · rename_i x N _ _
    rcases hp : GammaPoisson.predict M gp N x.1 x.2.1 x.2.2 I with e | l
    · rw [hp] at h; cases h
    · rw [hp] at h
      exact key l h
  all_goals cases h

/-- **C54 (cost).** The cost per impression is that of the training point. -/
theorem C54_cost (point : ReachPoint) (mr : Option ℚ) (e i s : ℚ) (m : GammaPoisson.Model)
    (h : GammaPoisson.Model.new [point] mr e = .ok m) (hi : point.impressions = [i])
    (hs : point.spends = some [s]) : m.cpi = some (s / i) := by
  unfold GammaPoisson.Model.new at h
  rcases hc : checkCurveData [point] with err | u
  · rw [hc] at h; cases h
  · have h1 : pyIndex point.impressions 0 = .ok i := (pyIndex_ok_iff _ 0 _).2 (by rw [hi]; rfl)
    have h3 : GoergModel.costPerImpression point.spends i = .ok (some (s / i)) := by
      rw [hs]; rfl
    simp only [hc, h1, bind, Except.bind] at h
    split at h
    · cases h
    · rcases hr : point.reach 1 with err | r
      · rw [hr] at h; cases h
      · simp only [hr] at h
        split at h
        · cases h
        · simp only [h3, pure, Except.pure] at h
          cases h
          rfl

/-- **C54 (before fitting).** The constructor does not fit, and a model that is not fitted gives no
answers. -/
theorem C54_unfitted (M : Nat) (gp : ℚ → ℚ → Nat → ℚ) (point : ReachPoint) (mr : Option ℚ) (e : ℚ)
    (m : GammaPoisson.Model) (h : GammaPoisson.Model.new [point] mr e = .ok m) (I : ℚ) (F : Int) :
    m.byImpressions M gp [I] F = .error .attributeError := by
  have hp : m.params = none := by
    unfold GammaPoisson.Model.new at h
    rcases hc : checkCurveData [point] with err | u
    · rw [hc] at h; cases h
    · simp only [hc, bind, Except.bind] at h
      rcases hi : pyIndex point.impressions 0 with err | i
      · rw [hi] at h; cases h
      · simp only [hi] at h
        split at h
        · cases h
        · rcases hr : point.reach 1 with err | r
          · rw [hr] at h; cases h
          · simp only [hr] at h
            split at h
            · cases h
            · rcases hg : GoergModel.costPerImpression point.spends i with err | c
              · rw [hg] at h; cases h
              · simp only [hg, pure, Except.pure] at h
                cases h
                rfl
  unfold GammaPoisson.Model.byImpressions
  simp only [hp]

/-- 100 people with an inventory of 200 impressions. -/
def exGpModel : GammaPoisson.Model :=
  { point := exExpPoint, maxReach := some 100, extrapolationValue := 100, cpi := some (1 / 10),
    params := some (200, 1, 1) }

example : GpFit exGpModel 100 200 1 1 := ⟨rfl, rfl, by norm_num⟩

/-- Half of the inventory is shown; inventories are cut off after three impressions. -/
example : exGpModel.byImpressions 3 geomTail [100] 2 =
    .ok (some ⟨[100], [875 / 16, 25 / 2], [675 / 16], some [10], none⟩) ∧
    exGpModel.bySpend 3 geomTail [10] 2 = exGpModel.byImpressions 3 geomTail [100] 2 := by
  decide +kernel

example : (GammaPoisson.Model.new [exExpPoint]).isOk := by decide +kernel

/-! ## C74: the objective -/

/-- Probability that a user sees exactly `k` impressions (specification). -/
def seenExactly (M : Nat) (g : Nat → ℚ) (k : Nat) (p : ℚ) : ℚ :=
  ∑ n ∈ Finset.Icc 1 M, g n * ((n.choose k : ℚ) * p ^ k * (1 - p) ^ (n - k))

/-- Expected number of people seeing `k + 1` impressions, for `k + 1 = n` of those seeing `n` or more
(specification). -/
def expectedBucket (M : Nat) (g : Nat → ℚ) (N p : ℚ) (n k : Nat) : ℚ :=
  if k + 1 < n then N * seenExactly M g (k + 1) p
  else N * (1 - ∑ j ∈ Finset.range n, seenExactly M g j p)

theorem shownExactly_inventory (M : Nat) (gp : ℚ → ℚ → Nat → ℚ) (alpha beta : ℚ) (k : Nat) (p : ℚ) :
    shownExactly (inventoryPmf M gp alpha beta) k p = seenExactly M (gp alpha beta) k p := by
  unfold shownExactly seenExactly binomPmf
  rw [inventoryPmf_length, Finset.sum_range_succ', sum_Icc_one']
  have : (inventoryPmf M gp alpha beta).getD 0 0 = 0 := rfl
  rw [this, mul_zero, add_zero]
  apply Finset.sum_congr rfl
  intro i hi
  rw [inventoryPmf_succ M gp alpha beta (Finset.mem_range.1 hi)]
  ring

theorem expectedBuckets_eq (M : Nat) (gp : ℚ → ℚ → Nat → ℚ) (p N alpha beta : ℚ) (n : Nat)
    (hn : 1 ≤ n) :
    expectedBuckets M gp p N alpha beta n =
      .ok ((List.range n).map (fun k => expectedBucket M (gp alpha beta) N p n k)) := by
  unfold expectedBuckets expectedHistogram
  rw [List.range_eq_range', kreach_range', kreach_range']
  simp only [bind, Except.bind, pure, Except.pure]
  have hlow : ((List.range' 0 n).map (fun k =>
      shownExactly (inventoryPmf M gp alpha beta) k p)).sum =
      ∑ j ∈ Finset.range n, seenExactly M (gp alpha beta) j p := by
    rw [list_sum_range']
    apply Finset.sum_congr rfl
    intro j _
    rw [shownExactly_inventory, Nat.zero_add]
  rw [hlow]
  congr 1
  obtain ⟨n, rfl⟩ := Nat.exists_eq_add_of_le' hn
  rw [Nat.add_sub_cancel, ← List.range_eq_range', List.range_succ, List.map_append, List.map_map,
    List.range'_eq_map_range, List.map_map]
  congr 1
  · apply List.map_congr_left
    intro k hk
    have := List.mem_range.1 hk
    simp only [Function.comp_apply, expectedBucket]
    rw [if_pos (by omega), shownExactly_inventory, add_comm 1 k]
  · simp only [List.map_cons, List.map_nil, expectedBucket]
    rw [if_neg (by omega), mul_comm]

theorem seenExactly_sum (M : Nat) (gp : ℚ → ℚ → Nat → ℚ) (alpha beta p : ℚ) (n : Nat) :
    ∑ j ∈ Finset.range n, seenExactly M (gp alpha beta) j p =
      ∑ i ∈ Finset.Icc 1 M, gp alpha beta i - seenAtLeast M (gp alpha beta) n p := by
  have h := sum_shownExactly (inventoryPmf M gp alpha beta) 0 n p
  rw [list_sum_range', Nat.zero_add] at h
  have h0 : shownAtLeast (inventoryPmf M gp alpha beta) 0 p = ∑ i ∈ Finset.Icc 1 M, gp alpha beta i := by
    rw [shownAtLeast_inventory]
    unfold seenAtLeast
    apply Finset.sum_congr rfl
    intro i _
    rw [binTail_zero, mul_one]
  rw [h0, shownAtLeast_inventory] at h
  rw [← h]
  apply Finset.sum_congr rfl
  intro j _
  rw [shownExactly_inventory, Nat.zero_add]

theorem expectedBucket_nonneg {M : Nat} {gp : ℚ → ℚ → Nat → ℚ} {alpha beta N p : ℚ}
    (hg : IsTail (gp alpha beta)) (hN : 0 ≤ N) (h0 : 0 ≤ p) (h1 : p ≤ 1) (n k : Nat) :
    0 ≤ expectedBucket M (gp alpha beta) N p n k := by
  unfold expectedBucket
  split
  · apply mul_nonneg hN
    apply Finset.sum_nonneg
    intro i hi
    have := hg.1 i (Finset.mem_Icc.1 hi).1
    have : 0 ≤ 1 - p := by linarith
    positivity
  · apply mul_nonneg hN
    rw [seenExactly_sum]
    have h2 := hg.2 M
    have h3 := shownAtLeast_nonneg (inventoryPmf_nonneg (M := M) hg) h0 h1 n
    rw [shownAtLeast_inventory] at h3
    linarith

theorem zipWith_sum (f : ℚ → ℚ → ℚ) (b : Nat → ℚ) (h : List ℚ) :
    (List.zipWith f ((List.range h.length).map b) h).sum =
      ∑ k ∈ Finset.range h.length, f (b k) (h.getD k 0) := by
  rw [list_sum_getD]
  simp only [List.length_zipWith, List.length_map, List.length_range, min_self]
  apply Finset.sum_congr rfl
  intro k hk
  have := Finset.mem_range.1 hk
  rw [List.getD_eq_getElem _ _ (by simpa using this), List.getElem_zipWith, List.getElem_map,
    List.getElem_range, List.getD_eq_getElem _ _ this]

theorem map_range_sum (b : Nat → ℚ) (n : Nat) :
    ((List.range n).map b).sum = ∑ k ∈ Finset.range n, b k := by
  rw [List.range_eq_range', list_sum_range']
  apply Finset.sum_congr rfl
  intro k _
  rw [Nat.zero_add]

/-- **C74 (histogram).** The histogram of a reach point has the number of people reached exactly
1, 2, … times, and at the end those reached at least as often as the highest frequency; it adds up to
the 1+ reach. -/
theorem C74_histogram (imps ks : List ℚ) (sp : Option (List ℚ)) (us : Option ℚ) (point : ReachPoint)
    (hp : ReachPoint.new imps ks sp us = .ok point) (hks : ks ≠ []) :
    ∃ h, histogramWithKplusBucket point = .ok h ∧ h.length = ks.length ∧
      (∀ k, k + 1 < ks.length → h.getD k 0 = ks.getD k 0 - ks.getD (k + 1) 0) ∧
      h.getD (ks.length - 1) 0 = ks.getD (ks.length - 1) 0 ∧ h.sum = ks.getD 0 0 := by
  have hpt : point.kplusReaches = ks ∧ point.frequencies = ReachPoint.successiveDifferences ks := by
    unfold ReachPoint.new at hp
    split at hp
    · cases hp
    · cases hp; exact ⟨rfl, rfl⟩
  have hlen : 0 < ks.length := List.length_pos_iff.2 hks
  have hdl : (ReachPoint.successiveDifferences ks).length = ks.length - 1 := by
    simp [ReachPoint.successiveDifferences]
  have hfreq : histogramFromReachPoint point = .ok (ReachPoint.successiveDifferences ks) := by
    unfold histogramFromReachPoint
    rw [mapM_ok_iff]
    rw [List.forall₂_iff_get]
    refine ⟨by simp [hdl, ReachPoint.maxFrequency, hpt.1], ?_⟩
    intro i h1 h2
    have h3 : i < ks.length - 1 := by rw [← hdl]; exact h2
    simp only [List.get_eq_getElem, List.getElem_range']
    unfold ReachPoint.frequency
    rw [hpt.1, hpt.2, if_pos (by constructor <;> push_cast <;> omega)]
    have hix : (((1 + 1 * i : Nat) : Int) - 1) = (i : Int) := by push_cast; ring
    rw [hix]
    exact (pyIndex_ok_iff _ i _).2 (List.getElem?_eq_getElem h2)
  have hreach : point.reach (((ReachPoint.successiveDifferences ks).length : Int) + 1) =
      .ok (ks.getD (ks.length - 1) 0) := by
    unfold ReachPoint.reach
    rw [hpt.1, hdl, if_pos (by constructor <;> omega)]
    have hix : (((ks.length - 1 : Nat) : Int) + 1 - 1) = ((ks.length - 1 : Nat) : Int) := by ring
    rw [hix, List.getD_eq_getElem _ _ (by omega)]
    exact (pyIndex_ok_iff _ (ks.length - 1) _).2 (List.getElem?_eq_getElem (by omega))
  refine ⟨ReachPoint.successiveDifferences ks ++ [ks.getD (ks.length - 1) 0], ?_, ?_, ?_, ?_, ?_⟩
  · unfold histogramWithKplusBucket
    simp only [hfreq, bind, Except.bind, hreach, pure, Except.pure]
  · rw [List.length_append, hdl, List.length_singleton]; omega
  · intro k hk
    rw [List.getD_append _ _ _ _ (by omega), List.getD_eq_getElem _ _ (by omega),
      List.getD_eq_getElem _ _ (by omega), List.getD_eq_getElem _ _ (by omega)]
    simp [ReachPoint.successiveDifferences]
  · rw [List.getD_append_right _ _ _ _ (by omega), hdl]
    simp
  · cases ks with
    | nil => exact absurd rfl hks
    | cons a l =>
      have h1 := differences_append_last_sum a l
      have e : (a :: l).getD ((a :: l).length - 1) 0 = (a :: l).getLast (List.cons_ne_nil a l) := by
        rw [List.getD_eq_getElem _ _ (by simp), List.getLast_eq_getElem]
      rw [List.getD_cons_zero, e]
      exact h1

/-- **C74 (distance).** For admissible parameters the objective is the documented one: the weighted
squares of the differences to the expected buckets, the squared error of the 1+ reach, and the squared
shortfall of the inventory. -/
theorem C74_distance (M : Nat) (gp : ℚ → ℚ → Nat → ℚ) (ext : ℚ) (h : List ℚ) (hh : h ≠ [])
    (I N alpha beta w : ℚ) (ha : 0 < alpha) (hb : 0 < beta) (hN : 0 < N)
    (hImax : I < N * (1 + alpha * beta)) :
    let b := expectedBucket M (gp alpha beta) N (I / (N * (1 + alpha * beta))) h.length
    chi2Distance M gp ext h I N alpha beta w = .ok (
      ∑ k ∈ Finset.range h.length, (b k - h.getD k 0) ^ 2 / (b k + 1 / 1000000) +
      w * (∑ k ∈ Finset.range h.length, h.getD k 0 - ∑ k ∈ Finset.range h.length, b k) ^ 2 +
      (max (ext - N * (1 + alpha * beta)) 0) ^ 2) := by
  intro b
  unfold chi2Distance
  rw [if_neg (by rintro (h | h | h) <;> linarith)]
  simp only
  rw [if_neg (show ¬ expectedImpressions N alpha beta ≤ I from not_le.2 hImax),
    expectedBuckets_eq _ _ _ _ _ _ _ (List.length_pos_iff.2 hh)]
  simp only [bind, Except.bind, pure, Except.pure]
  have hE : expectedImpressions N alpha beta = N * (1 + alpha * beta) := rfl
  rw [zipWith_sum, map_range_sum, list_sum_getD, hE]
  congr 2
  split
  · rename_i hlt
    rw [max_eq_left (by linarith)]
  · rename_i hge
    rw [max_eq_right (by linarith [not_lt.1 hge])]
    norm_num

/-- **C74 (inadmissible).** Outside of the admissible region the objective is constant. -/
theorem C74_inadmissible (M : Nat) (gp : ℚ → ℚ → Nat → ℚ) (ext : ℚ) (h : List ℚ)
    (I N alpha beta w : ℚ)
    (hno : alpha ≤ 0 ∨ beta ≤ 0 ∨ N ≤ 0 ∨ N * (1 + alpha * beta) ≤ I) :
    chi2Distance M gp ext h I N alpha beta w =
      .ok (∑ k ∈ Finset.range h.length, h.getD k 0 ^ 2) := by
  have hs : sumSquares h = ∑ k ∈ Finset.range h.length, h.getD k 0 ^ 2 := by
    unfold sumSquares
    rw [list_sum_getD, List.length_map]
    apply Finset.sum_congr rfl
    intro k hk
    have := Finset.mem_range.1 hk
    rw [List.getD_eq_getElem _ _ (by simpa using this), List.getElem_map,
      List.getD_eq_getElem _ _ this]
  unfold chi2Distance
  rw [← hs]
  by_cases h1 : alpha ≤ 0 ∨ beta ≤ 0 ∨ N ≤ 0
  · rw [if_pos h1]
  · rw [if_neg h1]
    simp only
    rw [if_pos (show expectedImpressions N alpha beta ≤ I by
      unfold expectedImpressions; tauto)]

/-- **C74 (perfect fit).** The objective is never negative, and for admissible parameters it is zero
exactly if the histogram is the expected one and the inventory is as large as asked for. -/
theorem C74_zero_iff (M : Nat) (gp : ℚ → ℚ → Nat → ℚ) (ext : ℚ) (h : List ℚ) (hh : h ≠ [])
    (I N alpha beta w : ℚ) (hI : 0 ≤ I) (hg : IsTail (gp alpha beta)) (ha : 0 < alpha)
    (hb : 0 < beta) (hN : 0 < N) (hImax : I < N * (1 + alpha * beta)) (hw : 0 ≤ w) :
    ∃ x, chi2Distance M gp ext h I N alpha beta w = .ok x ∧ 0 ≤ x ∧
      (x = 0 ↔ (∀ k, k < h.length → h.getD k 0 =
        expectedBucket M (gp alpha beta) N (I / (N * (1 + alpha * beta))) h.length k) ∧
        ext ≤ N * (1 + alpha * beta)) := by
  have hpos : 0 < N * (1 + alpha * beta) := by positivity
  have p0 : 0 ≤ I / (N * (1 + alpha * beta)) := div_nonneg hI hpos.le
  have p1 : I / (N * (1 + alpha * beta)) ≤ 1 := by rw [div_le_one hpos]; exact hImax.le
  refine ⟨_, C74_distance M gp ext h hh I N alpha beta w ha hb hN hImax, ?_, ?_⟩
  all_goals
    set b := expectedBucket M (gp alpha beta) N (I / (N * (1 + alpha * beta))) h.length with hbdef
    have hbn : ∀ k, 0 ≤ b k := fun k => expectedBucket_nonneg hg hN.le p0 p1 _ _
    have hd : ∀ k, 0 < b k + 1 / 1000000 := fun k => by linarith [hbn k]
    have ht : ∀ k, 0 ≤ (b k - h.getD k 0) ^ 2 / (b k + 1 / 1000000) := fun k =>
      div_nonneg (sq_nonneg _) (hd k).le
    have hsum : 0 ≤ ∑ k ∈ Finset.range h.length, (b k - h.getD k 0) ^ 2 / (b k + 1 / 1000000) :=
      Finset.sum_nonneg (fun k _ => ht k)
    have hq : 0 ≤ w * (∑ k ∈ Finset.range h.length, h.getD k 0 -
        ∑ k ∈ Finset.range h.length, b k) ^ 2 := mul_nonneg hw (sq_nonneg _)
    have hm : 0 ≤ (max (ext - N * (1 + alpha * beta)) 0) ^ 2 := sq_nonneg _
  · linarith
  · constructor
    · intro h0
      have z1 : ∑ k ∈ Finset.range h.length, (b k - h.getD k 0) ^ 2 / (b k + 1 / 1000000) = 0 := by
        linarith
      have z2 : (max (ext - N * (1 + alpha * beta)) 0) ^ 2 = 0 := by linarith
      rw [Finset.sum_eq_zero_iff_of_nonneg (fun k _ => ht k)] at z1
      constructor
      · intro k hk
        have := z1 k (Finset.mem_range.2 hk)
        rw [div_eq_zero_iff] at this
        rcases this with h | h
        · have := pow_eq_zero_iff (two_ne_zero) |>.1 h
          linarith
        · exact absurd h (hd k).ne'
      · have := pow_eq_zero_iff (two_ne_zero) |>.1 z2
        have := le_max_left (ext - N * (1 + alpha * beta)) 0
        linarith
    · rintro ⟨h1, h2⟩
      have e1 : ∑ k ∈ Finset.range h.length, (b k - h.getD k 0) ^ 2 / (b k + 1 / 1000000) = 0 := by
        apply Finset.sum_eq_zero
        intro k hk
        rw [h1 k (Finset.mem_range.1 hk)]
        simp
      have e2 : ∑ k ∈ Finset.range h.length, h.getD k 0 = ∑ k ∈ Finset.range h.length, b k :=
        Finset.sum_congr rfl (fun k hk => h1 k (Finset.mem_range.1 hk))
      rw [e1, e2, max_eq_right (by linarith)]
      norm_num

/-- Of 100 people half have one impression, which half of them see; all others count as people with
many impressions, because the tail is cut off. -/
example : chi2Distance 1 geomTail 100 [25, 50] 100 100 1 1 = .ok 0 := by decide +kernel

example : (0 : ℚ) < 1 ∧ (100 : ℚ) < 100 * (1 + 1 * 1) := by norm_num

example : histogramWithKplusBucket exKPoint = .ok [25, 10, 5] := by decide +kernel

/-- An inventory that is too small. -/
example : chi2Distance 1 geomTail 100 [3, 4] 200 100 1 1 = .ok 25 := by decide +kernel

/-- **C74 (penalty, finding).** The constant is not a penalty: parameters outside of the admissible
region can score better than admissible ones. -/
theorem C74_penalty_not_worst :
    ∃ x y, chi2Distance 1 geomTail 100 [1] 10 100 1 1 = .ok x ∧
      chi2Distance 1 geomTail 100 [1] 10 100 1 0 = .ok y ∧ y < x :=
  ⟨567581510609 / 210000004, 1, by decide +kernel, by decide +kernel, by decide +kernel⟩

/-! ## C75: choosing the best of several fits -/

/-- The result of the run that starts from `N0` people: `(score, alpha, beta, N)`. -/
def gpRun (S : GammaPoisson.Solver) (h : List ℚ) (I0 N0 : ℚ) : ℚ × ℚ × ℚ × ℚ :=
  let ab := S.minimizeFixed h I0 N0 (S.start h I0 N0)
  S.minimize h I0 (ab.1, ab.2, N0)

theorem fitFixedN_eq {S : GammaPoisson.Solver} {point : ReachPoint} {I0 : ℚ} {h : List ℚ}
    (hI : point.impressions[0]? = some I0) (hh : histogramWithKplusBucket point = .ok h) (N : ℚ) :
    fitFixedN S point N = .ok (
      N * (1 + (S.minimizeFixed h I0 N (S.start h I0 N)).1 *
        (S.minimizeFixed h I0 N (S.start h I0 N)).2),
      S.minimizeFixed h I0 N (S.start h I0 N)) := by
  have hix : pyIndex point.impressions 0 = .ok I0 := (pyIndex_ok_iff _ 0 _).2 hI
  unfold fitFixedN
  simp only [hix, hh, bind, Except.bind, pure, Except.pure]
  rfl

/-- What the loop does with the remaining starting points. -/
theorem gpFitLoop_spec {S : GammaPoisson.Solver} {point : ReachPoint} {I0 : ℚ} {h : List ℚ}
    (hI : point.impressions[0]? = some I0) (hh : histogramWithKplusBucket point = .ok h) :
    ∀ (l : List ℚ) (score : ℚ) (best : Option (ℚ × ℚ × ℚ)),
    S.threshold h.length ≤ score →
    ∃ res, fitLoop S point h I0 l score best = .ok res ∧
      ((res = best ∧ ∀ N0 ∈ l, score ≤ (gpRun S h I0 N0).1) ∨
       ∃ pre N0 post, pre ++ N0 :: post <+: l ∧ res = some (gpRun S h I0 N0).2 ∧
        (gpRun S h I0 N0).1 < score ∧
        (∀ N1 ∈ pre, (gpRun S h I0 N0).1 < (gpRun S h I0 N1).1) ∧
        (∀ N1 ∈ post, (gpRun S h I0 N0).1 ≤ (gpRun S h I0 N1).1) ∧
        (∀ N1 ∈ pre, S.threshold h.length ≤ (gpRun S h I0 N1).1) ∧
        ((post = [] ∧ (gpRun S h I0 N0).1 < S.threshold h.length) ∨
          (pre ++ N0 :: post = l ∧ S.threshold h.length ≤ (gpRun S h I0 N0).1))) := by
  intro l
  induction l with
  | nil =>
    intro score best _
    exact ⟨best, rfl, Or.inl ⟨rfl, by simp⟩⟩
  | cons N0 l ih =>
    intro score best hs
    have hrun : fitLoop S point h I0 (N0 :: l) score best =
        (if (if (gpRun S h I0 N0).1 < score then (gpRun S h I0 N0).1 else score) <
            S.threshold h.length then
          .ok (if (gpRun S h I0 N0).1 < score then some (gpRun S h I0 N0).2 else best)
        else fitLoop S point h I0 l
          (if (gpRun S h I0 N0).1 < score then (gpRun S h I0 N0).1 else score)
          (if (gpRun S h I0 N0).1 < score then some (gpRun S h I0 N0).2 else best)) := by
      rw [fitLoop]
      simp only [fitFixedN_eq hI hh N0, bind, Except.bind]
      rfl
    rw [hrun]
    by_cases hlt : (gpRun S h I0 N0).1 < score
    · simp only [if_pos hlt]
      by_cases hth : (gpRun S h I0 N0).1 < S.threshold h.length
      · rw [if_pos hth]
        refine ⟨_, rfl, Or.inr ⟨[], N0, [], ?_, rfl, hlt, by simp, by simp, by simp,
          Or.inl ⟨rfl, hth⟩⟩⟩
        simp
      · rw [if_neg hth]
        obtain ⟨res, h1, h2⟩ := ih (gpRun S h I0 N0).1 (some (gpRun S h I0 N0).2) (not_lt.1 hth)
        refine ⟨res, h1, Or.inr ?_⟩
        rcases h2 with ⟨h2, h3⟩ | ⟨pre, N1, post, h2, h3, h4, h5, h6, h7, h8⟩
        · exact ⟨[], N0, l, by simp, h2, hlt, by simp, h3, by simp, Or.inr ⟨rfl, not_lt.1 hth⟩⟩
        · refine ⟨N0 :: pre, N1, post, ?_, h3, lt_trans h4 hlt, ?_, h6, ?_, ?_⟩
          · rw [List.cons_append, List.cons_prefix_cons]; exact ⟨rfl, h2⟩
          · intro x hx
            rcases List.mem_cons.1 hx with rfl | hx
            · exact h4
            · exact h5 x hx
          · intro x hx
            rcases List.mem_cons.1 hx with rfl | hx
            · exact not_lt.1 hth
            · exact h7 x hx
          · rcases h8 with h8 | ⟨h8, h9⟩
            · exact Or.inl h8
            · exact Or.inr ⟨by rw [List.cons_append, h8], h9⟩
    · simp only [if_neg hlt]
      rw [if_neg (not_lt.2 hs)]
      obtain ⟨res, h1, h2⟩ := ih score best hs
      refine ⟨res, h1, ?_⟩
      rcases h2 with ⟨h2, h3⟩ | ⟨pre, N1, post, h2, h3, h4, h5, h6, h7, h8⟩
      · refine Or.inl ⟨h2, ?_⟩
        intro x hx
        rcases List.mem_cons.1 hx with rfl | hx
        · exact not_lt.1 hlt
        · exact h3 x hx
      · refine Or.inr ⟨N0 :: pre, N1, post, ?_, h3, h4, ?_, h6, ?_, ?_⟩
        · rw [List.cons_append, List.cons_prefix_cons]; exact ⟨rfl, h2⟩
        · intro x hx
          rcases List.mem_cons.1 hx with rfl | hx
          · exact lt_of_lt_of_le h4 (not_lt.1 hlt)
          · exact h5 x hx
        · intro x hx
          rcases List.mem_cons.1 hx with rfl | hx
          · exact le_trans hs (not_lt.1 hlt)
          · exact h7 x hx
        · rcases h8 with h8 | ⟨h8, h9⟩
          · exact Or.inl h8
          · exact Or.inr ⟨by rw [List.cons_append, h8], h9⟩

/-- The population sizes from which the runs start (specification): eleven times the reach, divided by
1 to 10. -/
def gpSizes (R : ℚ) : List ℚ := [11 * R, 11 / 2 * R, 11 / 3 * R, 11 / 4 * R, 11 / 5 * R, 11 / 6 * R,
  11 / 7 * R, 11 / 8 * R, 11 / 9 * R, 11 / 10 * R]

theorem startingSizes_ten (R : ℚ) : startingSizes R 10 = gpSizes R := by
  unfold startingSizes gpSizes
  simp only [List.range', List.map_cons, List.map_nil]
  norm_num
  refine ⟨?_, ?_, ?_, ?_, ?_, ?_, ?_, ?_, ?_, ?_⟩ <;> ring

/-- **C75 (best run).** The fit is the first best of the runs tried. Runs are tried in the order of the
starting sizes; as soon as a run scores below the threshold it is taken and no more runs are tried,
otherwise all of them are. If all runs score 10⁹⁹ or more, no fit is returned. -/
theorem C75_best_run (S : GammaPoisson.Solver) (point : ReachPoint) (I0 R : ℚ) (h : List ℚ)
    (hI : point.impressions[0]? = some I0) (hR : point.kplusReaches[0]? = some R)
    (hh : histogramWithKplusBucket point = .ok h) (hth : S.threshold h.length ≤ 10 ^ 99) :
    (fitChi2 S point = .error .nameError ∧ ∀ N0 ∈ gpSizes R, 10 ^ 99 ≤ (gpRun S h I0 N0).1) ∨
    ∃ pre N0 post alpha beta N, pre ++ N0 :: post <+: gpSizes R ∧
      (gpRun S h I0 N0).2 = (alpha, beta, N) ∧
      fitChi2 S point = .ok (N * (1 + alpha * beta), N, alpha, beta) ∧
      (gpRun S h I0 N0).1 < 10 ^ 99 ∧
      (∀ N1 ∈ pre, (gpRun S h I0 N0).1 < (gpRun S h I0 N1).1 ∧
        S.threshold h.length ≤ (gpRun S h I0 N1).1) ∧
      (∀ N1 ∈ post, (gpRun S h I0 N0).1 ≤ (gpRun S h I0 N1).1) ∧
      ((gpRun S h I0 N0).1 < S.threshold h.length → post = []) ∧
      (S.threshold h.length ≤ (gpRun S h I0 N0).1 → pre ++ N0 :: post = gpSizes R) := by
  have hix : pyIndex point.impressions 0 = .ok I0 := (pyIndex_ok_iff _ 0 _).2 hI
  have hr := (reachPoint_reach_one point R).2 hR
  obtain ⟨res, h1, h2⟩ := gpFitLoop_spec (S := S) hI hh (startingSizes R 10) (10 ^ 99) none hth
  unfold fitChi2
  simp only [hix, hr, hh, bind, Except.bind, h1]
  rw [startingSizes_ten] at h2
  rcases h2 with ⟨rfl, h3⟩ | ⟨pre, N0, post, h3, rfl, h5, h6, h7, h8, h9⟩
  · exact Or.inl ⟨rfl, h3⟩
  · refine Or.inr ⟨pre, N0, post, _, _, _, h3, rfl, rfl, h5, fun N1 hN1 => ⟨h6 N1 hN1, h8 N1 hN1⟩,
      h7, ?_, ?_⟩
    · intro hlt
      rcases h9 with h9 | h9
      · exact h9.1
      · exact absurd hlt (not_lt.2 h9.2)
    · intro hge
      rcases h9 with h9 | h9
      · exact absurd h9.2 (not_lt.2 hge)
      · exact h9.1

/-- **C75 (usable).** If the optimizer respects its bounds (`alpha` and `beta` at least 10⁻⁶, the
population at least the reach) and the point reached at least one person, every fit of a new model can
be used for predictions: the inventory is at least the population and at least one impression. -/
theorem C75_usable (S : GammaPoisson.Solver) (m m' : GammaPoisson.Model) (R : ℚ)
    (hm : m.maxReach = none) (hR : m.point.kplusReaches[0]? = some R) (hR1 : 1 ≤ R)
    (hb : ∀ h I N0, N0 ∈ gpSizes R → 1 / 1000000 ≤ (gpRun S h I N0).2.1 ∧
      1 / 1000000 ≤ (gpRun S h I N0).2.2.1 ∧ R ≤ (gpRun S h I N0).2.2.2)
    (hth : ∀ n, S.threshold n ≤ 10 ^ 99) (hf : m.fit S = .ok m') :
    ∃ N Imax alpha beta, GpFit m' N Imax alpha beta ∧ R ≤ N ∧ N ≤ Imax ∧
      Imax = N * (1 + alpha * beta) ∧ 0 < alpha ∧ 0 < beta := by
  unfold GammaPoisson.Model.fit at hf
  rw [hm] at hf
  simp only at hf
  rcases hx : fitChi2 S m.point with e | x
  · rw [hx] at hf; cases hf
  · have hex : ∃ I0 h, m.point.impressions[0]? = some I0 ∧
        histogramWithKplusBucket m.point = .ok h := by
      have hr := (reachPoint_reach_one m.point R).2 hR
      unfold fitChi2 at hx
      rcases hi : pyIndex m.point.impressions 0 with e | I0
      · simp only [hr, hi, bind, Except.bind] at hx; cases hx
      · rcases hh : histogramWithKplusBucket m.point with e | h
        · simp only [hr, hi, hh, bind, Except.bind] at hx; cases hx
        · exact ⟨I0, h, (pyIndex_ok_iff _ 0 _).1 hi, rfl⟩
    obtain ⟨I0, h, hi, hh⟩ := hex
    simp only [hx, bind, Except.bind, pure, Except.pure] at hf
    cases hf
    rcases C75_best_run S m.point I0 R h hi hR hh (hth _) with ⟨h1, -⟩ |
      ⟨pre, N0, post, alpha, beta, N, h1, h2, h3, -⟩
    · rw [hx] at h1; cases h1
    · rw [hx] at h3
      cases h3
      obtain ⟨b1, b2, b3⟩ := hb h I0 N0 (h1.subset (by simp))
      rw [h2] at b1 b2 b3
      simp only at b1 b2 b3
      have ha : 0 < alpha := by linarith
      have hbe : 0 < beta := by linarith
      have hab : 0 < alpha * beta := mul_pos ha hbe
      refine ⟨N, _, alpha, beta, ⟨rfl, rfl, ?_⟩, b3, ?_, rfl, ha, hbe⟩
      · nlinarith
      · nlinarith

/-- **C75 (full statement, false).** Fitting a fitted model again changes nothing. -/
def C75_refit_full : Prop :=
  ∀ (S : GammaPoisson.Solver) (point : ReachPoint) (e : ℚ) (m m1 m2 : GammaPoisson.Model),
    GammaPoisson.Model.new [point] none e = .ok m → m.fit S = .ok m1 → m1.fit S = .ok m2 → m2 = m1

/-- A solver whose two kinds of runs end at different parameters. -/
def exGpSolver : GammaPoisson.Solver :=
  { gp := geomTail, start := fun _ _ _ => (1, 1), minimizeFixed := fun _ _ _ _ => (2, 3),
    minimize := fun _ _ x => (x.2.2, 2, 2, x.2.2), threshold := fun n => 100 * n }

/-- The run from 91.67 people is the first below the threshold of 100. -/
example : fitChi2 exGpSolver exExpPoint = .ok (5 * (550 / 6), 550 / 6, 2, 2) ∧
    histogramWithKplusBucket exExpPoint = .ok [50] ∧
    (550 : ℚ) / 6 ∈ gpSizes 50 := by decide +kernel

theorem C75_refit_full_is_false : ¬ C75_refit_full := by
  intro h
  have := h exGpSolver exExpPoint 1 ⟨exExpPoint, none, 100, some (1 / 10), none⟩
    ⟨exExpPoint, some (550 / 6), 100, some (1 / 10), some (5 * (550 / 6), 2, 2)⟩
    ⟨exExpPoint, some (550 / 6), 100, some (1 / 10), some (7 * (550 / 6), 2, 3)⟩
    (by decide +kernel) (by decide +kernel) (by decide +kernel)
  revert this
  decide +kernel

/-- **C75 (refit, partial).** Fitting again keeps the population; the inventory is that of the new
parameters. Missing: the parameters themselves, because the second fit is one with a fixed
population. -/
theorem C75_refit_partial (S : GammaPoisson.Solver) (m m1 m2 : GammaPoisson.Model)
    (h1 : m.fit S = .ok m1) (h2 : m1.fit S = .ok m2) :
    m2.maxReach = m1.maxReach ∧ m2.point = m1.point ∧
    ∃ N alpha beta, m2.maxReach = some N ∧ m2.params = some (N * (1 + alpha * beta), alpha, beta) := by
  have hm1 : ∃ N, m1.maxReach = some N := by
    unfold GammaPoisson.Model.fit at h1
    split at h1
    · rcases hx : fitChi2 S m.point with e | x
      · rw [hx] at h1; cases h1
      · simp only [hx, bind, Except.bind, pure, Except.pure] at h1
        cases h1
        exact ⟨_, rfl⟩
    · rename_i N hN
      rcases hx : fitFixedN S m.point N with e | x
      · rw [hx] at h1; cases h1
      · simp only [hx, bind, Except.bind, pure, Except.pure] at h1
        cases h1
        exact ⟨N, hN⟩
  obtain ⟨N, hN⟩ := hm1
  unfold GammaPoisson.Model.fit at h2
  rw [hN] at h2
  simp only at h2
  rcases hx : fitFixedN S m1.point N with e | x
  · rw [hx] at h2; cases h2
  · simp only [hx, bind, Except.bind, pure, Except.pure] at h2
    cases h2
    refine ⟨hN.symm, rfl, N, x.2.1, x.2.2, rfl, ?_⟩
    unfold fitFixedN at hx
    rcases hi : pyIndex m1.point.impressions 0 with e | I0
    · rw [hi] at hx; cases hx
    · rcases hh : histogramWithKplusBucket m1.point with e | h
      · simp only [hi, hh, bind, Except.bind] at hx; cases hx
      · simp only [hi, hh, bind, Except.bind, pure, Except.pure] at hx
        cases hx
        rfl

/-! ## C76: searching for a starting point -/

/-- The four points diagonally next to a point (specification). -/
def diagonal (a b w : ℚ) : List (ℚ × ℚ) := [(a - w, b - w), (a - w, b + w), (a + w, b - w), (a + w, b + w)]

/-- The best neighbour. -/
theorem gridBest_spec (f : ℚ → ℚ → ℚ) (a b w s : ℚ) :
    (gridBest f a b w s = none ∧ ∀ q ∈ diagonal a b w, s ≤ f q.1 q.2) ∨
    ∃ q, q ∈ diagonal a b w ∧ gridBest f a b w s = some (q.1, q.2, f q.1 q.2) ∧ f q.1 q.2 < s ∧
      ∀ q' ∈ diagonal a b w, f q.1 q.2 ≤ f q'.1 q'.2 := by
  have hfold : ∀ (l : List (ℚ × ℚ)) (best : Option (ℚ × ℚ × ℚ)) (done : List (ℚ × ℚ)),
      ((best = none ∧ ∀ q ∈ done, s ≤ f q.1 q.2) ∨
        ∃ q, q ∈ done ∧ best = some (q.1, q.2, f q.1 q.2) ∧ f q.1 q.2 < s ∧
          ∀ q' ∈ done, f q.1 q.2 ≤ f q'.1 q'.2) →
      let done' := done ++ l.map (fun d => (a + d.1 * w, b + d.2 * w))
      let best' := l.foldl (fun best d =>
        let x := a + d.1 * w
        let y := b + d.2 * w
        let t := f x y
        let bestScore := match best with
          | none => s
          | some x => x.2.2
        if t < bestScore then some (x, y, t) else best) best
      (best' = none ∧ ∀ q ∈ done', s ≤ f q.1 q.2) ∨
        ∃ q, q ∈ done' ∧ best' = some (q.1, q.2, f q.1 q.2) ∧ f q.1 q.2 < s ∧
          ∀ q' ∈ done', f q.1 q.2 ≤ f q'.1 q'.2 := by
    intro l
    induction l with
    | nil => intro best done h; simpa using h
    | cons d l ih =>
      intro best done h
      simp only [List.foldl_cons, List.map_cons]
      have hd : done ++ (a + d.1 * w, b + d.2 * w) ::
          l.map (fun d => (a + d.1 * w, b + d.2 * w)) =
          (done ++ [(a + d.1 * w, b + d.2 * w)]) ++
          l.map (fun d => (a + d.1 * w, b + d.2 * w)) := by simp
      rw [hd]
      apply ih
      rcases h with ⟨rfl, h⟩ | ⟨q, h1, rfl, h2, h3⟩
      · simp only
        split
        · rename_i hlt
          refine Or.inr ⟨(a + d.1 * w, b + d.2 * w), by simp, rfl, hlt, ?_⟩
          intro q' hq'
          rcases List.mem_append.1 hq' with hq' | hq'
          · exact le_trans hlt.le (h q' hq')
          · rw [List.mem_singleton.1 hq']
        · rename_i hge
          refine Or.inl ⟨rfl, ?_⟩
          intro q' hq'
          rcases List.mem_append.1 hq' with hq' | hq'
          · exact h q' hq'
          · rw [List.mem_singleton.1 hq']; exact not_lt.1 hge
      · simp only
        split
        · rename_i hlt
          refine Or.inr ⟨(a + d.1 * w, b + d.2 * w), by simp, rfl, lt_trans hlt h2, ?_⟩
          intro q' hq'
          rcases List.mem_append.1 hq' with hq' | hq'
          · exact le_trans hlt.le (h3 q' hq')
          · rw [List.mem_singleton.1 hq']
        · rename_i hge
          refine Or.inr ⟨q, by simp [h1], rfl, h2, ?_⟩
          intro q' hq'
          rcases List.mem_append.1 hq' with hq' | hq'
          · exact h3 q' hq'
          · rw [List.mem_singleton.1 hq']; exact not_lt.1 hge
  have := hfold gridDeltas none [] (Or.inl ⟨rfl, by simp⟩)
  have hdiag : ([] : List (ℚ × ℚ)) ++ gridDeltas.map (fun d => (a + d.1 * w, b + d.2 * w)) =
      diagonal a b w := by
    simp only [gridDeltas, diagonal, List.map_cons, List.map_nil, List.nil_append]
    congr 1 <;> [skip; congr 1 <;> [skip; congr 1 <;> [skip; congr 1]]] <;>
      (apply Prod.ext <;> simp <;> ring)
  simp only [hdiag] at this
  exact this

theorem diagonal_symm {a b w : ℚ} {q : ℚ × ℚ} (h : q ∈ diagonal a b w) :
    (a, b) ∈ diagonal q.1 q.2 w := by
  unfold diagonal at h ⊢
  simp only [List.mem_cons, List.not_mem_nil, or_false] at h ⊢
  rcases h with rfl | rfl | rfl | rfl <;> simp

/-- What the outer loop guarantees from any state it can be in. -/
theorem gridLoop_spec (f : ℚ → ℚ → ℚ) (a0 b0 : ℚ) : ∀ (fuel : Nat) (a b w s : ℚ) (r : ℚ × ℚ),
    (s = 10 ^ 99 ∧ (a, b) = (a0, b0)) ∨
      (s = f a b ∧ s < 10 ^ 99 ∧ (f a b ≤ f a0 b0 ∨ (a0, b0) ∈ diagonal a b w)) →
    (∃ i : Nat, i ≤ 2 ∧ w = 1 / 20 / 2 ^ i) ∨ (w = 1 / 160 ∧
      ((∀ q ∈ diagonal a b (1 / 80), s ≤ f q.1 q.2) ∧ (s = 10 ^ 99 ∨ f a b ≤ f a0 b0))) →
    gridLoop f fuel a b w s = some r →
    (r = (a0, b0) ∧ ∀ q ∈ diagonal a0 b0 (1 / 80), 10 ^ 99 ≤ f q.1 q.2) ∨
      (f r.1 r.2 < 10 ^ 99 ∧ f r.1 r.2 ≤ f a0 b0 ∧
        ∀ q ∈ diagonal r.1 r.2 (1 / 80), f r.1 r.2 ≤ f q.1 q.2) := by
  intro fuel
  induction fuel with
  | zero => intro a b w s r _ _ h; cases h
  | succ fuel ih =>
    intro a b w s r hst hw h
    unfold gridLoop at h
    rcases hw with ⟨i, hi, rfl⟩ | ⟨rfl, hw1, hw2⟩
    · have hgt : (1 : ℚ) / 20 / 2 ^ i > 1 / 100 := by
        rcases (show i = 0 ∨ i = 1 ∨ i = 2 by omega) with rfl | rfl | rfl <;> norm_num
      rw [if_pos hgt] at h
      rcases gridBest_spec f a b (1 / 20 / 2 ^ i) s with ⟨h1, h2⟩ | ⟨q, h1, h2, h3, h4⟩
      · rw [h1] at h
        simp only at h
        have hle : s = 10 ^ 99 ∨ f a b ≤ f a0 b0 := by
          rcases hst with ⟨hs, -⟩ | ⟨hs, -, hs2 | hs2⟩
          · exact Or.inl hs
          · exact Or.inr hs2
          · right; rw [← hs]; exact h2 _ hs2
        refine ih a b _ s r ?_ ?_ h
        · rcases hst with hst | ⟨hs, hs1, -⟩
          · exact Or.inl hst
          · refine Or.inr ⟨hs, hs1, Or.inl ?_⟩
            rcases hle with hle | hle
            · rw [hle] at hs1; exact absurd hs1 (lt_irrefl _)
            · exact hle
        · by_cases hi2 : i = 2
          · subst hi2
            right
            refine ⟨by norm_num, ?_, hle⟩
            have e : (1 : ℚ) / 20 / 2 ^ 2 = 1 / 80 := by norm_num
            rw [e] at h2
            exact h2
          · left
            exact ⟨i + 1, by omega, by rw [pow_succ]; field_simp⟩
      · rw [h2] at h
        simp only at h
        refine ih q.1 q.2 _ _ r ?_ (Or.inl ⟨i, hi, rfl⟩) h
        right
        rcases hst with ⟨hs, hab⟩ | ⟨hs, hs1, hs2 | hs2⟩
        · refine ⟨rfl, by rw [← hs]; exact h3, Or.inr ?_⟩
          rw [← hab]
          exact diagonal_symm h1
        · exact ⟨rfl, lt_trans h3 hs1, Or.inl (le_trans h3.le (by rw [hs]; exact hs2))⟩
        · exact ⟨rfl, lt_trans h3 hs1, Or.inl (h4 _ hs2)⟩
    · rw [if_neg (by norm_num)] at h
      cases h
      rcases hst with ⟨hs, hab⟩ | ⟨hs, hs1, -⟩
      · left
        refine ⟨hab, ?_⟩
        rw [hs] at hw1
        cases hab
        exact hw1
      · right
        refine ⟨by rw [← hs]; exact hs1, ?_, ?_⟩
        · rcases hw2 with hw2 | hw2
          · rw [hw2] at hs1; exact absurd hs1 (lt_irrefl _)
          · exact hw2
        · rw [hs] at hw1; exact hw1

/-- **C76 (result).** If the search ends, its result is at least as good as the point it started from
(although that point is never scored by itself) and as its four diagonal neighbours at distance 1/80;
or no neighbour of the start scores below 10⁹⁹ and the start is returned. -/
theorem C76_result (f : ℚ → ℚ → ℚ) (sqrt : ℚ → ℚ) (fuel : Nat) (I0 N : ℚ) (r : ℚ × ℚ)
    (h : findStartingPoint f sqrt fuel I0 N = some r) :
    let c := searchStart sqrt I0 N
    (r = (c, c) ∧ ∀ q ∈ diagonal c c (1 / 80), 10 ^ 99 ≤ f q.1 q.2) ∨
      (f r.1 r.2 < 10 ^ 99 ∧ f r.1 r.2 ≤ f c c ∧
        ∀ q ∈ diagonal r.1 r.2 (1 / 80), f r.1 r.2 ≤ f q.1 q.2) :=
  gridLoop_spec f _ _ fuel _ _ _ _ r (Or.inl ⟨rfl, rfl⟩) (Or.inl ⟨0, by omega, by norm_num⟩) h

/-- **C76 (more rounds).** Allowing more rounds does not change the result. -/
theorem C76_fuel (f : ℚ → ℚ → ℚ) (fuel fuel' : Nat) (hf : fuel ≤ fuel') (a b w s : ℚ) (r : ℚ × ℚ)
    (h : gridLoop f fuel a b w s = some r) : gridLoop f fuel' a b w s = some r := by
  induction fuel generalizing fuel' a b w s with
  | zero => cases h
  | succ fuel ih =>
    obtain ⟨k, rfl⟩ := Nat.exists_eq_add_of_le' (show 1 ≤ fuel' by omega)
    unfold gridLoop at h ⊢
    split at h
    · rename_i hw
      rw [if_pos hw]
      cases hg : gridBest f a b w s with
      | none => rw [hg] at h; exact ih k (by omega) _ _ _ _ h
      | some x => rw [hg] at h; exact ih k (by omega) _ _ _ _ h
    · rename_i hw
      rw [if_neg hw]
      exact h

/-- **C76 (feasible start).** The search starts from an admissible point, and the four points it looks
at first are admissible too: the parameters are positive and the inventory exceeds the impressions
shown. The square root has to be accurate to ten percent. -/
theorem C76_feasible_start (sqrt : ℚ → ℚ) (I0 N : ℚ) (hN : 0 < N)
    (hs : ∀ x, 0 < x → 0 < sqrt x ∧ x < 121 / 100 * sqrt x ^ 2) (q : ℚ × ℚ)
    (hq : q = (searchStart sqrt I0 N, searchStart sqrt I0 N) ∨
      q ∈ diagonal (searchStart sqrt I0 N) (searchStart sqrt I0 N) (1 / 20)) :
    0 < q.1 ∧ 0 < q.2 ∧ I0 < N * (1 + q.1 * q.2) := by
  have key : ∃ t, searchStart sqrt I0 N = t + 1 / 20 ∧ 0 < t ∧ I0 < N * (1 + t ^ 2) := by
    unfold searchStart
    split
    · rename_i h
      have hx : 0 < I0 / N - 1 := by
        rw [sub_pos, lt_div_iff₀ hN]; linarith
      obtain ⟨h1, h2⟩ := hs _ hx
      refine ⟨11 / 10 * sqrt (I0 / N - 1), rfl, by linarith, ?_⟩
      have h3 : I0 = N * (1 + (I0 / N - 1)) := by field_simp; ring
      calc I0 = N * (1 + (I0 / N - 1)) := h3
        _ < N * (1 + 121 / 100 * sqrt (I0 / N - 1) ^ 2) := by
          apply mul_lt_mul_of_pos_left _ hN; linarith
        _ = _ := by ring
    · rename_i h
      refine ⟨1 / 20, by norm_num, by norm_num, ?_⟩
      have := not_lt.1 h
      nlinarith
  obtain ⟨t, ht, ht0, hlt⟩ := key
  have hmono : ∀ x y, t ≤ x → t ≤ y → 0 < x ∧ 0 < y ∧ I0 < N * (1 + x * y) := by
    intro x y hx hy
    refine ⟨by linarith, by linarith, lt_of_lt_of_le hlt ?_⟩
    apply mul_le_mul_of_nonneg_left _ hN.le
    nlinarith
  rw [ht] at hq
  rcases hq with rfl | hq
  · exact hmono _ _ (by linarith) (by linarith)
  · unfold diagonal at hq
    simp only [List.mem_cons, List.not_mem_nil, or_false] at hq
    rcases hq with rfl | rfl | rfl | rfl <;> exact hmono _ _ (by linarith) (by linarith)

/-- A bowl with its lowest point at (1/2, 1/4): the search ends close to it. -/
example : findStartingPoint (fun a b => (a - 1 / 2) ^ 2 + (b - 1 / 4) ^ 2) (fun _ => 0) 100 10 20 =
    some (1 / 2, 1 / 4) := by decide +kernel

/-- A square root that is exact on the numbers needed in an example. -/
example : searchStart (fun x => if x = 4 then 2 else 0) 100 20 = 9 / 4 ∧
    (4 : ℚ) < 121 / 100 * 2 ^ 2 := by decide +kernel

/-- **C76 (full statement, false).** The search ends, whatever non-negative score it minimizes. -/
def C76_ends_full : Prop :=
  ∀ (f : ℚ → ℚ → ℚ) (sqrt : ℚ → ℚ) (I0 N : ℚ), (∀ a b, 0 ≤ f a b) →
    ∃ fuel r, findStartingPoint f sqrt fuel I0 N = some r

/-- A non-negative score that falls for ever in the direction of large `alpha`. -/
def fallingScore (a _b : ℚ) : ℚ := if 0 < a then 1 / a else 10 ^ 100

theorem fallingScore_lt {a b a' b' : ℚ} (ha : 0 < a) (h : a < a') :
    fallingScore a' b' < fallingScore a b := by
  unfold fallingScore
  rw [if_pos ha, if_pos (lt_trans ha h)]
  exact one_div_lt_one_div_of_lt ha h

theorem gridLoop_falling (fuel : Nat) : ∀ (a b s : ℚ), 0 < a →
    fallingScore (a + 1 / 20) 0 < s → gridLoop fallingScore fuel a b (1 / 20) s = none := by
  induction fuel with
  | zero => intros; rfl
  | succ fuel ih =>
    intro a b s ha hs
    unfold gridLoop
    rw [if_pos (by norm_num)]
    rcases gridBest_spec fallingScore a b (1 / 20) s with ⟨-, h2⟩ | ⟨q, h1, h2, h3, h4⟩
    · have := h2 (a + 1 / 20, b + 1 / 20) (by simp [diagonal])
      exact absurd hs (not_lt.2 this)
    · have hq : q.1 = a + 1 / 20 := by
        have h5 := h4 (a + 1 / 20, b + 1 / 20) (by simp [diagonal])
        have h6 : q.1 = a - 1 / 20 ∨ q.1 = a + 1 / 20 := by
          unfold diagonal at h1
          simp only [List.mem_cons, List.not_mem_nil, or_false] at h1
          rcases h1 with rfl | rfl | rfl | rfl <;> simp
        rcases h6 with h6 | h6
        · exfalso
          revert h5
          rw [imp_false, not_le]
          by_cases h7 : 0 < q.1
          · exact fallingScore_lt h7 (by rw [h6]; linarith)
          · have hlt : fallingScore (a + 1 / 20) (b + 1 / 20) < 10 ^ 100 := by
              unfold fallingScore
              rw [if_pos (by linarith)]
              calc 1 / (a + 1 / 20) ≤ 1 / (1 / 20) :=
                    one_div_le_one_div_of_le (by norm_num) (by linarith)
                _ < 10 ^ 100 := by norm_num
            calc _ < _ := hlt
              _ = fallingScore q.1 q.2 := by unfold fallingScore; rw [if_neg h7]
        · exact h6
      rw [h2]
      simp only
      apply ih
      · rw [hq]; linarith
      · exact fallingScore_lt (by rw [hq]; linarith) (by linarith)

theorem C76_ends_full_is_false : ¬ C76_ends_full := by
  intro h
  obtain ⟨fuel, r, hr⟩ := h fallingScore (fun _ => 0) 0 1 (by
    intro a b
    unfold fallingScore
    split
    · rename_i ha; exact (one_div_pos.2 ha).le
    · norm_num)
  have : findStartingPoint fallingScore (fun _ => 0) fuel 0 1 = none := by
    unfold findStartingPoint
    have hc : searchStart (fun _ => (0 : ℚ)) 0 1 = 1 / 10 := by decide +kernel
    rw [hc]
    exact gridLoop_falling fuel _ _ _ (by norm_num) (by decide +kernel)
  rw [this] at hr
  cases hr

/-- **C76 (ends, partial).** The search ends if only finitely many points of the grid with step 1/80
around the start score below 10⁹⁹, for instance because the score is large far away. Missing: scores
that fall for ever in some direction, see `C76_ends_full_is_false`. -/
theorem C76_ends_partial (f : ℚ → ℚ → ℚ) (sqrt : ℚ → ℚ) (I0 N : ℚ) (T : Finset (ℤ × ℤ))
    (hT : ∀ i j : ℤ, f (searchStart sqrt I0 N + i / 80) (searchStart sqrt I0 N + j / 80) < 10 ^ 99 →
      (i, j) ∈ T) :
    ∃ fuel r, findStartingPoint f sqrt fuel I0 N = some r := by
  unfold findStartingPoint
  generalize searchStart sqrt I0 N = c at hT ⊢
  have key : ∀ (k : Nat), k ≤ 3 → ∀ (n : Nat) (i j : ℤ) (s : ℚ), s ≤ 10 ^ 99 →
      (T.filter (fun q : ℤ × ℤ => f (c + q.1 / 80) (c + q.2 / 80) < s)).card ≤ n →
      ∃ fuel r, gridLoop f fuel (c + i / 80) (c + j / 80) (2 ^ k / 160) s = some r := by
    intro k
    induction k with
    | zero =>
      intro _ n i j s _ _
      exact ⟨1, (c + i / 80, c + j / 80), by unfold gridLoop; rw [if_neg (by norm_num)]⟩
    | succ k ihk =>
      intro hk n
      have hw : (2 : ℚ) ^ (k + 1) / 160 > 1 / 100 := by
        have : (1 : ℚ) ≤ 2 ^ k := one_le_pow₀ (by norm_num)
        rw [pow_succ]; linarith
      induction n with
      | zero =>
        intro i j s hs hn
        have hnone : gridBest f (c + i / 80) (c + j / 80) (2 ^ (k + 1) / 160) s = none := by
          rcases gridBest_spec f (c + i / 80) (c + j / 80) (2 ^ (k + 1) / 160) s with
            ⟨h1, -⟩ | ⟨q, h1, h2, h3, -⟩
          · exact h1
          · exfalso
            have : ∃ i' j' : ℤ, q = (c + i' / 80, c + j' / 80) := by
              have e : (2 : ℚ) ^ (k + 1) / 160 = ((2 ^ k : ℤ) : ℚ) / 80 := by
                push_cast; rw [pow_succ]; ring
              rw [e] at h1
              unfold diagonal at h1
              simp only [List.mem_cons, List.not_mem_nil, or_false] at h1
              rcases h1 with rfl | rfl | rfl | rfl
              · exact ⟨i - 2 ^ k, j - 2 ^ k, by push_cast; congr 1 <;> ring⟩
              · exact ⟨i - 2 ^ k, j + 2 ^ k, by push_cast; congr 1 <;> ring⟩
              · exact ⟨i + 2 ^ k, j - 2 ^ k, by push_cast; congr 1 <;> ring⟩
              · exact ⟨i + 2 ^ k, j + 2 ^ k, by push_cast; congr 1 <;> ring⟩
            obtain ⟨i', j', rfl⟩ := this
            have hmem : (i', j') ∈ T.filter (fun q : ℤ × ℤ => f (c + q.1 / 80) (c + q.2 / 80) < s) :=
              Finset.mem_filter.2 ⟨hT _ _ (lt_of_lt_of_le h3 hs), h3⟩
            have := Finset.card_pos.2 ⟨_, hmem⟩
            omega
        obtain ⟨fuel, r, hr⟩ := ihk (by omega) 0 i j s hs hn
        refine ⟨fuel + 1, r, ?_⟩
        unfold gridLoop
        rw [if_pos hw, hnone]
        simp only
        rw [show (2 : ℚ) ^ (k + 1) / 160 / 2 = 2 ^ k / 160 by rw [pow_succ]; ring]
        exact hr
      | succ n ihn =>
        intro i j s hs hn
        rcases gridBest_spec f (c + i / 80) (c + j / 80) (2 ^ (k + 1) / 160) s with
          ⟨h1, -⟩ | ⟨q, h1, h2, h3, -⟩
        · obtain ⟨fuel, r, hr⟩ := ihk (by omega) (n + 1) i j s hs hn
          refine ⟨fuel + 1, r, ?_⟩
          unfold gridLoop
          rw [if_pos hw, h1]
          simp only
          rw [show (2 : ℚ) ^ (k + 1) / 160 / 2 = 2 ^ k / 160 by rw [pow_succ]; ring]
          exact hr
        · have : ∃ i' j' : ℤ, q = (c + i' / 80, c + j' / 80) := by
            have e : (2 : ℚ) ^ (k + 1) / 160 = ((2 ^ k : ℤ) : ℚ) / 80 := by
              push_cast; rw [pow_succ]; ring
            rw [e] at h1
            unfold diagonal at h1
            simp only [List.mem_cons, List.not_mem_nil, or_false] at h1
            rcases h1 with rfl | rfl | rfl | rfl
            · exact ⟨i - 2 ^ k, j - 2 ^ k, by push_cast; congr 1 <;> ring⟩
            · exact ⟨i - 2 ^ k, j + 2 ^ k, by push_cast; congr 1 <;> ring⟩
            · exact ⟨i + 2 ^ k, j - 2 ^ k, by push_cast; congr 1 <;> ring⟩
            · exact ⟨i + 2 ^ k, j + 2 ^ k, by push_cast; congr 1 <;> ring⟩
          obtain ⟨i', j', rfl⟩ := this
          have hmem : (i', j') ∈ T.filter (fun q : ℤ × ℤ => f (c + q.1 / 80) (c + q.2 / 80) < s) :=
            Finset.mem_filter.2 ⟨hT _ _ (lt_of_lt_of_le h3 hs), h3⟩
          have hlt : (T.filter (fun q : ℤ × ℤ => f (c + q.1 / 80) (c + q.2 / 80) <
              f (c + i' / 80) (c + j' / 80))).card <
              (T.filter (fun q : ℤ × ℤ => f (c + q.1 / 80) (c + q.2 / 80) < s)).card := by
            apply Finset.card_lt_card
            rw [Finset.ssubset_iff_of_subset]
            · exact ⟨_, hmem, by simp⟩
            · intro x hx
              rw [Finset.mem_filter] at hx ⊢
              exact ⟨hx.1, lt_trans hx.2 h3⟩
          obtain ⟨fuel, r, hr⟩ := ihn i' j' (f (c + i' / 80) (c + j' / 80)) (le_trans h3.le hs) (by omega)
          refine ⟨fuel + 1, r, ?_⟩
          unfold gridLoop
          rw [if_pos hw, h2]
          exact hr
  obtain ⟨fuel, r, hr⟩ := key 3 le_rfl _ 0 0 (10 ^ 99) le_rfl le_rfl
  refine ⟨fuel, r, ?_⟩
  rw [← hr]
  norm_num

/-- A score that is below 10⁹⁹ at a single grid point meets the hypothesis. -/
example : ∃ T : Finset (ℤ × ℤ), ∀ i j : ℤ,
    (fun a b : ℚ => if a = 1 / 10 ∨ b ≠ 1 / 20 then (10 : ℚ) ^ 99 else if a = 3 / 20 then 3 else 10 ^ 99)
      (searchStart (fun _ => 0) 0 1 + i / 80) (searchStart (fun _ => 0) 0 1 + j / 80) < 10 ^ 99 →
    (i, j) ∈ T := by
  have hc : searchStart (fun _ => (0 : ℚ)) 0 1 = 1 / 10 := by decide +kernel
  refine ⟨{(4, -4)}, ?_⟩
  intro i j h
  rw [hc] at h
  simp only at h
  split at h
  · exact absurd h (lt_irrefl _)
  · rename_i h1
    split at h
    · rename_i h2
      rw [not_or, not_not] at h1
      have hi : (i : ℚ) = 4 := by linarith
      have hj : (j : ℚ) = -4 := by linarith [h1.2]
      have hi' : i = 4 := by exact_mod_cast hi
      have hj' : j = -4 := by exact_mod_cast hj
      rw [hi', hj']; simp
    · exact absurd h (lt_irrefl _)

/-- **C54 (single publisher).** A query for any number of publishers other than one is refused with a
`ValueError`, whatever the state of the model. -/
theorem C54_refused (M : Nat) (gp : ℚ → ℚ → Nat → ℚ) (m : GammaPoisson.Model) (xs : List ℚ)
    (h : xs.length ≠ 1) (F : Int) :
    m.byImpressions M gp xs F = .error .valueError ∧ m.bySpend M gp xs F = .error .valueError := by
  match xs, h with
  | [], _ => exact ⟨rfl, rfl⟩
  | _ :: _ :: _, _ => exact ⟨rfl, rfl⟩

example : ([3, 4] : List ℚ).length ≠ 1 := by decide

/-- **C54 (training data).** A training point of one publisher, with or without a spend, is accepted
exactly if it has at least a thousandth of an impression and its reach is at most its impressions;
any other number of points is refused. All refusals are `ValueError`s. -/
theorem C54_accepted (imps ks : List ℚ) (i r : ℚ) (s : Option ℚ) (point : ReachPoint)
    (hnew : ReachPoint.new imps ks (s.map (fun x => [x])) = .ok point) (hi : imps = [i])
    (hr : ks.head? = some r) (mr : Option ℚ) (e : ℚ) :
    ((∃ m, GammaPoisson.Model.new [point] mr e = .ok m) ↔ 1 / 1000 ≤ i ∧ r ≤ i) ∧
    (¬ (1 / 1000 ≤ i ∧ r ≤ i) → GammaPoisson.Model.new [point] mr e = .error .valueError) ∧
    ∀ data : List ReachPoint, data.length ≠ 1 →
      GammaPoisson.Model.new data mr e = .error .valueError := by
  subst hi
  have hks : ∃ l, ks = r :: l := by
    cases ks with
    | nil => cases hr
    | cons a l => cases hr; exact ⟨l, rfl⟩
  obtain ⟨l, rfl⟩ := hks
  have hpt : point.impressions = [i] ∧ point.kplusReaches = r :: l ∧
      point.spends = s.map (fun x => [x]) := by
    unfold ReachPoint.new at hnew
    cases s <;> simp [ReachPoint.truthySpends] at hnew <;> subst hnew <;> exact ⟨rfl, rfl, rfl⟩
  obtain ⟨p1, p2, p3⟩ := hpt
  have hc : checkCurveData [point] = .ok () := by
    simp [checkCurveData, checkSurfaceData, p1, bind, Except.bind]
  have hx : pyIndex point.impressions 0 = .ok i := (pyIndex_ok_iff _ 0 _).2 (by rw [p1]; rfl)
  have hreach : point.reach 1 = .ok r := by
    unfold ReachPoint.reach
    rw [p2, if_pos (by simp)]
    exact (pyIndex_ok_iff _ 0 _).2 rfl
  have hcpi : ∃ c, GoergModel.costPerImpression point.spends i = .ok c := by
    rw [p3]
    cases s with
    | none => exact ⟨none, rfl⟩
    | some x => exact ⟨some (x / i), rfl⟩
  obtain ⟨c, hcpi⟩ := hcpi
  have hbad : ¬ (1 / 1000 ≤ i ∧ r ≤ i) → GammaPoisson.Model.new [point] mr e = .error .valueError := by
    intro hn
    unfold GammaPoisson.Model.new
    simp only [hc, hx, hreach, hcpi, bind, Except.bind]
    by_cases h1 : i < 1 / 1000
    · rw [if_pos h1]
    · rw [if_neg h1, if_pos]
      by_contra h2
      exact hn ⟨not_lt.1 h1, not_lt.1 h2⟩
  refine ⟨⟨?_, ?_⟩, hbad, ?_⟩
  · rintro ⟨m, hm⟩
    by_contra hn
    rw [hbad hn] at hm
    cases hm
  · rintro ⟨h1, h2⟩
    unfold GammaPoisson.Model.new
    simp only [hc, hx, hreach, hcpi, bind, Except.bind, if_neg (not_lt.2 h1), if_neg (not_lt.2 h2),
      pure, Except.pure]
    exact ⟨_, rfl⟩
  · intro data hd
    match data, hd with
    | [], _ => rfl
    | a :: b :: l, _ =>
      unfold GammaPoisson.Model.new
      rcases hcd : checkCurveData (a :: b :: l) with err | u
      · have he : err = .valueError := by
          unfold checkCurveData checkSurfaceData at hcd
          simp only [bind, Except.bind] at hcd
          split at hcd
          · rename_i h
            split at h
            · cases h
            · cases h; cases hcd; rfl
          · split at hcd
            · cases hcd; rfl
            · cases hcd
        rw [he]
        rfl
      · rfl

/-- A point with 10 impressions reaching 8 people, 3 of them twice, meets the hypotheses. -/
example : ∃ point, ReachPoint.new [10] [8, 3] ((some 5 : Option ℚ).map (fun x => [x])) = .ok point ∧
    ([8, 3] : List ℚ).head? = some 8 := ⟨_, rfl, rfl⟩

/-- **C54 (defaults).** Without further arguments the universe is fitted, nothing is extrapolated beyond
the observed impressions, and reaches at one frequency are returned. -/
theorem C54_defaults (data : List ReachPoint) (M : Nat) (gp : ℚ → ℚ → Nat → ℚ) (m : GammaPoisson.Model)
    (xs : List ℚ) :
    GammaPoisson.Model.new data = GammaPoisson.Model.new data none 1 ∧
    m.byImpressions M gp xs = m.byImpressions M gp xs 1 ∧
    m.bySpend M gp xs = m.bySpend M gp xs 1 := ⟨rfl, rfl, rfl⟩

end Verif
