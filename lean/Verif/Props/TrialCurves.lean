import Verif.Props.TrialSurface

/-!
# C99: the curves of the registered models as a surface uses them
-/

namespace Verif

open Verif.Spec

variable {S C : Type}

/-- A curve whose predictions make sense for a surface: it can be used, no reach is negative or larger
than the maximal reach, and one impression reaches somebody. -/
structure SoundCurve (c : PlannerCurve) : Prop extends UsableCurve c where
  signs : ∀ (n : Nat) (v : ℚ), c.surface.reachAt n = .ok v → 0 ≤ v ∧ (1 ≤ n → 0 < v)
  range : ∀ s x v, 0 ≤ s → c.impressionsForSpend s = .ok x → c.surface.reachAt x = .ok v →
    0 ≤ v ∧ v ≤ c.surface.maxReach

/-- It is enough to answer at every number of impressions, at a positive price. -/
theorem sound_of_price (c : PlannerCurve) (price : ℚ) (hp : 0 < price) (g : ℚ → ℚ)
    (hmax : 0 < c.surface.maxReach) (hreach : ∀ x, 0 ≤ x → c.surface.reachAt x = .ok (g x))
    (hspend : ∀ s, c.impressionsForSpend s = .ok (s / price)) (h0 : ∀ x, 0 ≤ x → 0 ≤ g x)
    (h1 : ∀ x, 1 ≤ x → 0 < g x) (hle : ∀ x, 0 ≤ x → g x ≤ c.surface.maxReach) : SoundCurve c where
  positive := hmax
  counts := fun n => ⟨_, hreach n (by positivity)⟩
  spends := fun s hs => ⟨_, _, hspend s, hreach _ (div_nonneg hs hp.le)⟩
  signs := by
    intro n v hv
    rw [hreach n (by positivity)] at hv
    rw [← Except.ok.inj hv]
    exact ⟨h0 _ (by positivity), fun hn => h1 _ (by exact_mod_cast hn)⟩
  range := by
    intro s x v hs hx hv
    rw [hspend s] at hx
    have hx0 : 0 ≤ x := by rw [← Except.ok.inj hx]; exact div_nonneg hs hp.le
    rw [hreach x hx0] at hv
    rw [← Except.ok.inj hv]
    exact ⟨h0 x hx0, hle x hx0⟩

/-- Goerg curves of measurements that count somebody. -/
theorem goerg_sound {lib : SketchLib S} {n : Nat} {c : ℚ} {F : Nat} {r : ReachPoint}
    (hF : 1 ≤ F) (hm : Measured lib n c F r) (hc : 0 < c) (h2 : 2 ≤ n)
    (hone : ∀ a b B B' s, ∀ y ∈ lib.estimate a b F B B' s, 1 ≤ y) :
    ∃ g, GoergModel.new [r] = .ok g ∧ SoundCurve g.plannerCurve := by
  obtain ⟨g, hg⟩ := (goerg_fits hF hm).1 h2
  obtain ⟨x, hx, -, -, hx1, -⟩ := hm.reach
  have hx1 := hx1 hone
  obtain ⟨d, i, v, e1, e2, e3, e4, e5, e6, e7, e8, -, e9⟩ := (goerg_new_ok_iff _ g).1 hg
  simp only [List.cons.injEq, and_true] at e1
  subst e1
  rw [hx] at e4
  have hv := Except.ok.inj e4
  rw [hm.impressions] at e2
  have hi : i = n := by simpa using e2.symm
  have hn : (0 : ℚ) < n := by exact_mod_cast (by omega : 0 < n)
  have hrpos : 0 < g.reach := by
    rw [e7, ← hv]
    exact_mod_cast hx1
  have hcpi : g.cpi = some (c / n) := by
    rw [e9, hm.spends, hi]; rfl
  have hprice : 0 < c / n := div_pos hc hn
  obtain ⟨-, hrho⟩ := plannerCurve_reachAt [r] g hg hrpos 0 le_rfl
  refine ⟨g, hg, sound_of_price _ (c / n) hprice (fun x => g.rho * (x / (x + g.rho))) ?_ ?_ ?_ ?_ ?_ ?_⟩
  · exact hrho
  · intro x hx
    exact (plannerCurve_reachAt [r] g hg hrpos x hx).1
  · intro s
    show g.impressionsForSpend s = _
    unfold GoergModel.impressionsForSpend GoergModel.truthyCpi
    rw [hcpi]
    simp [hprice.ne']
  · intro x hx
    positivity
  · intro x hx
    have : 0 < x := by linarith
    positivity
  · intro x hx
    show _ ≤ g.rho
    refine mul_le_of_le_one_right hrho.le ((div_le_one (by linarith)).2 (by linarith))

/-- What is assumed of the probabilities that scipy reports to the gamma-Poisson model
(gamma_poisson_model.py:186-214) for parameters within the bounds of the optimizer: they belong to a
distribution, and somebody sees exactly one impression. -/
def GammaTailOk (S : GammaPoisson.Solver) : Prop :=
  ∀ alpha beta, 1 / 1000000 ≤ alpha → 1 / 1000000 ≤ beta →
    IsTail (S.gp alpha beta) ∧ 0 < S.gp alpha beta 1

theorem binTail_one_pos : ∀ (n : Nat) {p : ℚ}, 0 < p → p ≤ 1 → 1 ≤ n → p ≤ binTail n 1 p := by
  intro n p h0 h1 hn
  obtain ⟨n, rfl⟩ := Nat.exists_eq_add_of_le' hn
  have := binTail_nonneg n 1 h0.le h1
  rw [binTail_succ n 0 p, binTail_zero]
  have : 0 ≤ (1 - p) * binTail n (0 + 1) p := mul_nonneg (by linarith) this
  linarith

theorem truthy_gamma {g : GammaPoisson.Model} {x : ℚ} (h : g.cpi = some x) (hx : 0 < x) (s : ℚ) :
    g.impressionsForSpend s = .ok (s / x) := by
  unfold GammaPoisson.Model.impressionsForSpend GammaPoisson.Model.truthyCpi
  rw [h]
  simp [hx.ne']

theorem truthy_inflated {g : KInflated.Model} {x : ℚ} (h : g.cpi = some x) (hx : 0 < x) (s : ℚ) :
    g.impressionsForSpend s = .ok (s / x) := by
  unfold KInflated.Model.impressionsForSpend KInflated.Model.truthyCpi
  rw [h]
  simp [hx.ne']

/-- Gamma-Poisson curves. -/
theorem gamma_sound (L : Solvers) (g : GammaPoisson.Model) (N alpha beta price : ℚ)
    (hg : GpFit g N (N * (1 + alpha * beta)) alpha beta) (hN : 1 ≤ N) (ha : 1 / 1000000 ≤ alpha)
    (hb : 1 / 1000000 ≤ beta) (hcpi : g.cpi = some price) (hprice : 0 < price)
    (hS : GammaTailOk (L.gamma g.extrapolationValue)) :
    SoundCurve (L.plannerCurve (.fitted (.gamma g))) := by
  obtain ⟨⟨htail, hmass⟩, hone⟩ := hS alpha beta ha hb
  set gp := (L.gamma g.extrapolationValue).gp with hgp
  have hab : 0 < alpha * beta := mul_pos (by linarith) (by linarith)
  have hImax : 1 < N * (1 + alpha * beta) := by nlinarith
  have hmx : GammaPoisson.maxComputationalFrequency = 1000 := rfl
  have hsum : ∀ p : ℚ, 0 ≤ p → p ≤ 1 → 0 ≤ seenAtLeast GammaPoisson.maxComputationalFrequency
      (gp alpha beta) 1 p ∧ (0 < p → 0 < seenAtLeast GammaPoisson.maxComputationalFrequency
      (gp alpha beta) 1 p) := by
    intro p h0 h1
    have hterm : ∀ n ∈ Finset.Icc 1 GammaPoisson.maxComputationalFrequency,
        0 ≤ gp alpha beta n * binTail n 1 p := by
      intro n hn
      exact mul_nonneg (htail n (Finset.mem_Icc.1 hn).1) (binTail_nonneg n 1 h0 h1)
    refine ⟨Finset.sum_nonneg hterm, fun hp => ?_⟩
    refine Finset.sum_pos' hterm ⟨1, Finset.mem_Icc.2 ⟨le_rfl, by rw [hmx]; omega⟩, ?_⟩
    exact mul_pos hone (lt_of_lt_of_le hp (binTail_one_pos 1 hp h1 le_rfl))
  have hall : ∀ p : ℚ, 0 ≤ p → p ≤ 1 → seenAtLeast GammaPoisson.maxComputationalFrequency
      (gp alpha beta) 1 p ≤ 1 := by
    intro p h0 h1
    refine le_trans (Finset.sum_le_sum (fun n hn => ?_)) (hmass GammaPoisson.maxComputationalFrequency)
    exact mul_le_of_le_one_right (htail n (Finset.mem_Icc.1 hn).1) (binTail_le_one n 1 h0 h1)
  refine sound_of_price _ price hprice (fun x => N * seenAtLeast
    GammaPoisson.maxComputationalFrequency (gp alpha beta) 1 (gpShare x (N * (1 + alpha * beta))))
    ?_ ?_ ?_ ?_ ?_ ?_
  · show 0 < g.maxReach.getD 0
    rw [hg.maxReach, Option.getD_some]; linarith
  · intro x hx
    obtain ⟨pt, p1, -, p2, p3⟩ := C54_formula GammaPoisson.maxComputationalFrequency gp g _ _ _ _ hg
      x hx 1
    have hmin : min 1 GammaPoisson.maxComputationalFrequency = 1 := by rw [hmx]; rfl
    have p1' : g.byImpressions GammaPoisson.maxComputationalFrequency gp [x] = .ok (some pt) := p1
    have hr := (reachPoint_reach_one pt _).2 (p3 0 (by rw [hmin]; omega))
    show L.reachAt (.gamma g) x = _
    unfold Solvers.reachAt
    simp only [← hgp, p1', orNan, bind, Except.bind]
    exact hr
  · exact truthy_gamma hcpi hprice
  · intro x hx
    obtain ⟨s1, s2⟩ := gpShare_bounds hx hImax.le
    exact mul_nonneg (by linarith) (hsum _ s1 s2.le).1
  · intro x hx
    obtain ⟨s1, s2⟩ := gpShare_bounds (by linarith : 0 ≤ x) hImax.le
    refine mul_pos (by linarith) ((hsum _ s1 s2.le).2 ?_)
    unfold gpShare
    exact div_pos (lt_min (by linarith) (by linarith)) (by linarith)
  · intro x hx
    obtain ⟨s1, s2⟩ := gpShare_bounds hx hImax.le
    show _ ≤ g.maxReach.getD 0
    rw [hg.maxReach, Option.getD_some]
    exact mul_le_of_le_one_right (by linarith) (hall _ s1 s2.le)

/-- k-inflated curves. -/
theorem inflated_sound (L : Solvers) (g : KInflated.Model) (f : KInflated.Fitted) (price : ℚ)
    (hf : g.fitted = some f) (hgood : GoodFit f) (hcpi : g.cpi = some price) (hprice : 0 < price) :
    SoundCurve (L.plannerCurve (.fitted (.inflated g))) := by
  have hpmf := hgood.2.1
  have hz := hgood.2.2
  have hnn : ∀ n, 0 ≤ f.dist.pmf.getD n 0 := by
    intro n
    by_cases hn : n < f.dist.pmf.length
    · rw [List.getD_eq_getElem _ _ hn]
      exact hpmf.1 _ (List.getElem_mem hn)
    · rw [List.getD_eq_default _ _ (by omega)]
  refine sound_of_price _ price hprice (fun x => f.maxReach * shownAtLeast f.dist.pmf 1 (share f x))
    ?_ ?_ ?_ ?_ ?_ ?_
  · show 0 < (g.fitted.map (·.maxReach)).getD 0
    rw [hf]; exact hgood.1
  · intro x hx
    have hpred := C40_formula f hgood x hx 1 le_rfl
    obtain ⟨pt, p1, p2, -⟩ := toPoint_ok g x
      [f.maxReach * shownAtLeast f.dist.pmf 1 (share f x)]
    have hby : g.byImpressions L.inflated KInflated.maxComputationalFrequency [x] 1 =
        .ok (g, some pt) := by
      unfold KInflated.Model.byImpressions KInflated.Model.fit
      simp only [hf, bind, Except.bind]
      have hpred' : KInflated.predict f x 1 =
        .ok (some [f.maxReach * shownAtLeast f.dist.pmf 1 (share f x)]) := hpred
      rw [hpred']
      simp only
      rw [p1]
      rfl
    have hr := (reachPoint_reach_one pt _).2 (by rw [p2]; rfl :
      pt.kplusReaches[0]? = some (f.maxReach * shownAtLeast f.dist.pmf 1 (share f x)))
    show L.reachAt (.inflated g) x = _
    unfold Solvers.reachAt
    simp only [hby, orNan, Except.map, bind, Except.bind]
    exact hr
  · exact truthy_inflated hcpi hprice
  · intro x hx
    obtain ⟨s1, s2⟩ := share_bounds hgood hx
    exact mul_nonneg hgood.1.le (shownAtLeast_nonneg hpmf.1 s1 s2 _)
  · intro x hx
    obtain ⟨-, s2⟩ := share_bounds hgood (by linarith : 0 ≤ x)
    have hinv := lt_of_lt_of_le hgood.1 (inventory_ge hgood)
    have s1 : 0 < share f x := lt_min (div_pos (by linarith) hinv) one_pos
    refine mul_pos hgood.1 (lt_of_lt_of_le s1 ?_)
    have hle : ∑ n ∈ Finset.range f.dist.pmf.length, f.dist.pmf.getD n 0 * share f x ≤
        shownAtLeast f.dist.pmf 1 (share f x) := by
      refine Finset.sum_le_sum ?_
      intro n _
      rcases Nat.eq_zero_or_pos n with rfl | hn
      · rw [hz]; simp
      · exact mul_le_mul_of_nonneg_left (binTail_one_pos n s1 s2 hn) (hnn n)
    rw [← Finset.sum_mul, ← list_sum_getD, hpmf.2, one_mul] at hle
    exact hle
  · intro x hx
    obtain ⟨s1, s2⟩ := share_bounds hgood hx
    show _ ≤ (g.fitted.map (·.maxReach)).getD 0
    rw [hf, Option.map_some, Option.getD_some]
    refine mul_le_of_le_one_right hgood.1.le ?_
    have hle : shownAtLeast f.dist.pmf 1 (share f x) ≤
        ∑ n ∈ Finset.range f.dist.pmf.length, f.dist.pmf.getD n 0 := by
      refine Finset.sum_le_sum ?_
      intro n _
      exact mul_le_of_le_one_right (hnn n) (binTail_le_one n 1 s1 s2)
    rwa [← list_sum_getD, hpmf.2] at hle

/-- Whoever delivers an impression reaches somebody. -/
theorem first_reaches (log : Log) (hne : log ≠ []) (hsorted : log.Pairwise (fun a b => a.2 ≤ b.2))
    (n : Nat) (hn : 1 ≤ n) : 0 < kPlusReach (exposuresAtImpressions log n) 1 := by
  obtain ⟨e, l, rfl⟩ := List.exists_cons_of_ne_nil hne
  have hrank : rank (e :: l) 0 = 0 := by
    rw [rank_cons_zero, List.countP_eq_zero]
    intro x hx
    simpa using (List.pairwise_cons.1 hsorted).1 x hx
  have hfin : {u | 1 ≤ exposuresAtImpressions (e :: l) n u}.Finite := by
    refine (List.finite_toSet ((e :: l).map (·.1))).subset ?_
    intro u hu
    rw [Set.mem_ofPred_eq] at hu
    unfold exposuresAtImpressions at hu
    obtain ⟨j, -, hj⟩ := List.countP_pos_iff.1 hu
    simp only [decide_eq_true_eq] at hj
    obtain ⟨x, hx, rfl⟩ := Option.map_eq_some_iff.1 hj.2
    exact List.mem_map.2 ⟨x, List.mem_of_getElem? hx, rfl⟩
  refine (Set.ncard_pos hfin).2 ⟨e.1, ?_⟩
  rw [Set.mem_ofPred_eq]
  unfold exposuresAtImpressions
  refine List.countP_pos_iff.2 ⟨0, by simp, ?_⟩
  simp only [hrank, decide_eq_true_eq]
  exact ⟨by omega, rfl⟩

/-- Nobody is reached who is not in the log. -/
theorem reach_le_users (log : Log) (n : Nat) :
    kPlusReach (exposuresAtImpressions log n) 1 ≤ (users log).ncard := by
  have hfin : (users log).Finite := by
    refine (List.finite_toSet (log.map (·.1))).subset ?_
    rintro u ⟨e, he, rfl⟩
    exact List.mem_map.2 ⟨e, he, rfl⟩
  refine Set.ncard_le_ncard ?_ hfin
  intro u hu
  rw [Set.mem_ofPred_eq] at hu
  unfold exposuresAtImpressions at hu
  obtain ⟨j, -, hj⟩ := List.countP_pos_iff.1 hu
  simp only [decide_eq_true_eq] at hj
  obtain ⟨x, hx, rfl⟩ := Option.map_eq_some_iff.1 hj.2
  exact ⟨x, List.mem_of_getElem? hx, rfl⟩

/-- True reach curves of publishers with at least one impression, logged in order of cost. -/
theorem truth_sound (L : Solvers) (ds : DataSet) (logs : List Log)
    (hb : List.Forall₂ Built logs ds.data) (i : Nat) (hi : i < logs.length)
    (hne : logs[i] ≠ []) (hsorted : logs[i].Pairwise (fun a b => a.2 ≤ b.2)) (m : GroundTruthCurve) (hm : GroundTruthCurve.new ds i = .ok m) :
    SoundCurve (L.plannerCurve (.truth m)) := by
  have hlen := hb.length_eq
  have hreach : ∀ n : Nat, (L.plannerCurve (.truth m)).surface.reachAt n =
      .ok (kPlusReach (exposuresAtImpressions logs[i] n) 1 : ℚ) := by
    intro n
    obtain ⟨m', r, h1, -, h3, -, h5⟩ := C42_by_impressions ds logs hb i hi n 1 le_rfl
    rw [hm] at h1
    cases h1
    have h3' : m.byImpressions [(n : Int)] = .ok r := h3
    have h5' := h5 1 le_rfl le_rfl
    show (if (n : ℚ).den = 1 then do
      let r ← m.byImpressions [(n : ℚ).num]
      r.reach 1 else Except.error PyErr.typeError) = _
    rw [if_pos (by simp)]
    simp only [Rat.num_natCast, h3', bind, Except.bind]
    exact h5'
  obtain ⟨m', h1, hds, hidx, hmax⟩ := groundTruth_new hb i hi
  rw [hm] at h1
  cases h1
  obtain ⟨e, l, hl⟩ := List.exists_cons_of_ne_nil hne
  have hspend : ∀ s, (L.plannerCurve (.truth m)).impressionsForSpend s =
      .ok (((ds.data[i]'(by omega)).impressionsBySpend s : Nat) : ℚ) := by
    intro s
    show (m.impressionsForSpend s).map (fun n : Nat => (n : ℚ)) = _
    unfold GroundTruthCurve.impressionsForSpend
    simp only [hds, hidx]
    rw [pyIndex_nat _ _ (by omega)]
    rfl
  refine ⟨⟨?_, fun n => ⟨_, hreach n⟩, fun s _ => ⟨_, _, hspend s, hreach _⟩⟩, ?_, ?_⟩
  · show (0 : ℚ) < (m.maxReach : ℚ)
    rw [hmax]
    have hfin : (users logs[i]).Finite := by
      refine (List.finite_toSet (logs[i].map (·.1))).subset ?_
      rintro u ⟨e, he, rfl⟩
      exact List.mem_map.2 ⟨e, he, rfl⟩
    exact_mod_cast (Set.ncard_pos hfin).2 ⟨e.1, e, by rw [hl]; simp, rfl⟩
  · intro n v hv
    rw [hreach n] at hv
    rw [← Except.ok.inj hv]
    refine ⟨by positivity, fun hn => ?_⟩
    exact_mod_cast first_reaches _ hne hsorted n hn
  · intro s x v _ hx hv
    rw [hspend s] at hx
    rw [← Except.ok.inj hx, hreach] at hv
    rw [← Except.ok.inj hv]
    refine ⟨by positivity, ?_⟩
    show _ ≤ (m.maxReach : ℚ)
    rw [hmax]
    exact_mod_cast reach_le_users _ _

end Verif
