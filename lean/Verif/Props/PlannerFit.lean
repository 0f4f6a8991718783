import Verif.Props.TwoPublishers

/-!
# C86: what the planner predicts for the campaign it was trained on
-/

namespace Verif

open Verif.Spec

variable {S M : Type}

/-- **C86 (a).** Before `fit_model` a planner has no model: `modeled_reach_by_spend` fails with an
`AttributeError`.  After `fit_model` it answers with the model the strategy returned, and the true
reach is the data set's own, before and after. -/
theorem C86_protocol (halo : HaloSimulator S) (fit : HaloSimulator S → PrivacyBudget ℚ → HaloM M)
    (bySpend : M → List ℚ → Int → Except PyErr ReachPoint) (budget : PrivacyBudget ℚ)
    (st st' : HaloState) (spends : List ℚ) (F : Int) :
    (Planner.new halo fit).modeledReachBySpend bySpend spends F = .error .attributeError ∧
    (Planner.new halo fit).trueReachBySpend spends F = halo.dataSet.reachBySpend spends F ∧
    (∀ p', (Planner.new halo fit).fitModel budget st = (.ok p', st') →
      ∃ m, fit halo budget st = (.ok m, st') ∧ p'.modeledReachBySpend bySpend spends F =
        bySpend m spends F ∧ p'.trueReachBySpend spends F = halo.dataSet.reachBySpend spends F) ∧
    (∀ m, fit halo budget st = (.ok m, st') →
      ∃ p', (Planner.new halo fit).fitModel budget st = (.ok p', st')) ∧
    ∀ e, fit halo budget st = (.error e, st') →
      (Planner.new halo fit).fitModel budget st = (.error e, st') := by
  refine ⟨rfl, rfl, ?_, ?_, ?_⟩
  · intro p' h
    unfold Planner.fitModel Planner.new at h
    obtain ⟨m, s1, h1, h2⟩ := HaloM.bind_eq_ok h
    simp only [HaloM.pure_apply, Prod.mk.injEq, Except.ok.injEq] at h2
    obtain ⟨rfl, rfl⟩ := h2
    exact ⟨m, h1, rfl, rfl⟩
  · intro m h
    refine ⟨⟨halo, fit, some m⟩, ?_⟩
    unfold Planner.fitModel Planner.new
    rw [HaloM.bind_ok h]
    rfl
  · intro e h
    unfold Planner.fitModel Planner.new
    rw [HaloM.bind_error h]

/-- `_project`ing a measured point on one publisher. -/
theorem projectPoint_exact (r : ReachPoint) (i : Nat) (im c : ℚ) (spends : List ℚ)
    (h1 : r.impressions[i]? = some im) (h2 : r.spends = some spends) (h3 : spends[i]? = some c) :
    ∃ pt, Strategy.projectPoint r i = .ok pt ∧ pt.impressions = [im] ∧ pt.spends = some [c] ∧
      pt.kplusReaches = r.kplusReaches := by
  have hk : ∃ ks, (List.range r.maxFrequency).mapM (fun k : Nat => r.reach ((k : Int) + 1)) = .ok ks := by
    refine ⟨(List.range r.maxFrequency).map (fun k => r.kplusReaches.getD k 0), ?_⟩
    rw [mapM_ok_iff, List.forall₂_map_right_iff, List.forall₂_same]
    intro k hk
    rw [List.mem_range, ReachPoint.maxFrequency] at hk
    unfold ReachPoint.reach
    rw [if_pos (by omega), show ((k : Int) + 1 - 1) = (k : Int) by omega, pyIndex_nat _ _ hk]
    simp [hk]
  obtain ⟨ks, hks⟩ := hk
  unfold Strategy.projectPoint
  have e1 := (pyIndex_ok_iff r.impressions i im).2 h1
  have e2 := (pyIndex_ok_iff spends i c).2 h3
  simp only [hks, h2, e1, e2, bind, Except.bind, ReachPoint.new, ReachPoint.truthySpends,
    Option.getD_some, List.length_cons, List.length_nil, ne_eq, not_true_eq_false, and_false,
    if_false]
  exact ⟨_, rfl, rfl, rfl, reach_list r ks hks⟩

theorem reach_one_congr {r r' : ReachPoint} (h : r.kplusReaches = r'.kplusReaches) :
    r.reach 1 = r'.reach 1 := by
  unfold ReachPoint.reach
  rw [h]

/-- Without noise a request for campaign spends (or zero) measures the truth. -/
theorem noiseless_measures_truth (ds : DataSet) (fractions : List ℚ) (lib : SketchLib S)
    (rand : RandomLib) (h : HaloSimulator S) (hh : HaloSimulator.new ds fractions lib rand = .ok h)
    (content : S → Int → Nat) (hx : ExactLib lib content) (logs : List Log)
    (hb : List.Forall₂ Built logs ds.data) (spends : List ℚ) (hs : spends.length = logs.length)
    (hne : spends ≠ []) (hcap : List.zipWith min spends h.campaignSpends = spends)
    (q : ReachPoint) (t : ℚ) (hq : ds.reachBySpend spends 1 = .ok q) (ht : q.reach 1 = .ok t)
    (hfew : ∀ imps, ds.impressionsBySpend spends = .ok imps → t < (imps.sum : ℕ))
    (budget : PrivacyBudget ℚ) (split : ℚ) (F : Int) (hF : 1 ≤ F) (st : HaloState) :
    ∃ r st', h.simulatedReachBySpend spends budget split F st = (.ok r, st') ∧
      r.reach 1 = .ok t ∧ r.spends = some spends ∧
      r.impressions = (ds.data.zip spends).map (fun ps => (ps.1.impressionsBySpend ps.2 : ℚ)) := by
  obtain ⟨F, rfl⟩ := Int.eq_ofNat_of_zero_le (show 0 ≤ F by omega)
  have hF : 1 ≤ F := by omega
  obtain ⟨c1, c2, c3, _, c5, _⟩ := C66_campaign_spends ds fractions lib rand h hh
  have hb' : List.Forall₂ (fun log (p : Publisher) => Built log p.publisherData) logs h.publishers := by
    rw [← c3] at hb
    exact List.forall₂_map_right_iff.1 hb
  obtain ⟨r0, g1, _, _, _, g5, _⟩ := C08_reach_by_spend ds logs hb spends hs 1 le_rfl
  have g1' : ds.reachBySpend spends 1 = .ok r0 := g1
  rw [hq] at g1'
  cases g1'
  have hT := g5 1 le_rfl le_rfl
  rw [Nat.cast_one, ht] at hT
  have hT := Except.ok.inj hT
  obtain ⟨r, st', h1, h2, h3⟩ := C66_noiseless_request h content (by rw [c2]; exact hx) logs hb'
    (by rw [c3, c1]) spends hs hne budget split F hF st (by
      intro imps himps
      rw [hcap]
      rw [c1] at himps
      have := hfew imps himps
      rw [hT] at this
      exact_mod_cast this)
  refine ⟨r, st', h1, ?_, ?_, ?_⟩
  · have := h3 1 le_rfl hF
    rw [hcap] at this
    rw [hT]
    exact this
  · obtain ⟨_, _, _, _, _, _, _, _, e, _⟩ := h.simulated_ok _ _ _ _ _ _ _ h1
    exact e
  · obtain ⟨_, imps, _, _, e1, _, e2, _, _, _, e3, _⟩ := h.simulated_ok _ _ _ _ _ _ _ h1
    rw [c1] at e1 e3
    rw [impressionsBySpend_ok ds spends (by omega)] at e1
    rw [e2, ← Except.ok.inj e1, List.map_map]
    rfl

/-- **C86 (b).** One publisher, no noise, a Goerg curve: for the campaign it was trained on, the
planner predicts the true reach exactly, with the M3 and with the single publisher strategy. -/
theorem C86_single_publisher (ds : DataSet) (fractions : List ℚ) (lib : SketchLib S)
    (rand : RandomLib) (h : HaloSimulator S) (hh : HaloSimulator.new ds fractions lib rand = .ok h)
    (content : S → Int → Nat) (hx : ExactLib lib content) (log : Log) (d : PublisherData)
    (hd : ds.data = [d]) (hb : Built log d) (c : ℚ) (hc : h.campaignSpends = [c]) (hc0 : c ≠ 0)
    (solve : PairwiseSurface.QP → List ℚ) (gt : DataSet → Nat → GoergModel)
    (q : ReachPoint) (t : ℚ) (hq : ds.reachBySpend [c] 1 = .ok q) (ht : q.reach 1 = .ok t)
    (hfew : t < d.impressionsBySpend c) (budget : PrivacyBudget ℚ) (st : HaloState)
    (fit : HaloSimulator S → PrivacyBudget ℚ → HaloM (Fitted GoergModel GoergSurface))
    (hfit : fit = (goergPairwise solve gt).fitM3 ∨ fit = (goergPairwise solve gt).fitSingle) :
    ∃ p' st' out, (Planner.new h fit).fitModel budget st = (.ok p', st') ∧
      p'.modeledReachBySpend goergPairwiseBySpend [c] 1 = .ok out ∧ out.reach 1 = .ok t ∧
      p'.trueReachBySpend [c] 1 = .ok q := by
  obtain ⟨c1, c2, c3, _, c5, _⟩ := C66_campaign_spends ds fractions lib rand h hh
  have hcount : h.publisherCount = 1 := by
    have := congrArg List.length hc
    simpa [HaloSimulator.campaignSpends, HaloSimulator.publisherCount] using this
  have meas := fun budget (F : Int) hF st => noiseless_measures_truth ds fractions lib rand h hh
    content hx [log] (by rw [hd]; exact .cons hb .nil) [c] rfl (by simp) (by rw [hc]; simp) q t hq ht
    (by
      intro imps himps
      rw [impressionsBySpend_ok ds [c] (by rw [hd]; simp), hd] at himps
      have := Except.ok.inj himps
      rw [← this]
      simpa using hfew) budget (1 / 2) F hF st
  -- the curve
  have curve : ∀ pt : ReachPoint, pt.impressions = [(d.impressionsBySpend c : ℚ)] →
      pt.spends = some [c] → pt.reach 1 = .ok t →
      ∃ m out, GoergModel.new [pt] = .ok m ∧ m.bySpend [c] 1 = .ok out ∧ out.reach 1 = .ok t := by
    intro pt p1 p2 p3
    have ht0 : 0 ≤ t := by
      obtain ⟨r0, g1, _, _, _, g5, _⟩ := C08_reach_by_spend ds [log] (by rw [hd]; exact .cons hb .nil)
        [c] rfl 1 le_rfl
      have g1' : ds.reachBySpend [c] 1 = .ok r0 := g1
      rw [hq] at g1'
      cases g1'
      have hT := g5 1 le_rfl le_rfl
      rw [Nat.cast_one, ht] at hT
      rw [Except.ok.inj hT]
      positivity
    have hi : 1 ≤ d.impressionsBySpend c := by
      have : (0 : ℚ) < d.impressionsBySpend c := by linarith
      exact_mod_cast this
    have hi' : (1 : ℚ) ≤ d.impressionsBySpend c := by exact_mod_cast hi
    obtain ⟨m, hm⟩ := (C27_fit_accepts_iff [pt]).2 ⟨pt, _, t, rfl, p1, by linarith, p3, hfew⟩
    obtain ⟨i, r, out, _, e2, e3, _, _, e6⟩ := C27_reproduces_training_spend pt m hm c p2 hc0
    rw [p3] at e2
    cases e2
    exact ⟨m, out, hm, e3, e6⟩
  have himp : (ds.data.zip [c]).map (fun ps => (ps.1.impressionsBySpend ps.2 : ℚ)) =
      [(d.impressionsBySpend c : ℚ)] := by rw [hd]; rfl
  have fitted : ∃ m st' out, fit h budget st = (.ok (.curve m), st') ∧ m.bySpend [c] 1 = .ok out ∧
      out.reach 1 = .ok t := by
    rcases hfit with rfl | rfl
    · unfold Strategy.fitM3
      simp only [hcount]
      obtain ⟨r1, s1, a1, a2, a3, a4⟩ := meas
        ⟨budget.epsilon / (2 * ((1 : ℕ) : ℚ) + 1), budget.delta / (2 * ((1 : ℕ) : ℚ) + 1)⟩ 1 le_rfl st
      obtain ⟨r2, s2, b1, b2, b3, b4⟩ := meas
        ⟨budget.epsilon / (2 * ((1 : ℕ) : ℚ) + 1), budget.delta / (2 * ((1 : ℕ) : ℚ) + 1)⟩ 10
        (by norm_num) s1
      rw [himp] at b4
      obtain ⟨pt, q1, q2, q3, q4⟩ := projectPoint_exact r2 0 _ c [c] (by rw [b4]; rfl) b3 rfl
      obtain ⟨m, out, m1, m2, m3⟩ := curve pt q2 q3 (by rw [reach_one_congr q4]; exact b2)
      have hloop : Strategy.singleLoop h ⟨budget.epsilon / (2 * ((1 : ℕ) : ℚ) + 1),
          budget.delta / (2 * ((1 : ℕ) : ℚ) + 1)⟩ (List.range 1) s1 = (.ok [pt], s2) := by
        rw [show List.range 1 = [0] from rfl]
        unfold Strategy.singleLoop
        rw [HaloM.bind_ok (a := c) (st' := s1) (by
          rw [HaloM.lift_apply, (pyIndex_ok_iff h.campaignSpends 0 c).2 (by rw [hc]; rfl)])]
        have e : (List.replicate h.publisherCount (0 : ℚ)).set 0 c = [c] := by rw [hcount]; rfl
        rw [e, HaloM.bind_ok b1, HaloM.bind_ok (a := pt) (st' := s2) (by rw [HaloM.lift_apply, q1])]
        rfl
      rw [hc]
      refine ⟨m, s2, out, ?_, m2, m3⟩
      rw [HaloM.bind_ok a1, HaloM.bind_ok hloop]
      rw [HaloM.bind_ok (a := []) (st' := s2) (by unfold Strategy.leaveOneOutPoints; simp [HaloM.pure_apply])]
      rw [HaloM.bind_ok (a := [m]) (st' := s2) (by
        rw [HaloM.lift_apply]
        have m1' : (goergPairwise solve gt).single [pt] = .ok m := m1
        simp [List.zipIdx, goergPairwise, m1, bind, Except.bind, pure, Except.pure])]
      rw [if_pos trivial]
      rfl
    · unfold Strategy.fitSingle
      rw [if_neg (by simp [hcount]), hc]
      obtain ⟨r1, s1, a1, a2, a3, a4⟩ := meas budget 20 (by norm_num) st
      rw [himp] at a4
      obtain ⟨m, out, m1, m2, m3⟩ := curve r1 a4 a3 a2
      refine ⟨m, s1, out, ?_, m2, m3⟩
      have a1' : h.simulatedReachBySpend [c] budget (1 / 2) Strategy.maxMeasurementFrequency st =
        (.ok r1, s1) := a1
      rw [HaloM.bind_ok a1']
      rw [HaloM.bind_ok (a := m) (st' := s1) (by rw [HaloM.lift_apply]; exact congrArg (·, s1) m1)]
      rfl
  obtain ⟨m, st', out, f1, f2, f3⟩ := fitted
  obtain ⟨_, _, g3, g4, _⟩ := C86_protocol h fit goergPairwiseBySpend budget st st' [c] 1
  obtain ⟨p', hp'⟩ := g4 _ f1
  obtain ⟨m', k1, k2, k3⟩ := g3 p' hp'
  rw [f1] at k1
  cases k1
  refine ⟨p', st', out, hp', ?_, f3, ?_⟩
  · rw [k2]; exact f2
  · rw [k3, c1]; exact hq

/-- The true reach as a number of users. -/
theorem true_reach_eq (ds : DataSet) (logs : List Log) (hb : List.Forall₂ Built logs ds.data)
    (spends : List ℚ) (hs : spends.length = logs.length) (q : ReachPoint) (t : ℚ)
    (hq : ds.reachBySpend spends 1 = .ok q) (ht : q.reach 1 = .ok t) :
    t = (kPlusReach (totalAtSpend logs spends) 1 : ℚ) := by
  obtain ⟨r0, g1, _, _, _, g5, _⟩ := C08_reach_by_spend ds logs hb spends hs 1 le_rfl
  have g1' : ds.reachBySpend spends 1 = .ok r0 := g1
  rw [hq] at g1'
  cases g1'
  have hT := g5 1 le_rfl le_rfl
  rw [Nat.cast_one, ht] at hT
  exact Except.ok.inj hT

/-- A union reaches at most the sum of its parts. -/
theorem union_le_two (l₀ l₁ : Log) (c₀ c₁ : ℚ) :
    kPlusReach (totalAtSpend [l₀, l₁] [c₀, c₁]) 1 ≤
      kPlusReach (totalAtSpend [l₀, l₁] [c₀, 0]) 1 + kPlusReach (totalAtSpend [l₀, l₁] [0, c₁]) 1 := by
  have hfin : ∀ s : List ℚ, {u | 1 ≤ totalAtSpend [l₀, l₁] s u}.Finite := fun s =>
    (allUsers_finite [l₀, l₁]).subset (fun u hu => totalAtSpend_mem [l₀, l₁] s u hu)
  unfold kPlusReach
  refine le_trans (Set.ncard_le_ncard ?_ ((hfin [c₀, 0]).union (hfin [0, c₁])))
    (Set.ncard_union_le _ _)
  intro u hu
  simp only [Set.mem_union, Set.mem_ofPred_eq, totalAtSpend, List.zip_cons_cons, List.zip_nil_right,
    List.map_cons, List.map_nil, List.sum_cons, List.sum_nil] at hu ⊢
  omega

/-- **C86 (c).** Two publishers, no noise, Goerg curves, the pairwise union surface, and a solver
that solves its quadratic program.  Let `t₀`, `t₁`, `t` be the true reaches of the first publisher
alone, of the second alone, and of both; `ρᵢ` the maximum reach of the fitted curves.  For the
campaign it was trained on the planner predicts `max t (t₀ + t₁ - t₀ t₁ / max ρ₀ ρ₁)`. -/
theorem C86_two_publishers (ds : DataSet) (fractions : List ℚ) (lib : SketchLib S)
    (rand : RandomLib) (h : HaloSimulator S) (hh : HaloSimulator.new ds fractions lib rand = .ok h)
    (content : S → Int → Nat) (hx : ExactLib lib content) (l₀ l₁ : Log) (d₀ d₁ : PublisherData)
    (hd : ds.data = [d₀, d₁]) (hb₀ : Built l₀ d₀) (hb₁ : Built l₁ d₁) (c₀ c₁ : ℚ)
    (hc : h.campaignSpends = [c₀, c₁]) (hc₀ : 0 < c₀) (hc₁ : 0 < c₁)
    (solve : PairwiseSurface.QP → List ℚ)
    (hsolve : ∀ qp, (∃ x, SolvesQp 4 qp x) → SolvesQp 4 qp (solve qp))
    (gt : DataSet → Nat → GoergModel) (q₀ q₁ q : ReachPoint) (t₀ t₁ t : ℚ)
    (hq₀ : ds.reachBySpend [c₀, 0] 1 = .ok q₀) (ht₀ : q₀.reach 1 = .ok t₀)
    (hq₁ : ds.reachBySpend [0, c₁] 1 = .ok q₁) (ht₁ : q₁.reach 1 = .ok t₁)
    (hq : ds.reachBySpend [c₀, c₁] 1 = .ok q) (ht : q.reach 1 = .ok t)
    (i₀ i₁ : ℚ) (hi₀ : i₀ = d₀.impressionsBySpend c₀) (hi₁ : i₁ = d₁.impressionsBySpend c₁)
    (hfew₀ : 0 < t₀ ∧ t₀ < i₀) (hfew₁ : 0 < t₁ ∧ t₁ < i₁) (budget : PrivacyBudget ℚ)
    (st : HaloState) :
    ∃ p' st' out, (Planner.new h (goergPairwise solve gt).fitM3).fitModel budget st = (.ok p', st') ∧
      (∀ F, p'.modeledReachBySpend goergPairwiseBySpend [c₀, c₁] F = .ok out) ∧
      out.reach 1 = .ok (max t (t₀ + t₁ -
        t₀ * t₁ / max (i₀ * t₀ / (i₀ - t₀)) (i₁ * t₁ / (i₁ - t₁)))) ∧
      p'.trueReachBySpend [c₀, c₁] 1 = .ok q := by
  obtain ⟨k1, k2, k3, _, k5, _⟩ := C66_campaign_spends ds fractions lib rand h hh
  have hb : List.Forall₂ Built [l₀, l₁] ds.data := by rw [hd]; exact .cons hb₀ (.cons hb₁ .nil)
  have hcount : h.publisherCount = 2 := by
    have := congrArg List.length hc
    simpa [HaloSimulator.campaignSpends, HaloSimulator.publisherCount] using this
  have himps : ∀ a b : ℚ, ds.impressionsBySpend [a, b] =
      .ok [d₀.impressionsBySpend a, d₁.impressionsBySpend b] := by
    intro a b
    rw [impressionsBySpend_ok ds [a, b] (by rw [hd]; simp), hd]
    rfl
  have hle : t ≤ t₀ + t₁ := by
    rw [true_reach_eq ds _ hb _ rfl q t hq ht, true_reach_eq ds _ hb _ rfl q₀ t₀ hq₀ ht₀,
      true_reach_eq ds _ hb _ rfl q₁ t₁ hq₁ ht₁]
    exact_mod_cast union_le_two l₀ l₁ c₀ c₁
  -- the three kinds of measurement
  have meas : ∀ (a b : ℚ) (q : ReachPoint) (t : ℚ), min a c₀ = a → min b c₁ = b →
      ds.reachBySpend [a, b] 1 = .ok q → q.reach 1 = .ok t →
      t < (d₀.impressionsBySpend a : ℚ) + d₁.impressionsBySpend b →
      ∀ (budget : PrivacyBudget ℚ) (F : Int) (_ : 1 ≤ F) (st : HaloState),
      ∃ r st', h.simulatedReachBySpend [a, b] budget (1 / 2) F st = (.ok r, st') ∧
        r.reach 1 = .ok t ∧ r.spends = some [a, b] ∧
        r.impressions = [(d₀.impressionsBySpend a : ℚ), (d₁.impressionsBySpend b : ℚ)] := by
    intro a b q t ha hb' hq ht hlt budget F hF st
    obtain ⟨r, st', e1, e2, e3, e4⟩ := noiseless_measures_truth ds fractions lib rand h hh content hx
      [l₀, l₁] hb [a, b] rfl (by simp) (by rw [hc]; simp [ha, hb']) q t hq ht (by
        intro imps himp
        rw [himps] at himp
        rw [← Except.ok.inj himp]
        simpa using hlt) budget (1 / 2) F hF st
    refine ⟨r, st', e1, e2, e3, ?_⟩
    rw [e4, hd]
    rfl
  have hi₀' : (0 : ℚ) ≤ d₀.impressionsBySpend 0 := by positivity
  have hi₁' : (0 : ℚ) ≤ d₁.impressionsBySpend 0 := by positivity
  set b : PrivacyBudget ℚ :=
    ⟨budget.epsilon / (2 * ((2 : ℕ) : ℚ) + 1), budget.delta / (2 * ((2 : ℕ) : ℚ) + 1)⟩ with hbdef
  obtain ⟨r, s1, a1, a2, a3, a4⟩ := meas c₀ c₁ q t (min_self _) (min_self _) hq ht
    (by rw [← hi₀, ← hi₁]; linarith [hfew₀.2, hfew₁.2]) b 1 le_rfl st
  obtain ⟨r₀, s2, b1, b2, b3, b4⟩ := meas c₀ 0 q₀ t₀ (min_self _) (min_eq_left hc₁.le) hq₀ ht₀
    (by rw [← hi₀]; linarith [hfew₀.2]) b 10 (by norm_num) s1
  obtain ⟨r₁, s3, e1, e2, e3, e4⟩ := meas 0 c₁ q₁ t₁ (min_eq_left hc₀.le) (min_self _) hq₁ ht₁
    (by rw [← hi₁]; linarith [hfew₁.2]) b 10 (by norm_num) s2
  rw [← hi₀, ← hi₁] at a4
  rw [← hi₀] at b4
  rw [← hi₁] at e4
  obtain ⟨pt₀, p1, p2, p3, p4⟩ := projectPoint_exact r₀ 0 i₀ c₀ [c₀, 0] (by rw [b4]; rfl) b3 rfl
  obtain ⟨pt₁, o1, o2, o3, o4⟩ := projectPoint_exact r₁ 1 i₁ c₁ [0, c₁] (by rw [e4]; rfl) e3 rfl
  -- the curves
  have curve : ∀ (pt : ReachPoint) (i c t : ℚ) (n : Nat), i = n → pt.impressions = [i] →
      pt.spends = some [c] → pt.reach 1 = .ok t → 0 < t → t < i → 0 < c →
      ∃ m, GoergModel.new [pt] = .ok m ∧ m.rho = i * t / (i - t) ∧
        m.plannerCurve.surface.reachAt i = .ok t ∧ m.plannerCurve.impressionsForSpend c = .ok i ∧
        m.plannerCurve.surface.maxReach = i * t / (i - t) := by
    intro pt i c t n hn g1 g2 g3 g4 g5 g6
    have hi' : (1 : ℚ) ≤ i := by
      rw [hn] at g5 ⊢
      have : (0 : ℚ) < n := by linarith
      have : 0 < n := by exact_mod_cast this
      exact_mod_cast this
    have hi0 : 0 < i := by linarith
    refine ⟨⟨i, t, i * t / (i - t), i * t / (i - t), some (c / i)⟩, (goerg_new_ok_iff _ _).2
      ⟨pt, i, t, rfl, g1, by linarith, g3, g5, rfl, rfl, rfl, rfl, by rw [g2]; rfl⟩, rfl, ?_, ?_, rfl⟩
    · obtain ⟨w1, w2⟩ := goerg_at_training i t hi0 g5
      obtain ⟨pt', v1, _, _, _, v5⟩ := goerg_byImpressions_ok
        ⟨i, t, i * t / (i - t), i * t / (i - t), some (c / i)⟩ i 1 w1
      have v5 := v5 1 le_rfl le_rfl
      rw [pow_one] at v5
      have v1' : (⟨i, t, i * t / (i - t), i * t / (i - t), some (c / i)⟩ : GoergModel).byImpressions
        [i] 1 = .ok pt' := v1
      have v5' : pt'.reach 1 = .ok t := v5.trans (congrArg _ w2)
      simp only [GoergModel.plannerCurve, v1', v5', bind, Except.bind]
    · have hne : c / i ≠ 0 := (div_pos g6 hi0).ne'
      have : (⟨i, t, i * t / (i - t), i * t / (i - t), some (c / i)⟩ : GoergModel).truthyCpi =
          some (c / i) := by
        unfold GoergModel.truthyCpi
        simp [hne]
      simp only [GoergModel.plannerCurve, GoergModel.impressionsForSpend, this]
      rw [div_div_cancel₀ g6.ne']
  obtain ⟨m₀, x1, x2, x3, x4, x5⟩ := curve pt₀ i₀ c₀ t₀ _ hi₀ p2 p3
    (by rw [reach_one_congr p4]; exact b2) hfew₀.1 hfew₀.2 hc₀
  obtain ⟨m₁, y1, y2, y3, y4, y5⟩ := curve pt₁ i₁ c₁ t₁ _ hi₁ o2 o3
    (by rw [reach_one_congr o4]; exact e2) hfew₁.1 hfew₁.2 hc₁
  have hρ₀ : 0 < i₀ * t₀ / (i₀ - t₀) :=
    div_pos (mul_pos (by linarith) hfew₀.1) (by linarith)
  have hρ₁ : 0 < i₁ * t₁ / (i₁ - t₁) :=
    div_pos (mul_pos (by linarith) hfew₁.1) (by linarith)
  -- the surface
  let s0 : PairwiseSurface :=
    { curves := [m₀.plannerCurve.surface, m₁.plannerCurve.surface], p := 2, data := [r], a := [] }
  let s4 : PairwiseSurface := { s0 with a := [0, 0, 0, 0] }
  have hwf : WellFormed s4 := by
    refine ⟨rfl, rfl, ?_⟩
    intro c hc
    simp only [s4, s0, List.mem_cons, List.not_mem_nil, or_false] at hc
    rcases hc with rfl | rfl
    · rw [x5]; exact hρ₀
    · rw [y5]; exact hρ₁
  have hvec : PairwiseSurface.getReachVector s4.curves r.impressions = .ok [t₀, t₁] := by
    rw [a4]
    simp only [PairwiseSurface.getReachVector, s4, s0, List.zip_cons_cons, List.zip_nil_right,
      List.mapM_cons, List.mapM_nil, x3, y3, bind, Except.bind, pure, Except.pure]
  obtain ⟨qp, _, hqp, _⟩ := C31_minimisers s4 hwf (by simp [s4, s0, a4]) [t]
    (by simp [s4, s0, a2, bind, Except.bind, pure, Except.pure]) (by
      intro pt hpt
      simp only [s4, s0, List.mem_cons, List.not_mem_nil, or_false] at hpt
      rw [hpt]
      exact ⟨_, hvec⟩)
  have hfit : TwoPublisherFit s4 r t t₀ t₁ (i₀ * t₀ / (i₀ - t₀)) (i₁ * t₁ / (i₁ - t₁)) qp :=
    ⟨hwf, rfl, rfl, by rw [a4]; rfl, a2, hvec, by simp [s4, s0, x5, y5], hfew₀.1.le, hfew₁.1.le, hqp⟩
  have hsol := hsolve qp (C85_unique hfit).1
  obtain ⟨out, u, u1, u2, u3⟩ := C85_training_point hfit (solve qp) hsol
  have hqp0 : s0.quadraticProgram = .ok qp := hqp
  have hmulti : (goergPairwise solve gt).multi [m₀, m₁] [r] =
      .ok ⟨[m₀, m₁], { s0 with a := solve qp }⟩ := by
    have hq' : ({ curves := [m₀.plannerCurve.surface, m₁.plannerCurve.surface],
                  p := r.impressions.length, data := [r], a := [] } : PairwiseSurface).quadraticProgram
        = .ok qp := by
      rw [a4]; exact hqp0
    have hp0 : pyIndex [r] 0 = .ok r := rfl
    have hchk : checkSurfaceData [r] = .ok () := by simp [checkSurfaceData]
    simp only [goergPairwise, PairwiseSurface.fit, List.map_cons, List.map_nil, hp0, hchk, hq',
      bind, Except.bind, pure, Except.pure]
    rw [a4]
    rfl
  -- the fit
  have fitted : (goergPairwise solve gt).fitM3 h budget st =
      (.ok (.surface ⟨[m₀, m₁], { s0 with a := solve qp }⟩), s3) := by
    unfold Strategy.fitM3
    simp only [hcount]
    have hloop : Strategy.singleLoop h b (List.range 2) s1 = (.ok [pt₀, pt₁], s3) := by
      rw [show List.range 2 = [0, 1] from rfl]
      unfold Strategy.singleLoop
      rw [HaloM.bind_ok (a := c₀) (st' := s1) (by
        rw [HaloM.lift_apply, (pyIndex_ok_iff h.campaignSpends 0 c₀).2 (by rw [hc]; rfl)])]
      have e : (List.replicate h.publisherCount (0 : ℚ)).set 0 c₀ = [c₀, 0] := by rw [hcount]; rfl
      rw [e, HaloM.bind_ok b1, HaloM.bind_ok (a := pt₀) (st' := s2) (by rw [HaloM.lift_apply, p1])]
      have hin : Strategy.singleLoop h b [1] s2 = (.ok [pt₁], s3) := by
        unfold Strategy.singleLoop
        rw [HaloM.bind_ok (a := c₁) (st' := s2) (by
          rw [HaloM.lift_apply, (pyIndex_ok_iff h.campaignSpends 1 c₁).2 (by rw [hc]; rfl)])]
        have e : (List.replicate h.publisherCount (0 : ℚ)).set 1 c₁ = [0, c₁] := by rw [hcount]; rfl
        rw [e, HaloM.bind_ok e1, HaloM.bind_ok (a := pt₁) (st' := s3) (by rw [HaloM.lift_apply, o1])]
        rfl
      rw [HaloM.bind_ok hin]
      rfl
    rw [hc, HaloM.bind_ok a1, HaloM.bind_ok hloop]
    rw [HaloM.bind_ok (a := []) (st' := s3) (by
      unfold Strategy.leaveOneOutPoints; simp [HaloM.pure_apply])]
    rw [HaloM.bind_ok (a := [m₀, m₁]) (st' := s3) (by
      rw [HaloM.lift_apply]
      simp [List.zipIdx, goergPairwise, x1, y1, bind, Except.bind, pure, Except.pure])]
    rw [if_neg (by norm_num)]
    rw [HaloM.bind_ok (a := ⟨[m₀, m₁], { s0 with a := solve qp }⟩) (st' := s3) (by
      rw [HaloM.lift_apply]; exact congrArg (·, s3) hmulti)]
    rfl
  obtain ⟨_, _, _, g4, _⟩ := C86_protocol h (goergPairwise solve gt).fitM3 goergPairwiseBySpend budget
    st s3 [c₀, c₁] 1
  obtain ⟨p', hp'⟩ := g4 _ fitted
  have hout : ∀ F, goergPairwiseBySpend (.surface ⟨[m₀, m₁], { s0 with a := solve qp }⟩) [c₀, c₁] F =
      .ok out := by
    intro F
    have : ({ s0 with a := solve qp } : PairwiseSurface).byImpressions [i₀, i₁] = .ok out := by
      rw [← a4]; exact u1
    rw [← this]
    refine C84_by_spend [m₀.plannerCurve, m₁.plannerCurve]
      (fun v _ => ({ s0 with a := solve qp } : PairwiseSurface).byImpressions v) [c₀, c₁] [i₀, i₁] F rfl ?_
    intro j h1 h2 h3
    have : j = 0 ∨ j = 1 := by simp at h1; omega
    rcases this with rfl | rfl
    · exact x4
    · exact y4
  refine ⟨p', s3, out, hp', ?_, ?_, ?_⟩
  · intro F
    obtain ⟨_, _, g3, _, _⟩ := C86_protocol h (goergPairwise solve gt).fitM3 goergPairwiseBySpend
      budget st s3 [c₀, c₁] F
    obtain ⟨m', v1, v2, _⟩ := g3 p' hp'
    rw [fitted] at v1
    cases v1
    rw [v2, hout]
  · rw [u2, u3]
    congr 1
    apply min_eq_right
    apply max_le hle
    have : 0 ≤ t₀ * t₁ / max (i₀ * t₀ / (i₀ - t₀)) (i₁ * t₁ / (i₁ - t₁)) :=
      div_nonneg (mul_nonneg hfew₀.1.le hfew₁.1.le) (le_trans hρ₀.le (le_max_left _ _))
    linarith
  · obtain ⟨_, _, g3, _, _⟩ := C86_protocol h (goergPairwise solve gt).fitM3 goergPairwiseBySpend
      budget st s3 [c₀, c₁] 1
    obtain ⟨m', _, _, v3⟩ := g3 p' hp'
    rw [v3, k1]
    exact hq

/-! ### Examples -/

def exPlanLog₀ : Log := [(1, 1), (1, 2), (2, 3)]
def exPlanLog₁ : Log := [(2, 1), (3, 2), (3, 3)]

/-- Two publishers with two users each, one of them shared, three impressions each. -/
def exPlanDataSet : DataSet :=
  match (do
    let a ← PublisherData.new exPlanLog₀ "a" ""
    let b ← PublisherData.new exPlanLog₁ "b" ""
    DataSet.new [a, b] "plan") with
  | .ok d => d
  | .error _ => exDataSet

/-- Only the first of them. -/
def exPlanSingle : DataSet :=
  match (do
    let a ← PublisherData.new exPlanLog₀ "a" ""
    DataSet.new [a] "plan") with
  | .ok d => d
  | .error _ => exDataSet

/-- A solver that solves its program whenever that is possible. -/
noncomputable def exQpSolve (qp : PairwiseSurface.QP) : List ℚ := by
  classical exact if h : ∃ x, SolvesQp 4 qp x then h.choose else []

theorem exQpSolve_solves (qp : PairwiseSurface.QP) (h : ∃ x, SolvesQp 4 qp x) :
    SolvesQp 4 qp (exQpSolve qp) := by
  unfold exQpSolve
  rw [dif_pos h]
  exact h.choose_spec

/-- The second publisher reaches 2 users with 3 impressions at spend 3; so does the first.  Together
they reach 3, but the fitted surface predicts 10/3. -/
example : ∃ h, HaloSimulator.new exPlanDataSet [1, 1] exLib exRand = .ok h ∧
    ∃ p' st' out q, (Planner.new h (goergPairwise exQpSolve
        (fun _ _ => ⟨0, 0, 0, 0, none⟩)).fitM3).fitModel ⟨1, 0⟩ exState = (.ok p', st') ∧
      p'.modeledReachBySpend goergPairwiseBySpend [3, 3] 1 = .ok out ∧
      p'.trueReachBySpend [3, 3] 1 = .ok q ∧ out.reach 1 = .ok (10 / 3) ∧ q.reach 1 = .ok 3 := by
  have h0 : (HaloSimulator.new exPlanDataSet [1, 1] exLib exRand).toOption.map
      (·.campaignSpends) = some [3, 3] := by decide +kernel
  rcases hh : HaloSimulator.new exPlanDataSet [1, 1] exLib exRand with e | h
  · rw [hh] at h0; cases h0
  rw [hh] at h0
  have hc : h.campaignSpends = [3, 3] := Option.some.inj h0
  have truth : ∀ s : List ℚ, ∀ t : ℚ,
      ((exPlanDataSet.reachBySpend s 1).toOption.bind (fun q => (q.reach 1).toOption)) = some t →
      ∃ q, exPlanDataSet.reachBySpend s 1 = .ok q ∧ q.reach 1 = .ok t := by
    intro s t h
    rcases h1 : exPlanDataSet.reachBySpend s 1 with e | q
    · rw [h1] at h; cases h
    · rw [h1] at h
      rcases h2 : q.reach 1 with e | t'
      · simp [Except.toOption, h2] at h
      · refine ⟨q, rfl, ?_⟩
        simp only [Except.toOption, h2, Option.bind_some, Option.some.injEq] at h
        rw [← h]
        exact h2
  obtain ⟨q₀, a1, a2⟩ := truth [3, 0] 2 (by decide +kernel)
  obtain ⟨q₁, b1, b2⟩ := truth [0, 3] 2 (by decide +kernel)
  obtain ⟨q, e1, e2⟩ := truth [3, 3] 3 (by decide +kernel)
  have hd : ∃ d₀ d₁, exPlanDataSet.data = [d₀, d₁] ∧ Built exPlanLog₀ d₀ ∧ Built exPlanLog₁ d₁ ∧
      d₀.impressionsBySpend 3 = 3 ∧ d₁.impressionsBySpend 3 = 3 := by
    refine ⟨_, _, rfl, ⟨"a", "", rfl⟩, ⟨"b", "", rfl⟩, by decide +kernel, by decide +kernel⟩
  obtain ⟨d₀, d₁, hd, hb₀, hb₁, i₀, i₁⟩ := hd
  obtain ⟨p', st', out, f1, f2, f3, f4⟩ := C86_two_publishers exPlanDataSet [1, 1] exLib exRand h hh _
    exLib_exact exPlanLog₀ exPlanLog₁ d₀ d₁ hd hb₀ hb₁ 3 3 hc (by norm_num) (by norm_num) exQpSolve
    exQpSolve_solves (fun _ _ => ⟨0, 0, 0, 0, none⟩) q₀ q₁ q 2 2 3 a1 a2 b1 b2 e1 e2 3 3
    (by rw [i₀]; norm_num) (by rw [i₁]; norm_num) (by norm_num) (by norm_num) ⟨1, 0⟩ exState
  refine ⟨h, rfl, p', st', out, q, f1, f2 1, f4, ?_, e2⟩
  rw [f3]
  norm_num

/-- The first publisher alone: 2 users, and 2 predicted. -/
example : ∃ h, HaloSimulator.new exPlanSingle [1] exLib exRand = .ok h ∧
    ∃ p' st' out, (Planner.new h (goergPairwise exQpSolve
        (fun _ _ => ⟨0, 0, 0, 0, none⟩)).fitM3).fitModel ⟨1, 0⟩ exState = (.ok p', st') ∧
      p'.modeledReachBySpend goergPairwiseBySpend [3] 1 = .ok out ∧ out.reach 1 = .ok 2 := by
  have h0 : (HaloSimulator.new exPlanSingle [1] exLib exRand).toOption.map
      (·.campaignSpends) = some [3] := by decide +kernel
  rcases hh : HaloSimulator.new exPlanSingle [1] exLib exRand with e | h
  · rw [hh] at h0; cases h0
  rw [hh] at h0
  have hc : h.campaignSpends = [3] := Option.some.inj h0
  have hd : ∃ d, exPlanSingle.data = [d] ∧ Built exPlanLog₀ d ∧ d.impressionsBySpend 3 = 3 := by
    refine ⟨_, rfl, ⟨"a", "", rfl⟩, by decide +kernel⟩
  obtain ⟨d, hd, hb, i⟩ := hd
  have hq : ((exPlanSingle.reachBySpend [3] 1).toOption.bind (fun q => (q.reach 1).toOption)) =
    some 2 := by decide +kernel
  rcases h1 : exPlanSingle.reachBySpend [3] 1 with e | q
  · rw [h1] at hq; cases hq
  rw [h1] at hq
  have ht : q.reach 1 = .ok 2 := by
    rcases h2 : q.reach 1 with e | t'
    · simp [Except.toOption, h2] at hq
    · simp only [Except.toOption, h2, Option.bind_some, Option.some.injEq] at hq
      rw [← hq]
  obtain ⟨p', st', out, f1, f2, f3, _⟩ := C86_single_publisher exPlanSingle [1] exLib exRand h hh _
    exLib_exact exPlanLog₀ d hd hb 3 hc (by norm_num) exQpSolve (fun _ _ => ⟨0, 0, 0, 0, none⟩) q 2 h1 ht
    (by rw [i]; norm_num) ⟨1, 0⟩ exState _ (.inl rfl)
  exact ⟨h, rfl, p', st', out, f1, f2, f3⟩

/-- **C86 (defaults).** Without a frequency the planner asks for reaches at frequency one. -/
theorem C86_defaults (bySpend : M → List ℚ → Int → Except PyErr ReachPoint) (p : Planner S M)
    (spends : List ℚ) :
    p.modeledReachBySpend bySpend spends = p.modeledReachBySpend bySpend spends 1 ∧
    p.trueReachBySpend spends = p.trueReachBySpend spends 1 := ⟨rfl, rfl⟩

end Verif
