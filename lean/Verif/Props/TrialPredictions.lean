import Verif.Props.TrialMany

/-!
# C99: what the surface of a trial predicts

The predictions that a trial of several publishers compares with the true reach, in terms of the reach
of the single publishers.
-/

namespace Verif

open Verif.Spec

variable {S C : Type}

/-- A fitted curve reports for a spend what a surface takes from it. -/
theorem view_reports (L : Solvers) (c : TrialCurve OptimisedCurve) (hc : ∀ g, c ≠ .truth g) (s x v : ℚ)
    (hx : (L.plannerCurve c).impressionsForSpend s = .ok x)
    (hv : (L.plannerCurve c).surface.reachAt x = .ok v) :
    ∃ pt, (L.modelLib.curveView c).bySpend [s] 1 = .ok pt ∧ pt.reach 1 = .ok v := by
  rcases c with ⟨m, data⟩ | c | g
  · have hx' : m.impressionsForSpend s = .ok x := hx
    have hv' : (do let r ← m.byImpressions [x]; r.reach 1) = .ok v := hv
    have hb : m.bySpend [s] 1 = m.byImpressions [x] := by
      unfold GoergModel.impressionsForSpend at hx'
      unfold GoergModel.bySpend
      rcases hq : m.truthyCpi with _ | c
      · rw [hq] at hx'; cases hx'
      · rw [hq] at hx'
        rw [← Except.ok.inj hx']
    show ∃ pt, m.bySpend [s] 1 = .ok pt ∧ _
    rw [hb]
    rcases hq : m.byImpressions [x] with e | r
    · rw [hq] at hv'; cases hv'
    · rw [hq] at hv'
      exact ⟨r, rfl, hv'⟩
  · show ∃ pt, L.bySpend c [s] 1 = .ok pt ∧ _
    have hv' : L.reachAt c x = .ok v := hv
    rcases c with m | m
    · have hx' : m.impressionsForSpend s = .ok x := hx
      have hb : L.bySpend (.gamma m) [s] 1 = orNan (m.byImpressions
          GammaPoisson.maxComputationalFrequency (L.gamma m.extrapolationValue).gp [x]) := by
        show orNan (m.bySpend _ _ [s] 1) = _
        unfold GammaPoisson.Model.bySpend
        simp only [hx', bind, Except.bind]
      rw [hb]
      unfold Solvers.reachAt at hv'
      simp only at hv'
      rcases hq : orNan (m.byImpressions GammaPoisson.maxComputationalFrequency
        (L.gamma m.extrapolationValue).gp [x]) with e | r
      · rw [hq] at hv'; cases hv'
      · rw [hq] at hv'
        exact ⟨r, rfl, hv'⟩
    · have hx' : m.impressionsForSpend s = .ok x := hx
      have hb : L.bySpend (.inflated m) [s] 1 = orNan ((m.byImpressions L.inflated
          KInflated.maxComputationalFrequency [x]).map (·.2)) := by
        show orNan ((m.bySpend _ _ [s] 1).map (·.2)) = _
        unfold KInflated.Model.bySpend
        simp only [hx', bind, Except.bind]
      rw [hb]
      unfold Solvers.reachAt at hv'
      simp only at hv'
      rcases hq : orNan ((m.byImpressions L.inflated
        KInflated.maxComputationalFrequency [x]).map (·.2)) with e | r
      · rw [hq] at hv'; cases hv'
      · rw [hq] at hv'
        exact ⟨r, hq, hv'⟩
  · exact absurd rfl (hc g)

/-- The prediction of a surface with plausible parameters over sound curves. -/
theorem surface_between (L : Solvers) (curves : List (TrialCurve OptimisedCurve))
    (hs : ∀ c ∈ curves, SoundCurve (L.plannerCurve c)) (s : PairwiseSurface) (hw : WellFormed s)
    (hc : s.curves = (curves.map L.plannerCurve).map (·.surface))
    (ha : PlausibleOverlap s.p (surfaceMatrix s)) (spends : List ℚ) (hl : spends.length = s.p)
    (h0 : ∀ x ∈ spends, 0 ≤ x) (F : Int) :
    ∃ (rs : List ℚ) (pt : ReachPoint) (u : ℚ), rs.length = s.p ∧
      (∀ i (h1 : i < curves.length) (h2 : i < spends.length) (h3 : i < rs.length),
        ∃ x, (L.plannerCurve curves[i]).impressionsForSpend spends[i] = .ok x ∧
          (L.plannerCurve curves[i]).surface.reachAt x = .ok rs[i]) ∧
      (L.surfaceView curves s).bySpend spends F = .ok pt ∧ pt.reach 1 = .ok u ∧
      (∀ r ∈ rs, r ≤ u) ∧ u ≤ rs.sum ∧
      ∀ k (hk : k < rs.length), (∀ i (hi : i < rs.length), i ≠ k → rs[i] = 0) → u = rs[k] := by
  have hcl : curves.length = s.p := by
    rw [← hw.curves, hc, List.length_map, List.length_map]
  have hval : ∀ i (h1 : i < curves.length) (h2 : i < spends.length), ∃ xv : ℚ × ℚ,
      (L.plannerCurve curves[i]).impressionsForSpend spends[i] = .ok xv.1 ∧
      (L.plannerCurve curves[i]).surface.reachAt xv.1 = .ok xv.2 ∧ 0 ≤ xv.2 ∧
      xv.2 ≤ (L.plannerCurve curves[i]).surface.maxReach := by
    intro i h1 h2
    have hsi := hs _ (List.getElem_mem h1)
    obtain ⟨x, v, a1, a2⟩ := hsi.spends _ (h0 _ (List.getElem_mem h2))
    obtain ⟨b1, b2⟩ := hsi.range _ x v (h0 _ (List.getElem_mem h2)) a1 a2
    exact ⟨(x, v), a1, a2, b1, b2⟩
  choose! xv hxv using hval
  set imps : List ℚ := (List.range s.p).map (fun i => (xv i).1) with himps
  set rs : List ℚ := (List.range s.p).map (fun i => (xv i).2) with hrs
  have hil : imps.length = s.p := by simp [himps]
  have hrl : rs.length = s.p := by simp [hrs]
  have hie : ∀ i (hi : i < imps.length), imps[i] = (xv i).1 := by
    intro i hi; simp [himps]
  have hre : ∀ i (hi : i < rs.length), rs[i] = (xv i).2 := by
    intro i hi; simp [hrs]
  have hby : (L.surfaceView curves s).bySpend spends F = s.byImpressions imps := by
    show s.bySpend (curves.map L.plannerCurve) spends F = _
    unfold PairwiseSurface.bySpend
    rw [C84_by_spend (curves.map L.plannerCurve) _ spends imps F
      (by rw [hil, List.length_map, hcl, hl, min_self]) ?_]
    intro i h1 h2 h3
    rw [List.getElem_map, hie i h3]
    rw [List.length_map] at h1
    exact (hxv i h1 h2).1
  have hvec : PairwiseSurface.getReachVector s.curves imps = .ok rs := by
    unfold PairwiseSurface.getReachVector
    rw [mapM_ok_iff, List.forall₂_iff_get]
    refine ⟨by rw [List.length_zip, hw.curves, hil, hrl, min_self], ?_⟩
    intro i h1 h2
    rw [List.length_zip, hw.curves, hil, min_self] at h1
    simp only [List.get_eq_getElem, List.getElem_zip, hie i (by omega), hre i (by omega), hc,
      List.getElem_map]
    exact (hxv i (by omega) (by omega)).2.1
  have hrange : ReachesInRange s rs := by
    intro i hi
    rw [List.getD_eq_getElem _ _ (by omega), hre i (by omega)]
    obtain ⟨-, -, b1, b2⟩ := hxv i (by omega) (by omega)
    refine ⟨b1, le_trans b2 (le_of_eq ?_)⟩
    unfold surfaceMax
    simp only [hc]
    rw [List.getD_eq_getElem _ _ (by simp only [List.length_map]; omega)]
    simp only [List.getElem_map]
  obtain ⟨pt, u, e1, e2, e3, e4⟩ := C30_bounds s hw ha imps hil rs hvec hrange
  refine ⟨rs, pt, u, hrl, ?_, by rw [hby]; exact e1, e2, e3, e4, ?_⟩
  · intro i h1 h2 h3
    obtain ⟨a1, a2, -⟩ := hxv i h1 h2
    exact ⟨_, a1, by rw [hre i h3]; exact a2⟩
  · intro k hk hz
    obtain ⟨pt', f1, f2⟩ := C30_single_publisher s hw ha imps hil rs hvec k hk hz
    rw [e1] at f1
    cases f1
    rw [e2] at f2
    exact Except.ok.inj f2

theorem fitCurve_not_truth (M : ModelLib C) (m : SingleModel) (kw : Kwargs) (data : List ReachPoint)
    (g : GroundTruthCurve) : M.fitCurve m kw data ≠ .ok (.truth g) := by
  unfold ModelLib.fitCurve
  split
  · cases m <;> simp only [bind, Except.bind, pure, Except.pure] <;> split <;> simp
  · simp

/-- **C99 (predictions).** In a trial of several publishers as in C99 (several publishers), the fitted
surface predicts, for all spends, a reach between the largest of the reaches and the sum of the reaches
that the curves of the single publishers predict for their spends; each curve is the registered model
fitted to what was measured for the publisher of the same position.  If only one of them predicts
somebody, the surface predicts the same.  It is fitted to points that end with the measurement of the
whole campaign. -/
theorem C99_predictions (L : Solvers) (E : TrialEnv S OptimisedCurve)
    (hE : E.models = L.modelLib) (hest : EstimatesAsked E) (he : EstimatesSomebody E) (ds : DataSet)
    (d : TrialDesc) (logs : List Log) (cs : List ℚ) (pts : List (List ℚ))
    (ht : SurfaceTrial E ds d logs cs pts) (hL : LibrariesOk L logs.length)
    (hfeas : d.strategy.multiPub = "pairwise_union".toList → MeetsFeasible L.qp)
    (hkw : d.strategy.strategyKwargs = []) (e : ℚ) (hk : Multiplier L d.strategy.singlePubKwargs e)
    (hg : d.strategy.singlePub = "goerg".toList → d.strategy.singlePubKwargs = [])
    (hall : ∀ lc ∈ logs.zip cs, EnoughBought d.strategy e (affordable lc.1 lc.2)) (draws : Nat) :
    ∃ h o sf, ∃ (singles : List ReachPoint) (curves : List (TrialCurve OptimisedCurve)),
      HaloSimulator.new ds d.system.spends
        (E.lib d.system.decayRate d.system.sketchSize d.system.randomSeed) E.rand = .ok h ∧
      d.strategy.instantiate = .ok o ∧
      (E.models.fit o h d.experiment.budget ⟨PrivacyTracker.new, draws⟩).1 = .ok sf ∧
      singles.length = logs.length ∧ curves.length = logs.length ∧
      (∀ i (h1 : i < singles.length) (h2 : i < curves.length),
        Measured h.lib (affordable (logs.getD i []) (cs.getD i 0)) (cs.getD i 0) 10 singles[i] ∧
        E.models.fitCurve o.single o.singleKwargs [singles[i]] = .ok curves[i]) ∧
      (∃ others total, sf.data = .ok (others ++ [total]) ∧
        (∀ r ∈ others, TrainingPoint logs.length r) ∧
        MeasuredMany h.lib ((logs.zip cs).map (fun lc => affordable lc.1 lc.2)) cs 1 total) ∧
      ∀ spends : List ℚ, spends.length = logs.length → (∀ x ∈ spends, 0 ≤ x) → ∀ F : Int,
        ∃ (rs : List ℚ) (pt : ReachPoint) (u : ℚ), rs.length = logs.length ∧
          (∀ i (h1 : i < curves.length) (h2 : i < spends.length) (h3 : i < rs.length),
            ∃ q, (E.models.curveView curves[i]).bySpend [spends[i]] 1 = .ok q ∧
              q.reach 1 = .ok rs[i]) ∧
          sf.bySpend spends F = .ok pt ∧ pt.reach 1 = .ok u ∧ (∀ r ∈ rs, r ≤ u) ∧ u ≤ rs.sum ∧
          ∀ k (hk : k < rs.length), (∀ i (hi : i < rs.length), i ≠ k → rs[i] = 0) → u = rs[k] := by
  have hkn : KnownStrategyKwargs d.strategy := by
    intro kv hkv
    rw [hkw] at hkv
    exact absurd hkv List.not_mem_nil
  obtain ⟨row, o, h, singles, others, total, tracker, multi, hrow, ho, hmulti, g1, g2, g3, hcs, hsing,
    hot, htot, -, hh, hfit⟩ := trial_many E hest ds d logs cs pts ht hkn "" "" draws
  obtain ⟨o', ho', -, -, q1, q2, q3, qp, -, -, q4, -, q5, -⟩ :=
    (C97_instantiate d.strategy).2.2 ht.names hkn
  rw [ho] at ho'
  cases ho'
  have hfun : ∀ pi : ReachPoint × Nat, (if o.useGroundTruth = true then
      (.ok (.truth ⟨ds, pi.2, ((ds.data[pi.2]?).map (·.maxReach)).getD 0⟩) :
        Except PyErr (TrialCurve OptimisedCurve))
      else E.models.fitCurve o.single o.singleKwargs [pi.1]) =
      E.models.fitCurve o.single o.singleKwargs [pi.1] := by
    intro pi
    rw [if_neg (by rw [q5 hkw]; simp)]
  simp only [hfun] at hfit
  have hsl : singles.length = logs.length := by rw [← hsing.length_eq, List.length_range]
  rw [forall_zip_range logs cs [] 0 g3 (fun log c => EnoughBought d.strategy e (affordable log c))]
    at hall
  have hmeas : ∀ i (hi : i < singles.length), Measured h.lib
      (affordable (logs.getD i []) (cs.getD i 0)) (cs.getD i 0) 10 singles[i] := by
    intro i hi
    have hm := (List.forall₂_iff_get.1 hsing).2 i (by simpa using (by omega : i < logs.length)) (by omega)
    simpa only [List.get_eq_getElem, List.getElem_range] using hm
  obtain ⟨curves, hcv⟩ := forall₂_of_forall (fun (pi : ReachPoint × Nat) cv =>
      E.models.fitCurve o.single o.singleKwargs [pi.1] = .ok cv ∧
        SoundCurve (L.plannerCurve cv)) singles.zipIdx (by
    intro pi hpi
    have h1 := List.mem_zipIdx hpi
    have hi : pi.2 < singles.length := by omega
    have hpe : pi.1 = singles[pi.2] := by simpa using h1.2.2
    rw [hpe]
    have hc : 0 < cs.getD pi.2 0 := by
      rw [List.getD_eq_getElem _ _ (by omega)]
      exact ht.positive _ (List.getElem_mem _)
    exact (fit_one_curve L E hE d.strategy o ht.names.2.1 q1 q2 q3 q4 e hk hg hL.gamma hL.inflated
      (hmeas pi.2 hi) hc (by rw [g2]; exact fun a b B B' s => he _ _ _ a b 10 B B' s)).1
      (hall pi.2 (by omega)))
  have hmap := (mapM_ok_iff _ _ _).2 (hcv.imp (fun _ _ h => h.1))
  have hsound : ∀ c ∈ curves, SoundCurve (L.plannerCurve c) := by
    intro c hc
    obtain ⟨_, -, -, h⟩ := forall₂_mem_right hcv c hc
    exact h
  have hcl : curves.length = logs.length := by rw [← hcv.length_eq, List.length_zipIdx, hsl]
  obtain ⟨sf, hsf, -, s, hview, hw, hcurv, hp, hdata, hpl⟩ := surface_fit L logs.length ht.several hL.qp
    hL.sampler hL.few multi curves hcl hsound others hot total h.lib _ _ htot
    (by simp) (by
      intro _ n hn
      obtain ⟨i, hi, rfl⟩ := List.mem_map.1 hn
      exact (hall i (List.mem_range.1 hi)).1)
  have hpl := hpl (fun hm => hfeas (qp.1 (by rw [hmulti, hm])))
  simp only [hmap, bind, Except.bind] at hfit
  have hmul : E.models.multi multi curves (others ++ [total]) = .ok sf := by
    rw [hE]; exact hsf
  rw [hmul] at hfit
  have hone : ∀ i (h1 : i < singles.length) (h2 : i < curves.length),
      E.models.fitCurve o.single o.singleKwargs [singles[i]] = .ok curves[i] := by
    intro i h1 h2
    have := ((List.forall₂_iff_get.1 hcv).2 i (by rw [List.length_zipIdx]; exact h1) h2).1
    simpa using this
  refine ⟨h, o, sf, singles, curves, hh, ho, hfit, hsl, hcl,
    fun i h1 h2 => ⟨hmeas i h1, hone i h1 h2⟩, ⟨others, total, ?_, hot, ?_⟩, ?_⟩
  · rw [hview]
    show Except.ok s.data = _
    rw [hdata]
  · have e1 : (List.range logs.length).map (fun i => cs.getD i 0) = cs := by
      refine List.ext_getElem (by simp [g3]) ?_
      intro i h1 h2
      rw [List.getElem_map, List.getElem_range, List.getD_eq_getElem _ _ h2]
    have e2 : (List.range logs.length).map (fun i => affordable (logs.getD i []) (cs.getD i 0)) =
        (logs.zip cs).map (fun lc => affordable lc.1 lc.2) := by
      refine List.ext_getElem (by simp [g3]) ?_
      intro i h1 h2
      rw [List.length_map, List.length_range] at h1
      rw [List.getElem_map, List.getElem_range, List.getElem_map, List.getElem_zip,
        List.getD_eq_getElem _ _ h1, List.getD_eq_getElem _ _ (by omega)]
    rw [e1, e2] at htot
    exact htot
  intro spends hspl hsp0 F
  obtain ⟨rs, pt, u, a1, a2, a3, a4, a5, a6, a7⟩ := surface_between L curves hsound s hw hcurv hpl
    spends (by rw [hp]; exact hspl) hsp0 F
  refine ⟨rs, pt, u, by rw [a1, hp], ?_, by rw [hview]; exact a3, a4, a5, a6, a7⟩
  intro i h1 h2 h3
  obtain ⟨x, b1, b2⟩ := a2 i h1 h2 h3
  rw [hE]
  refine view_reports L curves[i] ?_ _ x _ b1 b2
  intro g hgt
  have := hone i (by omega) h1
  rw [hgt] at this
  exact fitCurve_not_truth _ _ _ _ _ this

/-- A true reach curve, as a surface uses it. -/
theorem truth_values (L : Solvers) (ds : DataSet) (logs : List Log)
    (hb : List.Forall₂ Built logs ds.data) (i : Nat) (hi : i < logs.length)
    (hsorted : logs[i].Pairwise (fun a b => a.2 ≤ b.2)) (m : GroundTruthCurve)
    (hm : GroundTruthCurve.new ds i = .ok m) (s x v : ℚ)
    (hx : (L.plannerCurve (.truth m)).impressionsForSpend s = .ok x)
    (hv : (L.plannerCurve (.truth m)).surface.reachAt x = .ok v) :
    v = (kPlusReach (exposuresAtSpend logs[i] s) 1 : ℚ) := by
  have hlen := hb.length_eq
  obtain ⟨m', h1, hds, hidx, -⟩ := groundTruth_new hb i hi
  rw [hm] at h1
  cases h1
  have hbi := (List.forall₂_iff_get.1 hb).2 i hi (by omega)
  simp only [List.get_eq_getElem] at hbi
  obtain ⟨nm, rnd, hnew⟩ := hbi
  have haff := C01_impressions_by_spend_partial _ nm rnd _ s hnew hsorted
  have hspend : (L.plannerCurve (.truth m)).impressionsForSpend s =
      .ok ((affordable logs[i] s : Nat) : ℚ) := by
    show (m.impressionsForSpend s).map (fun n : Nat => (n : ℚ)) = _
    unfold GroundTruthCurve.impressionsForSpend
    simp only [hds, hidx]
    rw [pyIndex_nat _ _ (by omega)]
    rw [← haff]
    rfl
  rw [hspend] at hx
  rw [← Except.ok.inj hx] at hv
  obtain ⟨m', r, k1, -, k3, -, k5⟩ := C42_by_impressions ds logs hb i hi (affordable logs[i] s) 1 le_rfl
  rw [hm] at k1
  cases k1
  have k3' : m.byImpressions [((affordable logs[i] s : Nat) : Int)] = .ok r := k3
  have k5' := k5 1 le_rfl le_rfl
  have hreach : (L.plannerCurve (.truth m)).surface.reachAt ((affordable logs[i] s : Nat) : ℚ) =
      .ok (kPlusReach (exposuresAtImpressions logs[i] (affordable logs[i] s)) 1 : ℚ) := by
    show (if ((affordable logs[i] s : Nat) : ℚ).den = 1 then do
      let r ← m.byImpressions [((affordable logs[i] s : Nat) : ℚ).num]
      r.reach 1 else Except.error PyErr.typeError) = _
    rw [if_pos (by simp)]
    simp only [Rat.num_natCast, k3', bind, Except.bind]
    exact k5'
  rw [hreach] at hv
  rw [← Except.ok.inj hv]
  congr 3
  funext u
  refine exposures_agree _ ?_ s u
  intro h0
  obtain ⟨m', hm', -⟩ := (new_ok_iff _ _ _ _).1 hnew
  rw [h0] at hm'
  cases hm'

/-- **C99 (predictions, true reach curves).** In a trial of several publishers with true reach curves
the fitted surface predicts, for all spends, a reach between the largest and the sum of the numbers of
people that the single publishers reach for their spends, hence exactly the number of people reached by
a publisher that is the only one to reach somebody. -/
theorem C99_truth_predictions (L : Solvers) (E : TrialEnv S OptimisedCurve)
    (hE : E.models = L.modelLib) (hest : EstimatesAsked E) (ds : DataSet) (d : TrialDesc)
    (logs : List Log) (cs : List ℚ) (pts : List (List ℚ)) (ht : SurfaceTrial E ds d logs cs pts)
    (hqp : ∀ Q, (L.qp Q).length = Q.G.cols) (hsam : SamplerOk L logs.length)
    (hfew : logs.length ≤ 1000000)
    (hfeas : d.strategy.multiPub = "pairwise_union".toList → MeetsFeasible L.qp)
    (hkw : d.strategy.strategyKwargs =
      [("use_ground_truth_for_reach_curves".toList, "True".toList)])
    (hb : d.strategy.multiPub = "restricted_pairwise_union".toList →
      ∀ lc ∈ logs.zip cs, 1 ≤ affordable lc.1 lc.2) (draws : Nat) :
    ∃ h o sf, HaloSimulator.new ds d.system.spends
        (E.lib d.system.decayRate d.system.sketchSize d.system.randomSeed) E.rand = .ok h ∧
      d.strategy.instantiate = .ok o ∧
      (E.models.fit o h d.experiment.budget ⟨PrivacyTracker.new, draws⟩).1 = .ok sf ∧
      ∀ spends : List ℚ, spends.length = logs.length → (∀ x ∈ spends, 0 ≤ x) → ∀ F : Int,
        ∃ (pt : ReachPoint) (u : ℚ), sf.bySpend spends F = .ok pt ∧ pt.reach 1 = .ok u ∧
          (∀ ls ∈ logs.zip spends, (kPlusReach (exposuresAtSpend ls.1 ls.2) 1 : ℚ) ≤ u) ∧
          u ≤ ((logs.zip spends).map
            (fun ls => (kPlusReach (exposuresAtSpend ls.1 ls.2) 1 : ℚ))).sum := by
  have hkn : KnownStrategyKwargs d.strategy := by
    intro kv hkv
    rw [hkw] at hkv
    rw [List.mem_singleton.1 hkv]
    exact ⟨ht.strategy, rfl⟩
  obtain ⟨row, o, h, singles, others, total, tracker, multi, hrow, ho, hmulti, g1, g2, g3, hcs, hsing,
    hot, htot, -, hh, hfit⟩ := trial_many E hest ds d logs cs pts ht hkn "" "" draws
  obtain ⟨o', ho', -, -, -, -, -, q2, q1, -, -, -, -, q5⟩ :=
    (C97_instantiate d.strategy).2.2 ht.names hkn
  rw [ho] at ho'
  cases ho'
  have hsl : singles.length = logs.length := by rw [← hsing.length_eq, List.length_range]
  have hlen := ht.publishers.length_eq
  have hgt := (q5 _ hkw).1 rfl
  have hfun : ∀ pi : ReachPoint × Nat, (if o.useGroundTruth = true then
      (.ok (.truth ⟨ds, pi.2, ((ds.data[pi.2]?).map (·.maxReach)).getD 0⟩) :
        Except PyErr (TrialCurve OptimisedCurve))
      else E.models.fitCurve o.single o.singleKwargs [pi.1]) =
      .ok (.truth ⟨ds, pi.2, ((ds.data[pi.2]?).map (·.maxReach)).getD 0⟩) := by
    intro pi
    rw [if_pos hgt]
  simp only [hfun] at hfit
  have hnew : ∀ i < logs.length, GroundTruthCurve.new ds i =
      .ok ⟨ds, i, ((ds.data[i]?).map (·.maxReach)).getD 0⟩ := by
    intro i hi
    unfold GroundTruthCurve.new
    rw [pyIndex_nat _ _ (by omega)]
    rw [List.getElem?_eq_getElem (by omega)]
    rfl
  obtain ⟨curves, hcv⟩ := forall₂_of_forall (fun (pi : ReachPoint × Nat) cv =>
      (.ok (.truth ⟨ds, pi.2, ((ds.data[pi.2]?).map (·.maxReach)).getD 0⟩) :
        Except PyErr (TrialCurve OptimisedCurve)) = .ok cv ∧
        SoundCurve (L.plannerCurve cv)) singles.zipIdx (by
    intro pi hpi
    have hi : pi.2 < logs.length := by
      have := List.mem_zipIdx hpi
      omega
    refine ⟨_, rfl, truth_sound L ds logs ht.publishers pi.2 hi ?_
      (ht.sorted _ (List.getElem_mem hi)) _ (hnew pi.2 hi)⟩
    have hbi := (List.forall₂_iff_get.1 ht.publishers).2 pi.2 hi (by omega)
    simp only [List.get_eq_getElem] at hbi
    obtain ⟨nm, rnd, hnew⟩ := hbi
    obtain ⟨m', hm', -⟩ := (new_ok_iff _ _ _ _).1 hnew
    intro h0
    rw [h0] at hm'
    cases hm')
  have hmap := (mapM_ok_iff _ _ _).2 (hcv.imp (fun _ _ h => h.1))
  have hsound : ∀ c ∈ curves, SoundCurve (L.plannerCurve c) := by
    intro c hc
    obtain ⟨_, -, -, h⟩ := forall₂_mem_right hcv c hc
    exact h
  have hcl : curves.length = logs.length := by rw [← hcv.length_eq, List.length_zipIdx, hsl]
  obtain ⟨sf, hsf, -, s, hview, hw, hcurv, hp, -, hpl⟩ := surface_fit L logs.length ht.several hqp
    hsam hfew multi curves hcl hsound others hot total h.lib _ _ htot
    (by simp) (by
      intro hr n hn
      have hb' := hb (q1.1 (by rw [hmulti, hr]))
      rw [forall_zip_range logs cs [] 0 g3 (fun log c => 1 ≤ affordable log c)] at hb'
      obtain ⟨i, hi, rfl⟩ := List.mem_map.1 hn
      exact hb' i (List.mem_range.1 hi))
  have hpl := hpl (fun hm => hfeas (q2.1 (by rw [hmulti, hm])))
  simp only [hmap, bind, Except.bind] at hfit
  have hmul : E.models.multi multi curves (others ++ [total]) = .ok sf := by
    rw [hE]; exact hsf
  rw [hmul] at hfit
  refine ⟨h, o, sf, hh, ho, hfit, ?_⟩
  intro spends hspl hsp0 F
  obtain ⟨rs, pt, u, a1, a2, a3, a4, a5, a6, -⟩ := surface_between L curves hsound s hw hcurv hpl
    spends (by rw [hp]; exact hspl) hsp0 F
  have hrs : rs = (logs.zip spends).map
      (fun ls => (kPlusReach (exposuresAtSpend ls.1 ls.2) 1 : ℚ)) := by
    refine List.ext_getElem (by rw [a1, hp, List.length_map, List.length_zip]; omega) ?_
    intro i h1 h2
    have hi : i < logs.length := by rw [a1, hp] at h1; exact h1
    obtain ⟨x, b1, b2⟩ := a2 i (by omega) (by omega) h1
    have hci := ((List.forall₂_iff_get.1 hcv).2 i (by rw [List.length_zipIdx]; omega) (by omega)).1
    simp only [List.get_eq_getElem, List.getElem_zipIdx, Except.ok.injEq, Nat.zero_add] at hci
    rw [← hci] at b1 b2
    rw [List.getElem_map, List.getElem_zip]
    exact truth_values L ds logs ht.publishers i hi (ht.sorted _ (List.getElem_mem hi)) _ (hnew i hi)
      _ x _ b1 b2
  refine ⟨pt, u, by rw [hview]; exact a3, a4, ?_, by rw [← hrs]; exact a6⟩
  intro ls hls
  refine a5 _ ?_
  rw [hrs]
  exact List.mem_map.2 ⟨ls, hls, rfl⟩

/-- The number of people reached by several publishers is between the largest and the sum of the numbers
of people reached by each. -/
theorem union_between (logs : List Log) (spends : List ℚ) :
    (∀ ls ∈ logs.zip spends,
      kPlusReach (exposuresAtSpend ls.1 ls.2) 1 ≤ kPlusReach (totalAtSpend logs spends) 1) ∧
    kPlusReach (totalAtSpend logs spends) 1 ≤
      ((logs.zip spends).map (fun ls => kPlusReach (exposuresAtSpend ls.1 ls.2) 1)).sum := by
  constructor
  · intro ls hls
    refine Set.ncard_le_ncard ?_ (kPlusReach_finite _ _ (allUsers_finite logs)
      (totalAtSpend_mem logs spends) 1 le_rfl)
    intro u hu
    simp only [Set.mem_ofPred_eq] at hu ⊢
    have hle := List.single_le_sum (l := (logs.zip spends).map
      (fun lv => exposuresAtSpend lv.1 lv.2 u)) (fun _ _ => Nat.zero_le _) _
      (List.mem_map.2 ⟨_, hls, rfl⟩)
    exact le_trans hu hle
  · exact kPlusReach_one_le_sum (logs.zip spends)
      (fun lv u => exposuresAtSpend lv.1 lv.2 u) (allUsers logs) (allUsers_finite logs)
      (fun lv hlv u hu => ⟨lv.1, (List.of_mem_zip hlv).1, exposuresAtSpend_mem _ _ _ hu⟩)

/-- **C99 (errors, true reach curves).** At every test point of such a trial the prediction differs from
the true reach by at most the sum of the numbers of people reached by all publishers but the one
reaching most. -/
theorem C99_truth_errors (L : Solvers) (E : TrialEnv S OptimisedCurve)
    (hE : E.models = L.modelLib) (hest : EstimatesAsked E) (ds : DataSet) (d : TrialDesc)
    (logs : List Log) (cs : List ℚ) (pts : List (List ℚ)) (ht : SurfaceTrial E ds d logs cs pts)
    (hqp : ∀ Q, (L.qp Q).length = Q.G.cols) (hsam : SamplerOk L logs.length)
    (hfew : logs.length ≤ 1000000)
    (hfeas : d.strategy.multiPub = "pairwise_union".toList → MeetsFeasible L.qp)
    (hkw : d.strategy.strategyKwargs =
      [("use_ground_truth_for_reach_curves".toList, "True".toList)])
    (hb : d.strategy.multiPub = "restricted_pairwise_union".toList →
      ∀ lc ∈ logs.zip cs, 1 ≤ affordable lc.1 lc.2) (draws : Nat) :
    ∃ h o sf, HaloSimulator.new ds d.system.spends
        (E.lib d.system.decayRate d.system.sketchSize d.system.randomSeed) E.rand = .ok h ∧
      d.strategy.instantiate = .ok o ∧
      (E.models.fit o h d.experiment.budget ⟨PrivacyTracker.new, draws⟩).1 = .ok sf ∧
      ∀ pt ∈ pts, ∃ q r y x, sf.bySpend pt d.experiment.maxFrequency = .ok q ∧ q.reach 1 = .ok y ∧
        h.dataSet.reachBySpend pt d.experiment.maxFrequency = .ok r ∧ r.reach 1 = .ok x ∧
        ∀ ls ∈ logs.zip pt, |y - x| ≤ ((logs.zip pt).map
            (fun ls => (kPlusReach (exposuresAtSpend ls.1 ls.2) 1 : ℚ))).sum -
          (kPlusReach (exposuresAtSpend ls.1 ls.2) 1 : ℚ) := by
  obtain ⟨h, o, sf, hh, ho, hfit, hpred⟩ := C99_truth_predictions L E hE hest ds d logs cs pts ht hqp
    hsam hfew hfeas hkw hb draws
  refine ⟨h, o, sf, hh, ho, hfit, ?_⟩
  intro pt hpt
  obtain ⟨hl, h0⟩ := ht.points.2 pt hpt
  obtain ⟨q, y, a1, a2, a3, a4⟩ := hpred pt hl h0 d.experiment.maxFrequency
  obtain ⟨M, hM, hM1⟩ : ∃ M : Nat, d.experiment.maxFrequency = M ∧ 1 ≤ M :=
    ⟨d.experiment.maxFrequency.toNat, by have := ht.frequency; omega, by
      have := ht.frequency; omega⟩
  obtain ⟨r, b1, -, -, -, b2, -⟩ := C08_reach_by_spend ds logs ht.publishers pt hl M hM1
  have hds := (ht.halo hest h hh).1
  obtain ⟨u1, u2⟩ := union_between logs pt
  refine ⟨q, r, y, _, a1, a2, by rw [hds, hM]; exact b1, b2 1 le_rfl hM1, ?_⟩
  intro ls hls
  have c1 := a3 ls hls
  have c2 : (kPlusReach (exposuresAtSpend ls.1 ls.2) 1 : ℚ) ≤ kPlusReach (totalAtSpend logs pt) 1 := by
    exact_mod_cast u1 ls hls
  have c3 : (kPlusReach (totalAtSpend logs pt) 1 : ℚ) ≤ ((logs.zip pt).map
      (fun ls => (kPlusReach (exposuresAtSpend ls.1 ls.2) 1 : ℚ))).sum := by
    have h := (Nat.cast_le (α := ℚ)).2 u2
    rw [Nat.cast_list_sum, List.map_map] at h
    exact h
  rw [abs_le]
  constructor <;> linarith

/-! ## Examples -/

/-- A solver as assumed for the pairwise union surface. -/
example : ∃ solve : PairwiseSurface.QP → List ℚ, MeetsFeasible solve ∧
    ∀ Q, (solve Q).length = Q.G.cols := by
  classical
  refine ⟨fun Q => if h : ∃ x : List ℚ, x.length = Q.G.cols ∧ MeetsConstraints Q x then h.choose
    else List.replicate Q.G.cols 0, fun Q h => ?_, fun Q => ?_⟩
  · simp only [dif_pos h]
    exact h.choose_spec.2
  · by_cases h : ∃ x : List ℚ, x.length = Q.G.cols ∧ MeetsConstraints Q x
    · simp only [dif_pos h]
      exact h.choose_spec.1
    · simp only [dif_neg h]
      exact List.length_replicate

theorem exManyReaches : kPlusReach (exposuresAtSpend [(7, 1), (8, 2), (7, 2), (9, 5)] 2) 1 = 2 ∧
    kPlusReach (exposuresAtSpend [(8, 1), (9, 2), (8, 4)] 1) 1 = 1 := by
  unfold kPlusReach
  constructor
  · have : {u | 1 ≤ exposuresAtSpend [(7, 1), (8, 2), (7, 2), (9, 5)] 2 u} = {7, 8} := by
      ext u
      rw [Set.mem_ofPred_eq]
      unfold exposuresAtSpend
      rw [Nat.one_le_iff_ne_zero, Ne, List.countP_eq_zero]
      constructor
      · intro h
        by_contra hn
        rw [Set.mem_insert_iff, Set.mem_singleton_iff, not_or] at hn
        refine h ?_
        intro e he
        simp only [List.mem_cons, List.not_mem_nil, or_false] at he
        rcases he with rfl | rfl | rfl | rfl
        · simpa using fun h => absurd h.symm hn.1
        · simpa using fun h => absurd h.symm hn.2
        · simpa using fun h => absurd h.symm hn.1
        · norm_num
      · rintro (rfl | rfl) h
        · exact absurd (h (7, 1) (by simp)) (by decide +kernel)
        · exact absurd (h (8, 2) (by simp)) (by decide +kernel)
    rw [this]
    exact Set.ncard_pair (by decide)
  · have : {u | 1 ≤ exposuresAtSpend [(8, 1), (9, 2), (8, 4)] 1 u} = {8} := by
      ext u
      rw [Set.mem_ofPred_eq]
      unfold exposuresAtSpend
      rw [Nat.one_le_iff_ne_zero, Ne, List.countP_eq_zero]
      constructor
      · intro h
        by_contra hn
        rw [Set.mem_singleton_iff] at hn
        refine h ?_
        intro e he
        simp only [List.mem_cons, List.not_mem_nil, or_false] at he
        rcases he with rfl | rfl | rfl
        · simpa using fun h => absurd h.symm hn
        · norm_num
        · norm_num
      · rintro rfl h
        exact absurd (h (8, 1) (by simp)) (by decide +kernel)
    rw [this]
    exact Set.ncard_singleton _

/-- In the example with true reach curves, for spends of 2 and 1: the first publisher reaches two people
and the second one reaches one of them, and the surface predicts between two and three people. -/
example : ∃ h o sf, HaloSimulator.new exSortedTwo exManyTrial.system.spends
      (exManyEnv.lib exManyTrial.system.decayRate exManyTrial.system.sketchSize
        exManyTrial.system.randomSeed) exManyEnv.rand = .ok h ∧
    (exManyEnv.models.fit o h exManyTrial.experiment.budget ⟨PrivacyTracker.new, 0⟩).1 = .ok sf ∧
    ∃ pt u, sf.bySpend [2, 1] 1 = .ok pt ∧ pt.reach 1 = .ok u ∧ 2 ≤ u ∧ u ≤ 3 := by
  obtain ⟨h, o, sf, h1, -, h3, h4⟩ := C99_truth_predictions exManySolvers exManyEnv rfl exMany_asked.1
    exSortedTwo _ exManyLogs _ _ exManyTruth exManyLibraries.qp exManyLibraries.sampler
    exManyLibraries.few (fun h => absurd h (by decide)) rfl (fun _ => by decide +kernel) 0
  refine ⟨h, o, sf, h1, h3, ?_⟩
  obtain ⟨pt, u, a1, a2, a3, a4⟩ := h4 [2, 1] rfl (by decide +kernel) 1
  have e1 := exManyReaches.1
  have e2 := exManyReaches.2
  have b1 := a3 ([(7, 1), (8, 2), (7, 2), (9, 5)], 2) (by decide +kernel)
  simp only [e1] at b1
  simp only [exManyLogs, List.zip_cons_cons, List.zip_nil_right, List.map_cons, List.map_nil,
    List.sum_cons, List.sum_nil, e1, e2] at a4
  push_cast at a4 b1
  exact ⟨pt, u, a1, a2, b1, by linarith⟩

/-- The hypotheses of C99 (predictions) hold in the example of C99 (several publishers): its surface
answers, for instance, for the spends 2 and 1. -/
example : ∃ (h : HaloSimulator (List Int)) (o : StrategyObject) (sf : Surface),
    (exManyEnv.models.fit o h exManyTrial.experiment.budget
      ⟨PrivacyTracker.new, 0⟩).1 = .ok sf ∧ ∃ pt u, sf.bySpend [2, 1] 1 = .ok pt ∧
      pt.reach 1 = .ok u := by
  obtain ⟨h, o, sf, singles, curves, -, -, h3, -, -, -, -, h7⟩ := C99_predictions exManySolvers exManyEnv
    rfl exMany_asked.1 exMany_asked.2 exSortedTwo exManyTrial exManyLogs _ _ exMany exManyLibraries
    (fun h => absurd h (by decide)) rfl 1 (Or.inl ⟨rfl, rfl⟩) (fun _ => rfl) (by
      intro lc hlc
      have h2 : ∀ lc ∈ exManyLogs.zip [5, 2], 2 ≤ affordable lc.1 lc.2 := by decide +kernel
      have := h2 lc hlc
      exact ⟨by omega, fun _ => this, fun _ h => by omega⟩) 0
  obtain ⟨-, pt, u, -, -, a1, a2, -⟩ := h7 [2, 1] rfl (by decide +kernel) 1
  exact ⟨h, o, sf, h3, pt, u, a1, a2⟩

end Verif
