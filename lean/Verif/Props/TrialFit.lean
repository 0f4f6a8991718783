import Verif.Props.TrialPrivacy
import Verif.Props.ReachCurve

/-!
# C99: which trials of one publisher succeed

Trials of one publisher with true reach curves or Goerg's model, from the data set to the row of
results, for every sketch library and all noise.
-/

namespace Verif

open Verif.Spec

variable {S C : Type}

/-- The library estimates as many frequencies as asked for. -/
def EstimatesAsked (E : TrialEnv S C) : Prop :=
  ∀ x y z a b (F : Nat) B B' s, ((E.lib x y z).estimate a b F B B' s).length = F

/-! ## Measurements -/

theorem pyRound_pos (x : ℚ) (h : 1 ≤ x) : 1 ≤ pyRound x := by
  have hf : 1 ≤ x.floor := by
    rw [Rat.le_floor_iff]; exact_mod_cast h
  unfold pyRound
  split
  · exact hf
  split
  · omega
  split <;> omega

theorem pyRound_nonpos (x : ℚ) (h : x ≤ 0) : pyRound x ≤ 0 := by
  have hf : x.floor ≤ 0 := by
    have h1 : ((x.floor : Int) : ℚ) ≤ x := Rat.floor_le x
    have : ((x.floor : Int) : ℚ) ≤ 0 := h1.trans h
    exact_mod_cast this
  unfold pyRound
  split
  · exact hf
  split
  · rename_i h1 h2
    have h3 : ((x.floor : Int) : ℚ) ≤ x := Rat.floor_le x
    by_contra hc
    have : x.floor = 0 := by omega
    rw [this] at h2
    push_cast at h2
    linarith
  split
  · exact hf
  · rename_i h1 h2 h3
    omega

theorem minAccumulate_le (l : List Int) (h : ∀ x ∈ l, x ≤ 0) : ∀ x ∈ minAccumulate l, x ≤ 0 := by
  induction l with
  | nil => simp [minAccumulate]
  | cons a l ih =>
    intro x hx
    rw [minAccumulate] at hx
    rcases List.mem_cons.1 hx with rfl | hx
    · exact h x (by simp)
    · obtain ⟨y, hy, rfl⟩ := List.mem_map.1 hx
      exact (min_le_left _ _).trans (h a (by simp))

theorem made_of_new {imps ks : List ℚ} {sp : Option (List ℚ)} {us : Option ℚ} {r : ReachPoint}
    (h : ReachPoint.new imps ks sp us = .ok r) : MadeFrom r.kplusReaches r := by
  have hm : MadeFrom ks r := ⟨imps, sp, us, h⟩
  rw [hm.kplus]; exact hm

theorem simulated_made (h : HaloSimulator S) (spends : List ℚ) (b : PrivacyBudget ℚ) (split : ℚ)
    (F : Int) (st st' : HaloState) (r : ReachPoint)
    (hr : h.simulatedReachBySpend spends b split F st = (.ok r, st')) :
    MadeFrom r.kplusReaches r := by
  unfold HaloSimulator.simulatedReachBySpend at hr
  obtain ⟨_, _, _, hr⟩ := HaloM.bind_eq_ok hr
  obtain ⟨_, _, _, hr⟩ := HaloM.bind_eq_ok hr
  obtain ⟨_, _, _, hr⟩ := HaloM.bind_eq_ok hr
  obtain ⟨_, _, _, hr⟩ := HaloM.bind_eq_ok hr
  obtain ⟨_, _, _, hr⟩ := HaloM.bind_eq_ok hr
  obtain ⟨_, _, _, hr⟩ := HaloM.bind_eq_ok hr
  simp only [HaloM.lift_apply, Prod.mk.injEq] at hr
  exact made_of_new hr.1

/-- What Halo reports of a campaign that buys `n` impressions from one publisher, whatever the
estimates are. -/
structure Measured (lib : SketchLib S) (n : Nat) (c : ℚ) (F : Nat) (r : ReachPoint) : Prop where
  impressions : r.impressions = [(n : ℚ)]
  spends : r.spends = some [c]
  length : r.kplusReaches.length = F
  made : MadeFrom r.kplusReaches r
  top : ∀ v, r.reach 1 = .ok v → v ≤ max 1 (n : ℚ)
  reach : ∃ x : Int, r.reach 1 = .ok (x : ℚ) ∧ 0 ≤ x ∧ (2 ≤ n → x < n) ∧
    ((∀ a b B B' s, ∀ y ∈ lib.estimate a b F B B' s, 1 ≤ y) → 1 ≤ x) ∧
    ((∀ a b B B' s, ∀ y ∈ lib.estimate a b F B B' s, y ≤ 0) → 1 ≤ n →
      ∀ y ∈ r.kplusReaches, y = 0)

theorem measure (h : HaloSimulator S) (p : PublisherData) (c : ℚ)
    (hp : h.publishers = [⟨p, c⟩]) (hds : h.dataSet.data = [p]) (F : Nat) (hF : 1 ≤ F)
    (hest : ∀ a b B B' s, (h.lib.estimate a b F B B' s).length = F)
    (budget : PrivacyBudget ℚ) (st : HaloState) :
    ∃ r st', h.simulatedReachBySpend [c] budget (1 / 2) F st = (.ok r, st') ∧
      Measured h.lib (p.impressionsBySpend c) c F r := by
  obtain ⟨r, hr, hmf, hsp⟩ := C20_length_and_success h [c] budget (1 / 2) F hF st hest
    (by rw [hp, hds]; rfl) (by rw [hp]; simp) (by rw [hp]; rfl)
  have hr' : h.simulatedReachBySpend [c] budget (1 / 2) F st =
      (.ok r, (h.simulatedReachBySpend [c] budget (1 / 2) F st).2) := Prod.ext hr rfl
  refine ⟨r, _, hr', ?_⟩
  obtain ⟨sk, imps, capped, -, himp, hcap, hi, hk, -⟩ := h.simulated_ok _ _ _ _ _ _ _ hr'
  rw [impressionsBySpend_ok _ _ (by rw [hds]; simp), hds] at himp
  have himp' : imps = [p.impressionsBySpend c] := (Except.ok.inj himp).symm
  subst himp'
  have hlen : r.kplusReaches.length = F := hmf
  suffices hgoal : ∃ x : Int, (r.reach 1 = .ok (x : ℚ) ∧ 0 ≤ x ∧
      (2 ≤ p.impressionsBySpend c → x < p.impressionsBySpend c) ∧
      ((∀ a b B B' s, ∀ y ∈ h.lib.estimate a b F B B' s, 1 ≤ y) → 1 ≤ x) ∧
      ((∀ a b B B' s, ∀ y ∈ h.lib.estimate a b F B B' s, y ≤ 0) → 1 ≤ p.impressionsBySpend c →
        ∀ y ∈ r.kplusReaches, y = 0)) ∧ x ≤ max 1 (p.impressionsBySpend c : Int) by
    obtain ⟨x, h1, h2⟩ := hgoal
    refine ⟨by rw [hi]; rfl, hsp, hlen, simulated_made h _ _ _ _ _ _ _ hr', ?_, x, h1⟩
    intro v hv
    rw [h1.1] at hv
    rw [← Except.ok.inj hv]
    exact_mod_cast h2
  set es := h.requestEstimates budget (1 / 2) F st.draws sk with hes
  have hesl : es.length = F := by
    rw [hes]; unfold HaloSimulator.requestEstimates; exact hest _ _ _ _ _
  obtain ⟨e, es', hee⟩ : ∃ e es', es = e :: es' := by
    rcases hq : es with _ | ⟨e, es'⟩
    · rw [hq] at hesl; simp at hesl; omega
    · exact ⟨e, es', rfl⟩
  have hk0 : minAccumulate ((es.map pyRound).map (max 0)) =
      max 0 (pyRound e) ::
        (minAccumulate ((es'.map pyRound).map (max 0))).map (min (max 0 (pyRound e))) := by
    rw [hee]; rfl
  unfold HaloSimulator.capReaches at hcap
  rw [hk0] at hcap
  have hpi : pyIndex (max 0 (pyRound e) ::
        (minAccumulate ((es'.map pyRound).map (max 0))).map (min (max 0 (pyRound e)))) 0
      = .ok (max 0 (pyRound e)) := rfl
  rw [hpi] at hcap
  simp only [bind, Except.bind, pure, Except.pure, Except.ok.injEq, List.sum_cons, List.sum_nil,
    add_zero] at hcap
  have hreach : ∀ (x : Int) (l : List Int), capped = x :: l → r.reach 1 = .ok (x : ℚ) := by
    intro x l hl
    unfold ReachPoint.reach
    rw [if_pos (by rw [hlen]; omega), hk, hl]
    rfl
  have hin : e ∈ es := by rw [hee]; simp
  have hine : ∀ y ∈ es, y ∈ h.lib.estimate st.draws (st.draws + 1) F
      ⟨budget.epsilon * (1 / 2), budget.delta * (1 / 2)⟩
      ⟨budget.epsilon * (1 - 1 / 2), budget.delta * (1 - 1 / 2)⟩ sk := by
    intro y hy; rw [hes] at hy; exact hy
  by_cases hle : ((p.impressionsBySpend c : Nat) : Int) ≤ max 0 (pyRound e)
  · rw [if_pos hle] at hcap
    refine ⟨_, ⟨hreach _ _ hcap.symm, ?_, ?_, ?_, ?_⟩, by omega⟩
    · omega
    · intro h2; omega
    · intro _; omega
    · intro hz h1
      have := pyRound_nonpos e (hz _ _ _ _ _ e (hine e hin))
      omega
  · rw [if_neg hle] at hcap
    refine ⟨_, ⟨hreach _ _ hcap.symm, ?_, ?_, ?_, ?_⟩, by omega⟩
    · omega
    · intro h2; omega
    · intro hone
      have := pyRound_pos e (hone _ _ _ _ _ e (hine e hin))
      omega
    · intro hz h1 y hy
      rw [hk] at hy
      obtain ⟨z, hz', rfl⟩ := List.mem_map.1 hy
      have hlow : 0 ≤ z := by
        rw [← hcap, ← hk0] at hz'
        refine minAccumulate_nonneg _ ?_ z hz'
        intro x hx
        obtain ⟨w, -, rfl⟩ := List.mem_map.1 hx
        exact le_max_left _ _
      have hup : z ≤ 0 := by
        rw [← hcap, ← hk0] at hz'
        refine minAccumulate_le _ ?_ z hz'
        intro x hx
        obtain ⟨w, hw, rfl⟩ := List.mem_map.1 hx
        obtain ⟨v, hv, rfl⟩ := List.mem_map.1 hw
        exact max_le le_rfl (pyRound_nonpos v (hz _ _ _ _ _ v (hine v hv)))
      have : z = 0 := le_antisymm hup hlow
      rw [this]; rfl

theorem Measured.project {lib : SketchLib S} {n : Nat} {c : ℚ} {F : Nat} {r : ReachPoint}
    (hm : Measured lib n c F r) :
    ∃ pt, Strategy.projectPoint r 0 = .ok pt ∧ Measured lib n c F pt := by
  have hks : (List.range r.maxFrequency).mapM (fun k : Nat => r.reach ((k : Int) + 1)) =
      .ok r.kplusReaches := by
    rw [mapM_ok_iff, List.forall₂_iff_get]
    refine ⟨by simp [ReachPoint.maxFrequency], ?_⟩
    intro i h1 h2
    simp only [List.get_eq_getElem, List.getElem_range]
    unfold ReachPoint.reach
    rw [if_pos (by omega)]
    have : (i : Int) + 1 - 1 = (i : Int) := by omega
    rw [this, pyIndex_nat _ _ (by simpa using h2)]
  have hp : Strategy.projectPoint r 0 = ReachPoint.new [(n : ℚ)] r.kplusReaches (some [c]) := by
    unfold Strategy.projectPoint
    rw [hks, hm.impressions, hm.spends]
    rfl
  have hnew : ReachPoint.new [(n : ℚ)] r.kplusReaches (some [c]) = .ok
      { impressions := [(n : ℚ)], kplusReaches := r.kplusReaches,
        frequencies := ReachPoint.successiveDifferences r.kplusReaches, spends := some [c],
        universeSize? := none } := rfl
  refine ⟨_, hp.trans hnew, rfl, rfl, hm.length, made_of_new hnew, hm.top, ?_⟩
  obtain ⟨x, hx, h1⟩ := hm.reach
  exact ⟨x, hx, h1⟩

/-! ## Fitting -/

theorem one_halo (ds : DataSet) (p : PublisherData) (hds : ds.data = [p]) (f : ℚ) (fs : List ℚ)
    (lib : SketchLib S) (rand : RandomLib) (h : HaloSimulator S)
    (hh : HaloSimulator.new ds (f :: fs) lib rand = .ok h) :
    h.publishers = [⟨p, f * p.maxSpend⟩] ∧ h.dataSet = ds ∧ h.lib = lib ∧ h.publisherCount = 1 ∧
      h.campaignSpends = [f * p.maxSpend] := by
  obtain ⟨h1, h2, h3, -, h4, -⟩ := C66_campaign_spends ds _ lib rand h hh
  rw [hds] at h3 h4
  have h4' : h.campaignSpends = [f * p.maxSpend] := h4
  have hpub : h.publishers = [⟨p, f * p.maxSpend⟩] := by
    unfold HaloSimulator.campaignSpends at h4'
    rcases hq : h.publishers with _ | ⟨⟨d, c⟩, _ | ⟨b, l⟩⟩
    · rw [hq] at h3; simp at h3
    · rw [hq] at h3 h4'
      simp only [List.map_cons, List.map_nil, List.cons.injEq, and_true] at h3 h4'
      rw [h3, h4']
    · rw [hq] at h3; simp at h3
  refine ⟨hpub, h1, h2, ?_, h4'⟩
  unfold HaloSimulator.publisherCount
  rw [hpub]; rfl

theorem fitSingle_one {Curve Surf : Type} (st : Strategy Curve Surf) (h : HaloSimulator S)
    (p : PublisherData) (c : ℚ) (hp : h.publishers = [⟨p, c⟩]) (hds : h.dataSet.data = [p])
    (hest : ∀ a b (F : Nat) B B' s, (h.lib.estimate a b F B B' s).length = F)
    (b : PrivacyBudget ℚ) (s : HaloState) :
    ∃ r s', Measured h.lib (p.impressionsBySpend c) c 20 r ∧
      st.fitSingle h b s = ((st.single [r]).map Fitted.curve, s') := by
  have hcs : h.campaignSpends = [c] := by unfold HaloSimulator.campaignSpends; rw [hp]; rfl
  have hpc : h.publisherCount = 1 := by unfold HaloSimulator.publisherCount; rw [hp]; rfl
  obtain ⟨r, s', hr, hm⟩ := measure h p c hp hds 20 (by omega) (fun a b B B' s => hest a b 20 B B' s)
    b s
  refine ⟨r, s', hm, ?_⟩
  unfold Strategy.fitSingle
  rw [if_neg (by omega), hcs]
  have hr' : h.simulatedReachBySpend [c] b (1 / 2) Strategy.maxMeasurementFrequency s =
    (.ok r, s') := hr
  rw [HaloM.bind_ok hr']
  rcases hc : st.single [r] with e | x
  · rfl
  · rfl

theorem fitM3_one {Curve Surf : Type} (st : Strategy Curve Surf) (h : HaloSimulator S)
    (p : PublisherData) (c : ℚ) (hp : h.publishers = [⟨p, c⟩]) (hds : h.dataSet.data = [p])
    (hest : ∀ a b (F : Nat) B B' s, (h.lib.estimate a b F B B' s).length = F)
    (b : PrivacyBudget ℚ) (s : HaloState) :
    ∃ r s', Measured h.lib (p.impressionsBySpend c) c 10 r ∧
      st.fitM3 h b s = (((if st.useGroundTruth then .ok (st.groundTruth h.dataSet 0)
        else st.single [r]) : Except PyErr Curve).map Fitted.curve, s') := by
  have hcs : h.campaignSpends = [c] := by unfold HaloSimulator.campaignSpends; rw [hp]; rfl
  have hpc : h.publisherCount = 1 := by unfold HaloSimulator.publisherCount; rw [hp]; rfl
  set b' : PrivacyBudget ℚ := ⟨b.epsilon / (2 * (1 : Nat) + 1), b.delta / (2 * (1 : Nat) + 1)⟩ with hb'
  obtain ⟨t, s1, ht, -⟩ := measure h p c hp hds 1 le_rfl (fun a b B B' s => hest a b 1 B B' s) b' s
  obtain ⟨r, s2, hr, hm⟩ := measure h p c hp hds 10 (by omega) (fun a b B B' s => hest a b 10 B B' s)
    b' s1
  obtain ⟨pt, hpt, hmp⟩ := hm.project
  have hloop : Strategy.singleLoop h b' (List.range 1) s1 = (.ok [pt], s2) := by
    have hr1 : List.range 1 = [0] := rfl
    rw [hr1]
    unfold Strategy.singleLoop
    rw [hcs, hpc]
    have hi : pyIndex [c] ((0 : Nat) : Int) = .ok c := rfl
    rw [hi, HaloM.bind_ok (HaloM.lift_apply _ _)]
    have hr' : h.simulatedReachBySpend ((List.replicate 1 0).set 0 c) b' (1 / 2) 10 s1 =
      (.ok r, s2) := hr
    rw [HaloM.bind_ok hr', hpt, HaloM.bind_ok (HaloM.lift_apply _ _)]
    rfl
  refine ⟨pt, s2, hmp, ?_⟩
  unfold Strategy.fitM3
  rw [hcs, hpc]
  have ht' : h.simulatedReachBySpend [c] b' (1 / 2) 1 s = (.ok t, s1) := ht
  rw [HaloM.bind_ok ht', HaloM.bind_ok hloop]
  have hloo : Strategy.leaveOneOutPoints h b' 1 s2 = (.ok [], s2) := rfl
  rw [HaloM.bind_ok hloo]
  have hcurves : ([pt].zipIdx).mapM (fun pi => if st.useGroundTruth then
        .ok (st.groundTruth h.dataSet pi.2) else st.single [pi.1]) =
      ((if st.useGroundTruth then .ok (st.groundTruth h.dataSet 0)
        else st.single [pt] : Except PyErr Curve)).map (fun x => [x]) := by
    simp only [List.zipIdx_cons, List.zipIdx_nil, List.mapM_cons, List.mapM_nil]
    rcases (if st.useGroundTruth then .ok (st.groundTruth h.dataSet 0)
        else st.single [pt] : Except PyErr Curve) with e | x <;> rfl
  rw [hcurves]
  rcases (if st.useGroundTruth then .ok (st.groundTruth h.dataSet 0)
        else st.single [pt] : Except PyErr Curve) with e | x
  · rfl
  · rfl

/-! ## From the fit to the row -/

theorem fit_m3 (M : ModelLib C) (o : StrategyObject) (h : HaloSimulator S) (b : PrivacyBudget ℚ)
    (st : HaloState) (hc : o.cls = .m3) :
    M.fit o h b st = ((M.strategy o).fitM3 h b >>= fun a => pure (M.fittedView a)) st := by
  unfold ModelLib.fit; rw [hc]

theorem fit_single (M : ModelLib C) (o : StrategyObject) (h : HaloSimulator S) (b : PrivacyBudget ℚ)
    (st : HaloState) (hc : o.cls = .singlePublisher) :
    M.fit o h b st = ((M.strategy o).fitSingle h b >>= fun a => pure (M.fittedView a)) st := by
  unfold ModelLib.fit; rw [hc]

/-- A trial of one publisher: its row, and the fit that the row is made from. -/
theorem trial_one (E : TrialEnv S C) (hest : EstimatesAsked E) (name : String) (ds : DataSet)
    (p : PublisherData) (hds : ds.data = [p]) (d : TrialDesc) (f : ℚ) (fs : List ℚ)
    (hfs : d.system.spends = f :: fs) (hreg : RegisteredNames d.strategy)
    (hkw : KnownStrategyKwargs d.strategy) (analysisType : String) (draws : Nat) :
    ∃ row o h r F tracker, (trialOutcome E name ds d analysisType draws).1 = .ok row ∧
      d.strategy.instantiate = .ok o ∧ h.dataSet = ds ∧ h.campaignSpends = [f * p.maxSpend] ∧
      h.lib = E.lib d.system.decayRate d.system.sketchSize d.system.randomSeed ∧
      10 ≤ F ∧ Measured h.lib (p.impressionsBySpend (f * p.maxSpend)) (f * p.maxSpend) F r ∧
      trialRow (trialInputs E name ds d analysisType h
        (((if o.cls = .m3 ∧ o.useGroundTruth = true then .ok (.truth ⟨ds, 0, p.maxReach⟩)
          else E.models.fitCurve o.single o.singleKwargs [r]) : Except PyErr (TrialCurve C)).map
            E.models.curveView) tracker) = .ok row := by
  obtain ⟨row, hrow⟩ := (C97_returns_row E name ds d analysisType draws).2
    ⟨by rw [hds]; simp, by rw [hds, hfs]; simp, hreg, hkw⟩
  obtain ⟨h, o, hh, ho, htr⟩ := trialOutcome_row E name ds d analysisType draws row hrow
  rw [hfs] at hh
  obtain ⟨g1, g2, g3, g4, g5⟩ := one_halo ds p hds f fs _ _ h hh
  have hest' : ∀ a b (F : Nat) B B' s, (h.lib.estimate a b F B B' s).length = F := by
    rw [g3]; exact hest _ _ _
  have hdd : h.dataSet.data = [p] := by rw [g2]; exact hds
  rcases hc : o.cls with _ | _
  · obtain ⟨r, s', hm, hfit⟩ := fitM3_one (E.models.strategy o) h p _ g1 hdd hest'
      d.experiment.budget ⟨PrivacyTracker.new, draws⟩
    have hmf : E.models.fit o h d.experiment.budget ⟨PrivacyTracker.new, draws⟩ =
        (((if o.cls = .m3 ∧ o.useGroundTruth = true then .ok (.truth ⟨ds, 0, p.maxReach⟩)
          else E.models.fitCurve o.single o.singleKwargs [r]) : Except PyErr (TrialCurve C)).map
            E.models.curveView, s') := by
      rw [fit_m3 _ _ _ _ _ hc, HaloM.bind_apply, hfit]
      have hgt : (E.models.strategy o).groundTruth h.dataSet 0 = .truth ⟨ds, 0, p.maxReach⟩ := by
        simp only [ModelLib.strategy, g2, hds]
        rfl
      have hu : (E.models.strategy o).useGroundTruth = o.useGroundTruth := rfl
      rw [hgt, hu]
      by_cases hg : o.useGroundTruth = true
      · rw [if_pos hg, if_pos ⟨hc, hg⟩]; rfl
      · rw [if_neg hg, if_neg (fun hx => hg hx.2)]
        have : (E.models.strategy o).single [r] = E.models.fitCurve o.single o.singleKwargs [r] := rfl
        rw [this]
        rcases E.models.fitCurve o.single o.singleKwargs [r] with e | x <;> rfl
    rw [hmf] at htr
    exact ⟨row, o, h, r, 10, s'.tracker, hrow, ho, g2, g5, g3, by omega, hm, htr⟩
  · obtain ⟨r, s', hm, hfit⟩ := fitSingle_one (E.models.strategy o) h p _ g1 hdd hest'
      d.experiment.budget ⟨PrivacyTracker.new, draws⟩
    have hmf : E.models.fit o h d.experiment.budget ⟨PrivacyTracker.new, draws⟩ =
        (((if o.cls = .m3 ∧ o.useGroundTruth = true then .ok (.truth ⟨ds, 0, p.maxReach⟩)
          else E.models.fitCurve o.single o.singleKwargs [r]) : Except PyErr (TrialCurve C)).map
            E.models.curveView, s') := by
      rw [fit_single _ _ _ _ _ hc, HaloM.bind_apply, hfit]
      rw [if_neg (fun hx => by rw [hc] at hx; cases hx.1)]
      have : (E.models.strategy o).single [r] = E.models.fitCurve o.single o.singleKwargs [r] := rfl
      rw [this]
      rcases E.models.fitCurve o.single o.singleKwargs [r] with e | x <;> rfl
    rw [hmf] at htr
    exact ⟨row, o, h, r, 20, s'.tracker, hrow, ho, g2, g5, g3, by omega, hm, htr⟩

theorem reachBySpend_made (ds : DataSet) (s : List ℚ) (F : Int) (r : ReachPoint)
    (h : ds.reachBySpend s F = .ok r) : MadeFrom r.kplusReaches r := by
  unfold DataSet.reachBySpend at h
  split at h
  · cases h
  · simp only [bind, Except.bind] at h
    split at h
    · cases h
    · exact made_of_new h

theorem goerg_made (m : GoergModel) (s : List ℚ) (F : Int) (r : ReachPoint)
    (h : m.bySpend s F = .ok r) : MadeFrom r.kplusReaches r := by
  unfold GoergModel.bySpend at h
  split at h
  · cases h
  split at h
  · unfold GoergModel.byImpressions at h
    simp only at h
    split at h
    · cases h
    · split at h
      · exact made_of_new h
      · exact made_of_new h
  · cases h

/-- Summaries exist for reach points with at least one frequency. -/
theorem aggregate_ok (x y : List ReachPoint) (hl : x.length = y.length)
    (hx : ∀ r ∈ x, MadeFrom r.kplusReaches r ∧ r.kplusReaches ≠ [])
    (hy : ∀ r ∈ y, MadeFrom r.kplusReaches r ∧ r.kplusReaches ≠ []) :
    ∃ row, aggregate x y = .ok row := by
  have made : ∀ l : List ReachPoint, (∀ r ∈ l, MadeFrom r.kplusReaches r ∧ r.kplusReaches ≠ []) →
      Made l (l.map (·.kplusReaches)) := by
    intro l hl
    unfold Made
    rw [List.forall₂_map_right_iff, List.forall₂_same]
    exact fun r hr => (hl r hr).1
  refine C47_succeeds x y _ _ (made x hx) (made y hy) hl ?_
  intro ks hks
  rcases List.mem_append.1 hks with h | h
  · obtain ⟨r, hr, rfl⟩ := List.mem_map.1 h
    exact (hx r hr).2
  · obtain ⟨r, hr, rfl⟩ := List.mem_map.1 h
    exact (hy r hr).2

theorem forall₂_of_forall {α β : Type} (R : α → β → Prop) (l : List α) (h : ∀ a ∈ l, ∃ b, R a b) :
    ∃ l', List.Forall₂ R l l' := by
  induction l with
  | nil => exact ⟨[], .nil⟩
  | cons a l ih =>
    obtain ⟨b, hb⟩ := h a (by simp)
    obtain ⟨l', hl'⟩ := ih (fun x hx => h x (by simp [hx]))
    exact ⟨b :: l', .cons hb hl'⟩

theorem forall₂_mem_right {α β : Type} {R : α → β → Prop} {l : List α} {l' : List β}
    (h : List.Forall₂ R l l') : ∀ b ∈ l', ∃ a ∈ l, R a b := by
  induction h with
  | nil => intro b hb; exact absurd hb List.not_mem_nil
  | cons hab _ ih =>
    intro b hb
    rcases List.mem_cons.1 hb with rfl | hb
    · exact ⟨_, by simp, hab⟩
    · obtain ⟨a, ha, h⟩ := ih b hb
      exact ⟨a, by simp [ha], h⟩

/-- True reach on a data set of one publisher. -/
theorem true_one (ds : DataSet) (p : PublisherData) (hds : ds.data = [p]) (log : Log)
    (hb : Built log p) (s : ℚ) (F : Nat) (hF : 1 ≤ F) :
    ∃ r, ds.reachBySpend [s] F = .ok r ∧ MadeFrom r.kplusReaches r ∧ r.kplusReaches.length = F ∧
      ∀ k : Nat, 1 ≤ k → k ≤ F → r.reach k = .ok (kPlusReach (exposuresAtSpend log s) k : ℚ) := by
  obtain ⟨r, h1, -, -, h2, h3, -⟩ := C08_reach_by_spend ds [log]
    (by rw [hds]; exact .cons hb .nil) [s] rfl F hF
  refine ⟨r, h1, reachBySpend_made ds _ _ r h1, h2, ?_⟩
  intro k hk hkF
  rw [h3 k hk hkF]
  congr 3

/-- The first part of a trial whose model and test points are fine. -/
theorem attempt_reduces (inp : TrialInputs)
    (surface : Surface) (hfit : inp.fit = .ok surface) (pts : List (List ℚ))
    (hpts : inp.testPoints = .ok pts)
    (ht : ∀ pt ∈ pts, ∃ r, inp.trueReach pt inp.maxFrequency = .ok r ∧ MadeFrom r.kplusReaches r ∧
      r.kplusReaches ≠ [])
    (hs : ∀ pt ∈ pts, ∃ r, surface.bySpend pt inp.maxFrequency = .ok r ∧
      MadeFrom r.kplusReaches r ∧ r.kplusReaches ≠ []) :
    ∃ stats, trialAttempt inp = if inp.analysisType = "single_pub" then
      (singlePublisherRow inp surface).map (fun x => (stats, x)) else .ok (stats, []) := by
  obtain ⟨tr, htr'⟩ := forall₂_of_forall _ pts ht
  obtain ⟨fi, hfi⟩ := forall₂_of_forall _ pts hs
  obtain ⟨stats, hst⟩ := aggregate_ok tr fi (by rw [← htr'.length_eq, hfi.length_eq])
    (fun r hr => by obtain ⟨_, -, -, h⟩ := forall₂_mem_right htr' r hr; exact h)
    (fun r hr => by obtain ⟨_, -, -, h⟩ := forall₂_mem_right hfi r hr; exact h)
  have h1 := (mapM_ok_iff _ _ _).2 (htr'.imp (fun _ _ h => h.1))
  have h2 := (mapM_ok_iff _ _ _).2 (hfi.imp (fun _ _ h => h.1))
  refine ⟨stats, ?_⟩
  unfold trialAttempt
  simp only [hfit, hpts, h1, h2, hst, bind, Except.bind]
  split
  · rcases singlePublisherRow inp surface with e | x <;> rfl
  · rfl

/-- A trial whose fitted model answers at all test points succeeds. -/
theorem trial_succeeds (inp : TrialInputs) (row : Row) (htr : trialRow inp = .ok row)
    (surface : Surface) (hfit : inp.fit = .ok surface) (pts : List (List ℚ))
    (hpts : inp.testPoints = .ok pts)
    (ht : ∀ pt ∈ pts, ∃ r, inp.trueReach pt inp.maxFrequency = .ok r ∧ MadeFrom r.kplusReaches r ∧
      r.kplusReaches ≠ [])
    (hs : ∀ pt ∈ pts, ∃ r, surface.bySpend pt inp.maxFrequency = .ok r ∧
      MadeFrom r.kplusReaches r ∧ r.kplusReaches ≠ [])
    (hone : inp.analysisType = "single_pub" → ∃ single, singlePublisherRow inp surface = .ok single) :
    HasCell row "model_succeeded" (.int 1) := by
  have hatt : ∃ x, trialAttempt inp = .ok x := by
    obtain ⟨stats, hst⟩ := attempt_reduces inp surface hfit pts hpts ht hs
    rw [hst]
    by_cases ha : inp.analysisType = "single_pub"
    · obtain ⟨single, hsingle⟩ := hone ha
      rw [if_pos ha, hsingle]
      exact ⟨_, rfl⟩
    · rw [if_neg ha]
      exact ⟨_, rfl⟩
  obtain ⟨x, hx⟩ := hatt
  obtain ⟨vars, hv, hrow⟩ := trialRow_ok inp row htr
  rcases hrow with ⟨y, hy, he⟩ | ⟨e, he, -⟩
  · obtain ⟨_, _, _, _, _, _, _, _, h5, _⟩ := trialAttempt_parts inp y hy
    rw [he]
    exact List.mem_append_left _ (List.mem_append_right _ (C47_columns.2.1 _ _ _ h5).2.1)
  · rw [hx] at he; cases he

/-! ## True reach curves -/

theorem trial_fails (inp : TrialInputs) (row : Row) (htr : trialRow inp = .ok row) (e : PyErr)
    (h : trialAttempt inp = .error e) : HasCell row "model_succeeded" (.int 0) ∧
      HasCell row "model_exception" (.text (inp.traceback e)) := by
  obtain ⟨vars, hv, hrow⟩ := trialRow_ok inp row htr
  rcases hrow with ⟨x, hx, -⟩ | ⟨e', he, hr⟩
  · rw [h] at hx; cases hx
  · rw [h] at he
    cases he
    obtain ⟨-, hc2, hc3, -⟩ := C47_columns.2.2 (inp.traceback e)
    rw [hr]
    exact ⟨List.mem_append_left _ (List.mem_append_right _ hc2),
      List.mem_append_left _ (List.mem_append_right _ hc3)⟩

theorem mapM_cells_total {α β : Type} (φ : α → Except PyErr β) (l : List α)
    (h : ∀ a ∈ l, ∃ b, φ a = .ok b) : ∃ l', l.mapM φ = .ok l' := by
  obtain ⟨l', hl'⟩ := forall₂_of_forall _ l h
  exact ⟨l', (mapM_ok_iff _ _ _).2 hl'⟩

/-- The columns of the relative errors exist if the reaches exist. -/
theorem cells_ok (inp : TrialInputs) (surface : Surface) (c : ℚ) (hc : inp.campaignSpends = [c])
    (ht : ∀ (f q : Nat), 1 ≤ f → 1 ≤ q → ∃ r v, inp.trueReach [c * ((q : ℚ) / 10)] f = .ok r ∧
      r.reach f = .ok v)
    (hs : ∀ (f q : Nat), 1 ≤ f → f = 1 ∨ (f : Int) < inp.maxFrequency → 1 ≤ q →
      ∃ r v, surface.bySpend [c * ((q : ℚ) / 10)] f = .ok r ∧ r.reach f = .ok v) :
    (∃ a, reachCells inp surface = .ok a) ∧ ∃ b, frequencyCells inp surface = .ok b := by
  have hcell : ∀ (f : Nat) (q : Nat), 1 ≤ f → f = 1 ∨ (f : Int) < inp.maxFrequency → 1 ≤ q →
      ∃ x, fractionCell inp surface f q = .ok x := by
    intro f q hf hF hq
    obtain ⟨t, w, t1, t2⟩ := ht f q hf hq
    obtain ⟨u, v, u1, u2⟩ := hs f q hf hF hq
    have e1 : pyIndex inp.campaignSpends 0 = .ok c := by rw [hc]; rfl
    unfold fractionCell
    simp only [bind, Except.bind, e1, t1, t2, u1, u2]
    exact ⟨_, rfl⟩
  have hrange : ∀ q ∈ singlePublisherFractions, 1 ≤ q := by
    intro q hq
    unfold singlePublisherFractions at hq
    obtain ⟨j, -, rfl⟩ := List.mem_map.1 hq
    omega
  constructor
  · refine mapM_cells_total _ _ ?_
    intro q hq
    obtain ⟨x, hx⟩ := hcell 1 q le_rfl (Or.inl rfl) (hrange q hq)
    simp only [bind, Except.bind, hx]
    exact ⟨_, rfl⟩
  · refine mapM_cells_total _ _ ?_
    intro f hf
    refine mapM_cells_total _ _ ?_
    intro q hq
    have hf1 : 1 ≤ f ∧ (f : Int) < inp.maxFrequency := by
      unfold frequencyRange at hf
      obtain ⟨j, hj, rfl⟩ := List.mem_map.1 hf
      rw [List.mem_range] at hj
      omega
    obtain ⟨x, hx⟩ := hcell f q hf1.1 (Or.inr hf1.2) (hrange q hq)
    simp only [bind, Except.bind, hx]
    exact ⟨_, rfl⟩

/-- The row reports a failure with the traceback of this exception. -/
def FailedWith (E : TrialEnv S C) (e : PyErr) (row : Row) : Prop :=
  HasCell row "model_succeeded" (.int 0) ∧ HasCell row "model_exception" (.text (E.traceback e))

/-- A trial with true reach curves on a data set of one publisher, tested at points of one coordinate. -/
structure TruthTrial (E : TrialEnv S C) (ds : DataSet) (d : TrialDesc) (log : Log)
    (pts : List ℚ) : Prop where
  publisher : ∃ p, ds.data = [p] ∧ Built log p
  names : RegisteredNames d.strategy
  strategy : d.strategy.strategy = "m3strategy".toList
  kwargs : d.strategy.strategyKwargs =
    [("use_ground_truth_for_reach_curves".toList, "True".toList)]
  fractions : d.system.spends ≠ []
  frequency : 1 ≤ d.experiment.maxFrequency
  points : d.experiment.generateTestPoints E.points ds = .ok (pts.map (fun s => [s]))

/-- What C99 asks of a trial with true reach curves: whatever the noise, the trial succeeds and its
errors are zero, also its relative errors if something is reached at all test points. -/
def PerfectRow (log : Log) (pts : List ℚ) (row : Row) : Prop :=
  HasCell row "model_succeeded" (.int 1) ∧
  (∀ c ∈ ["mean_error", "mean_abs_error", "mean_squared_error", "var_error"],
    HasCell row c (.float (some 0))) ∧
  ((∀ s ∈ pts, 1 ≤ affordable log s) → ∀ c ∈ relativeColumns, HasCell row c (.float (some 0)))

theorem kPlusReach_pos (log : Log) (s : ℚ) (h : 1 ≤ affordable log s) :
    kPlusReach (exposuresAtSpend log s) 1 ≠ 0 := by
  unfold affordable at h
  obtain ⟨e, he, hs⟩ := List.countP_pos_iff.1 h
  have hfin : {u | 1 ≤ exposuresAtSpend log s u}.Finite := by
    refine (List.finite_toSet (log.map (·.1))).subset ?_
    intro u hu
    rw [Set.mem_ofPred_eq] at hu
    unfold exposuresAtSpend at hu
    obtain ⟨e, he, hs⟩ := List.countP_pos_iff.1 hu
    simp only [decide_eq_true_eq] at hs
    exact List.mem_map.2 ⟨e, he, hs.1⟩
  unfold kPlusReach
  refine (Set.ncard_pos hfin).2 ⟨e.1, ?_⟩ |>.ne'
  rw [Set.mem_ofPred_eq]
  unfold exposuresAtSpend
  exact List.countP_pos_iff.2 ⟨e, he, by simpa using hs⟩

/-- **C99 (full statement, true reach curves).** -/
def C99_truth_full : Prop :=
  ∀ (S C : Type) (E : TrialEnv S C) (ds : DataSet) (d : TrialDesc) (log : Log) (pts : List ℚ),
    EstimatesAsked E → TruthTrial E ds d log pts →
    pts ≠ [] → ∀ (name analysisType : String) (draws : Nat), ∃ row,
      (trialOutcome E name ds d analysisType draws).1 = .ok row ∧ PerfectRow log pts row

/-- **C99 (true reach curves), partial.** For one publisher a trial with true reach curves succeeds
without any error, whatever the sketches and the noise.  Missing: the analysis of type `single_pub`,
where such a trial always fails, because the model has no `_data`. -/
theorem C99_truth_partial (E : TrialEnv S C) (hest : EstimatesAsked E) (ds : DataSet) (d : TrialDesc)
    (log : Log) (pts : List ℚ) (ht : TruthTrial E ds d log pts) (hne : pts ≠ [])
    (name analysisType : String) (draws : Nat) :
    ∃ row, (trialOutcome E name ds d analysisType draws).1 = .ok row ∧
      (analysisType ≠ "single_pub" → PerfectRow log pts row) ∧
      (analysisType = "single_pub" → FailedWith E .attributeError row) := by
  obtain ⟨p, hds, hb⟩ := ht.publisher
  obtain ⟨f, fs, hfs⟩ := List.exists_cons_of_ne_nil ht.fractions
  have hkw : KnownStrategyKwargs d.strategy := by
    intro kv hkv
    rw [ht.kwargs] at hkv
    rw [List.mem_singleton.1 hkv]
    exact ⟨ht.strategy, rfl⟩
  obtain ⟨row, o, h, r, F, tracker, hrow, ho, g1, g2, g3, -, hm, htr⟩ :=
    trial_one E hest name ds p hds d f fs hfs ht.names hkw analysisType draws
  obtain ⟨o', ho', hc1, -, -, -, -, -, -, -, -, -, -, hgt⟩ :=
    (C97_instantiate d.strategy).2.2 ht.names hkw
  rw [ho] at ho'
  cases ho'
  rw [if_pos ⟨hc1.2 ht.strategy, (hgt _ ht.kwargs).1 rfl⟩] at htr
  obtain ⟨M, hM⟩ : ∃ M : Nat, d.experiment.maxFrequency = M ∧ 1 ≤ M :=
    ⟨d.experiment.maxFrequency.toNat, by have := ht.frequency; omega, by
      have := ht.frequency; omega⟩
  have hsame : ∀ s F, (E.models.curveView (.truth ⟨ds, 0, p.maxReach⟩)).bySpend [s] F =
      ds.reachBySpend [s] F := by
    intro s F
    have hpc : ds.publisherCount = 1 := by unfold DataSet.publisherCount; rw [hds]; rfl
    simp only [ModelLib.curveView, GroundTruthCurve.bySpend, hpc]
    rfl
  obtain ⟨rs, hrs⟩ := forall₂_of_forall
    (fun s (r : ReachPoint) => ds.reachBySpend [s] M = .ok r ∧ MadeFrom r.kplusReaches r ∧
      r.kplusReaches.length = M ∧ r.reach 1 = .ok (kPlusReach (exposuresAtSpend log s) 1 : ℚ)) pts
    (fun s _ => by
      obtain ⟨r, h1, h2, h3, h4⟩ := true_one ds p hds log hb s M hM.2
      exact ⟨r, h1, h2, h3, h4 1 le_rfl hM.2⟩)
  obtain ⟨stats, hst⟩ := aggregate_ok rs rs rfl
    (fun r hr => by
      obtain ⟨_, -, -, h2, h3, -⟩ := forall₂_mem_right hrs r hr
      exact ⟨h2, by intro h0; rw [h0] at h3; simp at h3; omega⟩)
    (fun r hr => by
      obtain ⟨_, -, -, h2, h3, -⟩ := forall₂_mem_right hrs r hr
      exact ⟨h2, by intro h0; rw [h0] at h3; simp at h3; omega⟩)
  set inp := trialInputs E name ds d analysisType h
    (((.ok (.truth ⟨ds, 0, p.maxReach⟩)) : Except PyErr (TrialCurve C)).map E.models.curveView)
    tracker with hinp
  have e1 : inp.fit = .ok (E.models.curveView (.truth ⟨ds, 0, p.maxReach⟩)) := rfl
  have e2 : inp.testPoints = .ok (pts.map (fun s => [s])) := ht.points
  have e3 : (pts.map (fun s => [s])).mapM (fun t => inp.trueReach t inp.maxFrequency) = .ok rs := by
    rw [mapM_ok_iff, List.forall₂_map_left_iff]
    refine hrs.imp ?_
    intro s r hr
    have : inp.trueReach [s] inp.maxFrequency = h.dataSet.reachBySpend [s] d.experiment.maxFrequency :=
      rfl
    rw [this, g1, hM.1]
    exact hr.1
  have e4 : (pts.map (fun s => [s])).mapM (fun t =>
      (E.models.curveView (.truth ⟨ds, 0, p.maxReach⟩)).bySpend t inp.maxFrequency) = .ok rs := by
    rw [mapM_ok_iff, List.forall₂_map_left_iff]
    refine hrs.imp ?_
    intro s r hr
    rw [hsame]
    have : inp.maxFrequency = d.experiment.maxFrequency := rfl
    rw [this, hM.1]
    exact hr.1
  refine ⟨row, hrow, ?_, ?_⟩
  · intro ha
    have hreach : Reaches rs (pts.map (fun s => (kPlusReach (exposuresAtSpend log s) 1 : ℚ))) := by
      unfold Reaches
      rw [List.forall₂_map_right_iff]
      exact hrs.flip.imp (fun _ _ h => h.2.2.2)
    have hrsne : rs ≠ [] := by
      intro h0
      rw [h0] at hrs
      have := hrs.length_eq
      simp at this
      exact hne this
    obtain ⟨c1, c2⟩ := C68_perfect rs _ hreach hrsne stats hst
    have hatt : trialAttempt inp = .ok (stats, []) := by
      have e5 : inp.analysisType ≠ "single_pub" := ha
      unfold trialAttempt
      simp only [e1, e2, e3, e4, hst, bind, Except.bind, if_neg e5]
      rfl
    have hin : ∀ x ∈ stats, x ∈ row := by
      obtain ⟨vars, -, hr⟩ := trialRow_ok inp row htr
      rcases hr with ⟨y, hy, he⟩ | ⟨e, he, -⟩
      · rw [hatt] at hy
        cases hy
        intro x hx
        rw [he]
        exact List.mem_append_left _ (List.mem_append_right _ hx)
      · rw [hatt] at he; cases he
    refine ⟨hin _ (C47_columns.2.1 _ _ _ hst).2.1, fun c hc => hin _ (c1 c hc), ?_⟩
    intro hpos c hc
    refine hin _ (c2 ?_ c hc)
    intro t ht'
    obtain ⟨s, hs, rfl⟩ := List.mem_map.1 ht'
    exact_mod_cast kPlusReach_pos log s (hpos s hs)
  · intro ha
    refine trial_fails inp row htr _ ?_
    have hany : ∀ (f : Nat) (s : ℚ), 1 ≤ f → ∃ r v, ds.reachBySpend [s] f = .ok r ∧ r.reach f = .ok v := by
      intro f s hf
      obtain ⟨r, h1, -, -, h4⟩ := true_one ds p hds log hb s f hf
      exact ⟨r, _, h1, h4 f hf le_rfl⟩
    obtain ⟨⟨a, ha1⟩, b, hb1⟩ := cells_ok inp (E.models.curveView (.truth ⟨ds, 0, p.maxReach⟩))
      (f * p.maxSpend) g2
      (fun f' q hf _ => by
        obtain ⟨r, v, h1, h2⟩ := hany f' (f * p.maxSpend * ((q : ℚ) / 10)) hf
        refine ⟨r, v, ?_, h2⟩
        show h.dataSet.reachBySpend _ _ = _
        rw [g1]; exact h1)
      (fun f' q hf _ _ => by
        obtain ⟨r, v, h1, h2⟩ := hany f' (f * p.maxSpend * ((q : ℚ) / 10)) hf
        exact ⟨r, v, by rw [hsame]; exact h1, h2⟩)
    have e5 : inp.analysisType = "single_pub" := ha
    unfold trialAttempt
    simp only [e1, e2, e3, e4, hst, bind, Except.bind, if_pos e5]
    unfold singlePublisherRow
    simp only [ha1, hb1, bind, Except.bind]
    rfl

/-! ## Goerg's model -/

/-- A trial with Goerg's model on a data set of one publisher, built from a log in order of cost:
campaign spend `c`, tested at positive spends. -/
structure GoergTrial (E : TrialEnv S C) (ds : DataSet) (d : TrialDesc) (log : Log) (c : ℚ)
    (pts : List ℚ) : Prop where
  publisher : ∃ p, ds.data = [p] ∧ Built log p
  sorted : log.Pairwise (fun a b => a.2 ≤ b.2)
  names : RegisteredNames d.strategy
  kwargs : d.strategy.strategyKwargs = []
  model : d.strategy.singlePub = "goerg".toList ∧ d.strategy.singlePubKwargs = []
  spend : ∃ f fs m, d.system.spends = f :: fs ∧ m ∈ log.map (·.2) ∧ (∀ e ∈ log, e.2 ≤ m) ∧ c = f * m
  positive : 0 < c
  frequency : 1 ≤ d.experiment.maxFrequency
  points : d.experiment.generateTestPoints E.points ds = .ok (pts.map (fun s => [s])) ∧
    ∀ s ∈ pts, 0 < s

/-- All estimates of the sketch library are at least one. -/
def EstimatesSomebody (E : TrialEnv S C) : Prop :=
  ∀ x y z a b (F : Nat) B B' s, ∀ v ∈ (E.lib x y z).estimate a b F B B' s, 1 ≤ v

/-- All estimates of the sketch library are zero or negative. -/
def EstimatesNobody (E : TrialEnv S C) : Prop :=
  ∀ x y z a b (F : Nat) B B' s, ∀ v ∈ (E.lib x y z).estimate a b F B B' s, v ≤ 0

theorem pyMax_unique {l : List ℚ} {m m' : ℚ} (h : pyMax l = .ok m) (hm : m' ∈ l)
    (hle : ∀ x ∈ l, x ≤ m') : m = m' := by
  obtain ⟨h2, h1⟩ := pyMax_spec _ _ h
  exact le_antisymm (hle m h1) (h2 m' hm)

/-- A Goerg model of a measurement answers at every positive spend. -/
theorem goerg_answers {lib : SketchLib S} {n : Nat} {c : ℚ} {F : Nat} {r : ReachPoint}
    (hm : Measured lib n c F r) (hc : 0 < c) (g : GoergModel) (hg : GoergModel.new [r] = .ok g)
    (s : ℚ) (hs : 0 < s) (f : Nat) :
    ∃ pt, g.bySpend [s] f = .ok pt ∧ MadeFrom pt.kplusReaches pt ∧ pt.maxFrequency = f ∧
      ∀ k : Nat, 1 ≤ k → k ≤ f → ∃ v, pt.reach k = .ok v := by
  obtain ⟨d0, i, r0, h1, h2, h3, h4, h5, h6, h7, h8, h9, h10⟩ := (goerg_new_ok_iff _ g).1 hg
  simp only [List.cons.injEq, and_true] at h1
  subst h1
  rw [hm.impressions] at h2
  have hi : i = n := by simpa using h2.symm
  have hipos : 0 < i := by linarith
  obtain ⟨x, hx, hx0, -⟩ := hm.reach
  rw [hx] at h4
  have hr0 : r0 = (x : ℚ) := (Except.ok.inj h4).symm
  have hr0' : 0 ≤ r0 := by rw [hr0]; exact_mod_cast hx0
  have hbeta : 0 ≤ g.beta := by
    rw [h9]
    exact div_nonneg (mul_nonneg hipos.le hr0') (by linarith)
  have hcpi : g.cpi = some (c / i) := by rw [h10, hm.spends]; rfl
  have hci : 0 < c / i := div_pos hc hipos
  have htc : g.truthyCpi = some (c / i) := by
    unfold GoergModel.truthyCpi
    rw [hcpi]
    simp only
    rw [if_neg hci.ne']
  have hxpos : 0 < s / (c / i) := div_pos hs hci
  obtain ⟨pt, p1, p2, p3, p4, p5⟩ := goerg_byImpressions_ok g (s / (c / i)) f (by linarith)
  have hb : g.bySpend [s] f = .ok pt := by
    unfold GoergModel.bySpend
    rw [htc]
    exact p1
  exact ⟨pt, hb, goerg_made g _ _ pt hb, p3, fun k hk1 hk2 => ⟨_, p5 k hk1 hk2⟩⟩

theorem goerg_trial (E : TrialEnv S C) (hest : EstimatesAsked E) (ds : DataSet) (d : TrialDesc)
    (log : Log) (c : ℚ) (pts : List ℚ) (ht : GoergTrial E ds d log c pts)
    (name analysisType : String) (draws : Nat) :
    ∃ (p : PublisherData) (row : Row) (h : HaloSimulator S) (r : ReachPoint) (F : Nat)
      (tracker : PrivacyTracker ℚ), ds.data = [p] ∧ Built log p ∧
      (trialOutcome E name ds d analysisType draws).1 = .ok row ∧
      h.dataSet = ds ∧ h.campaignSpends = [c] ∧
      h.lib = E.lib d.system.decayRate d.system.sketchSize d.system.randomSeed ∧ 1 ≤ F ∧
      Measured h.lib (affordable log c) c F r ∧
      trialRow (trialInputs E name ds d analysisType h
        ((GoergModel.new [r]).map
          (fun g => ⟨fun s f => g.bySpend s f, .ok [r]⟩)) tracker) = .ok row := by
  obtain ⟨p, hds, hb⟩ := ht.publisher
  obtain ⟨f, fs, m, hfs, hmem, hmax, hc⟩ := ht.spend
  have hkw : KnownStrategyKwargs d.strategy := by
    intro kv hkv
    rw [ht.kwargs] at hkv
    exact absurd hkv List.not_mem_nil
  obtain ⟨row, o, h, r, F, tracker, hrow, ho, g1, g2, g3, hF, hm, htr⟩ :=
    trial_one E hest name ds p hds d f fs hfs ht.names hkw analysisType draws
  have hpm : p.maxSpend = m := by
    obtain ⟨nm, rnd, hnew⟩ := hb
    obtain ⟨m', hm', rfl⟩ := (new_ok_iff _ _ _ _).1 hnew
    refine pyMax_unique hm' hmem ?_
    intro x hx
    obtain ⟨e, he, rfl⟩ := List.mem_map.1 hx
    exact hmax e he
  rw [hpm, ← hc] at g2 hm
  have hn : p.impressionsBySpend c = affordable log c := by
    obtain ⟨nm, rnd, hnew⟩ := hb
    exact C01_impressions_by_spend_partial log nm rnd p c hnew ht.sorted
  rw [hn] at hm
  obtain ⟨o', ho', -, -, q1, -, -, -, -, -, q2, -, q3, -⟩ :=
    (C97_instantiate d.strategy).2.2 ht.names hkw
  rw [ho] at ho'
  cases ho'
  rw [if_neg (by rw [q3 ht.kwargs]; simp), q1.2 ht.model.1, q2, ht.model.2] at htr
  refine ⟨p, row, h, r, F, tracker, hds, hb, hrow, g1, g2, g3, by omega, hm, ?_⟩
  have hfc : (E.models.fitCurve .goerg [] [r]).map E.models.curveView =
      (GoergModel.new [r]).map (fun g => ⟨fun s f => g.bySpend s f, .ok [r]⟩) := by
    unfold ModelLib.fitCurve
    rw [if_pos (by rfl)]
    simp only [bind, Except.bind]
    rcases GoergModel.new [r] with e | g <;> rfl
  rw [hfc] at htr
  exact htr

/-- When Goerg's model can be fitted to a measurement. -/
theorem goerg_fits {lib : SketchLib S} {n : Nat} {c : ℚ} {F : Nat} {r : ReachPoint} (hF : 1 ≤ F)
    (hm : Measured lib n c F r) :
    (2 ≤ n → ∃ g, GoergModel.new [r] = .ok g) ∧
    (n = 0 → ∀ g, GoergModel.new [r] ≠ .ok g) ∧
    (n = 1 → (∀ a b B B' s, ∀ y ∈ lib.estimate a b F B B' s, 1 ≤ y) →
      ∀ g, GoergModel.new [r] ≠ .ok g) ∧
    (n = 1 → (∀ a b B B' s, ∀ y ∈ lib.estimate a b F B B' s, y ≤ 0) →
      ∃ g, GoergModel.new [r] = .ok g) := by
  obtain ⟨x, hx, hx0, hlt, hone, hzero⟩ := hm.reach
  have hok : ∀ i : ℚ, i = n → 1 ≤ n → (x : ℚ) < n → ∃ g, GoergModel.new [r] = .ok g := by
    intro i hi h1 h2
    refine (C27_fit_accepts_iff [r]).2 ⟨r, n, x, rfl, hm.impressions, ?_, hx, h2⟩
    have : (1 : ℚ) ≤ n := by exact_mod_cast h1
    linarith
  refine ⟨fun h => hok n rfl (by omega) (by exact_mod_cast hlt h), ?_, ?_, ?_⟩
  · intro h0 g hg
    obtain ⟨d0, i, r0, h1, h2, h3, -⟩ := (goerg_new_ok_iff _ g).1 hg
    simp only [List.cons.injEq, and_true] at h1
    subst h1
    rw [hm.impressions, h0] at h2
    have hi : i = 0 := by simpa using h2.symm
    rw [hi] at h3
    norm_num at h3
  · intro h0 he g hg
    obtain ⟨d0, i, r0, h1, h2, h3, h4, h5, -⟩ := (goerg_new_ok_iff _ g).1 hg
    simp only [List.cons.injEq, and_true] at h1
    subst h1
    rw [hm.impressions, h0] at h2
    have hi : i = 1 := by simpa using h2.symm
    rw [hx] at h4
    have hr0 : r0 = (x : ℚ) := (Except.ok.inj h4).symm
    rw [hi, hr0] at h5
    have h6 : x < 1 := by exact_mod_cast h5
    have := hone he
    omega
  · intro h0 he
    have hx' : (x : ℚ) = 0 := by
      have hz := hzero he (by omega)
      unfold ReachPoint.reach at hx
      rw [if_pos (by rw [hm.length]; omega)] at hx
      rcases hk : r.kplusReaches with _ | ⟨a, l⟩
      · have := hm.length; rw [hk] at this; simp at this; omega
      · rw [hk] at hx
        have : a = (x : ℚ) := Except.ok.inj hx
        rw [← this]
        exact hz a (by rw [hk]; simp)
    exact hok n rfl (by omega) (by rw [hx', h0]; norm_num)

/-- **C99 (Goerg's model).** A trial of one publisher with Goerg's model, by either strategy, succeeds
whatever the noise if the campaign buys at least two impressions, and fails if it buys none; with one
impression it fails if somebody is counted and succeeds if nobody is (unless the analysis is of type
`single_pub`). -/
theorem C99_goerg (E : TrialEnv S C) (hest : EstimatesAsked E) (ds : DataSet) (d : TrialDesc)
    (log : Log) (c : ℚ) (pts : List ℚ) (ht : GoergTrial E ds d log c pts)
    (name analysisType : String) (draws : Nat) :
    ∃ row, (trialOutcome E name ds d analysisType draws).1 = .ok row ∧
      (2 ≤ affordable log c → analysisType ≠ "single_pub" →
        HasCell row "model_succeeded" (.int 1)) ∧
      (affordable log c = 0 → FailedWith E .valueError row) ∧
      (affordable log c = 1 → EstimatesSomebody E → FailedWith E .valueError row) ∧
      (affordable log c = 1 → EstimatesNobody E → analysisType ≠ "single_pub" →
        HasCell row "model_succeeded" (.int 1)) := by
  obtain ⟨p, row, h, r, F, tracker, hds, hb, hrow, g1, g2, g3, hF, hm, htr⟩ :=
    goerg_trial E hest ds d log c pts ht name analysisType draws
  obtain ⟨f1, f2, f3, f4⟩ := goerg_fits hF hm
  obtain ⟨M, hM⟩ : ∃ M : Nat, d.experiment.maxFrequency = M ∧ 1 ≤ M :=
    ⟨d.experiment.maxFrequency.toNat, by have := ht.frequency; omega, by
      have := ht.frequency; omega⟩
  have hyes : (∃ g, GoergModel.new [r] = .ok g) → analysisType ≠ "single_pub" →
      HasCell row "model_succeeded" (.int 1) := by
    rintro ⟨g, hg⟩ ha
    rw [hg] at htr
    refine trial_succeeds _ row htr ⟨fun s f => g.bySpend s f, .ok [r]⟩ rfl
      (pts.map (fun s => [s])) ht.points.1 ?_ ?_ (fun h => absurd h ha)
    · intro pt hpt
      obtain ⟨s, hs, rfl⟩ := List.mem_map.1 hpt
      obtain ⟨t, t1, t2, t3, -⟩ := true_one ds p hds log hb s M hM.2
      refine ⟨t, ?_, t2, by intro h0; rw [h0] at t3; simp at t3; omega⟩
      have : (trialInputs E name ds d analysisType h
          (Except.map (fun g : GoergModel => (⟨fun s f => g.bySpend s f, .ok [r]⟩ : Surface)) (.ok g))
            tracker).trueReach [s] d.experiment.maxFrequency =
          h.dataSet.reachBySpend [s] d.experiment.maxFrequency := rfl
      show h.dataSet.reachBySpend [s] d.experiment.maxFrequency = .ok t
      rw [g1, hM.1]
      exact t1
    · intro pt hpt
      obtain ⟨s, hs, rfl⟩ := List.mem_map.1 hpt
      obtain ⟨t, t1, t2, t3, -⟩ := goerg_answers hm ht.positive g hg s (ht.points.2 s hs) M
      refine ⟨t, ?_, t2, ?_⟩
      · show g.bySpend [s] d.experiment.maxFrequency = .ok t
        rw [hM.1]
        exact t1
      · intro h0
        unfold ReachPoint.maxFrequency at t3
        rw [h0] at t3
        simp at t3
        omega
  have hno : (∀ g, GoergModel.new [r] ≠ .ok g) → FailedWith E .valueError row := by
    intro hg
    rcases hq : GoergModel.new [r] with e | g
    · have he := C27_refusal_is_value_error [r] e hq
      subst he
      rw [hq] at htr
      exact trial_fails _ row htr _ rfl
    · exact absurd hq (hg g)
  refine ⟨row, hrow, fun h2 => hyes (f1 h2), fun h0 => hno (f2 h0), ?_, ?_⟩
  · intro h1 he
    exact hno (f3 h1 (by rw [g3]; exact fun a b B B' s => he _ _ _ a b F B B' s))
  · intro h1 he
    exact hyes (f4 h1 (by rw [g3]; exact fun a b B B' s => he _ _ _ a b F B B' s))

/-- **C99 (Goerg's model, analysis of type `single_pub`).** If the campaign buys at least two
impressions and somebody is counted, the trial succeeds; if it buys any impression and nobody is
counted, it fails, because the largest frequency with nonzero reach does not exist. -/
theorem C99_goerg_single_pub (E : TrialEnv S C) (hest : EstimatesAsked E) (ds : DataSet)
    (d : TrialDesc) (log : Log) (c : ℚ) (pts : List ℚ) (ht : GoergTrial E ds d log c pts)
    (name : String) (draws : Nat) :
    ∃ row, (trialOutcome E name ds d "single_pub" draws).1 = .ok row ∧
      (2 ≤ affordable log c → EstimatesSomebody E → HasCell row "model_succeeded" (.int 1)) ∧
      (1 ≤ affordable log c → EstimatesNobody E → FailedWith E .valueError row) := by
  obtain ⟨p, row, h, r, F, tracker, hds, hb, hrow, g1, g2, g3, hF, hm, htr⟩ :=
    goerg_trial E hest ds d log c pts ht name "single_pub" draws
  obtain ⟨f1, f2, f3, f4⟩ := goerg_fits hF hm
  obtain ⟨M, hM⟩ : ∃ M : Nat, d.experiment.maxFrequency = M ∧ 1 ≤ M :=
    ⟨d.experiment.maxFrequency.toNat, by have := ht.frequency; omega, by
      have := ht.frequency; omega⟩
  refine ⟨row, hrow, ?_⟩
  rcases hg : GoergModel.new [r] with e | g
  · refine ⟨fun h2 => absurd (f1 h2) (by rw [hg]; rintro ⟨g, ⟨⟩⟩), fun _ _ => ?_⟩
    have he := C27_refusal_is_value_error [r] e hg
    subst he
    rw [hg] at htr
    exact trial_fails _ row htr _ rfl
  rw [hg] at htr
  set inp := trialInputs E name ds d "single_pub" h
    (Except.map (fun g : GoergModel => (⟨fun s f => g.bySpend s f, .ok [r]⟩ : Surface)) (.ok g))
    tracker with hinp
  have htrue : ∀ s (f : Nat), 1 ≤ f → ∃ t, inp.trueReach [s] f = .ok t ∧ MadeFrom t.kplusReaches t ∧
      t.kplusReaches.length = f ∧ ∀ k : Nat, 1 ≤ k → k ≤ f →
        t.reach k = .ok (kPlusReach (exposuresAtSpend log s) k : ℚ) := by
    intro s f hf
    have : inp.trueReach [s] f = ds.reachBySpend [s] f := by
      show h.dataSet.reachBySpend [s] f = _
      rw [g1]
    rw [this]
    exact true_one ds p hds log hb s f hf
  obtain ⟨⟨a, ha⟩, b, hb'⟩ := cells_ok inp ⟨fun s f => g.bySpend s f, .ok [r]⟩ c g2
    (fun f q hf _ => by
      obtain ⟨t, t1, -, -, t4⟩ := htrue (c * ((q : ℚ) / 10)) f hf
      exact ⟨t, _, t1, t4 f hf le_rfl⟩)
    (fun f q hf _ hq => by
      have hq' : (0 : ℚ) < q := by exact_mod_cast hq
      have hpos : 0 < c * ((q : ℚ) / 10) := mul_pos ht.positive (by linarith)
      obtain ⟨u, u1, -, -, u4⟩ := goerg_answers hm ht.positive g hg _ hpos f
      obtain ⟨v, hv⟩ := u4 f hf le_rfl
      exact ⟨u, v, u1, hv⟩)
  have hpt1 : ∀ pt ∈ pts.map (fun s => [s]), ∃ t, inp.trueReach pt inp.maxFrequency = .ok t ∧
      MadeFrom t.kplusReaches t ∧ t.kplusReaches ≠ [] := by
    intro pt hpt
    obtain ⟨s, hs, rfl⟩ := List.mem_map.1 hpt
    obtain ⟨t, t1, t2, t3, -⟩ := htrue s M hM.2
    have e : inp.maxFrequency = M := hM.1
    exact ⟨t, by rw [e]; exact t1, t2, by intro h0; rw [h0] at t3; simp at t3; omega⟩
  have hpt2 : ∀ pt ∈ pts.map (fun s => [s]), ∃ t, g.bySpend pt inp.maxFrequency = .ok t ∧
      MadeFrom t.kplusReaches t ∧ t.kplusReaches ≠ [] := by
    intro pt hpt
    obtain ⟨s, hs, rfl⟩ := List.mem_map.1 hpt
    obtain ⟨t, t1, t2, t3, -⟩ := goerg_answers hm ht.positive g hg s (ht.points.2 s hs) M
    have e : inp.maxFrequency = M := hM.1
    refine ⟨t, by rw [e]; exact t1, t2, ?_⟩
    intro h0
    unfold ReachPoint.maxFrequency at t3
    rw [h0] at t3
    simp at t3
    omega
  have e4 : pyIndex [r] 0 = .ok r := rfl
  obtain ⟨x, hx, -, -, hone, hzero⟩ := hm.reach
  refine ⟨?_, ?_⟩
  · intro h2 he
    have hx1 : 1 ≤ x := hone (by rw [g3]; exact fun a b B B' s => he _ _ _ a b F B B' s)
    have hnz : ∀ (t : ReachPoint) (v : ℚ), t.reach 1 = .ok v → v ≠ 0 → ∃ w ∈ t.kplusReaches, w ≠ 0 := by
      intro t v hv hv0
      unfold ReachPoint.reach at hv
      split at hv
      · rcases hk : t.kplusReaches with _ | ⟨w, l⟩
        · rw [hk] at hv; cases hv
        · rw [hk] at hv
          have hwv : w = v := Except.ok.inj hv
          exact ⟨w, by simp, by rw [hwv]; exact hv0⟩
      · cases hv
    obtain ⟨k1, hk1, -⟩ := (C69_max_frequency r).2.2 (hnz r x hx (by
      have : (1 : ℚ) ≤ x := by exact_mod_cast hx1
      linarith))
    obtain ⟨t, t1, -, -, t4⟩ := htrue c M hM.2
    obtain ⟨k2, hk2, -⟩ := (C69_max_frequency t).2.2 (hnz t _ (t4 1 le_rfl hM.2) (by
      exact_mod_cast kPlusReach_pos log c (by omega)))
    refine trial_succeeds inp row htr ⟨fun s f => g.bySpend s f, .ok [r]⟩ rfl
      (pts.map (fun s => [s])) ht.points.1 hpt1 hpt2 ?_
    intro _
    have e1 : inp.trueReach inp.campaignSpends inp.maxFrequency = .ok t := by
      have e2 : inp.maxFrequency = M := hM.1
      have e3 : inp.campaignSpends = [c] := g2
      rw [e2, e3]; exact t1
    unfold singlePublisherRow
    simp only [bind, Except.bind, ha, hb', e1, e4, hk1, hk2]
    exact ⟨_, rfl⟩
  · intro h1 he
    have hz := hzero (by rw [g3]; exact fun a b B B' s => he _ _ _ a b F B B' s) h1
    have hmx := (C69_max_frequency r).2.1 (by
      intro h0
      have := hm.length
      rw [h0] at this
      simp at this
      omega) hz
    obtain ⟨stats, hst⟩ := attempt_reduces inp ⟨fun s f => g.bySpend s f, .ok [r]⟩ rfl
      (pts.map (fun s => [s])) ht.points.1 hpt1 hpt2
    refine trial_fails inp row htr _ ?_
    rw [hst, if_pos (show inp.analysisType = "single_pub" from rfl)]
    unfold singlePublisherRow
    simp only [bind, Except.bind, ha, hb', e4, hmx]
    rfl

/-! ## The trials of the single publisher design -/

theorem one_grid (ds : DataSet) (p : PublisherData) (hds : ds.data = [p]) (g : Int) :
    gridTestPoints ds g = (gridAxis p.maxSpend g).map (fun s => [s]) := by
  unfold gridTestPoints maxSpends
  rw [hds]
  simp only [List.map_cons, List.map_nil, cartesian]
  exact (List.map_eq_flatMap ..).symm

/-- **C99 (the single publisher design).** The Goerg trials of the single publisher design spend
between one and nine tenths of the total cost of the impressions `m`; such a trial succeeds, for all
privacy budgets and whatever the noise, if that pays at least two impressions, and fails if it pays
none. -/
theorem C99_single_publisher_design (E : TrialEnv S C) (hest : EstimatesAsked E) (ds : DataSet)
    (p : PublisherData) (hds : ds.data = [p]) (log : Log) (hb : Built log p)
    (hsorted : log.Pairwise (fun a b => a.2 ≤ b.2)) (m : ℚ) (hmem : m ∈ log.map (·.2))
    (hmax : ∀ e ∈ log, e.2 ≤ m) (hpos : 0 < m) (seed : Int) (t : TrialTemplate Nat)
    (ht : t ∈ singlePublisherTrials seed) (hgoerg : t.desc.strategy.singlePub = "goerg".toList)
    (name analysisType : String) (draws : Nat) :
    ∃ (k : Nat) (row : Row), 1 ≤ k ∧ k ≤ 9 ∧ t.desc.system.spends = [(k : ℚ) / 10] ∧
      (designOutcome E name ds t analysisType draws).1 = .ok row ∧
      (2 ≤ affordable log ((k : ℚ) / 10 * m) → analysisType ≠ "single_pub" →
        HasCell row "model_succeeded" (.int 1)) ∧
      (2 ≤ affordable log ((k : ℚ) / 10 * m) → EstimatesSomebody E →
        HasCell row "model_succeeded" (.int 1)) ∧
      (affordable log ((k : ℚ) / 10 * m) = 0 → FailedWith E .valueError row) := by
  unfold singlePublisherTrials at ht
  obtain ⟨mk, hmk, ht⟩ := List.mem_flatMap.1 ht
  obtain ⟨x, hx, ht⟩ := List.mem_flatMap.1 ht
  obtain ⟨eps, -, rfl⟩ := List.mem_map.1 ht
  unfold tenths at hx
  obtain ⟨i, hi, rfl⟩ := List.mem_map.1 hx
  have hi9 := List.mem_range.1 hi
  have hmk1 : mk.1 = "goerg".toList := hgoerg
  have hmk2 : mk.2 = [] := by
    simp only [singlePublisherModels, List.mem_cons, List.not_mem_nil, or_false] at hmk
    rcases hmk with rfl | rfl | rfl | rfl | rfl
    · rfl
    all_goals exact absurd hmk1 (by decide)
  have hpm : p.maxSpend = m := by
    obtain ⟨nm, rnd, hnew⟩ := hb
    obtain ⟨m', hm', rfl⟩ := (new_ok_iff _ _ _ _).1 hnew
    refine pyMax_unique hm' hmem ?_
    intro x hx
    obtain ⟨e, he, rfl⟩ := List.mem_map.1 hx
    exact hmax e he
  have hk0 : (0 : ℚ) < ((i : ℚ) + 1) / 10 := by positivity
  set d := ((singlePublisherTrial seed mk (((i : ℚ) + 1) / 10) eps).update id
    ds.publisherCount).desc with hd
  have hgt : GoergTrial E ds d log ((((i + 1 : Nat) : ℚ)) / 10 * m) (gridAxis m 20) := by
    refine ⟨⟨p, hds, hb⟩, hsorted, ⟨Or.inr rfl, Or.inl hmk1, Or.inr (Or.inr rfl)⟩, rfl,
      ⟨hmk1, hmk2⟩, ⟨((i : ℚ) + 1) / 10, [], m, rfl, hmem, hmax, by push_cast; rfl⟩, ?_, ?_, ?_, ?_⟩
    · push_cast; exact mul_pos hk0 hpos
    · show (1 : Int) ≤ 10
      decide
    · have e : d.experiment.generateTestPoints E.points ds = .ok (gridTestPoints ds 20) := rfl
      rw [e, one_grid ds p hds, hpm]
    · intro s hs
      unfold gridAxis at hs
      obtain ⟨j, -, rfl⟩ := List.mem_map.1 hs
      have : (0 : ℚ) < (j : ℚ) + 1 := by positivity
      have h21 : (0 : ℚ) < ((20 : Int) : ℚ) + 1 := by norm_num
      exact div_pos (mul_pos hpos this) h21
  obtain ⟨row, hrow, r1, r2, -⟩ := C99_goerg E hest ds d log _ _ hgt name analysisType draws
  refine ⟨i + 1, row, by omega, by omega, ?_, hrow, r1, ?_, r2⟩
  · show [((i : ℚ) + 1) / 10] = _
    push_cast; rfl
  · intro h2 he
    by_cases ha : analysisType = "single_pub"
    · subst ha
      obtain ⟨row', hrow', r1', -⟩ := C99_goerg_single_pub E hest ds d log _ _ hgt name draws
      rw [hrow] at hrow'
      cases hrow'
      exact r1' h2 he
    · exact r1 h2 ha

/-! ## Examples -/

/-- A publisher whose four impressions were logged in order of cost. -/
def exSortedPub : PublisherData :=
  { data := [(7, 1), (8, 2), (7, 2), (9, 5)], spends := [1, 2, 2, 5], maxSpend := 5, maxReach := 3,
    name := "a" }

/-- The data set of this publisher. -/
def exSortedOne : DataSet :=
  { data := [exSortedPub], maximumReach := 3, name := "one", universeSize := 8 }

theorem exEstimates : EstimatesAsked exEnv := by
  intro x y z a b F B B' s
  simp [exEnv, exLib]

/-- A trial with true reach curves of the publisher that sold four impressions, tested at three
points. -/
def exTruthTrial : TrialDesc :=
  { exWholeTrial with strategy := ⟨"m3strategy".toList,
      [("use_ground_truth_for_reach_curves".toList, "True".toList)], "goerg".toList, [],
      "none".toList, []⟩ }

theorem exTruth : TruthTrial exEnv exSortedOne exTruthTrial [(7, 1), (8, 2), (7, 2), (9, 5)]
    [5/4, 5/2, 15/4] where
  publisher := ⟨exSortedPub, rfl, "a", "", by decide +kernel⟩
  names := ⟨Or.inl rfl, Or.inl rfl, Or.inr (Or.inr rfl)⟩
  strategy := rfl
  kwargs := rfl
  fractions := by decide
  frequency := by decide
  points := by decide +kernel

/-- All hypotheses of C99 (true reach curves) hold. -/
example : EstimatesAsked exEnv ∧ TruthTrial exEnv exSortedOne exTruthTrial
    [(7, 1), (8, 2), (7, 2), (9, 5)] [5/4, 5/2, 15/4] ∧ ([5/4, 5/2, 15/4] : List ℚ) ≠ [] ∧
    ∀ s ∈ ([5/4, 5/2, 15/4] : List ℚ), 1 ≤ affordable [(7, 1), (8, 2), (7, 2), (9, 5)] s :=
  ⟨exEstimates, exTruth, by decide, by decide +kernel⟩

/-- The full statement fails: with analysis type `single_pub` the trial is reported as a failure. -/
theorem C99_truth_full_is_false : ¬ C99_truth_full := by
  intro h
  obtain ⟨row, hrow, hs, -⟩ := h _ _ exEnv exSortedOne exTruthTrial _ _ exEstimates exTruth (by decide)
    "one" "single_pub" 0
  obtain ⟨row', hrow', -, hf⟩ := C99_truth_partial exEnv exEstimates exSortedOne exTruthTrial _ _ exTruth
    (by decide) "one" "single_pub" 0
  rw [hrow] at hrow'
  cases hrow'
  obtain ⟨h', o', -, -, htr⟩ := trialOutcome_row _ _ _ _ _ _ _ hrow
  have := hasCell_unique htr hs (hf rfl).1
  cases this

theorem exGoergTrial : GoergTrial exEnv exSortedOne exWholeTrial [(7, 1), (8, 2), (7, 2), (9, 5)] 5
    [5/4, 5/2, 15/4] where
  publisher := ⟨exSortedPub, rfl, "a", "", by decide +kernel⟩
  sorted := by decide +kernel
  names := ⟨Or.inr rfl, Or.inl rfl, Or.inr (Or.inr rfl)⟩
  kwargs := rfl
  model := ⟨rfl, rfl⟩
  spend := ⟨1, [], 5, rfl, by simp, by decide +kernel, by norm_num⟩
  positive := by norm_num
  frequency := by decide
  points := ⟨by decide +kernel, by decide +kernel⟩

/-- All hypotheses of C99 (Goerg's model) hold, and the campaign buys four impressions. -/
example : EstimatesAsked exEnv ∧ GoergTrial exEnv exSortedOne exWholeTrial [(7, 1), (8, 2), (7, 2), (9, 5)] 5
    [5/4, 5/2, 15/4] ∧ affordable [(7, 1), (8, 2), (7, 2), (9, 5)] 5 = 4 :=
  ⟨exEstimates, exGoergTrial, by decide +kernel⟩

/-- A library that always counts somebody, one that never does. -/
example : EstimatesSomebody ({ exEnv with lib := fun _ _ _ => { exLib with
      estimate := fun _ _ F _ _ _ => List.replicate F.toNat 7 } } : TrialEnv (List Int) Unit) ∧
    EstimatesNobody ({ exEnv with lib := fun _ _ _ => { exLib with
      estimate := fun _ _ F _ _ _ => List.replicate F.toNat (-3) } } : TrialEnv (List Int) Unit) := by
  constructor <;> intro x y z a b F B B' s v hv <;> rw [(List.mem_replicate.1 hv).2] <;> norm_num

/-- With two tenths of the cost one impression is bought: the measured reach of one is too large for
Goerg's model. -/
example : (trialOutcome exEnv "one" exSortedOne { exWholeTrial with system :=
      { exWholeTrial.system with spends := [1/5] } } "" 0).1.map
    (fun row => row.lookup "model_succeeded") = .ok (some (.int 0)) := by decide +kernel

/-- A trial of the single publisher design. -/
example : singlePublisherTrial 7 ("goerg".toList, []) (1/2) (1/10) ∈ singlePublisherTrials 7 := by
  unfold singlePublisherTrials
  refine List.mem_flatMap.2 ⟨_, List.mem_cons_self, List.mem_flatMap.2 ⟨1/2, ?_, ?_⟩⟩
  · decide +kernel
  · exact List.mem_map.2 ⟨1/10, by simp, rfl⟩

end Verif
