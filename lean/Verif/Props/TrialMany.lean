import Verif.Props.TrialCurves

/-!
# C99: which trials of several publishers succeed, for all registered models
-/

namespace Verif

open Verif.Spec

variable {S C : Type}

/-- A trial on a data set of several publishers, built from logs in order of cost in which every
impression costs something, with campaign spends `cs`, the strategy `m3strategy` and any registered
models, tested at points of non-negative spends. -/
structure SurfaceTrial (E : TrialEnv S C) (ds : DataSet) (d : TrialDesc) (logs : List Log)
    (cs : List ℚ) (pts : List (List ℚ)) : Prop where
  publishers : List.Forall₂ Built logs ds.data
  several : 2 ≤ logs.length
  sorted : ∀ log ∈ logs, log.Pairwise (fun a b => a.2 ≤ b.2)
  costly : ∀ log ∈ logs, ∀ e ∈ log, 0 < e.2
  names : RegisteredNames d.strategy
  strategy : d.strategy.strategy = "m3strategy".toList
  surface : d.strategy.multiPub ≠ "none".toList ∧ d.strategy.multiPubKwargs = []
  fractions : ∃ fs, d.system.spends = fs ∧ logs.length ≤ fs.length ∧
    List.Forall₂ (fun lf c => ∃ m ∈ lf.1.map (·.2), (∀ e ∈ lf.1, e.2 ≤ m) ∧ c = lf.2 * m)
      (logs.zip fs) cs
  positive : ∀ c ∈ cs, 0 < c
  frequency : 1 ≤ d.experiment.maxFrequency
  points : d.experiment.generateTestPoints E.points ds = .ok pts ∧
    ∀ pt ∈ pts, pt.length = logs.length ∧ ∀ s ∈ pt, 0 ≤ s

theorem built_maxSpend {log : Log} {p : PublisherData} (hb : Built log p) {m : ℚ}
    (hmem : m ∈ log.map (·.2)) (hmax : ∀ e ∈ log, e.2 ≤ m) : p.maxSpend = m := by
  obtain ⟨nm, rnd, hnew⟩ := hb
  obtain ⟨m', hm', rfl⟩ := (new_ok_iff _ _ _ _).1 hnew
  refine pyMax_unique hm' hmem ?_
  intro x hx
  obtain ⟨e, he, rfl⟩ := List.mem_map.1 hx
  exact hmax e he

/-- The Halo simulator of such a trial. -/
theorem SurfaceTrial.halo {E : TrialEnv S C} {ds : DataSet} {d : TrialDesc} {logs : List Log}
    {cs : List ℚ} {pts : List (List ℚ)} (ht : SurfaceTrial E ds d logs cs pts)
    (hest : EstimatesAsked E) (h : HaloSimulator S) (hh : HaloSimulator.new ds d.system.spends
      (E.lib d.system.decayRate d.system.sketchSize d.system.randomSeed) E.rand = .ok h) :
    h.dataSet = ds ∧ h.lib = E.lib d.system.decayRate d.system.sketchSize d.system.randomSeed ∧
    cs.length = logs.length ∧
    CostlyHalo h logs.length (fun i => affordable (logs.getD i []) (cs.getD i 0))
      (fun i => cs.getD i 0) := by
  obtain ⟨fs, hfs, hlen, hall⟩ := ht.fractions
  rw [hfs] at hh
  obtain ⟨c1, c2, c3, c4, c5, -⟩ := C66_campaign_spends ds fs _ _ h hh
  have hb := ht.publishers
  have hl := hb.length_eq
  have hcl : cs.length = logs.length := by
    rw [← hall.length_eq, List.length_zip]; omega
  have hpl : h.publishers.length = logs.length := by
    have := congrArg List.length c3
    rw [List.length_map] at this
    omega
  have hbi : ∀ i (hi : i < logs.length), Built logs[i] (ds.data[i]'(by omega)) := by
    intro i hi
    have := (List.forall₂_iff_get.1 hb).2 i hi (by omega)
    simpa using this
  have hci : ∀ i (hi : i < logs.length), fs[i]'(by omega) * (ds.data[i]'(by omega)).maxSpend =
      cs[i]'(by omega) := by
    intro i hi
    have hz : i < (logs.zip fs).length := by rw [List.length_zip]; omega
    have := (List.forall₂_iff_get.1 hall).2 i hz (by omega)
    simp only [List.get_eq_getElem, List.getElem_zip] at this
    obtain ⟨m, hm, hmax, hc⟩ := this
    rw [hc, built_maxSpend (hbi i hi) hm hmax]
  have hsp : ∀ (i : Nat) (hi : i < logs.length) (s : ℚ),
      (ds.data[i]'(by omega)).impressionsBySpend s = affordable logs[i] s := by
    intro i hi s
    obtain ⟨nm, rnd, hnew⟩ := hbi i hi
    exact C01_impressions_by_spend_partial _ nm rnd _ s hnew (ht.sorted _ (List.getElem_mem hi))
  refine ⟨c1, c2, hcl, hpl, by rw [c1]; omega, by have := ht.several; omega, ?_, ?_, ?_, ?_⟩
  · intro i hi
    have hd : i < ds.data.length := by omega
    have hf : i < fs.length := by omega
    rw [c5, List.getElem?_map, List.getElem?_eq_getElem (by rw [List.length_zip]; omega),
      List.getElem_zip, Option.map_some, List.getD_eq_getElem _ _ (by omega), hci i hi]
  · intro i hi
    have hi' : i < logs.length := by rw [c1] at hi; omega
    simp only [c1, List.getD_eq_getElem _ _ hi']
    exact hsp i hi' _
  · intro q hq
    rw [c1] at hq
    obtain ⟨i, hi, rfl⟩ := List.getElem_of_mem hq
    have hi' : i < logs.length := by omega
    rw [hsp i hi']
    unfold affordable
    rw [List.countP_eq_zero]
    intro e he
    have := ht.costly _ (List.getElem_mem hi') e he
    simpa using this
  · rw [c2]; exact hest _ _ _

theorem surface_bind (M : ModelLib C) (x : Except PyErr (List (TrialCurve C)))
    (k : List (TrialCurve C) → Except PyErr Surface) (s s' : HaloState)
    (m : HaloM (Fitted (TrialCurve C) Surface)) (hm : m s = ((do
        let cv ← x
        let surf ← k cv
        return Fitted.surface surf : Except PyErr (Fitted (TrialCurve C) Surface)), s')) :
    (m >>= fun a => pure (M.fittedView a)) s = ((do let cv ← x; k cv), s') := by
  rw [HaloM.bind_apply, hm]
  rcases x with er | cv
  · rfl
  · simp only [bind, Except.bind]
    rcases k cv with er | sf <;> rfl

/-- A trial of several publishers: its row, and the fit that the row is made from. -/
theorem trial_many (E : TrialEnv S C) (hest : EstimatesAsked E) (ds : DataSet) (d : TrialDesc)
    (logs : List Log) (cs : List ℚ) (pts : List (List ℚ)) (ht : SurfaceTrial E ds d logs cs pts)
    (hkw : KnownStrategyKwargs d.strategy) (name analysisType : String) (draws : Nat) :
    ∃ row o h singles others total tracker multi,
      (trialOutcome E name ds d analysisType draws).1 = .ok row ∧
      d.strategy.instantiate = .ok o ∧ o.multi = some multi ∧ h.dataSet = ds ∧
      h.lib = E.lib d.system.decayRate d.system.sketchSize d.system.randomSeed ∧
      cs.length = logs.length ∧ (∃ c l, h.campaignSpends = c :: l) ∧
      List.Forall₂ (fun i pt => Measured h.lib (affordable (logs.getD i []) (cs.getD i 0))
        (cs.getD i 0) 10 pt) (List.range logs.length) singles ∧
      (∀ r ∈ others, TrainingPoint logs.length r) ∧
      MeasuredMany h.lib ((List.range logs.length).map
        (fun i => affordable (logs.getD i []) (cs.getD i 0)))
        ((List.range logs.length).map (fun i => cs.getD i 0)) 1 total ∧
      trialRow (trialInputs E name ds d analysisType h (do
        let curves ← (singles.zipIdx).mapM (fun pi =>
          if o.useGroundTruth then .ok (.truth ⟨ds, pi.2, ((ds.data[pi.2]?).map (·.maxReach)).getD 0⟩)
          else E.models.fitCurve o.single o.singleKwargs [pi.1])
        E.models.multi multi curves (others ++ [total])) tracker) = .ok row ∧
      HaloSimulator.new ds d.system.spends
        (E.lib d.system.decayRate d.system.sketchSize d.system.randomSeed) E.rand = .ok h ∧
      (E.models.fit o h d.experiment.budget ⟨PrivacyTracker.new, draws⟩).1 = (do
        let curves ← (singles.zipIdx).mapM (fun pi =>
          if o.useGroundTruth then .ok (.truth ⟨ds, pi.2, ((ds.data[pi.2]?).map (·.maxReach)).getD 0⟩)
          else E.models.fitCurve o.single o.singleKwargs [pi.1])
        E.models.multi multi curves (others ++ [total])) := by
  have hl := ht.publishers.length_eq
  have hsev := ht.several
  obtain ⟨fs, hfs, hlen, -⟩ := ht.fractions
  obtain ⟨row, hrow⟩ := (C97_returns_row E name ds d analysisType draws).2
    ⟨by omega, by rw [hfs]; omega, ht.names, hkw⟩
  obtain ⟨h, o, hh, ho, htr⟩ := trialOutcome_row E name ds d analysisType draws row hrow
  obtain ⟨g1, g2, g3, hc⟩ := ht.halo hest h hh
  obtain ⟨o', ho', q1, -, -, -, -, q2, q3, q4, -, q5, -⟩ :=
    (C97_instantiate d.strategy).2.2 ht.names hkw
  rw [ho] at ho'
  cases ho'
  obtain ⟨multi, hmulti⟩ : ∃ multi, o.multi = some multi := by
    rcases hq : o.multi with _ | m
    · exact absurd (q4.1 hq) ht.surface.1
    · exact ⟨m, rfl⟩
  obtain ⟨singles, others, total, s', hs, hot, htot, hfit⟩ := fitM3_many (E.models.strategy o) hc
    ht.several d.experiment.budget ⟨PrivacyTracker.new, draws⟩
  obtain ⟨hcs, -⟩ := hc.campaign
  refine ⟨row, o, h, singles, others, total, s'.tracker, multi, hrow, ho, hmulti, g1, g2, g3, ?_, hs,
    hot, htot, ?_⟩
  · rw [hcs]
    obtain ⟨k, hk⟩ := Nat.exists_eq_add_of_le' (show 1 ≤ logs.length by omega)
    rw [hk, List.range_succ_eq_map]
    exact ⟨_, _, rfl⟩
  · have hmf : E.models.fit o h d.experiment.budget ⟨PrivacyTracker.new, draws⟩ = ((do
        let curves ← (singles.zipIdx).mapM (fun pi =>
          if o.useGroundTruth then .ok (.truth ⟨ds, pi.2, ((ds.data[pi.2]?).map (·.maxReach)).getD 0⟩)
          else E.models.fitCurve o.single o.singleKwargs [pi.1])
        E.models.multi multi curves (others ++ [total])), s') := by
      rw [fit_m3 _ _ _ _ _ (q1.2 ht.strategy)]
      have e4 : ∀ cv l, (E.models.strategy o).multi cv l = E.models.multi multi cv l := by
        intro cv l
        show E.models.fitSurface o.multi o.multiKwargs cv l = _
        rw [hmulti, q5, ht.surface.2]
        rfl
      simp only [e4, g1] at hfit
      exact surface_bind E.models _ _ _ _ _ hfit
    rw [hmf] at htr
    exact ⟨htr, hh, by rw [hmf]⟩

/-! ## Fitting and asking the surface -/

/-- What is assumed of the libraries for `p` publishers: scipy keeps its promises, `solvers.qp` returns
one number for each variable, and the sampler returns feasible vectors. -/
structure LibrariesOk (L : Solvers) (p : Nat) : Prop where
  gamma : ∀ x, GammaSolverOk (L.gamma x) ∧ GammaTailOk (L.gamma x)
  inflated : SolverOk L.inflated
  qp : ∀ Q, (L.qp Q).length = Q.G.cols
  sampler : SamplerOk L p
  few : p ≤ 1000000

/-- Both surfaces are fitted over sound curves and answer for all spends. -/
theorem surface_fit (L : Solvers) (p : Nat) (hp : 2 ≤ p) (hqp : ∀ Q, (L.qp Q).length = Q.G.cols)
    (hsam : SamplerOk L p) (hfew : p ≤ 1000000) (multi : MultiModel)
    (curves : List (TrialCurve OptimisedCurve)) (hl : curves.length = p)
    (hs : ∀ c ∈ curves, SoundCurve (L.plannerCurve c)) (others : List ReachPoint)
    (hot : ∀ r ∈ others, TrainingPoint p r) (total : ReachPoint) (lib : SketchLib S) (ns : List Nat)
    (cs : List ℚ) (htot : MeasuredMany lib ns cs 1 total) (hnl : ns.length = p)
    (hns : multi = .restricted → ∀ n ∈ ns, 1 ≤ n) :
    ∃ sf, L.fitSurface multi curves (others ++ [total]) = .ok sf ∧
      (∀ spends : List ℚ, spends.length = p → (∀ x ∈ spends, 0 ≤ x) → ∀ F : Int,
        ∃ pt, sf.bySpend spends F = .ok pt ∧ MadeFrom pt.kplusReaches pt ∧ pt.kplusReaches ≠ []) ∧
      ∃ s, sf = L.surfaceView curves s ∧ WellFormed s ∧
        s.curves = (curves.map L.plannerCurve).map (·.surface) ∧ s.p = p ∧ s.data = others ++ [total] ∧
        ((multi = .pairwise → MeetsFeasible L.qp) → PlausibleOverlap s.p (surfaceMatrix s)) := by
  have hpts : ∀ r ∈ others ++ [total], TrainingPoint p r := by
    intro r hr
    rcases List.mem_append.1 hr with hr | hr
    · exact hot r hr
    · rw [List.mem_singleton.1 hr, ← hnl]; exact htot.training
  have hu : ∀ c ∈ curves.map L.plannerCurve, UsableCurve c := by
    intro c hc
    obtain ⟨c, hc', rfl⟩ := List.mem_map.1 hc
    exact (hs c hc').toUsableCurve
  have hmap : curves.map (fun c => (L.plannerCurve c).surface) =
      (curves.map L.plannerCurve).map (·.surface) := by rw [List.map_map]; rfl
  cases multi with
  | pairwise =>
    obtain ⟨s, h1, h2, h3, h4, h5, h6⟩ := pairwise_fits L.qp hqp (curves.map L.plannerCurve) p
      (by rw [List.length_map]; exact hl) hu (others ++ [total]) (by simp) hpts
    refine ⟨L.surfaceView curves s, ?_, ?_, s, rfl, h2, h3, h4, h5, fun h => h6 (h rfl)⟩
    · unfold Solvers.fitSurface
      simp only [hmap, h1, bind, Except.bind]
      rfl
    · intro spends hsl hsp F
      exact surface_answers (curves.map L.plannerCurve) hu s h2 h3 spends (by rw [h4]; exact hsl) hsp F
  | restricted =>
    obtain ⟨s, r, h1, hsp', h2, h3, h4, h5, h6, h7⟩ := restricted_fits L curves p hp hfew hsam hl
      (fun c hc => (hs c hc).toUsableCurve) (others ++ [total]) total ns (hns rfl) htot.impressions
      (by simp) hpts (fun c hc n v => (hs c hc).signs n v)
    refine ⟨L.surfaceView curves r, ?_, ?_, r, rfl, h3, h4, h5, h6, fun _ => h7⟩
    · rw [← hsp'] at h2
      unfold Solvers.fitSurface
      simp only [h1, h2, bind, Except.bind]
      rfl
    · intro spends hsl hsp F
      exact surface_answers (curves.map L.plannerCurve) hu r h3 h4 spends (by rw [h5]; exact hsl) hsp F

/-- A trial of several publishers whose surface answers: it succeeds, except for an analysis of type
`single_pub`, which asks for the reach of a single spend. -/
theorem surface_trial (E : TrialEnv S C) (ds : DataSet) (d : TrialDesc) (logs : List Log)
    (cs : List ℚ) (pts : List (List ℚ)) (ht : SurfaceTrial E ds d logs cs pts)
    (name analysisType : String) (row : Row) (h : HaloSimulator S) (g1 : h.dataSet = ds)
    (hcs : ∃ c l, h.campaignSpends = c :: l) (sf : Surface)
    (hsf : ∀ spends : List ℚ, spends.length = logs.length → (∀ x ∈ spends, 0 ≤ x) → ∀ F : Int,
      ∃ pt, sf.bySpend spends F = .ok pt ∧ MadeFrom pt.kplusReaches pt ∧ pt.kplusReaches ≠ [])
    (tracker : PrivacyTracker ℚ)
    (htr : trialRow (trialInputs E name ds d analysisType h (.ok sf) tracker) = .ok row) :
    (analysisType ≠ "single_pub" → HasCell row "model_succeeded" (.int 1)) ∧
    (analysisType = "single_pub" → FailedWith E .valueError row) := by
  obtain ⟨M, hM⟩ : ∃ M : Nat, d.experiment.maxFrequency = M ∧ 1 ≤ M :=
    ⟨d.experiment.maxFrequency.toNat, by have := ht.frequency; omega, by
      have := ht.frequency; omega⟩
  set inp := trialInputs E name ds d analysisType h (.ok sf) tracker with hinp
  have eM : inp.maxFrequency = M := hM.1
  have etrue : ∀ s f, inp.trueReach s f = ds.reachBySpend s f := by
    intro s f
    show h.dataSet.reachBySpend s f = _
    rw [g1]
  have htrue : ∀ pt ∈ pts, ∃ r, inp.trueReach pt inp.maxFrequency = .ok r ∧
      MadeFrom r.kplusReaches r ∧ r.kplusReaches ≠ [] := by
    intro pt hpt
    obtain ⟨r, h1, -, -, h2, -⟩ := C08_reach_by_spend ds logs ht.publishers pt
      (ht.points.2 pt hpt).1 M hM.2
    refine ⟨r, by rw [etrue, eM]; exact h1, reachBySpend_made ds _ _ r h1, ?_⟩
    intro h0
    unfold ReachPoint.maxFrequency at h2
    rw [h0] at h2
    simp at h2
    omega
  have hfit : ∀ pt ∈ pts, ∃ r, sf.bySpend pt inp.maxFrequency = .ok r ∧
      MadeFrom r.kplusReaches r ∧ r.kplusReaches ≠ [] := by
    intro pt hpt
    exact hsf pt (ht.points.2 pt hpt).1 (ht.points.2 pt hpt).2 _
  constructor
  · intro ha
    exact trial_succeeds inp row htr sf rfl pts ht.points.1 htrue hfit (fun h => absurd h ha)
  · intro ha
    obtain ⟨stats, hst⟩ := attempt_reduces inp sf rfl pts ht.points.1 htrue hfit
    rw [if_pos (show inp.analysisType = "single_pub" from ha)] at hst
    obtain ⟨c, l, hcl⟩ := hcs
    have hcell : fractionCell inp sf 1 1 = .error .valueError := by
      have e1 : pyIndex inp.campaignSpends 0 = .ok c := by
        show pyIndex h.campaignSpends 0 = _
        rw [hcl]; rfl
      unfold fractionCell
      simp only [e1, bind, Except.bind, etrue]
      have hlen := ht.publishers.length_eq
      have hsev := ht.several
      have : ds.reachBySpend [c * (((1 : Nat) : ℚ) / 10)] ((1 : Nat) : Int) = .error .valueError := by
        unfold DataSet.reachBySpend
        rw [if_pos (by unfold DataSet.publisherCount; simp; omega)]
      rw [this]
    have hcells : reachCells inp sf = .error .valueError := by
      unfold reachCells
      have : singlePublisherFractions = 1 :: (List.range' 2 29) := by decide
      rw [this, List.mapM_cons]
      simp only [hcell, bind, Except.bind]
    have hrow : singlePublisherRow inp sf = .error .valueError := by
      unfold singlePublisherRow
      simp only [hcells, bind, Except.bind]
    rw [hrow] at hst
    exact trial_fails inp row htr _ hst

theorem mapM_fails {α β : Type} (φ : α → Except PyErr β) (l : List α)
    (h : ∃ a ∈ l, ∃ e, φ a = .error e) : ∃ a ∈ l, ∃ e, φ a = .error e ∧ l.mapM φ = .error e := by
  induction l with
  | nil => obtain ⟨a, ha, -⟩ := h; cases ha
  | cons b l ih =>
    rcases hb : φ b with e | v
    · refine ⟨b, by simp, e, hb, ?_⟩
      rw [List.mapM_cons, hb]; rfl
    · have : ∃ a ∈ l, ∃ e, φ a = .error e := by
        obtain ⟨a, ha, e, he⟩ := h
        rcases List.mem_cons.1 ha with rfl | ha
        · rw [hb] at he; cases he
        · exact ⟨a, ha, e, he⟩
      obtain ⟨a, ha, e, he, hm⟩ := ih this
      refine ⟨a, by simp [ha], e, he, ?_⟩
      rw [List.mapM_cons, hb]
      simp only [bind, Except.bind, hm]

/-! ## One curve -/

/-- The publisher sells enough impressions to the campaign for its reach curve to be fitted
(specification): one, and a second one for Goerg's model and for a k-inflated model that does not
extrapolate. -/
def EnoughBought (s : StrategyDescriptor) (e : ℚ) (n : Nat) : Prop :=
  1 ≤ n ∧ (s.singlePub = "goerg".toList → 2 ≤ n) ∧
    (s.singlePub = "kinflated_gamma_poisson".toList → n = 1 → 1 < e)

theorem fit_one_curve (L : Solvers) (E : TrialEnv S OptimisedCurve) (hE : E.models = L.modelLib)
    (s : StrategyDescriptor) (o : StrategyObject)
    (hnames : s.singlePub = "goerg".toList ∨ s.singlePub = "gamma_poisson".toList ∨
      s.singlePub = "kinflated_gamma_poisson".toList)
    (q1 : o.single = .goerg ↔ s.singlePub = "goerg".toList)
    (q2 : o.single = .gammaPoisson ↔ s.singlePub = "gamma_poisson".toList)
    (q3 : o.single = .kInflated ↔ s.singlePub = "kinflated_gamma_poisson".toList)
    (hok : o.singleKwargs = s.singlePubKwargs) (e : ℚ) (hk : Multiplier L s.singlePubKwargs e)
    (hg : s.singlePub = "goerg".toList → s.singlePubKwargs = [])
    (hG : ∀ x, GammaSolverOk (L.gamma x) ∧ GammaTailOk (L.gamma x)) (hS : SolverOk L.inflated)
    {lib : SketchLib S} {n : Nat} {c : ℚ} {r : ReachPoint} (hm : Measured lib n c 10 r) (hc : 0 < c)
    (hone : ∀ a b B B' s, ∀ y ∈ lib.estimate a b 10 B B' s, 1 ≤ y) :
    (EnoughBought s e n → ∃ cv, E.models.fitCurve o.single o.singleKwargs [r] = .ok cv ∧
      SoundCurve (L.plannerCurve cv)) ∧
    (¬ EnoughBought s e n → ∃ err, E.models.fitCurve o.single o.singleKwargs [r] = .error err ∧
      (err = .valueError ∨ err = .zeroDivision ∧
        s.singlePub = "kinflated_gamma_poisson".toList ∧ n = 1 ∧ e ≤ 1)) := by
  have hopt : ∀ m, m ≠ .goerg → E.models.fitCurve m s.singlePubKwargs [r] =
      (L.fitCurve m s.singlePubKwargs [r]).map TrialCurve.fitted := by
    intro m hmg
    unfold ModelLib.fitCurve
    rw [if_pos (multiplier_known hk _ hmg), hE]
    cases m with
    | goerg => exact absurd rfl hmg
    | gammaPoisson =>
      simp only [Solvers.modelLib, bind, Except.bind, pure, Except.pure]
      rcases L.fitCurve .gammaPoisson s.singlePubKwargs [r] with er | g <;> rfl
    | kInflated =>
      simp only [Solvers.modelLib, bind, Except.bind, pure, Except.pure]
      rcases L.fitCurve .kInflated s.singlePubKwargs [r] with er | g <;> rfl
  obtain ⟨x, hx, hx0, -, hx1, -⟩ := hm.reach
  have hx1 := hx1 hone
  obtain ⟨k1, k2, k3⟩ := multiplier_number hk
  rw [hok]
  rcases hnames with h | h | h
  · have hmod := q1.2 h
    have hkw := hg h
    rw [hmod, hkw]
    have hfc : E.models.fitCurve .goerg [] [r] =
        (GoergModel.new [r]).map (fun g => TrialCurve.goerg g [r]) := by
      unfold ModelLib.fitCurve
      rw [if_pos (by rfl)]
      simp only [bind, Except.bind]
      rcases GoergModel.new [r] with e | g <;> rfl
    rw [hfc]
    constructor
    · intro hen
      obtain ⟨g, hg1, hg2⟩ := goerg_sound (by omega) hm hc (hen.2.1 h) hone
      rw [hg1]
      exact ⟨_, rfl, hg2⟩
    · intro hen
      have hn : n = 0 ∨ n = 1 := by
        by_contra hcon
        refine hen ⟨by omega, fun _ => by omega, fun h' => ?_⟩
        rw [h] at h'
        exact absurd h' (by decide)
      obtain ⟨-, f2, f3, -⟩ := goerg_fits (by omega) hm
      rcases hq : GoergModel.new [r] with er | g
      · have := C27_refusal_is_value_error [r] er hq
        subst this
        exact ⟨_, rfl, Or.inl rfl⟩
      · rcases hn with hn | hn
        · exact absurd hq (f2 hn g)
        · exact absurd hq (f3 hn hone g)
  · rw [q2.2 h, hopt _ (by simp)]
    constructor
    · intro hen
      obtain ⟨g, h1, -, -, h3, h4, N, al, be, h5, h6, h7, h8⟩ := gamma_fits hm hc hen.1 x hx
        (by exact_mod_cast hx1) L e (hG _).1 _ hk
      rw [h1]
      have hn : (0 : ℚ) < n := by exact_mod_cast hen.1
      exact ⟨_, rfl, gamma_sound L g N al be (c / n) h5 h6 h7 h8 h3 (div_pos hc hn) (hG _).2⟩
    · intro hen
      have hn : n = 0 := by
        by_contra hcon
        refine hen ⟨by omega, fun h' => ?_, fun h' => ?_⟩
        · rw [h] at h'
          exact absurd h' (by decide)
        · rw [h] at h'
          exact absurd h' (by decide)
      have hno : L.fitCurve .gammaPoisson s.singlePubKwargs [r] = .error .valueError := by
        unfold Solvers.fitCurve
        simp only [k1, k2, (gamma_new hm e).1 hn, bind, Except.bind]
      rw [hno]
      exact ⟨_, rfl, Or.inl rfl⟩
  · rw [q3.2 h, hopt _ (by simp)]
    constructor
    · intro hen
      have hn : (0 : ℚ) < n := by exact_mod_cast hen.1
      have hmax : 1 < max (n : ℚ) (e * n) := by
        by_cases h1 : n = 1
        · have := hen.2.2 h h1
          rw [h1]
          refine lt_of_lt_of_le ?_ (le_max_right _ _)
          simpa using this
        · refine lt_of_lt_of_le ?_ (le_max_left _ _)
          have := hen.1
          exact_mod_cast (by omega : 1 < n)
      obtain ⟨g, h1, -, -, h3, f, h4, h5⟩ := inflated_fits hm hc hen.1 x hx
        (by exact_mod_cast hx1) L e hmax hS _ hk
      rw [h1]
      exact ⟨_, rfl, inflated_sound L g f (c / n) h4 h5 h3 (div_pos hc hn)⟩
    · intro hen
      have hten : (10 : Int).toNat = 10 := rfl
      rcases Nat.eq_zero_or_pos n with hn | hn
      · have hno : L.fitCurve .kInflated s.singlePubKwargs [r] = .error .valueError := by
          unfold Solvers.fitCurve
          simp only [k1, k3, hten, (inflated_new hm 10 e).1 hn, bind, Except.bind]
        rw [hno]
        exact ⟨_, rfl, Or.inl rfl⟩
      · have hn1 : n = 1 ∧ e ≤ 1 := by
          by_contra hcon
          refine hen ⟨hn, fun h' => ?_, fun _ h1 => ?_⟩
          · rw [h] at h'
            exact absurd h' (by decide)
          · by_contra he
            exact hcon ⟨h1, not_lt.1 he⟩
        rw [inflated_one le_rfl hm hn1.1 e hn1.2 L _ hk]
        exact ⟨_, rfl, Or.inr ⟨rfl, h, hn1.1, hn1.2⟩⟩

/-! ## Whole trials -/

theorem forall_zip_range {α β : Type} (la : List α) (lb : List β) (a0 : α) (b0 : β)
    (hl : lb.length = la.length) (P : α → β → Prop) :
    (∀ ab ∈ la.zip lb, P ab.1 ab.2) ↔ ∀ i < la.length, P (la.getD i a0) (lb.getD i b0) := by
  constructor
  · intro h i hi
    rw [List.getD_eq_getElem _ _ hi, List.getD_eq_getElem _ _ (by omega)]
    have := h ((la.zip lb)[i]'(by rw [List.length_zip]; omega)) (List.getElem_mem _)
    rwa [List.getElem_zip] at this
  · intro h ab hab
    obtain ⟨i, hi, rfl⟩ := List.getElem_of_mem hab
    rw [List.length_zip] at hi
    have := h i (by omega)
    rw [List.getD_eq_getElem _ _ (by omega), List.getD_eq_getElem _ _ (by omega)] at this
    rwa [List.getElem_zip]

/-- **C99 (several publishers).** A trial of several publishers with the strategy `m3strategy`, any
registered single publisher model and either surface, in which every impression costs something and
somebody is counted: it succeeds, whatever the noise, exactly if every publisher sells enough
impressions to the campaign for its reach curve to be fitted (unless the analysis is of type
`single_pub`, which then fails because it asks for the reach of a single spend). -/
theorem C99_several_publishers (L : Solvers) (E : TrialEnv S OptimisedCurve)
    (hE : E.models = L.modelLib) (hest : EstimatesAsked E) (he : EstimatesSomebody E) (ds : DataSet)
    (d : TrialDesc) (logs : List Log) (cs : List ℚ) (pts : List (List ℚ))
    (ht : SurfaceTrial E ds d logs cs pts) (hL : LibrariesOk L logs.length)
    (hkw : d.strategy.strategyKwargs = []) (e : ℚ) (hk : Multiplier L d.strategy.singlePubKwargs e)
    (hg : d.strategy.singlePub = "goerg".toList → d.strategy.singlePubKwargs = [])
    (name analysisType : String) (draws : Nat) :
    ∃ row, (trialOutcome E name ds d analysisType draws).1 = .ok row ∧
      ((∀ lc ∈ logs.zip cs, EnoughBought d.strategy e (affordable lc.1 lc.2)) →
        (analysisType ≠ "single_pub" → HasCell row "model_succeeded" (.int 1)) ∧
        (analysisType = "single_pub" → FailedWith E .valueError row)) ∧
      ((∃ lc ∈ logs.zip cs, ¬ EnoughBought d.strategy e (affordable lc.1 lc.2)) →
        FailedWith E .valueError row ∨
          (d.strategy.singlePub = "kinflated_gamma_poisson".toList ∧ e ≤ 1 ∧
            (∃ lc ∈ logs.zip cs, affordable lc.1 lc.2 = 1) ∧ FailedWith E .zeroDivision row)) := by
  have hkn : KnownStrategyKwargs d.strategy := by
    intro kv hkv
    rw [hkw] at hkv
    exact absurd hkv List.not_mem_nil
  obtain ⟨row, o, h, singles, others, total, tracker, multi, hrow, ho, hmulti, g1, g2, g3, hcs, hsing,
    hot, htot, htr, -⟩ := trial_many E hest ds d logs cs pts ht hkn name analysisType draws
  obtain ⟨o', ho', -, -, q1, q2, q3, -, -, -, q4, -, q5, -⟩ :=
    (C97_instantiate d.strategy).2.2 ht.names hkn
  rw [ho] at ho'
  cases ho'
  have hfun : ∀ pi : ReachPoint × Nat, (if o.useGroundTruth = true then
      (.ok (.truth ⟨ds, pi.2, ((ds.data[pi.2]?).map (·.maxReach)).getD 0⟩) :
        Except PyErr (TrialCurve OptimisedCurve))
      else E.models.fitCurve o.single o.singleKwargs [pi.1]) =
      E.models.fitCurve o.single o.singleKwargs [pi.1] := by
    intro pi
    rw [if_neg (by rw [q5 hkw]; simp)]
  simp only [hfun] at htr
  have hsl : singles.length = logs.length := by rw [← hsing.length_eq, List.length_range]
  have hcurve : ∀ i (hi : i < logs.length),
      (EnoughBought d.strategy e (affordable (logs.getD i []) (cs.getD i 0)) →
        ∃ cv, E.models.fitCurve o.single o.singleKwargs [singles[i]'(by omega)] = .ok cv ∧
          SoundCurve (L.plannerCurve cv)) ∧
      (¬ EnoughBought d.strategy e (affordable (logs.getD i []) (cs.getD i 0)) →
        ∃ err, E.models.fitCurve o.single o.singleKwargs [singles[i]'(by omega)] = .error err ∧
          (err = .valueError ∨ err = .zeroDivision ∧
            d.strategy.singlePub = "kinflated_gamma_poisson".toList ∧
            affordable (logs.getD i []) (cs.getD i 0) = 1 ∧ e ≤ 1)) := by
    intro i hi
    have hm := (List.forall₂_iff_get.1 hsing).2 i (by simpa using hi) (by omega)
    simp only [List.get_eq_getElem, List.getElem_range] at hm
    have hc : 0 < cs.getD i 0 := by
      rw [List.getD_eq_getElem _ _ (by omega)]
      exact ht.positive _ (List.getElem_mem _)
    exact fit_one_curve L E hE d.strategy o ht.names.2.1 q1 q2 q3 q4 e hk hg hL.gamma hL.inflated hm hc
      (by rw [g2]; exact fun a b B B' s => he _ _ _ a b 10 B B' s)
  have hidx : ∀ pi ∈ singles.zipIdx, ∃ hi : pi.2 < singles.length, pi.1 = singles[pi.2] := by
    intro pi hpi
    have h1 := List.mem_zipIdx hpi
    refine ⟨by omega, ?_⟩
    have := h1.2.2
    simpa using this
  refine ⟨row, hrow, ?_, ?_⟩
  · intro hall
    rw [forall_zip_range logs cs [] 0 g3 (fun log c => EnoughBought d.strategy e (affordable log c))]
      at hall
    obtain ⟨curves, hcv⟩ := forall₂_of_forall (fun (pi : ReachPoint × Nat) cv =>
        E.models.fitCurve o.single o.singleKwargs [pi.1] = .ok cv ∧
          SoundCurve (L.plannerCurve cv)) singles.zipIdx (by
      intro pi hpi
      obtain ⟨hi, hpe⟩ := hidx pi hpi
      rw [hpe]
      exact (hcurve pi.2 (by omega)).1 (hall pi.2 (by omega)))
    have hmap := (mapM_ok_iff _ _ _).2 (hcv.imp (fun _ _ h => h.1))
    have hsound : ∀ c ∈ curves, SoundCurve (L.plannerCurve c) := by
      intro c hc
      obtain ⟨_, -, -, h⟩ := forall₂_mem_right hcv c hc
      exact h
    obtain ⟨sf, hsf, hans, -⟩ := surface_fit L logs.length ht.several hL.qp hL.sampler hL.few multi curves
      (by rw [← hcv.length_eq, List.length_zipIdx, hsl]) hsound others hot total h.lib _ _ htot
      (by simp) (by
        intro _ n hn
        obtain ⟨i, hi, rfl⟩ := List.mem_map.1 hn
        exact (hall i (List.mem_range.1 hi)).1)
    have hfit : (do
        let curves ← (singles.zipIdx).mapM (fun pi : ReachPoint × Nat =>
          E.models.fitCurve o.single o.singleKwargs [pi.1])
        E.models.multi multi curves (others ++ [total])) = .ok sf := by
      simp only [hmap, bind, Except.bind]
      rw [hE]
      exact hsf
    rw [hfit] at htr
    exact surface_trial E ds d logs cs pts ht name analysisType row h g1 hcs sf hans tracker htr
  · intro hex
    have hex' : ∃ i, i < logs.length ∧
        ¬ EnoughBought d.strategy e (affordable (logs.getD i []) (cs.getD i 0)) := by
      by_contra hcon
      push Not at hcon
      obtain ⟨lc, hlc, hn⟩ := hex
      exact hn ((forall_zip_range logs cs [] 0 g3
        (fun log c => EnoughBought d.strategy e (affordable log c))).2 hcon lc hlc)
    obtain ⟨i, hi, hn⟩ := hex'
    obtain ⟨pi, hpi, err, herr, hmap⟩ := mapM_fails (fun pi : ReachPoint × Nat =>
        E.models.fitCurve o.single o.singleKwargs [pi.1]) singles.zipIdx (by
      obtain ⟨err, herr, -⟩ := (hcurve i hi).2 hn
      refine ⟨(singles[i]'(by omega), i), ?_, err, herr⟩
      rw [List.mem_zipIdx_iff_getElem?]
      exact List.getElem?_eq_getElem _)
    obtain ⟨hj, hpe⟩ := hidx pi hpi
    simp only [hpe] at herr
    have hkind : err = .valueError ∨ err = .zeroDivision ∧
        d.strategy.singlePub = "kinflated_gamma_poisson".toList ∧
        affordable (logs.getD pi.2 []) (cs.getD pi.2 0) = 1 ∧ e ≤ 1 := by
      by_cases hen : EnoughBought d.strategy e (affordable (logs.getD pi.2 []) (cs.getD pi.2 0))
      · obtain ⟨cv, hcv, -⟩ := (hcurve pi.2 (by omega)).1 hen
        rw [herr] at hcv
        cases hcv
      · obtain ⟨err', herr', hk'⟩ := (hcurve pi.2 (by omega)).2 hen
        rw [herr] at herr'
        cases herr'
        exact hk'
    have hfit : (do
        let curves ← (singles.zipIdx).mapM (fun pi : ReachPoint × Nat =>
          E.models.fitCurve o.single o.singleKwargs [pi.1])
        E.models.multi multi curves (others ++ [total])) = .error err := by
      simp only [hmap, bind, Except.bind]
    rw [hfit] at htr
    rcases hkind with rfl | ⟨rfl, h1, h2, h3⟩
    · exact Or.inl (trial_fails _ row htr _ rfl)
    · refine Or.inr ⟨h1, h3, ⟨(logs.getD pi.2 [], cs.getD pi.2 0), ?_, h2⟩,
        trial_fails _ row htr _ rfl⟩
      have hp2 : pi.2 < (logs.zip cs).length := by rw [List.length_zip]; omega
      have := List.getElem_mem hp2
      rw [List.getElem_zip] at this
      rwa [List.getD_eq_getElem _ _ (by omega), List.getD_eq_getElem _ _ (by omega)]

/-- **C99 (several publishers, true reach curves).** With true reach curves in place of a model the
trial succeeds whatever is bought, if the surface is the pairwise union; for the restricted surface, if
every publisher sells an impression to the campaign. -/
theorem C99_several_truth (L : Solvers) (E : TrialEnv S OptimisedCurve) (hE : E.models = L.modelLib)
    (hest : EstimatesAsked E) (ds : DataSet) (d : TrialDesc) (logs : List Log) (cs : List ℚ)
    (pts : List (List ℚ)) (ht : SurfaceTrial E ds d logs cs pts)
    (hqp : ∀ Q, (L.qp Q).length = Q.G.cols) (hsam : SamplerOk L logs.length)
    (hfew : logs.length ≤ 1000000)
    (hkw : d.strategy.strategyKwargs =
      [("use_ground_truth_for_reach_curves".toList, "True".toList)])
    (hb : d.strategy.multiPub = "restricted_pairwise_union".toList →
      ∀ lc ∈ logs.zip cs, 1 ≤ affordable lc.1 lc.2)
    (name analysisType : String) (draws : Nat) :
    ∃ row, (trialOutcome E name ds d analysisType draws).1 = .ok row ∧
      (analysisType ≠ "single_pub" → HasCell row "model_succeeded" (.int 1)) ∧
      (analysisType = "single_pub" → FailedWith E .valueError row) := by
  have hkn : KnownStrategyKwargs d.strategy := by
    intro kv hkv
    rw [hkw] at hkv
    rw [List.mem_singleton.1 hkv]
    exact ⟨ht.strategy, rfl⟩
  obtain ⟨row, o, h, singles, others, total, tracker, multi, hrow, ho, hmulti, g1, g2, g3, hcs, hsing,
    hot, htot, htr, -⟩ := trial_many E hest ds d logs cs pts ht hkn name analysisType draws
  obtain ⟨o', ho', -, -, -, -, -, -, q1, -, -, -, -, q5⟩ :=
    (C97_instantiate d.strategy).2.2 ht.names hkn
  rw [ho] at ho'
  cases ho'
  have hsl : singles.length = logs.length := by rw [← hsing.length_eq, List.length_range]
  have hlen := ht.publishers.length_eq
  have hgt := (q5 _ hkw).1 rfl
  have hfun : ∀ pi : ReachPoint × Nat, (if o.useGroundTruth = true then
      (.ok (.truth ⟨ds, pi.2, ((ds.data[pi.2]?).map (·.maxReach)).getD 0⟩) :
        Except PyErr (TrialCurve OptimisedCurve))
      else E.models.fitCurve o.single o.singleKwargs [pi.1]) =
      .ok (.truth ⟨ds, pi.2, ((ds.data[pi.2]?).map (·.maxReach)).getD 0⟩) := by
    intro pi
    rw [if_pos hgt]
  simp only [hfun] at htr
  obtain ⟨curves, hcv⟩ := forall₂_of_forall (fun (pi : ReachPoint × Nat) cv =>
      (.ok (.truth ⟨ds, pi.2, ((ds.data[pi.2]?).map (·.maxReach)).getD 0⟩) :
        Except PyErr (TrialCurve OptimisedCurve)) = .ok cv ∧
        SoundCurve (L.plannerCurve cv)) singles.zipIdx (by
    intro pi hpi
    have hi : pi.2 < logs.length := by
      have := List.mem_zipIdx hpi
      omega
    refine ⟨_, rfl, truth_sound L ds logs ht.publishers pi.2 hi ?_
      (ht.sorted _ (List.getElem_mem hi)) _ ?_⟩
    · have hbi := (List.forall₂_iff_get.1 ht.publishers).2 pi.2 hi (by omega)
      simp only [List.get_eq_getElem] at hbi
      obtain ⟨nm, rnd, hnew⟩ := hbi
      obtain ⟨m', hm', -⟩ := (new_ok_iff _ _ _ _).1 hnew
      intro h0
      rw [h0] at hm'
      cases hm'
    · unfold GroundTruthCurve.new
      rw [pyIndex_nat _ _ (by omega)]
      rw [List.getElem?_eq_getElem (by omega)]
      rfl)
  have hmap := (mapM_ok_iff _ _ _).2 (hcv.imp (fun _ _ h => h.1))
  have hsound : ∀ c ∈ curves, SoundCurve (L.plannerCurve c) := by
    intro c hc
    obtain ⟨_, -, -, h⟩ := forall₂_mem_right hcv c hc
    exact h
  obtain ⟨sf, hsf, hans, -⟩ := surface_fit L logs.length ht.several hqp hsam hfew multi curves
    (by rw [← hcv.length_eq, List.length_zipIdx, hsl]) hsound others hot total h.lib _ _ htot
    (by simp) (by
      intro hr n hn
      have hb' := hb (q1.1 (by rw [hmulti, hr]))
      rw [forall_zip_range logs cs [] 0 g3 (fun log c => 1 ≤ affordable log c)] at hb'
      obtain ⟨i, hi, rfl⟩ := List.mem_map.1 hn
      exact hb' i (List.mem_range.1 hi))
  have hfit : (do
      let curves ← (singles.zipIdx).mapM (fun pi : ReachPoint × Nat =>
        (.ok (.truth ⟨ds, pi.2, ((ds.data[pi.2]?).map (fun p : PublisherData => p.maxReach)).getD 0⟩) :
          Except PyErr (TrialCurve OptimisedCurve)))
      E.models.multi multi curves (others ++ [total])) = .ok sf := by
    simp only [hmap, bind, Except.bind]
    rw [hE]
    exact hsf
  rw [hfit] at htr
  exact ⟨row, hrow,
    surface_trial E ds d logs cs pts ht name analysisType row h g1 hcs sf hans tracker htr⟩

/-! ## Examples -/

/-- Optimizers for two publishers: the solver of the quadratic program finds no overlap, and the sampler
always proposes the same vector. -/
def exManySolvers : Solvers :=
  { exSolvers with
    qp := fun Q => List.replicate Q.G.cols 0
    starts := fun _ _ j => if j = 0 then 1 / 2 else 3 / 4 }

def exManyEnv : TrialEnv (List Int) OptimisedCurve :=
  { exModelsEnv with models := exManySolvers.modelLib }

theorem exManyLibraries : LibrariesOk exManySolvers 2 where
  gamma := by
    intro x
    refine ⟨exSolvers_gamma x, fun alpha beta _ _ => ⟨geomTail_isTail alpha beta, ?_⟩⟩
    show 0 < geomTail alpha beta 1
    have : (0 : ℚ) ≤ max beta 0 := le_max_right _ _
    unfold geomTail
    rw [if_neg (by decide)]
    simp only [Nat.sub_self, pow_zero, mul_one]
    positivity
  inflated := lazySolver_ok
  qp := by intro Q; simp [exManySolvers]
  sampler :=
    { starts := by
        intro k
        have : RestrictedStart 2 (fun j => if j = 0 then 1 / 2 else 3 / 4) :=
          ⟨by unfold FeasibleLambda; decide +kernel, by decide +kernel, by decide +kernel⟩
        exact this
      orders := by
        intro n k i hi
        exact List.mem_range.1 hi }
  few := by norm_num

/-- Another publisher, whose three impressions were logged in order of cost. -/
def exSortedOther : PublisherData :=
  { data := [(8, 1), (9, 2), (8, 4)], spends := [1, 2, 4], maxSpend := 4, maxReach := 2,
    name := "b" }

def exSortedTwo : DataSet :=
  { data := [exSortedPub, exSortedOther], maximumReach := 3, name := "two", universeSize := 8 }

def exManyLogs : List Log := [[(7, 1), (8, 2), (7, 2), (9, 5)], [(8, 1), (9, 2), (8, 4)]]

/-- A trial that spends all that the first publisher costs and half of what the second one costs. -/
def exManyTrial : TrialDesc where
  strategy := ⟨"m3strategy".toList, [], "goerg".toList, [], "restricted_pairwise_union".toList, []⟩
  system := ⟨[1, 1/2], 12, 1000, 1, 0⟩
  experiment := ⟨⟨1, 1/100⟩, 1, 3, "grid".toList, [("grid_size".toList, "2".toList)]⟩

theorem exMany : SurfaceTrial exManyEnv exSortedTwo exManyTrial exManyLogs [5, 2]
    [[5/3, 4/3], [5/3, 8/3], [10/3, 4/3], [10/3, 8/3]] where
  publishers := .cons ⟨"a", "", by decide +kernel⟩ (.cons ⟨"b", "", by decide +kernel⟩ .nil)
  several := by decide
  sorted := by decide +kernel
  costly := by decide +kernel
  names := ⟨Or.inl rfl, Or.inl rfl, Or.inr (Or.inl rfl)⟩
  strategy := rfl
  surface := ⟨by decide, rfl⟩
  fractions := ⟨_, rfl, by decide, .cons ⟨5, by decide, by decide +kernel, by norm_num⟩
    (.cons ⟨4, by decide, by decide +kernel, by norm_num⟩ .nil)⟩
  positive := by decide +kernel
  frequency := by decide
  points := ⟨by decide +kernel, by decide +kernel⟩

theorem exMany_asked : EstimatesAsked exManyEnv ∧ EstimatesSomebody exManyEnv := exModels_asked

/-- All hypotheses of C99 (several publishers) hold, and each publisher sells enough. -/
example : exManyEnv.models = exManySolvers.modelLib ∧ EstimatesAsked exManyEnv ∧
    EstimatesSomebody exManyEnv ∧ LibrariesOk exManySolvers exManyLogs.length ∧
    exManyTrial.strategy.strategyKwargs = [] ∧
    Multiplier exManySolvers exManyTrial.strategy.singlePubKwargs 1 ∧
    ∀ lc ∈ exManyLogs.zip [5, 2], EnoughBought exManyTrial.strategy 1 (affordable lc.1 lc.2) := by
  refine ⟨rfl, exMany_asked.1, exMany_asked.2, exManyLibraries, rfl, Or.inl ⟨rfl, rfl⟩, ?_⟩
  intro lc hlc
  have h2 : ∀ lc ∈ exManyLogs.zip [5, 2], 2 ≤ affordable lc.1 lc.2 := by decide +kernel
  have := h2 lc hlc
  exact ⟨by omega, fun _ => this, fun _ h => by omega⟩

/-- So this trial succeeds. -/
example : ∃ row, (trialOutcome exManyEnv "two" exSortedTwo exManyTrial "" 0).1 = .ok row ∧
    HasCell row "model_succeeded" (.int 1) := by
  obtain ⟨row, h1, h2, -⟩ := C99_several_publishers exManySolvers exManyEnv rfl exMany_asked.1
    exMany_asked.2 exSortedTwo exManyTrial exManyLogs _ _ exMany exManyLibraries rfl 1
    (Or.inl ⟨rfl, rfl⟩) (fun _ => rfl) "two" "" 0
  refine ⟨row, h1, (h2 ?_).1 (by decide)⟩
  intro lc hlc
  have h2 : ∀ lc ∈ exManyLogs.zip [5, 2], 2 ≤ affordable lc.1 lc.2 := by decide +kernel
  have := h2 lc hlc
  exact ⟨by omega, fun _ => this, fun _ h => by omega⟩

/-- With a quarter of the cost the second publisher sells one impression, not enough for Goerg's
model. -/
example : ¬ EnoughBought exManyTrial.strategy 1 (affordable [(8, 1), (9, 2), (8, 4)] (1/4 * 4)) := by
  have : affordable [(8, 1), (9, 2), (8, 4)] (1/4 * 4) = 1 := by decide +kernel
  rw [this]
  rintro ⟨-, h, -⟩
  exact absurd (h rfl) (by decide)

/-- The trial that uses true reach curves. -/
theorem exManyTruth : SurfaceTrial exManyEnv exSortedTwo { exManyTrial with strategy :=
      { exManyTrial.strategy with strategyKwargs :=
        [("use_ground_truth_for_reach_curves".toList, "True".toList)] } } exManyLogs [5, 2]
    [[5/3, 4/3], [5/3, 8/3], [10/3, 4/3], [10/3, 8/3]] :=
  ⟨exMany.publishers, exMany.several, exMany.sorted, exMany.costly, exMany.names, exMany.strategy,
    exMany.surface, exMany.fractions, exMany.positive, exMany.frequency, exMany.points⟩

/-- The hypotheses of C99 (several publishers, true reach curves) on what is bought. -/
example : ∀ lc ∈ exManyLogs.zip [5, 2], 1 ≤ affordable lc.1 lc.2 := by decide +kernel

end Verif
