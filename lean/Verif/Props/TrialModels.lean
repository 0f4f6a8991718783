import Verif.Model.TrialModels
import Verif.Props.TrialFit
import Verif.Props.GammaPoisson
import Verif.Props.KInflatedFit

/-!
# C99: which trials of one publisher succeed, for all registered single publisher models
-/

namespace Verif

open Verif.Spec

variable {S C : Type}

/-- A trial on a data set of one publisher, built from a log in order of cost, with any registered
single publisher model: campaign spend `c`, tested at positive spends. -/
structure CurveTrial (E : TrialEnv S C) (ds : DataSet) (d : TrialDesc) (log : Log) (c : ℚ)
    (pts : List ℚ) : Prop where
  publisher : ∃ p, ds.data = [p] ∧ Built log p
  sorted : log.Pairwise (fun a b => a.2 ≤ b.2)
  names : RegisteredNames d.strategy
  kwargs : d.strategy.strategyKwargs = []
  spend : ∃ f fs m, d.system.spends = f :: fs ∧ m ∈ log.map (·.2) ∧ (∀ e ∈ log, e.2 ≤ m) ∧ c = f * m
  positive : 0 < c
  frequency : 1 ≤ d.experiment.maxFrequency
  points : d.experiment.generateTestPoints E.points ds = .ok (pts.map (fun s => [s])) ∧
    ∀ s ∈ pts, 0 < s

theorem curve_trial (E : TrialEnv S C) (hest : EstimatesAsked E) (ds : DataSet) (d : TrialDesc)
    (log : Log) (c : ℚ) (pts : List ℚ) (ht : CurveTrial E ds d log c pts)
    (name analysisType : String) (draws : Nat) :
    ∃ (p : PublisherData) (row : Row) (h : HaloSimulator S) (r : ReachPoint) (F : Nat)
      (tracker : PrivacyTracker ℚ) (m : SingleModel), ds.data = [p] ∧ Built log p ∧
      (trialOutcome E name ds d analysisType draws).1 = .ok row ∧
      h.dataSet = ds ∧ h.campaignSpends = [c] ∧
      h.lib = E.lib d.system.decayRate d.system.sketchSize d.system.randomSeed ∧
      Measured h.lib (affordable log c) c F r ∧ 10 ≤ F ∧
      (d.strategy.singlePub = "gamma_poisson".toList → m = .gammaPoisson) ∧
      (d.strategy.singlePub = "kinflated_gamma_poisson".toList → m = .kInflated) ∧
      trialRow (trialInputs E name ds d analysisType h
        ((E.models.fitCurve m d.strategy.singlePubKwargs [r]).map E.models.curveView) tracker) =
          .ok row := by
  obtain ⟨p, hds, hb⟩ := ht.publisher
  obtain ⟨f, fs, m, hfs, hmem, hmax, hc⟩ := ht.spend
  have hkw : KnownStrategyKwargs d.strategy := by
    intro kv hkv
    rw [ht.kwargs] at hkv
    exact absurd hkv List.not_mem_nil
  obtain ⟨row, o, h, r, F, tracker, hrow, ho, g1, g2, g3, hF, hm, htr⟩ :=
    trial_one E hest name ds p hds d f fs hfs ht.names hkw analysisType draws
  have hpm : p.maxSpend = m := by
    obtain ⟨nm, rnd, hnew⟩ := hb
    obtain ⟨m', hm', rfl⟩ := (new_ok_iff _ _ _ _).1 hnew
    refine pyMax_unique hm' hmem ?_
    intro x hx
    obtain ⟨e, he, rfl⟩ := List.mem_map.1 hx
    exact hmax e he
  rw [hpm, ← hc] at g2 hm
  have hn : p.impressionsBySpend c = affordable log c := by
    obtain ⟨nm, rnd, hnew⟩ := hb
    exact C01_impressions_by_spend_partial log nm rnd p c hnew ht.sorted
  rw [hn] at hm
  obtain ⟨o', ho', -, -, -, q1, q2, -, -, -, q3, -, q4, -⟩ :=
    (C97_instantiate d.strategy).2.2 ht.names hkw
  rw [ho] at ho'
  cases ho'
  rw [if_neg (by rw [q4 ht.kwargs]; simp), q3] at htr
  exact ⟨p, row, h, r, F, tracker, o.single, hds, hb, hrow, g1, g2, g3, hm, hF, q1.2, q2.2, htr⟩

/-- A fitted model that answers at every positive spend; up to the frequency `K` also with the reach
of the largest frequency asked for. -/
def Answers (sf : Surface) (K : Nat) : Prop :=
  ∀ s, 0 < s → ∀ f : Nat, 1 ≤ f → ∃ pt, sf.bySpend [s] f = .ok pt ∧ MadeFrom pt.kplusReaches pt ∧
    pt.kplusReaches ≠ [] ∧ (f ≤ K → ∃ v, pt.reach f = .ok v)

/-- A trial whose fitted model answers succeeds. -/
theorem answers_succeed (E : TrialEnv S C) (ds : DataSet) (d : TrialDesc) (log : Log) (c : ℚ)
    (pts : List ℚ) (ht : CurveTrial E ds d log c pts) (name analysisType : String)
    (p : PublisherData) (row : Row) (h : HaloSimulator S) (r : ReachPoint) (F : Nat)
    (tracker : PrivacyTracker ℚ) (hds : ds.data = [p]) (hb : Built log p) (g1 : h.dataSet = ds)
    (g2 : h.campaignSpends = [c])
    (g3 : h.lib = E.lib d.system.decayRate d.system.sketchSize d.system.randomSeed)
    (hm : Measured h.lib (affordable log c) c F r) (sf : Surface) (hdata : sf.data = .ok [r])
    (K : Nat) (hK : Answers sf K)
    (hfreq : analysisType = "single_pub" → 1 ≤ K ∧ d.experiment.maxFrequency ≤ K + 1)
    (h1 : 1 ≤ affordable log c) (he : EstimatesSomebody E)
    (htr : trialRow (trialInputs E name ds d analysisType h (.ok sf) tracker) = .ok row) :
    HasCell row "model_succeeded" (.int 1) := by
  obtain ⟨M, hM⟩ : ∃ M : Nat, d.experiment.maxFrequency = M ∧ 1 ≤ M :=
    ⟨d.experiment.maxFrequency.toNat, by have := ht.frequency; omega, by
      have := ht.frequency; omega⟩
  set inp := trialInputs E name ds d analysisType h (.ok sf) tracker with hinp
  have eM : inp.maxFrequency = M := hM.1
  have htrue : ∀ s (f : Nat), 1 ≤ f → ∃ t, inp.trueReach [s] f = .ok t ∧ MadeFrom t.kplusReaches t ∧
      t.kplusReaches.length = f ∧ ∀ k : Nat, 1 ≤ k → k ≤ f →
        t.reach k = .ok (kPlusReach (exposuresAtSpend log s) k : ℚ) := by
    intro s f hf
    have : inp.trueReach [s] f = ds.reachBySpend [s] f := by
      show h.dataSet.reachBySpend [s] f = _
      rw [g1]
    rw [this]
    exact true_one ds p hds log hb s f hf
  refine trial_succeeds inp row htr sf rfl (pts.map (fun s => [s])) ht.points.1 ?_ ?_ ?_
  · intro pt hpt
    obtain ⟨s, hs, rfl⟩ := List.mem_map.1 hpt
    obtain ⟨t, t1, t2, t3, -⟩ := htrue s M hM.2
    exact ⟨t, by rw [eM]; exact t1, t2, by intro h0; rw [h0] at t3; simp at t3; omega⟩
  · intro pt hpt
    obtain ⟨s, hs, rfl⟩ := List.mem_map.1 hpt
    obtain ⟨t, t1, t2, t3, -⟩ := hK s (ht.points.2 s hs) M hM.2
    exact ⟨t, by rw [eM]; exact t1, t2, t3⟩
  · intro ha
    obtain ⟨hK1, hKM⟩ := hfreq ha
    obtain ⟨⟨a, ha⟩, b, hb'⟩ := cells_ok inp sf c g2
      (fun f q hf _ => by
        obtain ⟨t, t1, -, -, t4⟩ := htrue (c * ((q : ℚ) / 10)) f hf
        exact ⟨t, _, t1, t4 f hf le_rfl⟩)
      (fun f q hf hF hq => by
        have hq' : (0 : ℚ) < q := by exact_mod_cast hq
        have hpos : 0 < c * ((q : ℚ) / 10) := mul_pos ht.positive (by linarith)
        obtain ⟨u, u1, -, -, u4⟩ := hK _ hpos f hf
        obtain ⟨v, hv⟩ := u4 (by rw [eM] at hF; omega)
        exact ⟨u, v, u1, hv⟩)
    obtain ⟨x, hx, -, -, hone, -⟩ := hm.reach
    have hx1 : 1 ≤ x := hone (by rw [g3]; exact fun a b B B' s => he _ _ _ a b F B B' s)
    have hnz : ∀ (t : ReachPoint) (v : ℚ), t.reach 1 = .ok v → v ≠ 0 → ∃ w ∈ t.kplusReaches, w ≠ 0 := by
      intro t v hv hv0
      unfold ReachPoint.reach at hv
      split at hv
      · rcases hk : t.kplusReaches with _ | ⟨w, l⟩
        · rw [hk] at hv; cases hv
        · rw [hk] at hv
          have hwv : w = v := Except.ok.inj hv
          exact ⟨w, by simp, by rw [hwv]; exact hv0⟩
      · cases hv
    obtain ⟨k1, hk1, -⟩ := (C69_max_frequency r).2.2 (hnz r x hx (by
      have : (1 : ℚ) ≤ x := by exact_mod_cast hx1
      linarith))
    obtain ⟨t, t1, -, -, t4⟩ := htrue c M hM.2
    obtain ⟨k2, hk2, -⟩ := (C69_max_frequency t).2.2 (hnz t _ (t4 1 le_rfl hM.2) (by
      exact_mod_cast kPlusReach_pos log c h1))
    have e1 : inp.trueReach inp.campaignSpends inp.maxFrequency = .ok t := by
      have e3 : inp.campaignSpends = [c] := g2
      rw [eM, e3]; exact t1
    have e4 : pyIndex [r] 0 = .ok r := rfl
    unfold singlePublisherRow
    simp only [bind, Except.bind, ha, hb', hdata, e1, e4, hk1, hk2]
    exact ⟨_, rfl⟩

/-! ## Keyword arguments -/

/-- The keyword arguments of the models in the single publisher design: none, or the extrapolation
multiplier; `e` is the multiplier that is used. -/
def Multiplier (L : Solvers) (kwargs : Kwargs) (e : ℚ) : Prop :=
  (kwargs = [] ∧ e = 1) ∨
    ∃ v, kwargs = [("extrapolation_multiplier".toList, v)] ∧ L.number v = some e

theorem multiplier_known {L : Solvers} {kwargs : Kwargs} {e : ℚ} (h : Multiplier L kwargs e)
    (m : SingleModel) (hm : m ≠ .goerg) : acceptsKwargs m.keywords kwargs = true := by
  rcases h with ⟨rfl, -⟩ | ⟨v, rfl, -⟩
  · rfl
  · cases m with
    | goerg => exact absurd rfl hm
    | gammaPoisson => rfl
    | kInflated => rfl

theorem multiplier_number {L : Solvers} {kwargs : Kwargs} {e : ℚ} (h : Multiplier L kwargs e) :
    L.kwNumber kwargs "extrapolation_multiplier".toList 1 = .ok e ∧ L.kwMaxReach kwargs = .ok none ∧
      kwInt kwargs "kmax".toList 10 = .ok 10 := by
  rcases h with ⟨rfl, rfl⟩ | ⟨v, rfl, hv⟩
  · exact ⟨rfl, rfl, rfl⟩
  · refine ⟨?_, rfl, rfl⟩
    have hl : List.lookup "extrapolation_multiplier".toList
        [("extrapolation_multiplier".toList, v)] = some v := rfl
    unfold Solvers.kwNumber
    simp only [hl, hv]

/-! ## The gamma-Poisson model -/

/-- What is assumed of scipy for the gamma-Poisson model, for histograms that count somebody: the
optimizer respects its bounds (gamma_poisson_model.py:469; the smallest population allowed is the
reach), its score is below the initial score of 10⁹⁹, and so are the quantiles of the chi-squared
distributions. -/
def GammaSolverOk (S : GammaPoisson.Solver) : Prop :=
  (∀ n, S.threshold n ≤ 10 ^ 99) ∧
  ∀ h I x, 1 ≤ h.sum → (S.minimize h I x).1 < 10 ^ 99 ∧ 1 / 1000000 ≤ (S.minimize h I x).2.1 ∧
    1 / 1000000 ≤ (S.minimize h I x).2.2.1 ∧ h.sum ≤ (S.minimize h I x).2.2.2

theorem measured_costs {lib : SketchLib S} {n : Nat} {c : ℚ} {F : Nat} {r : ReachPoint}
    (hm : Measured lib n c F r) : pyIndex r.impressions 0 = .ok (n : ℚ) ∧
      GoergModel.costPerImpression r.spends n = .ok (some (c / n)) := by
  rw [hm.impressions, hm.spends]
  exact ⟨rfl, rfl⟩

theorem gamma_new {lib : SketchLib S} {n : Nat} {c : ℚ} {F : Nat} {r : ReachPoint}
    (hm : Measured lib n c F r) (e : ℚ) :
    (n = 0 → GammaPoisson.Model.new [r] none e = .error .valueError) ∧
    (1 ≤ n → GammaPoisson.Model.new [r] none e = .ok
      { point := r, maxReach := none, extrapolationValue := e * n, cpi := some (c / n),
        params := none }) := by
  have hcheck : checkCurveData [r] = .ok () := by
    unfold checkCurveData checkSurfaceData
    simp [hm.impressions, bind, Except.bind]
  obtain ⟨hi, hcpi⟩ := measured_costs hm
  obtain ⟨x, hx, -⟩ := hm.reach
  constructor
  · intro h0
    rw [h0] at hi
    unfold GammaPoisson.Model.new
    simp only [hcheck, hi, bind, Except.bind]
    rw [if_pos (by norm_num)]
  · intro h1
    have h1' : (1 : ℚ) ≤ n := by exact_mod_cast h1
    have htop := hm.top _ hx
    rw [max_eq_right h1'] at htop
    unfold GammaPoisson.Model.new
    simp only [hcheck, hi, hx, hcpi, bind, Except.bind]
    rw [if_neg (by linarith), if_neg (by linarith)]
    rfl

/-- A gamma-Poisson model of a measurement that counts somebody is fitted and answers. -/
theorem gamma_fits {lib : SketchLib S} {n : Nat} {c : ℚ} {F : Nat} {r : ReachPoint}
    (hm : Measured lib n c F r) (hc : 0 < c) (h1 : 1 ≤ n) (x : ℚ) (hx : r.reach 1 = .ok x)
    (hx1 : 1 ≤ x) (L : Solvers) (e : ℚ) (hS : GammaSolverOk (L.gamma (e * n))) (kwargs : Kwargs)
    (hk : Multiplier L kwargs e) :
    ∃ g, L.fitCurve .gammaPoisson kwargs [r] = .ok (.gamma g) ∧ g.point = r ∧
      Answers ⟨L.bySpend (.gamma g), .ok [g.point]⟩ 1000 ∧ g.cpi = some (c / n) ∧
      g.extrapolationValue = e * n ∧ ∃ N alpha beta, GpFit g N (N * (1 + alpha * beta)) alpha beta ∧
        1 ≤ N ∧ 1 / 1000000 ≤ alpha ∧ 1 / 1000000 ≤ beta := by
  obtain ⟨k1, k2, -⟩ := multiplier_number hk
  have hn := (gamma_new hm e).2 h1
  have hR : r.kplusReaches[0]? = some x := (reachPoint_reach_one r x).1 hx
  have hI : r.impressions[0]? = some (n : ℚ) := by rw [hm.impressions]; rfl
  have hne : r.kplusReaches ≠ [] := by
    intro h0; rw [h0] at hR; simp at hR
  obtain ⟨imps, sp, us, hnew⟩ := hm.made
  obtain ⟨hist, hh, -, -, -, hsum⟩ := C74_histogram imps r.kplusReaches sp us r hnew hne
  have hs : hist.sum = x := by
    rw [hsum]
    rcases hq : r.kplusReaches with _ | ⟨a, l⟩
    · exact absurd hq hne
    · rw [hq] at hR
      simpa using hR
  have hrun : ∀ N0, (gpRun (L.gamma (e * n)) hist n N0).1 < 10 ^ 99 ∧
      1 / 1000000 ≤ (gpRun (L.gamma (e * n)) hist n N0).2.1 ∧
      1 / 1000000 ≤ (gpRun (L.gamma (e * n)) hist n N0).2.2.1 ∧
      x ≤ (gpRun (L.gamma (e * n)) hist n N0).2.2.2 := by
    intro N0
    have := hS.2 hist n ((L.gamma (e * n)).minimizeFixed hist n N0
      ((L.gamma (e * n)).start hist n N0) |>.1, (L.gamma (e * n)).minimizeFixed hist n N0
      ((L.gamma (e * n)).start hist n N0) |>.2, N0) (by rw [hs]; exact hx1)
    rw [hs] at this
    exact this
  rcases C75_best_run (L.gamma (e * n)) r n x hist hI hR hh (hS.1 _) with ⟨-, h2⟩ |
    ⟨pre, N0, post, alpha, beta, N, -, hres, hfit, -⟩
  · have hmem : (11 * x) ∈ gpSizes x := by unfold gpSizes; simp
    exact absurd (h2 _ hmem) (not_le.2 (hrun _).1)
  · obtain ⟨-, ha, hb, hN⟩ := hrun N0
    rw [hres] at ha hb hN
    simp only at ha hb hN
    set g : GammaPoisson.Model :=
      { point := r, maxReach := some N, extrapolationValue := e * n, cpi := some (c / n),
        params := some (N * (1 + alpha * beta), alpha, beta) } with hg
    have hab : 0 < alpha * beta := mul_pos (by linarith) (by linarith)
    have hgp : GpFit g N (N * (1 + alpha * beta)) alpha beta := by
      refine ⟨rfl, rfl, ?_⟩
      have : 0 ≤ N * (alpha * beta) := mul_nonneg (by linarith) hab.le
      linarith
    refine ⟨g, ?_, rfl, ?_, rfl, rfl, N, alpha, beta, hgp, by linarith, ha, hb⟩
    · unfold Solvers.fitCurve GammaPoisson.Model.fit
      simp only [k1, k2, hn, hfit, bind, Except.bind, pure, Except.pure]
      rfl
    · intro s hs0 f hf
      have hn0 : (0 : ℚ) < n := by exact_mod_cast h1
      have hcn : 0 < c / n := div_pos hc hn0
      have hsp := (C54_by_spend GammaPoisson.maxComputationalFrequency
        (L.gamma (e * n)).gp g s f).1 (c / n) rfl hcn.ne'
      obtain ⟨pt, p1, -, p2, p3⟩ := C54_formula GammaPoisson.maxComputationalFrequency
        (L.gamma (e * n)).gp g _ _ _ _ hgp (s / (c / n)) (div_pos hs0 hcn).le f
      have hmx : GammaPoisson.maxComputationalFrequency = 1000 := rfl
      have hmade : MadeFrom pt.kplusReaches pt := by
        unfold GammaPoisson.Model.byImpressions at p1
        simp only [hg] at p1
        rcases hq : GammaPoisson.predict GammaPoisson.maxComputationalFrequency
          (L.gamma (e * n)).gp N (N * (1 + alpha * beta)) alpha beta (s / (c / n)) with er | l
        · rw [hq] at p1; cases p1
        · rw [hq] at p1
          simp only [bind, Except.bind] at p1
          unfold GammaPoisson.Model.toPoint at p1
          cases l with
          | none => cases p1
          | some l =>
            simp only at p1
            split at p1
            · simp only [bind, Except.bind] at p1
              split at p1
              · cases p1
              · rename_i hnw
                cases p1
                exact made_of_new hnw
            · simp only [bind, Except.bind] at p1
              split at p1
              · cases p1
              · rename_i hnw
                cases p1
                exact made_of_new hnw
      refine ⟨pt, ?_, hmade, ?_, ?_⟩
      · show orNan (g.bySpend GammaPoisson.maxComputationalFrequency (L.gamma (e * n)).gp [s] f) = _
        rw [hsp, p1]
        rfl
      · intro h0
        rw [h0, hmx] at p2
        simp only [List.length_nil] at p2
        omega
      · intro hf1
        unfold ReachPoint.reach
        rw [if_pos (by rw [p2, hmx]; omega)]
        have hlt : f - 1 < pt.kplusReaches.length := by rw [p2, hmx]; omega
        have hcast : (f : Int) - 1 = ((f - 1 : Nat) : Int) := by omega
        rw [hcast, pyIndex_nat _ _ hlt]
        exact ⟨_, rfl⟩

/-- **C99 (gamma-Poisson model).** A trial of one publisher with the gamma-Poisson model, by either
strategy and with any extrapolation multiplier, succeeds whatever the noise if the campaign buys at
least one impression and somebody is counted (for an analysis of type `single_pub` with at most 1001
frequencies); it fails if no impression is bought. -/
theorem C99_gamma_poisson (L : Solvers) (E : TrialEnv S OptimisedCurve) (hE : E.models = L.modelLib)
    (hest : EstimatesAsked E) (ds : DataSet) (d : TrialDesc) (log : Log) (c : ℚ) (pts : List ℚ)
    (ht : CurveTrial E ds d log c pts) (e : ℚ)
    (hmodel : d.strategy.singlePub = "gamma_poisson".toList)
    (hk : Multiplier L d.strategy.singlePubKwargs e)
    (name analysisType : String) (draws : Nat) :
    ∃ row, (trialOutcome E name ds d analysisType draws).1 = .ok row ∧
      (1 ≤ affordable log c → EstimatesSomebody E → GammaSolverOk (L.gamma (e * affordable log c)) →
        (analysisType = "single_pub" → d.experiment.maxFrequency ≤ 1001) →
        HasCell row "model_succeeded" (.int 1)) ∧
      (affordable log c = 0 → FailedWith E .valueError row) := by
  obtain ⟨p, row, h, r, F, tracker, m, hds, hb, hrow, g1, g2, g3, hm, hF, q1, -, htr⟩ :=
    curve_trial E hest ds d log c pts ht name analysisType draws
  have hm' := q1 hmodel
  subst hm'
  have hfc : E.models.fitCurve .gammaPoisson d.strategy.singlePubKwargs [r] =
      (L.fitCurve .gammaPoisson d.strategy.singlePubKwargs [r]).map TrialCurve.fitted := by
    unfold ModelLib.fitCurve
    rw [if_pos (multiplier_known hk _ (by simp)), hE]
    simp only [Solvers.modelLib, bind, Except.bind, pure, Except.pure]
    rcases L.fitCurve .gammaPoisson d.strategy.singlePubKwargs [r] with er | g <;> rfl
  rw [hfc] at htr
  refine ⟨row, hrow, ?_, ?_⟩
  · intro h1 he hS hfreq
    obtain ⟨x, hx, -, -, hone, -⟩ := hm.reach
    have hx1 : 1 ≤ x := hone (by rw [g3]; exact fun a b B B' s => he _ _ _ a b F B B' s)
    obtain ⟨g, k1, k2, k3, -⟩ := gamma_fits hm ht.positive h1 x hx (by exact_mod_cast hx1) L e
      hS _ hk
    rw [k1, hE] at htr
    refine answers_succeed E ds d log c pts ht name analysisType p row h r F tracker hds hb g1 g2 g3 hm
      ⟨L.bySpend (.gamma g), .ok [g.point]⟩ (by rw [k2]) 1000 k3 ?_ h1 he htr
    intro ha
    have := hfreq ha
    exact ⟨by omega, by omega⟩
  · intro h0
    obtain ⟨k1, k2, -⟩ := multiplier_number hk
    have hno : L.fitCurve .gammaPoisson d.strategy.singlePubKwargs [r] = .error .valueError := by
      unfold Solvers.fitCurve
      simp only [k1, k2, (gamma_new hm e).1 h0, bind, Except.bind]
    rw [hno] at htr
    exact trial_fails _ row htr _ rfl

/-! ## The k-inflated gamma-Poisson model -/

theorem inflated_new {lib : SketchLib S} {n : Nat} {c : ℚ} {F : Nat} {r : ReachPoint}
    (hm : Measured lib n c F r) (kmax : Nat) (e : ℚ) :
    (n = 0 → KInflated.Model.new [r] kmax e = .error .valueError) ∧
    (1 ≤ n → KInflated.Model.new [r] kmax e = .ok
      { point := r, kmax := kmax, extrapolationValue := e * n, cpi := some (c / n),
        fitted := none }) := by
  obtain ⟨hi, hcpi⟩ := measured_costs hm
  obtain ⟨x, hx, -⟩ := hm.reach
  constructor
  · intro h0
    rw [h0] at hi
    unfold KInflated.Model.new
    simp only [hi, bind, Except.bind]
    rw [if_pos (by norm_num)]
  · intro h1
    have h1' : (1 : ℚ) ≤ n := by exact_mod_cast h1
    have htop := hm.top _ hx
    rw [max_eq_right h1'] at htop
    unfold KInflated.Model.new
    simp only [hi, hx, hcpi, bind, Except.bind]
    rw [if_neg (by linarith), if_neg (by linarith)]
    rfl

theorem inflated_toPoint_made {m : KInflated.Model} {I : ℚ} {l : Option (List ℚ)} {pt : ReachPoint}
    (h : m.toPoint I l = .ok (some pt)) : MadeFrom pt.kplusReaches pt := by
  unfold KInflated.Model.toPoint at h
  cases l with
  | none => cases h
  | some l =>
    simp only at h
    split at h
    · simp only [bind, Except.bind] at h
      split at h
      · cases h
      · rename_i hnw
        cases h
        exact made_of_new hnw
    · simp only [bind, Except.bind] at h
      split at h
      · cases h
      · rename_i hnw
        cases h
        exact made_of_new hnw

/-- A k-inflated model of a measurement that counts somebody is fitted and answers, if more than one
impression is considered. -/
theorem inflated_fits {lib : SketchLib S} {n : Nat} {c : ℚ} {F : Nat} {r : ReachPoint}
    (hm : Measured lib n c F r) (hc : 0 < c) (h1 : 1 ≤ n) (x : ℚ) (hx : r.reach 1 = .ok x)
    (hx1 : 1 ≤ x) (L : Solvers) (e : ℚ) (hne1 : 1 < max (n : ℚ) (e * n))
    (hS : SolverOk L.inflated) (kwargs : Kwargs)
    (hk : Multiplier L kwargs e) :
    ∃ g, L.fitCurve .kInflated kwargs [r] = .ok (.inflated g) ∧ g.point = r ∧
      (∀ K, Answers ⟨L.bySpend (.inflated g), .ok [g.point]⟩ K) ∧ g.cpi = some (c / n) ∧
      ∃ f, g.fitted = some f ∧ GoodFit f := by
  obtain ⟨k1, -, k2⟩ := multiplier_number hk
  have hn := (inflated_new hm 10 e).2 h1
  have h1' : (1 : ℚ) ≤ n := by exact_mod_cast h1
  have htop := hm.top _ hx
  rw [max_eq_right h1'] at htop
  have hR : r.kplusReaches[0]? = some x := (reachPoint_reach_one r x).1 hx
  have hI : r.impressions[0]? = some (n : ℚ) := by rw [hm.impressions]; rfl
  obtain ⟨N, dist, hfit, hN, hd, hd0, -⟩ := C73_fit L.inflated hS
    KInflated.maxComputationalFrequency 10 (by decide) (by decide) r n x (e * n) hI hR
    (by linarith) (by linarith) htop (fun _ => (lt_min (by linarith) (by linarith)).ne')
  set g : KInflated.Model :=
    { point := r, kmax := 10, extrapolationValue := e * n, cpi := some (c / n),
      fitted := some ⟨N, dist⟩ } with hg
  have hgood : GoodFit ⟨N, dist⟩ := ⟨hN, hd, head?_getD hd0⟩
  refine ⟨g, ?_, rfl, ?_, rfl, _, rfl, hgood⟩
  · have hten : (10 : Int).toNat = 10 := rfl
    unfold Solvers.fitCurve KInflated.Model.fit
    simp only [k1, k2, hten, hn, hfit, bind, Except.bind, pure, Except.pure, Option.getD_none]
    rfl
  · intro K s hs0 f hf
    have hn0 : (0 : ℚ) < n := by linarith
    have hcn : 0 < c / n := div_pos hc hn0
    have hsp := (C40_by_spend L.inflated KInflated.maxComputationalFrequency g s f).1 (c / n) rfl
      hcn.ne'
    obtain ⟨l, l1, l2, -⟩ := C40_bounds ⟨N, dist⟩ hgood (s / (c / n)) (div_pos hs0 hcn).le f hf
    obtain ⟨pt, p1, p2, -⟩ := toPoint_ok g (s / (c / n)) l
    have hby : g.byImpressions L.inflated KInflated.maxComputationalFrequency [s / (c / n)] f =
        .ok (g, some pt) := by
      unfold KInflated.Model.byImpressions KInflated.Model.fit
      simp only [hg, bind, Except.bind, l1]
      simp only [hg] at p1
      rw [p1]
      rfl
    refine ⟨pt, ?_, inflated_toPoint_made p1, ?_, ?_⟩
    · show orNan ((g.bySpend L.inflated KInflated.maxComputationalFrequency [s] f).map (·.2)) = _
      rw [hsp, hby]
      rfl
    · intro h0
      rw [p2] at h0
      rw [h0] at l2
      simp only [List.length_nil] at l2
      omega
    · intro _
      unfold ReachPoint.reach
      rw [if_pos (by rw [p2, l2]; omega)]
      have hlt : f - 1 < pt.kplusReaches.length := by rw [p2, l2]; omega
      have hcast : (f : Int) - 1 = ((f - 1 : Nat) : Int) := by omega
      rw [hcast, pyIndex_nat _ _ hlt]
      exact ⟨_, rfl⟩

theorem inflated_one {lib : SketchLib S} {n : Nat} {c : ℚ} {F : Nat} {r : ReachPoint} (hF : 10 ≤ F)
    (hm : Measured lib n c F r) (h1 : n = 1) (e : ℚ) (he1 : e ≤ 1) (L : Solvers) (kwargs : Kwargs)
    (hk : Multiplier L kwargs e) : L.fitCurve .kInflated kwargs [r] = .error .zeroDivision := by
  obtain ⟨k1, -, k2⟩ := multiplier_number hk
  have hten : (10 : Int).toNat = 10 := rfl
  obtain ⟨x, hx, hx0, -⟩ := hm.reach
  have hR : r.kplusReaches[0]? = some (x : ℚ) := (reachPoint_reach_one r x).1 hx
  have hI : r.impressions[0]? = some (1 : ℚ) := by rw [hm.impressions, h1]; simp
  have hfr : 1 < r.frequencies.length := by
    obtain ⟨imps, sp, us, hnew⟩ := hm.made
    have hl := hm.length
    unfold ReachPoint.new at hnew
    split at hnew
    · cases hnew
    · injection hnew with hnew
      rw [← hnew]
      simp only [ReachPoint.successiveDifferences, List.length_zipWith, List.length_tail]
      omega
  have hfail := C72_failure r 1 x (e * 1) hI hR hfr
    (Or.inr ⟨max_eq_left (by linarith), by exact_mod_cast hx0⟩)
  have hn := (inflated_new hm 10 e).2 (by omega)
  rw [h1] at hn
  unfold Solvers.fitCurve KInflated.Model.fit KInflated.fitPoint
  simp only [k1, k2, hten, hn, bind, Except.bind, Option.getD_none, Nat.cast_one, hfail]

/-- **C99 (k-inflated gamma-Poisson model).** A trial of one publisher with the k-inflated model, by
either strategy, succeeds whatever the noise if somebody is counted and more than one impression is
considered (bought, or bought times the extrapolation multiplier).  It fails if no impression is
bought, and with a division by zero if only one is considered. -/
theorem C99_kinflated (L : Solvers) (E : TrialEnv S OptimisedCurve) (hE : E.models = L.modelLib)
    (hest : EstimatesAsked E) (ds : DataSet) (d : TrialDesc) (log : Log) (c : ℚ) (pts : List ℚ)
    (ht : CurveTrial E ds d log c pts) (e : ℚ)
    (hmodel : d.strategy.singlePub = "kinflated_gamma_poisson".toList)
    (hk : Multiplier L d.strategy.singlePubKwargs e)
    (name analysisType : String) (draws : Nat) :
    ∃ row, (trialOutcome E name ds d analysisType draws).1 = .ok row ∧
      (1 ≤ affordable log c → 1 < max (affordable log c : ℚ) (e * affordable log c) →
        EstimatesSomebody E → SolverOk L.inflated → HasCell row "model_succeeded" (.int 1)) ∧
      (affordable log c = 0 → FailedWith E .valueError row) ∧
      (affordable log c = 1 → e ≤ 1 → FailedWith E .zeroDivision row) := by
  obtain ⟨p, row, h, r, F, tracker, m, hds, hb, hrow, g1, g2, g3, hm, hF, -, q1, htr⟩ :=
    curve_trial E hest ds d log c pts ht name analysisType draws
  have hm' := q1 hmodel
  subst hm'
  have hfc : E.models.fitCurve .kInflated d.strategy.singlePubKwargs [r] =
      (L.fitCurve .kInflated d.strategy.singlePubKwargs [r]).map TrialCurve.fitted := by
    unfold ModelLib.fitCurve
    rw [if_pos (multiplier_known hk _ (by simp)), hE]
    simp only [Solvers.modelLib, bind, Except.bind, pure, Except.pure]
    rcases L.fitCurve .kInflated d.strategy.singlePubKwargs [r] with er | g <;> rfl
  rw [hfc] at htr
  obtain ⟨k1, -, k2⟩ := multiplier_number hk
  have hten : (10 : Int).toNat = 10 := rfl
  refine ⟨row, hrow, ?_, ?_, ?_⟩
  · intro h1 hne1 he hS
    obtain ⟨x, hx, -, -, hone, -⟩ := hm.reach
    have hx1 : 1 ≤ x := hone (by rw [g3]; exact fun a b B B' s => he _ _ _ a b F B B' s)
    obtain ⟨g, k1, k2, k3, -⟩ := inflated_fits hm ht.positive h1 x hx (by exact_mod_cast hx1) L e
      hne1 hS _ hk
    rw [k1, hE] at htr
    refine answers_succeed E ds d log c pts ht name analysisType p row h r F tracker hds hb g1 g2 g3 hm
      ⟨L.bySpend (.inflated g), .ok [g.point]⟩ (by rw [k2]) (d.experiment.maxFrequency.toNat + 1)
      (k3 _) ?_ h1 he htr
    intro _
    exact ⟨by omega, by omega⟩
  · intro h0
    have hno : L.fitCurve .kInflated d.strategy.singlePubKwargs [r] = .error .valueError := by
      unfold Solvers.fitCurve
      simp only [k1, k2, hten, (inflated_new hm 10 e).1 h0, bind, Except.bind]
    rw [hno] at htr
    exact trial_fails _ row htr _ rfl
  · intro h1 he1
    have hno := inflated_one hF hm h1 e he1 L _ hk
    rw [hno] at htr
    exact trial_fails _ row htr _ rfl

/-! ## The trials of the single publisher design -/

/-- What the single publisher design makes of a trial in which the campaign pays `n` impressions and
somebody is counted (specification).  Two impressions are enough for all models.  With one impression
Goerg's model is refused, because its reach is as large as its impressions; the k-inflated model divides
by zero unless it is asked to extrapolate. -/
def DesignRow (E : TrialEnv S C) (s : StrategyDescriptor) (n : Nat) (row : Row) : Prop :=
  (n = 0 → FailedWith E .valueError row) ∧
  (n = 1 → s.singlePub = "goerg".toList → FailedWith E .valueError row) ∧
  (n = 1 → s.singlePub = "gamma_poisson".toList → HasCell row "model_succeeded" (.int 1)) ∧
  (n = 1 → s.singlePub = "kinflated_gamma_poisson".toList → s.singlePubKwargs = [] →
    FailedWith E .zeroDivision row) ∧
  (n = 1 → s.singlePub = "kinflated_gamma_poisson".toList → s.singlePubKwargs ≠ [] →
    HasCell row "model_succeeded" (.int 1)) ∧
  (2 ≤ n → HasCell row "model_succeeded" (.int 1))

theorem design_trial (E : TrialEnv S C) (ds : DataSet) (p : PublisherData) (hds : ds.data = [p])
    (log : Log) (hb : Built log p) (hsorted : log.Pairwise (fun a b => a.2 ≤ b.2)) (m : ℚ)
    (hmem : m ∈ log.map (·.2)) (hmax : ∀ e ∈ log, e.2 ≤ m) (hpos : 0 < m) (seed : Int)
    (mk : Text × Kwargs) (hmk : mk ∈ singlePublisherModels) (i : Nat) (eps : ℚ) :
    CurveTrial E ds ((singlePublisherTrial seed mk (((i : ℚ) + 1) / 10) eps).update id
      ds.publisherCount).desc log ((((i + 1 : Nat) : ℚ)) / 10 * m) (gridAxis m 20) := by
  have hpm : p.maxSpend = m := by
    obtain ⟨nm, rnd, hnew⟩ := hb
    obtain ⟨m', hm', rfl⟩ := (new_ok_iff _ _ _ _).1 hnew
    refine pyMax_unique hm' hmem ?_
    intro x hx
    obtain ⟨e, he, rfl⟩ := List.mem_map.1 hx
    exact hmax e he
  have hk0 : (0 : ℚ) < ((i : ℚ) + 1) / 10 := by positivity
  set d := ((singlePublisherTrial seed mk (((i : ℚ) + 1) / 10) eps).update id
    ds.publisherCount).desc with hd
  have hreg : mk.1 = "goerg".toList ∨ mk.1 = "gamma_poisson".toList ∨
      mk.1 = "kinflated_gamma_poisson".toList := by
    simp only [singlePublisherModels, List.mem_cons, List.not_mem_nil, or_false] at hmk
    rcases hmk with rfl | rfl | rfl | rfl | rfl
    · exact Or.inl rfl
    · exact Or.inr (Or.inl rfl)
    · exact Or.inr (Or.inl rfl)
    · exact Or.inr (Or.inr rfl)
    · exact Or.inr (Or.inr rfl)
  refine ⟨⟨p, hds, hb⟩, hsorted, ⟨Or.inr rfl, hreg, Or.inr (Or.inr rfl)⟩, rfl,
    ⟨((i : ℚ) + 1) / 10, [], m, rfl, hmem, hmax, by push_cast; rfl⟩, ?_, ?_, ?_, ?_⟩
  · push_cast; exact mul_pos hk0 hpos
  · show (1 : Int) ≤ 10
    decide
  · have e : d.experiment.generateTestPoints E.points ds = .ok (gridTestPoints ds 20) := rfl
    rw [e, one_grid ds p hds, hpm]
  · intro s hs
    unfold gridAxis at hs
    obtain ⟨j, -, rfl⟩ := List.mem_map.1 hs
    have : (0 : ℚ) < (j : ℚ) + 1 := by positivity
    have h21 : (0 : ℚ) < ((20 : Int) : ℚ) + 1 := by norm_num
    exact div_pos (mul_pos hpos this) h21

/-- **C99 (all models of the single publisher design).** Every trial of the single publisher design
spends between one and nine tenths of the total cost `m`.  If somebody is counted and scipy keeps its
promises, what the trial reports depends only on the model and on how many impressions that pays,
whatever the noise, the privacy budget and the type of the analysis. -/
theorem C99_single_publisher_models (L : Solvers) (E : TrialEnv S OptimisedCurve)
    (hE : E.models = L.modelLib) (hest : EstimatesAsked E) (he : EstimatesSomebody E)
    (hnum : L.number "2.0".toList = some 2) (hG : ∀ x, GammaSolverOk (L.gamma x))
    (hS : SolverOk L.inflated) (ds : DataSet) (p : PublisherData) (hds : ds.data = [p]) (log : Log)
    (hb : Built log p) (hsorted : log.Pairwise (fun a b => a.2 ≤ b.2)) (m : ℚ)
    (hmem : m ∈ log.map (·.2)) (hmax : ∀ e ∈ log, e.2 ≤ m) (hpos : 0 < m) (seed : Int)
    (t : TrialTemplate Nat) (ht : t ∈ singlePublisherTrials seed)
    (name analysisType : String) (draws : Nat) :
    ∃ (k : Nat) (row : Row), 1 ≤ k ∧ k ≤ 9 ∧ t.desc.system.spends = [(k : ℚ) / 10] ∧
      (designOutcome E name ds t analysisType draws).1 = .ok row ∧
      DesignRow E t.desc.strategy (affordable log ((k : ℚ) / 10 * m)) row := by
  unfold singlePublisherTrials at ht
  obtain ⟨mk, hmk, ht⟩ := List.mem_flatMap.1 ht
  obtain ⟨x, hx, ht⟩ := List.mem_flatMap.1 ht
  obtain ⟨eps, -, rfl⟩ := List.mem_map.1 ht
  unfold tenths at hx
  obtain ⟨i, hi, rfl⟩ := List.mem_map.1 hx
  have hi9 := List.mem_range.1 hi
  have htrial := design_trial E ds p hds log hb hsorted m hmem hmax hpos seed mk hmk i eps
  set d := ((singlePublisherTrial seed mk (((i : ℚ) + 1) / 10) eps).update id
    ds.publisherCount).desc with hd
  set c := (((i + 1 : Nat) : ℚ)) / 10 * m with hc
  have hsp : (singlePublisherTrial seed mk (((i : ℚ) + 1) / 10) eps).desc.system.spends =
      [((i + 1 : Nat) : ℚ) / 10] := by
    show [((i : ℚ) + 1) / 10] = _
    push_cast; rfl
  have hfreq : d.experiment.maxFrequency ≤ 1001 := by
    show (10 : Int) ≤ 1001
    decide
  have d1 : d.strategy.singlePub = mk.1 := rfl
  have d2 : d.strategy.singlePubKwargs = mk.2 := rfl
  have t1 : (singlePublisherTrial seed mk (((i : ℚ) + 1) / 10) eps).desc.strategy.singlePub = mk.1 :=
    rfl
  have t2 : (singlePublisherTrial seed mk (((i : ℚ) + 1) / 10) eps).desc.strategy.singlePubKwargs =
    mk.2 := rfl
  have out : ∀ row, (trialOutcome E name ds d analysisType draws).1 = .ok row →
      DesignRow E (singlePublisherTrial seed mk (((i : ℚ) + 1) / 10) eps).desc.strategy
        (affordable log c) row →
      ∃ (k : Nat) (row : Row), 1 ≤ k ∧ k ≤ 9 ∧
        (singlePublisherTrial seed mk (((i : ℚ) + 1) / 10) eps).desc.system.spends = [(k : ℚ) / 10] ∧
        (designOutcome E name ds (singlePublisherTrial seed mk (((i : ℚ) + 1) / 10) eps)
          analysisType draws).1 = .ok row ∧
        DesignRow E (singlePublisherTrial seed mk (((i : ℚ) + 1) / 10) eps).desc.strategy
          (affordable log ((k : ℚ) / 10 * m)) row :=
    fun row h1 h2 => ⟨i + 1, row, by omega, by omega, hsp, h1, h2⟩
  have gammaCase : ∀ e, mk.1 = "gamma_poisson".toList → Multiplier L mk.2 e →
      ∃ row, (trialOutcome E name ds d analysisType draws).1 = .ok row ∧
      DesignRow E (singlePublisherTrial seed mk (((i : ℚ) + 1) / 10) eps).desc.strategy
        (affordable log c) row := by
    intro e h1 h2
    obtain ⟨row, hrow, r1, r2⟩ := C99_gamma_poisson L E hE hest ds d log c _ htrial e (d1.trans h1)
      (by rw [d2]; exact h2) name analysisType draws
    refine ⟨row, hrow, r2, ?_, fun hn _ => r1 (by omega) he (hG _) (fun _ => hfreq), ?_, ?_,
      fun hn => r1 (by omega) he (hG _) (fun _ => hfreq)⟩
    · intro _ h3; rw [t1, h1] at h3; exact absurd h3 (by decide)
    · intro _ h3; rw [t1, h1] at h3; exact absurd h3 (by decide)
    · intro _ h3; rw [t1, h1] at h3; exact absurd h3 (by decide)
  have inflatedCase : ∀ e, mk.1 = "kinflated_gamma_poisson".toList → Multiplier L mk.2 e →
      (mk.2 = [] → e = 1) → (mk.2 ≠ [] → e = 2) →
      ∃ row, (trialOutcome E name ds d analysisType draws).1 = .ok row ∧
      DesignRow E (singlePublisherTrial seed mk (((i : ℚ) + 1) / 10) eps).desc.strategy
        (affordable log c) row := by
    intro e h1 h2 h3 h4
    obtain ⟨row, hrow, r1, r2, r3⟩ := C99_kinflated L E hE hest ds d log c _ htrial e (d1.trans h1)
      (by rw [d2]; exact h2) name analysisType draws
    refine ⟨row, hrow, r2, ?_, ?_, ?_, ?_, ?_⟩
    · intro _ h5; rw [t1, h1] at h5; exact absurd h5 (by decide)
    · intro _ h5; rw [t1, h1] at h5; exact absurd h5 (by decide)
    · intro hn _ h5
      exact r3 hn (h3 h5).le
    · intro hn _ h5
      refine r1 (by omega) ?_ he hS
      rw [hn, h4 h5]
      norm_num
    · intro hn
      refine r1 (by omega) ?_ he hS
      refine lt_of_lt_of_le ?_ (le_max_left _ _)
      exact_mod_cast (by omega : 1 < affordable log c)
  have hmk' := hmk
  simp only [singlePublisherModels, List.mem_cons, List.not_mem_nil, or_false] at hmk'
  have two : Multiplier L [("extrapolation_multiplier".toList, "2.0".toList)] 2 :=
    Or.inr ⟨_, rfl, hnum⟩
  rcases hmk' with h | h | h | h | h
  · have h1 : mk.1 = "goerg".toList := by rw [h]
    have h2 : mk.2 = [] := by rw [h]
    have hgt : GoergTrial E ds d log c (gridAxis m 20) :=
      ⟨htrial.publisher, htrial.sorted, htrial.names, htrial.kwargs, ⟨d1.trans h1, d2.trans h2⟩,
        htrial.spend, htrial.positive, htrial.frequency, htrial.points⟩
    obtain ⟨row, hrow, r1, r2, r3, -⟩ := C99_goerg E hest ds d log c _ hgt name analysisType draws
    refine out row hrow ⟨r2, fun hn _ => r3 hn he, ?_, ?_, ?_, ?_⟩
    · intro _ h3; rw [t1, h1] at h3; exact absurd h3 (by decide)
    · intro _ h3; rw [t1, h1] at h3; exact absurd h3 (by decide)
    · intro _ h3; rw [t1, h1] at h3; exact absurd h3 (by decide)
    · intro hn
      by_cases ha : analysisType = "single_pub"
      · subst ha
        obtain ⟨row', hrow', r1', -⟩ := C99_goerg_single_pub E hest ds d log _ _ hgt name draws
        rw [hrow] at hrow'
        cases hrow'
        exact r1' hn he
      · exact r1 hn ha
  · obtain ⟨row, h1, h2⟩ := gammaCase 1 (by rw [h]) (by rw [h]; exact Or.inl ⟨rfl, rfl⟩)
    exact out row h1 h2
  · obtain ⟨row, h1, h2⟩ := gammaCase 2 (by rw [h]) (by rw [h]; exact two)
    exact out row h1 h2
  · obtain ⟨row, h1, h2⟩ := inflatedCase 1 (by rw [h]) (by rw [h]; exact Or.inl ⟨rfl, rfl⟩)
      (fun _ => rfl) (fun h3 => absurd (by rw [h]) h3)
    exact out row h1 h2
  · obtain ⟨row, h1, h2⟩ := inflatedCase 2 (by rw [h]) (by rw [h]; exact two)
      (fun h3 => by rw [h] at h3; cases h3) (fun _ => rfl)
    exact out row h1 h2

/-! ## Examples -/

/-- Optimizers that do as little as they may. -/
def exSolvers : Solvers where
  gamma := fun _ => { gp := geomTail, start := fun _ _ _ => (1, 1),
                      minimizeFixed := fun _ _ _ x => x,
                      minimize := fun h _ x => (0, max x.1 1, max x.2.1 1, h.sum),
                      threshold := fun n => n / (n + 1) }
  inflated := lazySolver
  qp := fun _ => []
  starts := fun _ _ _ => 0
  orders := fun p _ _ => List.range p
  number := fun v => if v = "2.0".toList then some 2 else none

/-- Trials with these optimizers and a sketch library that always counts seven people. -/
def exModelsEnv : TrialEnv (List Int) OptimisedCurve :=
  { lib := fun _ _ _ => { exLib with estimate := fun _ _ F _ _ _ => List.replicate F.toNat 7 }
    rand := exRand
    models := exSolvers.modelLib
    points := exEnv.points
    text := fracText
    traceback := fun _ => "traceback" }

theorem exSolvers_gamma (x : ℚ) : GammaSolverOk (exSolvers.gamma x) := by
  constructor
  · intro n
    have h1 : (0 : ℚ) < (n : ℚ) + 1 := by positivity
    show (n : ℚ) / (n + 1) ≤ 10 ^ 99
    rw [div_le_iff₀ h1]
    have h2 : (1 : ℚ) ≤ 10 ^ 99 := by norm_num
    nlinarith
  · intro h I y hs
    have h1 := le_max_right y.1 1
    have h2 := le_max_right y.2.1 1
    refine ⟨?_, ?_, ?_, le_rfl⟩
    · show (0 : ℚ) < _
      norm_num
    · show _ ≤ max y.1 1
      linarith
    · show _ ≤ max y.2.1 1
      linarith

/-- A trial with the gamma-Poisson model that looks twice as far. -/
def exGammaTrial : TrialDesc :=
  { exWholeTrial with strategy := { exWholeTrial.strategy with
      singlePub := "gamma_poisson".toList
      singlePubKwargs := [("extrapolation_multiplier".toList, "2.0".toList)] } }

theorem exCurveTrial : CurveTrial exModelsEnv exSortedOne exGammaTrial
    [(7, 1), (8, 2), (7, 2), (9, 5)] 5 [5/4, 5/2, 15/4] where
  publisher := ⟨exSortedPub, rfl, "a", "", by decide +kernel⟩
  sorted := by decide +kernel
  names := ⟨Or.inr rfl, Or.inr (Or.inl rfl), Or.inr (Or.inr rfl)⟩
  kwargs := rfl
  spend := ⟨1, [], 5, rfl, by simp, by decide +kernel, by norm_num⟩
  positive := by norm_num
  frequency := by decide
  points := ⟨by decide +kernel, by decide +kernel⟩

theorem exModels_asked : EstimatesAsked exModelsEnv ∧ EstimatesSomebody exModelsEnv := by
  constructor
  · intro x y z a b F B B' s
    simp [exModelsEnv]
  · intro x y z a b F B B' s v hv
    rw [(List.mem_replicate.1 hv).2]; norm_num

/-- All hypotheses of C99 (gamma-Poisson model) hold, and those on scipy of C99 (k-inflated model) and
of the theorem on the single publisher design. -/
example : exModelsEnv.models = exSolvers.modelLib ∧ EstimatesAsked exModelsEnv ∧
    EstimatesSomebody exModelsEnv ∧ CurveTrial exModelsEnv exSortedOne exGammaTrial
      [(7, 1), (8, 2), (7, 2), (9, 5)] 5 [5/4, 5/2, 15/4] ∧
    Multiplier exSolvers exGammaTrial.strategy.singlePubKwargs 2 ∧
    affordable [(7, 1), (8, 2), (7, 2), (9, 5)] 5 = 4 ∧ (∀ x, GammaSolverOk (exSolvers.gamma x)) ∧
    SolverOk exSolvers.inflated ∧ exSolvers.number "2.0".toList = some 2 :=
  ⟨rfl, exModels_asked.1, exModels_asked.2, exCurveTrial, Or.inr ⟨_, rfl, by decide⟩,
    by decide +kernel, exSolvers_gamma, lazySolver_ok, by decide⟩

/-- So this trial succeeds. -/
example : ∃ row, (trialOutcome exModelsEnv "one" exSortedOne exGammaTrial "single_pub" 0).1 = .ok row ∧
    HasCell row "model_succeeded" (.int 1) := by
  obtain ⟨row, h1, h2, -⟩ := C99_gamma_poisson exSolvers exModelsEnv rfl exModels_asked.1 exSortedOne
    exGammaTrial _ 5 _ exCurveTrial 2 rfl (Or.inr ⟨_, rfl, by decide⟩) "one" "single_pub" 0
  exact ⟨row, h1, h2 (by decide +kernel) exModels_asked.2 (exSolvers_gamma _) (fun _ => by decide)⟩

/-- The k-inflated model divides by zero if one impression is bought with one fifth of the cost. -/
example : (trialOutcome exModelsEnv "one" exSortedOne { exWholeTrial with
      strategy := { exWholeTrial.strategy with singlePub := "kinflated_gamma_poisson".toList }
      system := { exWholeTrial.system with spends := [1/5] } } "" 0).1.map
    (fun row => row.lookup "model_succeeded") = .ok (some (.int 0)) ∧
    affordable [(7, 1), (8, 2), (7, 2), (9, 5)] (1/5 * 5) = 1 := by decide +kernel

end Verif
