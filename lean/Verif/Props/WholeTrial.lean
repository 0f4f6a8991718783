import Verif.Model.WholeTrial
import Verif.Props.Designs
import Verif.Props.Halo
import Verif.Props.Noiseless
import Verif.Props.Planner
import Verif.Props.Strategy
import Verif.Props.TestPoints
import Verif.Props.TrialRow

/-!
# C97: which trials yield a row

A trial yields a row of results or stops the whole evaluation with an exception, depending only on
the names and keyword arguments of its strategy and on the number of spend fractions.
-/

namespace Verif

variable {S C : Type}

/-! ## Registered names -/

/-- The three names of a strategy are registered. -/
def RegisteredNames (d : StrategyDescriptor) : Prop :=
  (d.strategy = "m3strategy".toList ∨ d.strategy = "single_publisher".toList) ∧
  (d.singlePub = "goerg".toList ∨ d.singlePub = "gamma_poisson".toList ∨
    d.singlePub = "kinflated_gamma_poisson".toList) ∧
  (d.multiPub = "pairwise_union".toList ∨ d.multiPub = "restricted_pairwise_union".toList ∨
    d.multiPub = "none".toList)

/-- The only keyword argument of a strategy is `use_ground_truth_for_reach_curves`, and only for
`m3strategy`. -/
def KnownStrategyKwargs (d : StrategyDescriptor) : Prop :=
  ∀ kv ∈ d.strategyKwargs, d.strategy = "m3strategy".toList ∧
    kv.1 = "use_ground_truth_for_reach_curves".toList

theorem dictLookup_error {κ ν : Type} [DecidableEq κ] (d : Dict κ ν) (k : κ)
    (h : ∀ kv ∈ d, kv.1 ≠ k) : dictLookup d k = .error .keyError := by
  induction d with
  | nil => rfl
  | cons kv d ih =>
    unfold dictLookup
    rw [if_neg (h kv (by simp))]
    exact ih (fun x hx => h x (by simp [hx]))

theorem acceptsKwargs_iff (names : List Text) (kwargs : Kwargs) :
    acceptsKwargs names kwargs = true ↔ ∀ kv ∈ kwargs, kv.1 ∈ names := by
  simp [acceptsKwargs]

/-- The registered strategies, with what the class says about the name. -/
theorem modelingStrategies_ok (n : Text) (h : n = "m3strategy".toList ∨ n = "single_publisher".toList) :
    ∃ c, dictLookup modelingStrategies n = .ok c ∧ (c = .m3 ↔ n = "m3strategy".toList) ∧
      (c = .singlePublisher ↔ n = "single_publisher".toList) := by
  rcases h with rfl | rfl
  · exact ⟨.m3, by decide, by decide, by decide⟩
  · exact ⟨.singlePublisher, by decide, by decide, by decide⟩

/-- The registered single publisher models, with what the class says about the name. -/
theorem singlePubModels_ok (n : Text) (h : n = "goerg".toList ∨ n = "gamma_poisson".toList ∨
      n = "kinflated_gamma_poisson".toList) :
    ∃ c, dictLookup singlePubModels n = .ok c ∧ (c = .goerg ↔ n = "goerg".toList) ∧
      (c = .gammaPoisson ↔ n = "gamma_poisson".toList) ∧
      (c = .kInflated ↔ n = "kinflated_gamma_poisson".toList) := by
  rcases h with rfl | rfl | rfl
  · exact ⟨.goerg, by decide, by decide, by decide, by decide⟩
  · exact ⟨.gammaPoisson, by decide, by decide, by decide, by decide⟩
  · exact ⟨.kInflated, by decide, by decide, by decide, by decide⟩

/-- The registered multi publisher models, with what the class says about the name. -/
theorem multiPubModels_ok (n : Text) (h : n = "pairwise_union".toList ∨
      n = "restricted_pairwise_union".toList ∨ n = "none".toList) :
    ∃ c, dictLookup multiPubModels n = .ok c ∧ (c = some .pairwise ↔ n = "pairwise_union".toList) ∧
      (c = some .restricted ↔ n = "restricted_pairwise_union".toList) ∧
      (c = none ↔ n = "none".toList) := by
  rcases h with rfl | rfl | rfl
  · exact ⟨some .pairwise, by decide, by decide, by decide, by decide⟩
  · exact ⟨some .restricted, by decide, by decide, by decide, by decide⟩
  · exact ⟨none, by decide, by decide, by decide, by decide⟩

theorem modelingStrategies_error (n : Text)
    (h : ¬ (n = "m3strategy".toList ∨ n = "single_publisher".toList)) :
    dictLookup modelingStrategies n = .error .keyError := by
  apply dictLookup_error
  intro kv hkv
  simp only [modelingStrategies, List.mem_cons, List.not_mem_nil, or_false] at hkv
  rcases hkv with rfl | rfl
  · exact fun e => h (Or.inl e.symm)
  · exact fun e => h (Or.inr e.symm)

theorem singlePubModels_error (n : Text) (h : ¬ (n = "goerg".toList ∨ n = "gamma_poisson".toList ∨
      n = "kinflated_gamma_poisson".toList)) :
    dictLookup singlePubModels n = .error .keyError := by
  apply dictLookup_error
  intro kv hkv
  simp only [singlePubModels, List.mem_cons, List.not_mem_nil, or_false] at hkv
  rcases hkv with rfl | rfl | rfl
  · exact fun e => h (Or.inl e.symm)
  · exact fun e => h (Or.inr (Or.inl e.symm))
  · exact fun e => h (Or.inr (Or.inr e.symm))

theorem multiPubModels_error (n : Text) (h : ¬ (n = "pairwise_union".toList ∨
      n = "restricted_pairwise_union".toList ∨ n = "none".toList)) :
    dictLookup multiPubModels n = .error .keyError := by
  apply dictLookup_error
  intro kv hkv
  simp only [multiPubModels, List.mem_cons, List.not_mem_nil, or_false] at hkv
  rcases hkv with rfl | rfl | rfl
  · exact fun e => h (Or.inl e.symm)
  · exact fun e => h (Or.inr (Or.inl e.symm))
  · exact fun e => h (Or.inr (Or.inr e.symm))

theorem strategy_keywords (d : StrategyDescriptor) (c : StrategyClass)
    (hc : c = .m3 ↔ d.strategy = "m3strategy".toList) :
    acceptsKwargs c.keywords d.strategyKwargs = true ↔ KnownStrategyKwargs d := by
  rw [acceptsKwargs_iff]
  cases c with
  | m3 =>
    have h := hc.1 rfl
    constructor
    · intro hk kv hkv
      exact ⟨h, List.mem_singleton.1 (hk kv hkv)⟩
    · intro hk kv hkv
      exact List.mem_singleton.2 (hk kv hkv).2
  | singlePublisher =>
    have h : d.strategy ≠ "m3strategy".toList := fun h => by cases hc.2 h
    constructor
    · intro hk kv hkv
      exact absurd (hk kv hkv) List.not_mem_nil
    · intro hk kv hkv
      exact absurd (hk kv hkv).1 h

theorem useGroundTruth_value (kw : Kwargs) (b : Bool)
    (hb : b = match kw.lookup "use_ground_truth_for_reach_curves".toList with
        | some v => truthyText v
        | none => false) :
    (kw = [] → b = false) ∧
    (∀ v, kw = [("use_ground_truth_for_reach_curves".toList, v)] →
      (v = "True".toList → b = true) ∧ (v = "False".toList → b = false)) := by
  subst hb
  refine ⟨fun h => by rw [h]; rfl, fun v h => ⟨?_, ?_⟩⟩ <;> rintro rfl <;> rw [h] <;> decide

/-- **C97 (strategies).** A strategy can be built exactly if its three names are registered (otherwise
a `KeyError`) and its keyword arguments are known (otherwise a `TypeError`); keyword arguments of the
models are not looked at.  The object uses ground truth curves only if the keyword argument says so. -/
theorem C97_instantiate (d : StrategyDescriptor) :
    (¬ RegisteredNames d → d.instantiate = .error .keyError) ∧
    (RegisteredNames d → ¬ KnownStrategyKwargs d → d.instantiate = .error .typeError) ∧
    (RegisteredNames d → KnownStrategyKwargs d → ∃ o, d.instantiate = .ok o ∧
      (o.cls = .m3 ↔ d.strategy = "m3strategy".toList) ∧
      (o.cls = .singlePublisher ↔ d.strategy = "single_publisher".toList) ∧
      (o.single = .goerg ↔ d.singlePub = "goerg".toList) ∧
      (o.single = .gammaPoisson ↔ d.singlePub = "gamma_poisson".toList) ∧
      (o.single = .kInflated ↔ d.singlePub = "kinflated_gamma_poisson".toList) ∧
      (o.multi = some .pairwise ↔ d.multiPub = "pairwise_union".toList) ∧
      (o.multi = some .restricted ↔ d.multiPub = "restricted_pairwise_union".toList) ∧
      (o.multi = none ↔ d.multiPub = "none".toList) ∧
      o.singleKwargs = d.singlePubKwargs ∧ o.multiKwargs = d.multiPubKwargs ∧
      (d.strategyKwargs = [] → o.useGroundTruth = false) ∧
      (∀ v, d.strategyKwargs = [("use_ground_truth_for_reach_curves".toList, v)] →
        (v = "True".toList → o.useGroundTruth = true) ∧
        (v = "False".toList → o.useGroundTruth = false))) := by
  refine ⟨?_, ?_, ?_⟩
  · intro hreg
    unfold StrategyDescriptor.instantiate
    by_cases r1 : d.strategy = "m3strategy".toList ∨ d.strategy = "single_publisher".toList
    swap
    · rw [modelingStrategies_error _ r1]; rfl
    obtain ⟨c, hc, _⟩ := modelingStrategies_ok _ r1
    by_cases r2 : d.singlePub = "goerg".toList ∨ d.singlePub = "gamma_poisson".toList ∨
        d.singlePub = "kinflated_gamma_poisson".toList
    swap
    · rw [hc, singlePubModels_error _ r2]; rfl
    obtain ⟨m, hm, _⟩ := singlePubModels_ok _ r2
    by_cases r3 : d.multiPub = "pairwise_union".toList ∨
        d.multiPub = "restricted_pairwise_union".toList ∨ d.multiPub = "none".toList
    swap
    · rw [hc, hm, multiPubModels_error _ r3]; rfl
    exact absurd ⟨r1, r2, r3⟩ hreg
  · rintro ⟨r1, r2, r3⟩ hk
    obtain ⟨c, hc, c1, _⟩ := modelingStrategies_ok _ r1
    obtain ⟨m, hm, _⟩ := singlePubModels_ok _ r2
    obtain ⟨u, hu, _⟩ := multiPubModels_ok _ r3
    unfold StrategyDescriptor.instantiate
    simp only [hc, hm, hu, bind, Except.bind]
    rw [if_neg]
    rw [strategy_keywords d c c1]
    exact hk
  · rintro ⟨r1, r2, r3⟩ hk
    obtain ⟨c, hc, c1, c2⟩ := modelingStrategies_ok _ r1
    obtain ⟨m, hm, m1, m2, m3⟩ := singlePubModels_ok _ r2
    obtain ⟨u, hu, u1, u2, u3⟩ := multiPubModels_ok _ r3
    unfold StrategyDescriptor.instantiate
    simp only [hc, hm, hu, bind, Except.bind]
    rw [if_pos ((strategy_keywords d c c1).2 hk)]
    exact ⟨_, rfl, c1, c2, m1, m2, m3, u1, u2, u3, rfl, rfl, useGroundTruth_value _ _ rfl⟩

/-! ## Halo -/

theorem publisher_new_error (pd : PublisherData) (i : Nat) (fs : List ℚ) (h : fs.length ≤ i) :
    Publisher.new pd i fs = .error .indexError := by
  unfold Publisher.new
  rw [pyIndex_ge _ _ h]; rfl

theorem publisher_new_ok (pd : PublisherData) (i : Nat) (fs : List ℚ) (h : i < fs.length) :
    Publisher.new pd i fs = .ok ⟨pd, fs[i] * pd.maxSpend⟩ := by
  unfold Publisher.new
  rw [pyIndex_nat _ _ h]; rfl

/-- Halo needs a spend fraction for every publisher. -/
theorem halo_new (ds : DataSet) (fs : List ℚ) (lib : SketchLib S) (rand : RandomLib) :
    (ds.data.length ≤ fs.length → ∃ h, HaloSimulator.new ds fs lib rand = .ok h) ∧
    (fs.length < ds.data.length → HaloSimulator.new ds fs lib rand = .error .indexError) := by
  constructor
  · intro hl
    unfold HaloSimulator.new
    have : ∀ (l : List PublisherData) (n : Nat), n + l.length ≤ fs.length →
        ∃ ps, (l.zipIdx n).mapM (fun pi => Publisher.new pi.1 pi.2 fs) = .ok ps := by
      intro l
      induction l with
      | nil => intro n _; exact ⟨[], rfl⟩
      | cons p l ih =>
        intro n hn
        simp only [List.length_cons] at hn
        obtain ⟨ps, hps⟩ := ih (n + 1) (by omega)
        simp only [List.zipIdx_cons, List.mapM_cons, publisher_new_ok p n fs (by omega), hps,
          bind, Except.bind, pure, Except.pure]
        exact ⟨_, rfl⟩
    obtain ⟨ps, hps⟩ := this ds.data 0 (by omega)
    simp only [hps, bind, Except.bind, pure, Except.pure]
    exact ⟨_, rfl⟩
  · intro hl
    unfold HaloSimulator.new
    have : (ds.data.zipIdx).mapM (fun pi => Publisher.new pi.1 pi.2 fs) = .error .indexError := by
      apply mapM_error_of
      · rintro ⟨p, i⟩ _
        by_cases hi : i < fs.length
        · exact Or.inl ⟨_, publisher_new_ok p i fs hi⟩
        · exact Or.inr (publisher_new_error p i fs (by omega))
      · refine ⟨(ds.data[fs.length], fs.length), ?_, publisher_new_error _ _ _ le_rfl⟩
        rw [List.mem_zipIdx_iff_getElem?]
        exact List.getElem?_eq_getElem hl
    rw [this]; rfl

/-! ## Rows -/

/-- **C97 (rows).** A trial returns a row exactly if there is a publisher, there is a spend fraction
for every publisher, the names of its strategy are registered and the keyword arguments of the
strategy are known.  Everything else that may go wrong (noise, fitting, test points, metrics) is
reported within the row. -/
theorem C97_returns_row (E : TrialEnv S C) (name : String) (ds : DataSet) (d : TrialDesc)
    (analysisType : String) (draws : Nat) :
    (∃ row, (trialOutcome E name ds d analysisType draws).1 = .ok row) ↔
      1 ≤ ds.data.length ∧ ds.data.length ≤ d.system.spends.length ∧
      RegisteredNames d.strategy ∧ KnownStrategyKwargs d.strategy := by
  obtain ⟨i1, i2, i3⟩ := C97_instantiate d.strategy
  obtain ⟨n1, n2⟩ := halo_new ds d.system.spends
    (E.lib d.system.decayRate d.system.sketchSize d.system.randomSeed) E.rand
  by_cases hl : ds.data.length ≤ d.system.spends.length
  swap
  · constructor
    · rintro ⟨row, h⟩
      unfold trialOutcome at h
      rw [n2 (by omega)] at h
      cases h
    · rintro ⟨_, h, _⟩; exact absurd h hl
  obtain ⟨h, hh⟩ := n1 hl
  by_cases hr : RegisteredNames d.strategy
  swap
  · constructor
    · rintro ⟨row, hrow⟩
      unfold trialOutcome at hrow
      rw [hh, i1 hr] at hrow
      cases hrow
    · rintro ⟨_, _, h, _⟩; exact absurd h hr
  by_cases hk : KnownStrategyKwargs d.strategy
  swap
  · constructor
    · rintro ⟨row, hrow⟩
      unfold trialOutcome at hrow
      rw [hh, i2 hr hk] at hrow
      cases hrow
    · rintro ⟨_, _, _, h⟩; exact absurd h hk
  obtain ⟨o, ho, _⟩ := i3 hr hk
  unfold trialOutcome
  rw [hh, ho]
  simp only
  rw [C69_returns]
  simp only [trialInputs, ne_eq, List.map_eq_nil_iff, hl, hr, hk, and_true]
  rw [Nat.one_le_iff_ne_zero, ne_eq, List.length_eq_zero_iff]

/-- **C97 (refusals).** Which exception leaves a trial that returns no row: an `IndexError` if there
are too few spend fractions, then a `KeyError` for names that are not registered, then a `TypeError`
for unknown keyword arguments of the strategy, then a `ValueError` for a data set without publishers.
In the first three cases no random number has been drawn. -/
theorem C97_refusals (E : TrialEnv S C) (name : String) (ds : DataSet) (d : TrialDesc)
    (analysisType : String) (draws : Nat) :
    (d.system.spends.length < ds.data.length →
      trialOutcome E name ds d analysisType draws = (.error .indexError, draws)) ∧
    (ds.data.length ≤ d.system.spends.length → ¬ RegisteredNames d.strategy →
      trialOutcome E name ds d analysisType draws = (.error .keyError, draws)) ∧
    (ds.data.length ≤ d.system.spends.length → RegisteredNames d.strategy →
      ¬ KnownStrategyKwargs d.strategy →
      trialOutcome E name ds d analysisType draws = (.error .typeError, draws)) ∧
    (ds.data = [] → RegisteredNames d.strategy → KnownStrategyKwargs d.strategy →
      (trialOutcome E name ds d analysisType draws).1 = .error .valueError) := by
  obtain ⟨i1, i2, i3⟩ := C97_instantiate d.strategy
  obtain ⟨n1, n2⟩ := halo_new ds d.system.spends
    (E.lib d.system.decayRate d.system.sketchSize d.system.randomSeed) E.rand
  refine ⟨?_, ?_, ?_, ?_⟩
  · intro hl
    unfold trialOutcome
    rw [n2 hl]
  · intro hl hr
    obtain ⟨h, hh⟩ := n1 hl
    unfold trialOutcome
    rw [hh, i1 hr]
  · intro hl hr hk
    obtain ⟨h, hh⟩ := n1 hl
    unfold trialOutcome
    rw [hh, i2 hr hk]
  · intro he hr hk
    obtain ⟨h, hh⟩ := n1 (by rw [he]; simp)
    obtain ⟨o, ho, _⟩ := i3 hr hk
    unfold trialOutcome
    rw [hh, ho]
    simp [trialRow, independentVars, trialInputs, he, pyMaxInt, bind, Except.bind]

/-! ## Shipped designs -/

/-- The trials of the four shipped experimental designs, for any seed.  Samples of a latin hypercube
lie in `[0, 1)`. -/
inductive ShippedTrial : TrialTemplate Nat → Prop where
  | firstRound (seed : Int) (t : TrialTemplate Nat) (h : t ∈ factorialTrials m3TrialLevels seed) :
    ShippedTrial t
  | analysis (seed : Int) (t : TrialTemplate Nat)
    (h : t ∈ factorialTrials analysisTrialLevels seed) : ShippedTrial t
  | singlePublisher (seed : Int) (t : TrialTemplate Nat) (h : t ∈ singlePublisherTrials seed) :
    ShippedTrial t
  | sample (seed : Int) (samples : List (Fin 7 → ℚ)) (hs : ∀ s ∈ samples, ∀ k, 0 ≤ s k ∧ s k < 1)
    (ts : List (TrialTemplate Nat)) (hts : sampleTrials sampleLevels seed samples = .ok ts)
    (t : TrialTemplate Nat) (h : t ∈ ts) : ShippedTrial t

/-- A trial of a factorial design yields a row on every data set with a publisher, if all its
strategies can be built and its generators make a spend fraction for every publisher. -/
theorem factorial_returns (E : TrialEnv S C) (L : TrialLevels Nat) (seed : Int)
    (hst : ∀ m ∈ L.strategies, RegisteredNames m ∧ KnownStrategyKwargs m)
    (hsp : ∀ g ∈ L.spends, ∀ n, n ≤ (g n).length) (t : TrialTemplate Nat)
    (ht : t ∈ factorialTrials L seed) (name : String) (ds : DataSet) (analysisType : String)
    (draws : Nat) (hne : ds.data ≠ []) :
    ∃ row, (designOutcome E name ds t analysisType draws).1 = .ok row := by
  rw [C80_trials] at ht
  obtain ⟨h1, ⟨g, hg, hgt⟩, -⟩ := ht
  unfold designOutcome
  rw [C97_returns_row]
  refine ⟨?_, ?_, hst _ h1⟩
  · exact List.length_pos_of_ne_nil hne
  · simp only [TrialTemplate.update, hgt]
    exact hsp g hg ds.publisherCount

theorem mem_singlePublisherTrials (seed : Int) (t : TrialTemplate Nat)
    (h : t ∈ singlePublisherTrials seed) :
    ∃ m ∈ singlePublisherModels, ∃ x ∈ tenths, ∃ eps ∈ ([1/20, 1/10, 3/20, 1/5, 100] : List ℚ),
      t = singlePublisherTrial seed m x eps := by
  unfold singlePublisherTrials at h
  simp only [List.mem_flatMap, List.mem_map] at h
  obtain ⟨m, hm, x, hx, eps, he, rfl⟩ := h
  exact ⟨m, hm, x, hx, eps, he, rfl⟩

theorem singlePublisher_runnable (seed : Int) (t : TrialTemplate Nat)
    (h : t ∈ singlePublisherTrials seed) (n : Nat) :
    RegisteredNames (t.update id n).desc.strategy ∧
    KnownStrategyKwargs (t.update id n).desc.strategy ∧
    (t.update id n).desc.system.spends.length = 1 := by
  obtain ⟨m, hm, x, -, eps, -, rfl⟩ := mem_singlePublisherTrials seed t h
  have hst : ((singlePublisherTrial seed m x eps).update id n).desc.strategy =
      ⟨"single_publisher".toList, [], m.1, m.2, "none".toList, []⟩ := rfl
  rw [hst]
  have hm' : m.1 = "goerg".toList ∨ m.1 = "gamma_poisson".toList ∨
      m.1 = "kinflated_gamma_poisson".toList := by
    simp only [singlePublisherModels, List.mem_cons, List.not_mem_nil, or_false] at hm
    rcases hm with h | h | h | h | h <;> rw [h]
    · exact Or.inl rfl
    · exact Or.inr (Or.inl rfl)
    · exact Or.inr (Or.inl rfl)
    · exact Or.inr (Or.inr rfl)
    · exact Or.inr (Or.inr rfl)
  refine ⟨⟨Or.inr rfl, hm', Or.inr (Or.inr rfl)⟩, ?_, ?_⟩
  · intro kv hkv
    exact absurd hkv List.not_mem_nil
  · have hsp : ((singlePublisherTrial seed m x eps).update id n).desc.system.spends = [x] := rfl
    rw [hsp]
    exact List.length_singleton

theorem pickLevel_mem {α : Type} (levels : List α) (u : ℚ) (h0 : 0 ≤ u) (x : α)
    (h : pickLevel levels u = .ok x) : x ∈ levels := by
  obtain ⟨j, hj, -⟩ := (pickLevel_ok_iff levels u h0 x).1 h
  exact List.mem_of_getElem? hj

/-- The trials of a sampled design have levels from the lists. -/
theorem sampleTrial_ok (L : SampleLevels) (seed : Int) (sample : Fin 7 → ℚ)
    (hs : ∀ k, 0 ≤ sample k) (t : TrialTemplate Nat) (h : sampleTrial L seed sample = .ok t) :
    t.spendsGenerator = none ∧ t.desc.strategy ∈ L.strategies ∧ t.desc.system.spends ∈ L.spends ∧
    (t.desc.system.decayRate, t.desc.system.sketchSize) ∈ L.liquidLegions ∧
    t.desc.system.randomSeed = 1 ∧ t.desc.system.generatorSeed = seed ∧
    t.desc.experiment.budget ∈ L.budgets ∧ t.desc.experiment.replicaId ∈ L.replicas ∧
    t.desc.experiment.maxFrequency ∈ L.maxFrequencies ∧
    (t.desc.experiment.testPointStrategy, t.desc.experiment.testPointKwargs) ∈ L.testPoints := by
  unfold sampleTrial at h
  rcases h0 : pickLevel L.strategies (sample 0) with e | m
  · rw [h0] at h; cases h
  rcases h1 : pickLevel L.spends (sample 1) with e | s
  · rw [h0, h1] at h; cases h
  rcases h2 : pickLevel L.liquidLegions (sample 2) with e | l
  · rw [h0, h1, h2] at h; cases h
  rcases h3 : pickLevel L.budgets (sample 3) with e | b
  · rw [h0, h1, h2, h3] at h; cases h
  rcases h4 : pickLevel L.replicas (sample 4) with e | r
  · rw [h0, h1, h2, h3, h4] at h; cases h
  rcases h5 : pickLevel L.maxFrequencies (sample 5) with e | f
  · rw [h0, h1, h2, h3, h4, h5] at h; cases h
  rcases h6 : pickLevel L.testPoints (sample 6) with e | p
  · rw [h0, h1, h2, h3, h4, h5, h6] at h; cases h
  simp only [h0, h1, h2, h3, h4, h5, h6, bind, Except.bind, pure, Except.pure,
    Except.ok.injEq] at h
  subst h
  exact ⟨rfl, pickLevel_mem _ _ (hs 0) _ h0, pickLevel_mem _ _ (hs 1) _ h1,
    pickLevel_mem _ _ (hs 2) _ h2, rfl, rfl, pickLevel_mem _ _ (hs 3) _ h3,
    pickLevel_mem _ _ (hs 4) _ h4, pickLevel_mem _ _ (hs 5) _ h5, pickLevel_mem _ _ (hs 6) _ h6⟩

/-- **C97 (sampled design).** For samples in `[0, 1)` the sampled design has as many trials as samples
(no `IndexError`), and each parameter is the level whose interval contains the sample. -/
theorem C97_sampled (L : SampleLevels) (seed : Int) (samples : List (Fin 7 → ℚ))
    (hs : ∀ s ∈ samples, ∀ k, 0 ≤ s k ∧ s k < 1) (h0 : L.strategies ≠ []) (h1 : L.spends ≠ [])
    (h2 : L.liquidLegions ≠ []) (h3 : L.budgets ≠ []) (h4 : L.replicas ≠ [])
    (h5 : L.maxFrequencies ≠ []) (h6 : L.testPoints ≠ []) :
    ∃ ts, sampleTrials L seed samples = .ok ts ∧ ts.length = samples.length ∧
      List.Forall₂ (fun s (t : TrialTemplate Nat) =>
        t.spendsGenerator = none ∧ LevelFor L.strategies (s 0) t.desc.strategy ∧
        LevelFor L.spends (s 1) t.desc.system.spends ∧
        LevelFor L.liquidLegions (s 2) (t.desc.system.decayRate, t.desc.system.sketchSize) ∧
        t.desc.system.randomSeed = 1 ∧ t.desc.system.generatorSeed = seed ∧
        LevelFor L.budgets (s 3) t.desc.experiment.budget ∧
        LevelFor L.replicas (s 4) t.desc.experiment.replicaId ∧
        LevelFor L.maxFrequencies (s 5) t.desc.experiment.maxFrequency ∧
        LevelFor L.testPoints (s 6)
          (t.desc.experiment.testPointStrategy, t.desc.experiment.testPointKwargs))
        samples ts := by
  have key : ∀ s ∈ samples, ∃ t, sampleTrial L seed s = .ok t ∧
      t.spendsGenerator = none ∧ LevelFor L.strategies (s 0) t.desc.strategy ∧
        LevelFor L.spends (s 1) t.desc.system.spends ∧
        LevelFor L.liquidLegions (s 2) (t.desc.system.decayRate, t.desc.system.sketchSize) ∧
        t.desc.system.randomSeed = 1 ∧ t.desc.system.generatorSeed = seed ∧
        LevelFor L.budgets (s 3) t.desc.experiment.budget ∧
        LevelFor L.replicas (s 4) t.desc.experiment.replicaId ∧
        LevelFor L.maxFrequencies (s 5) t.desc.experiment.maxFrequency ∧
        LevelFor L.testPoints (s 6)
          (t.desc.experiment.testPointStrategy, t.desc.experiment.testPointKwargs) := by
    intro s hsm
    have hk := hs s hsm
    obtain ⟨⟨m, e0⟩, l0⟩ := C79_pick L.strategies h0 (s 0) (hk 0).1 (hk 0).2
    obtain ⟨⟨sp, e1⟩, l1⟩ := C79_pick L.spends h1 (s 1) (hk 1).1 (hk 1).2
    obtain ⟨⟨l, e2⟩, l2⟩ := C79_pick L.liquidLegions h2 (s 2) (hk 2).1 (hk 2).2
    obtain ⟨⟨b, e3⟩, l3⟩ := C79_pick L.budgets h3 (s 3) (hk 3).1 (hk 3).2
    obtain ⟨⟨r, e4⟩, l4⟩ := C79_pick L.replicas h4 (s 4) (hk 4).1 (hk 4).2
    obtain ⟨⟨f, e5⟩, l5⟩ := C79_pick L.maxFrequencies h5 (s 5) (hk 5).1 (hk 5).2
    obtain ⟨⟨p, e6⟩, l6⟩ := C79_pick L.testPoints h6 (s 6) (hk 6).1 (hk 6).2
    refine ⟨⟨⟨m, ⟨sp, l.1, l.2, 1, seed⟩, ⟨b, r, f, p.1, p.2⟩⟩, none⟩, ?_, rfl, (l0 _).1 e0,
      (l1 _).1 e1, (l2 _).1 e2, rfl, rfl, (l3 _).1 e3, (l4 _).1 e4, (l5 _).1 e5, (l6 _).1 e6⟩
    simp only [sampleTrial, e0, e1, e2, e3, e4, e5, e6, bind, Except.bind, pure, Except.pure]
  clear hs
  unfold sampleTrials
  induction samples with
  | nil => exact ⟨[], rfl, rfl, .nil⟩
  | cons s samples ih =>
    obtain ⟨t, ht, hp⟩ := key s (by simp)
    obtain ⟨ts, hts, hl, hF⟩ := ih (fun s' hs' => key s' (by simp [hs']))
    refine ⟨t :: ts, ?_, by simp [hl], .cons hp hF⟩
    simp only [List.mapM_cons, ht, hts, bind, Except.bind, pure, Except.pure]

theorem forall₂_exists_left {α β : Type} {R : α → β → Prop} {l : List α} {l' : List β}
    (h : List.Forall₂ R l l') (b : β) (hb : b ∈ l') : ∃ a ∈ l, R a b := by
  induction h with
  | nil => cases hb
  | cons hr _ ih =>
    rcases List.mem_cons.1 hb with rfl | hb
    · exact ⟨_, by simp, hr⟩
    · obtain ⟨a, ha, hab⟩ := ih hb
      exact ⟨a, by simp [ha], hab⟩

theorem sample_runnable (seed : Int) (samples : List (Fin 7 → ℚ))
    (hs : ∀ s ∈ samples, ∀ k, 0 ≤ s k ∧ s k < 1) (ts : List (TrialTemplate Nat))
    (hts : sampleTrials sampleLevels seed samples = .ok ts) (t : TrialTemplate Nat) (ht : t ∈ ts)
    (n : Nat) :
    RegisteredNames (t.update id n).desc.strategy ∧
    KnownStrategyKwargs (t.update id n).desc.strategy ∧
    (t.update id n).desc.system.spends.length = 2 := by
  unfold sampleTrials at hts
  rw [mapM_ok_iff] at hts
  obtain ⟨s, hsm, hst⟩ := forall₂_exists_left hts t ht
  obtain ⟨hg, hm, hsp, -⟩ := sampleTrial_ok sampleLevels seed s (fun k => (hs s hsm k).1) t hst
  simp only [TrialTemplate.update, hg]
  refine ⟨?_, ?_, ?_⟩
  · simp only [sampleLevels, List.mem_cons, List.not_mem_nil, or_false] at hm
    rcases hm with h | h <;> rw [h] <;> exact ⟨Or.inl rfl, by simp, by simp⟩
  · simp only [sampleLevels, List.mem_cons, List.not_mem_nil, or_false] at hm
    rcases hm with h | h <;> rw [h] <;> intro kv hkv <;> simp at hkv
  · simp only [sampleLevels, List.mem_flatMap, List.mem_map] at hsp
    obtain ⟨a, -, b, -, h⟩ := hsp
    rw [← h]; rfl

/-- **C97 (full statement).** Every trial of the shipped designs yields a row on every data set that
has a publisher. -/
def C97_shipped_full (E : TrialEnv S C) : Prop :=
  ∀ t, ShippedTrial t → ∀ (name : String) (ds : DataSet) (analysisType : String) (draws : Nat),
    ds.data ≠ [] → ∃ row, (designOutcome E name ds t analysisType draws).1 = .ok row

/-- **C97 (where the full statement holds).** The trials of the first round design and of the analysis
example yield a row on every data set that has a publisher.  Those of the single publisher design do so
exactly for one publisher, and those of the sampled design exactly for one or two publishers; on
larger data sets they end with an `IndexError`, and no row at all is written for them. -/
theorem C97_shipped_partial (E : TrialEnv S C) (seed : Int) (t : TrialTemplate Nat) (name : String)
    (ds : DataSet) (analysisType : String) (draws : Nat) :
    (t ∈ factorialTrials m3TrialLevels seed ∨ t ∈ factorialTrials analysisTrialLevels seed →
      ds.data ≠ [] → ∃ row, (designOutcome E name ds t analysisType draws).1 = .ok row) ∧
    (t ∈ singlePublisherTrials seed →
      ((∃ row, (designOutcome E name ds t analysisType draws).1 = .ok row) ↔ ds.data.length = 1) ∧
      (2 ≤ ds.data.length →
        (designOutcome E name ds t analysisType draws).1 = .error .indexError)) ∧
    (∀ samples ts, (∀ s ∈ samples, ∀ k, 0 ≤ s k ∧ s k < 1) →
      sampleTrials sampleLevels seed samples = .ok ts → t ∈ ts →
      ((∃ row, (designOutcome E name ds t analysisType draws).1 = .ok row) ↔
        ds.data.length = 1 ∨ ds.data.length = 2) ∧
      (3 ≤ ds.data.length →
        (designOutcome E name ds t analysisType draws).1 = .error .indexError)) := by
  refine ⟨?_, ?_, ?_⟩
  · rintro (ht | ht) hne
    · refine factorial_returns E m3TrialLevels seed ?_ ?_ t ht name ds analysisType draws hne
      · intro m hm
        simp only [m3TrialLevels, List.mem_cons, List.not_mem_nil, or_false] at hm
        rcases hm with rfl | rfl | rfl
        · refine ⟨⟨Or.inl rfl, by simp, by simp⟩, ?_⟩
          intro kv hkv
          simp only [List.mem_singleton] at hkv
          rw [hkv]; exact ⟨rfl, rfl⟩
        · exact ⟨⟨Or.inl rfl, by simp, by simp⟩, by intro kv hkv; simp at hkv⟩
        · exact ⟨⟨Or.inl rfl, by simp, by simp⟩, by intro kv hkv; simp at hkv⟩
      · intro g hg n
        simp only [m3TrialLevels, List.mem_cons, List.not_mem_nil, or_false] at hg
        rcases hg with rfl | rfl <;> simp
    · refine factorial_returns E analysisTrialLevels seed ?_ ?_ t ht name ds analysisType draws hne
      · intro m hm
        simp only [analysisTrialLevels, List.mem_cons, List.not_mem_nil, or_false] at hm
        rcases hm with rfl | rfl
        · exact ⟨⟨Or.inl rfl, by simp, by simp⟩, by intro kv hkv; simp at hkv⟩
        · exact ⟨⟨Or.inl rfl, by simp, by simp⟩, by intro kv hkv; simp at hkv⟩
      · intro g hg n
        simp only [analysisTrialLevels, List.mem_cons, List.not_mem_nil, or_false] at hg
        rcases hg with rfl | rfl <;> simp
  · intro ht
    obtain ⟨h1, h2, h3⟩ := singlePublisher_runnable seed t ht ds.publisherCount
    constructor
    · unfold designOutcome
      rw [C97_returns_row]
      constructor
      · rintro ⟨a, b, _⟩; omega
      · intro h; exact ⟨by omega, by omega, h1, h2⟩
    · intro h
      unfold designOutcome
      rw [(C97_refusals E name ds _ analysisType draws).1 (by omega)]
  · intro samples ts hs hts ht
    obtain ⟨h1, h2, h3⟩ := sample_runnable seed samples hs ts hts t ht ds.publisherCount
    constructor
    · unfold designOutcome
      rw [C97_returns_row]
      constructor
      · rintro ⟨a, b, _⟩; omega
      · intro h; exact ⟨by omega, by omega, h1, h2⟩
    · intro h
      unfold designOutcome
      rw [(C97_refusals E name ds _ analysisType draws).1 (by omega)]

/-- The full statement is false, whatever the libraries: the single publisher design stops on a data
set of two publishers. -/
theorem C97_shipped_full_is_false (E : TrialEnv S C) : ¬ C97_shipped_full E := by
  intro h
  have ht : singlePublisherTrial 1 ("goerg".toList, []) (1/10) (1/20) ∈ singlePublisherTrials 1 := by
    unfold singlePublisherTrials
    simp only [List.mem_flatMap, List.mem_map]
    exact ⟨_, by decide, _, by decide +kernel, _, by decide +kernel, rfl⟩
  obtain ⟨row, hrow⟩ := h _ (.singlePublisher 1 _ ht) "two" exDataSet "" 0 (by decide)
  rw [((C97_shipped_partial E 1 _ "two" exDataSet "" 0).2.1 ht).2 (by decide)] at hrow
  cases hrow

/-! ## What the shipped designs compare -/

theorem factorial_strategies (L : TrialLevels Nat) (seed : Int) (m : StrategyDescriptor)
    (h1 : L.spends ≠ []) (h2 : L.liquidLegions ≠ []) (h3 : L.budgets ≠ []) (h4 : L.replicas ≠ [])
    (h5 : L.maxFrequencies ≠ []) (h6 : L.testPoints ≠ []) :
    (∃ t ∈ factorialTrials L seed, t.desc.strategy = m) ↔ m ∈ L.strategies := by
  constructor
  · rintro ⟨t, ht, rfl⟩
    exact ((C80_trials L seed t).1 ht).1
  · intro hm
    obtain ⟨g, hg⟩ := List.exists_mem_of_ne_nil _ h1
    obtain ⟨l, hl⟩ := List.exists_mem_of_ne_nil _ h2
    obtain ⟨b, hb⟩ := List.exists_mem_of_ne_nil _ h3
    obtain ⟨r, hr⟩ := List.exists_mem_of_ne_nil _ h4
    obtain ⟨f, hf⟩ := List.exists_mem_of_ne_nil _ h5
    obtain ⟨x, hx⟩ := List.exists_mem_of_ne_nil _ h6
    refine ⟨⟨⟨m, ⟨[], l.1, l.2, 1, seed⟩, ⟨b, r, f, x.1, x.2⟩⟩, some g⟩, ?_, rfl⟩
    rw [C80_trials]
    exact ⟨hm, ⟨g, hg, rfl⟩, hl, rfl, rfl, rfl, hb, hr, hf, hx⟩

/-- **C97 (compared strategies).** The first round design compares exactly three ways of fitting: M3
with true reach curves, with Goerg curves and with gamma Poisson curves.  The analysis example compares
the latter two.  The single publisher design compares the three single publisher models, two of them
with and without an extrapolation multiplier. -/
theorem C97_compared (seed : Int) (o : StrategyObject) :
    ((∃ t ∈ factorialTrials m3TrialLevels seed, t.desc.strategy.instantiate = .ok o) ↔
      o.cls = .m3 ∧ o.multi = some .restricted ∧ o.singleKwargs = [] ∧ o.multiKwargs = [] ∧
        (o.single = .goerg ∨ o.single = .gammaPoisson ∧ o.useGroundTruth = false)) ∧
    ((∃ t ∈ factorialTrials analysisTrialLevels seed, t.desc.strategy.instantiate = .ok o) ↔
      o.cls = .m3 ∧ o.multi = some .restricted ∧ o.singleKwargs = [] ∧ o.multiKwargs = [] ∧
        o.useGroundTruth = false ∧ (o.single = .goerg ∨ o.single = .gammaPoisson)) ∧
    ((∃ t ∈ singlePublisherTrials seed, t.desc.strategy.instantiate = .ok o) ↔
      o.cls = .singlePublisher ∧ o.multi = none ∧ o.multiKwargs = [] ∧ o.useGroundTruth = false ∧
        (o.singleKwargs = [] ∨ o.single ≠ .goerg ∧
          o.singleKwargs = [("extrapolation_multiplier".toList, "2.0".toList)])) := by
  have fac : ∀ (L : TrialLevels Nat) (objs : List StrategyObject),
      L.spends ≠ [] → L.liquidLegions ≠ [] → L.budgets ≠ [] → L.replicas ≠ [] →
      L.maxFrequencies ≠ [] → L.testPoints ≠ [] →
      L.strategies.map (·.instantiate) = objs.map Except.ok →
      ((∃ t ∈ factorialTrials L seed, t.desc.strategy.instantiate = .ok o) ↔ o ∈ objs) := by
    intro L objs h1 h2 h3 h4 h5 h6 hL
    have hmem : (Except.ok o : Except PyErr _) ∈ L.strategies.map (·.instantiate) ↔ o ∈ objs := by
      rw [hL]
      simp only [List.mem_map, Except.ok.injEq, exists_eq_right]
    rw [← hmem, List.mem_map]
    constructor
    · rintro ⟨t, ht, h⟩
      exact ⟨_, (factorial_strategies L seed _ h1 h2 h3 h4 h5 h6).1 ⟨t, ht, rfl⟩, h⟩
    · rintro ⟨m, hm, h⟩
      obtain ⟨t, ht, rfl⟩ := (factorial_strategies L seed m h1 h2 h3 h4 h5 h6).2 hm
      exact ⟨t, ht, h⟩
  refine ⟨?_, ?_, ?_⟩
  · rw [fac m3TrialLevels [⟨.m3, .goerg, [], some .restricted, [], true⟩,
      ⟨.m3, .goerg, [], some .restricted, [], false⟩,
      ⟨.m3, .gammaPoisson, [], some .restricted, [], false⟩]
      (List.cons_ne_nil _ _) (List.cons_ne_nil _ _) (List.cons_ne_nil _ _) (List.cons_ne_nil _ _)
      (List.cons_ne_nil _ _) (List.cons_ne_nil _ _) (by decide +kernel)]
    obtain ⟨c, s, sk, m, mk, g⟩ := o
    simp only [List.mem_cons, List.not_mem_nil, or_false, StrategyObject.mk.injEq]
    constructor
    · rintro (⟨rfl, rfl, rfl, rfl, rfl, rfl⟩ | ⟨rfl, rfl, rfl, rfl, rfl, rfl⟩ |
        ⟨rfl, rfl, rfl, rfl, rfl, rfl⟩) <;> simp
    · rintro ⟨rfl, rfl, rfl, rfl, rfl | ⟨rfl, rfl⟩⟩
      · cases g <;> simp
      · simp
  · rw [fac analysisTrialLevels [⟨.m3, .goerg, [], some .restricted, [], false⟩,
      ⟨.m3, .gammaPoisson, [], some .restricted, [], false⟩]
      (List.cons_ne_nil _ _) (List.cons_ne_nil _ _) (List.cons_ne_nil _ _) (List.cons_ne_nil _ _)
      (List.cons_ne_nil _ _) (List.cons_ne_nil _ _) (by decide +kernel)]
    obtain ⟨c, s, sk, m, mk, g⟩ := o
    simp only [List.mem_cons, List.not_mem_nil, or_false, StrategyObject.mk.injEq]
    constructor
    · rintro (⟨rfl, rfl, rfl, rfl, rfl, rfl⟩ | ⟨rfl, rfl, rfl, rfl, rfl, rfl⟩) <;> simp
    · rintro ⟨rfl, rfl, rfl, rfl, rfl, rfl | rfl⟩ <;> simp
  · have hmem : (∃ t ∈ singlePublisherTrials seed, t.desc.strategy.instantiate = .ok o) ↔
        o ∈ ([⟨.singlePublisher, .goerg, [], none, [], false⟩,
          ⟨.singlePublisher, .gammaPoisson, [], none, [], false⟩,
          ⟨.singlePublisher, .gammaPoisson,
            [("extrapolation_multiplier".toList, "2.0".toList)], none, [], false⟩,
          ⟨.singlePublisher, .kInflated, [], none, [], false⟩,
          ⟨.singlePublisher, .kInflated,
            [("extrapolation_multiplier".toList, "2.0".toList)], none, [], false⟩] :
          List StrategyObject) := by
      have hL : singlePublisherModels.map (fun m => StrategyDescriptor.instantiate
          ⟨"single_publisher".toList, [], m.1, m.2, "none".toList, []⟩) =
        ([⟨.singlePublisher, .goerg, [], none, [], false⟩,
          ⟨.singlePublisher, .gammaPoisson, [], none, [], false⟩,
          ⟨.singlePublisher, .gammaPoisson,
            [("extrapolation_multiplier".toList, "2.0".toList)], none, [], false⟩,
          ⟨.singlePublisher, .kInflated, [], none, [], false⟩,
          ⟨.singlePublisher, .kInflated,
            [("extrapolation_multiplier".toList, "2.0".toList)], none, [], false⟩] :
          List StrategyObject).map Except.ok := by decide +kernel
      have h2 : ∀ objs : List StrategyObject, o ∈ objs ↔
          (Except.ok o : Except PyErr _) ∈ objs.map Except.ok := by
        intro objs
        simp only [List.mem_map, Except.ok.injEq, exists_eq_right]
      rw [h2, ← hL, List.mem_map]
      constructor
      · rintro ⟨t, ht, h⟩
        obtain ⟨m, hm, x, -, e, -, rfl⟩ := mem_singlePublisherTrials seed t ht
        exact ⟨m, hm, h⟩
      · rintro ⟨m, hm, h⟩
        refine ⟨singlePublisherTrial seed m (1/10) (1/20), ?_, h⟩
        unfold singlePublisherTrials
        simp only [List.mem_flatMap, List.mem_map]
        exact ⟨m, hm, _, by decide +kernel, _, by decide +kernel, rfl⟩
    rw [hmem]
    obtain ⟨c, s, sk, m, mk, g⟩ := o
    simp only [List.mem_cons, List.not_mem_nil, or_false, StrategyObject.mk.injEq]
    constructor
    · rintro (⟨rfl, rfl, rfl, rfl, rfl, rfl⟩ | ⟨rfl, rfl, rfl, rfl, rfl, rfl⟩ |
        ⟨rfl, rfl, rfl, rfl, rfl, rfl⟩ | ⟨rfl, rfl, rfl, rfl, rfl, rfl⟩ |
        ⟨rfl, rfl, rfl, rfl, rfl, rfl⟩) <;> simp
    · rintro ⟨rfl, rfl, rfl, rfl, rfl | ⟨h, rfl⟩⟩
      · cases s <;> simp
      · cases s
        · exact absurd rfl h
        · simp
        · simp

/-! ## Test points of the shipped designs -/

/-- What the test point generators assume of their random sources on a data set with `n`
publishers. -/
structure GoodPoints (src : PointSource) (n : Nat) : Prop where
  uniform : ∀ i, (src.uniform i).length = n ∧ ∀ x ∈ src.uniform i, 0 ≤ x ∧ x ≤ 1
  lhs : ∀ n s, (src.lhs n s).length = s ∧
    ∀ row ∈ src.lhs n s, row.length = n ∧ ∀ x ∈ row, 0 ≤ x ∧ x ≤ 1
  perm : ∀ i n, (src.perm i n).Perm (List.range n)

theorem parseInt_showNat (n : Nat) : parseInt (showNat n) = some (n : Int) := by
  have := parseInt_showInt (n : Int)
  have hs : showInt (n : Int) = showNat n := by
    unfold showInt
    rw [if_neg (by omega)]; rfl
  rwa [hs] at this

/-- The test points of a trial: how many there are, and that they lie in the box of possible spends. -/
def TestPointsOf (e : ExperimentParams) (src : PointSource) (ds : DataSet) (count : Nat) : Prop :=
  ∃ pts, e.generateTestPoints src ds = .ok pts ∧ pts.length = count ∧ ∀ pt ∈ pts, InBox ds pt

theorem latin_points (e : ExperimentParams) (src : PointSource) (ds : DataSet)
    (he : e.testPointStrategy = "latin_hypercube".toList) (n p m : Int)
    (ha : randomPointArgs e.testPointKwargs = .ok (n, p, m)) (hsrc : GoodPoints src ds.data.length)
    (hnn : ∀ q ∈ ds.data, 0 ≤ q.maxSpend) :
    TestPointsOf e src ds (min (max (max n (p * m)) 100) 2000).toNat := by
  refine ⟨latinTestPoints ds n p m src.lhs src.perm, ?_, ?_, ?_⟩
  · unfold ExperimentParams.generateTestPoints
    rw [if_pos he, ha]; rfl
  · simp only [latinTestPoints, permuteDesign, List.length_map, (hsrc.perm _ _).length_eq,
      List.length_range]
    rfl
  · exact (C51_latin ds n p m src.lhs src.perm hsrc.lhs hsrc.perm hnn).2.2.2

theorem uniform_points (e : ExperimentParams) (src : PointSource) (ds : DataSet)
    (he : e.testPointStrategy = "uniformly_random".toList) (n p m : Int)
    (ha : randomPointArgs e.testPointKwargs = .ok (n, p, m)) (hsrc : GoodPoints src ds.data.length)
    (hnn : ∀ q ∈ ds.data, 0 ≤ q.maxSpend) :
    TestPointsOf e src ds (max n (p * m)).toNat := by
  refine ⟨uniformTestPoints ds n p m src.uniform, ?_, ?_, ?_⟩
  · unfold ExperimentParams.generateTestPoints
    rw [if_neg (by rw [he]; decide), if_pos he, ha]; rfl
  · simp only [uniformTestPoints, List.length_map, List.length_range]
    rfl
  · exact (C51_uniform_partial ds n p m src.uniform hsrc.uniform hnn).2.2.2.1

theorem grid_points (e : ExperimentParams) (src : PointSource) (ds : DataSet)
    (he : e.testPointStrategy = "grid".toList) (g : Nat)
    (ha : gridPointArg e.testPointKwargs = .ok (g : Int)) (hpos : ∀ q ∈ ds.data, 0 < q.maxSpend) :
    TestPointsOf e src ds (g ^ ds.data.length) := by
  obtain ⟨h1, -, h2⟩ := C51_grid ds g hpos
  refine ⟨gridTestPoints ds g, ?_, h1, ?_⟩
  · unfold ExperimentParams.generateTestPoints
    rw [if_neg (by rw [he]; decide), if_neg (by rw [he]; decide), if_pos he, ha]; rfl
  · intro pt hpt
    exact (h2 pt hpt).imp (fun _ _ h => ⟨h.1.le, h.2.le⟩)

/-- **C97 (parameters).** For `n` publishers a trial of the first round design buys a fifth of all
impressions by cost at each publisher, or one, two and three tenths in turn; the analysis example three
fifths, or two and four fifths in turn; the single publisher design one to nine tenths.  Budgets,
sketches, frequencies and replicas are those of the designs. -/
theorem C97_parameters (seed : Int) (t : TrialTemplate Nat) (n : Nat) :
    let d := (t.update id n).desc
    let spends := d.system.spends
    let budget := d.experiment.budget
    (t ∈ factorialTrials m3TrialLevels seed → spends.length = n ∧
      ((∀ i < n, spends.getD i 0 = 1 / 5) ∨
        (∀ i < n, spends.getD i 0 = (((i % 3 : Nat) : ℚ) + 1) / 10)) ∧
      (budget.epsilon = 1 ∨ budget.epsilon = 1 / 10) ∧
      (budget.delta = 1 / 10 ^ 7 ∨ budget.delta = 1 / 10 ^ 9) ∧
      d.system.decayRate = 12 ∧ d.system.sketchSize = 100000 ∧
      (d.experiment.maxFrequency = 5 ∨ d.experiment.maxFrequency = 20) ∧
      1 ≤ d.experiment.replicaId ∧ d.experiment.replicaId ≤ 3) ∧
    (t ∈ factorialTrials analysisTrialLevels seed → spends.length = n ∧
      ((∀ i < n, spends.getD i 0 = 3 / 5) ∨
        (∀ i < n, spends.getD i 0 = (((i % 2 : Nat) : ℚ) + 1) * 2 / 5)) ∧
      (budget.epsilon = 2 ∨ budget.epsilon = 1 / 2) ∧ budget.delta = 1 / 10 ^ 9 ∧
      d.system.decayRate = 10 ∧ d.system.sketchSize = 8000 ∧
      (d.experiment.maxFrequency = 3 ∨ d.experiment.maxFrequency = 6) ∧
      1 ≤ d.experiment.replicaId ∧ d.experiment.replicaId ≤ 3) ∧
    (t ∈ singlePublisherTrials seed →
      (∃ k : Nat, 1 ≤ k ∧ k ≤ 9 ∧ spends = [(k : ℚ) / 10]) ∧
      budget.epsilon ∈ ([1 / 20, 1 / 10, 3 / 20, 1 / 5, 100] : List ℚ) ∧ budget.delta = 1 / 10 ^ 9 ∧
      d.system.decayRate = 10 ∧ d.system.sketchSize = 100000 ∧ d.experiment.maxFrequency = 10 ∧
      d.experiment.replicaId = 1) := by
  intro d spends budget
  refine ⟨?_, ?_, ?_⟩
  · intro ht
    obtain ⟨-, ⟨g, hg, hsg⟩, hl, -, -, -, hb, hr, hf, -⟩ := (C80_trials m3TrialLevels seed t).1 ht
    have hsp : spends = g n := by
      simp only [spends, d, TrialTemplate.update, hsg]
    have hbb : budget ∈ m3TrialLevels.budgets := hb
    simp only [m3TrialLevels, List.mem_cons, List.not_mem_nil, or_false] at hg hl hbb hr hf
    have hlen : spends.length = n ∧ ((∀ i < n, spends.getD i 0 = 1 / 5) ∨
        (∀ i < n, spends.getD i 0 = (((i % 3 : Nat) : ℚ) + 1) / 10)) := by
      rw [hsp]
      rcases hg with rfl | rfl
      · refine ⟨by simp, Or.inl ?_⟩
        intro i hi
        rw [List.getD_eq_getElem _ _ (by simpa using hi)]
        simp
      · refine ⟨by simp, Or.inr ?_⟩
        intro i hi
        rw [List.getD_eq_getElem _ _ (by simpa using hi)]
        simp only [List.getElem_map, List.getElem_range]
        have : i % 3 < 3 := Nat.mod_lt _ (by norm_num)
        generalize i % 3 = j at this
        interval_cases j <;> norm_num
    refine ⟨hlen.1, hlen.2, ?_, ?_, ?_, ?_, hf, ?_, ?_⟩
    · rcases hbb with h | h | h | h <;> rw [h] <;> norm_num
    · rcases hbb with h | h | h | h <;> rw [h] <;> norm_num
    · exact congrArg Prod.fst hl
    · exact congrArg Prod.snd hl
    · show 1 ≤ t.desc.experiment.replicaId
      rcases hr with h | h | h <;> rw [h] <;> norm_num
    · show t.desc.experiment.replicaId ≤ 3
      rcases hr with h | h | h <;> rw [h] <;> norm_num
  · intro ht
    obtain ⟨-, ⟨g, hg, hsg⟩, hl, -, -, -, hb, hr, hf, -⟩ := (C80_trials analysisTrialLevels seed t).1 ht
    have hsp : spends = g n := by
      simp only [spends, d, TrialTemplate.update, hsg]
    have hbb : budget ∈ analysisTrialLevels.budgets := hb
    simp only [analysisTrialLevels, List.mem_cons, List.not_mem_nil, or_false] at hg hl hbb hr hf
    have hlen : spends.length = n ∧ ((∀ i < n, spends.getD i 0 = 3 / 5) ∨
        (∀ i < n, spends.getD i 0 = (((i % 2 : Nat) : ℚ) + 1) * 2 / 5)) := by
      rw [hsp]
      rcases hg with rfl | rfl
      · refine ⟨by simp, Or.inl ?_⟩
        intro i hi
        rw [List.getD_eq_getElem _ _ (by simpa using hi)]
        simp
      · refine ⟨by simp, Or.inr ?_⟩
        intro i hi
        rw [List.getD_eq_getElem _ _ (by simpa using hi)]
        simp only [List.getElem_map, List.getElem_range]
        have : i % 2 < 2 := Nat.mod_lt _ (by norm_num)
        generalize i % 2 = j at this
        interval_cases j <;> norm_num
    refine ⟨hlen.1, hlen.2, ?_, ?_, ?_, ?_, hf, ?_, ?_⟩
    · rcases hbb with h | h <;> rw [h] <;> norm_num
    · rcases hbb with h | h <;> rw [h] <;> norm_num
    · exact congrArg Prod.fst hl
    · exact congrArg Prod.snd hl
    · show 1 ≤ t.desc.experiment.replicaId
      rcases hr with h | h | h <;> rw [h] <;> norm_num
    · show t.desc.experiment.replicaId ≤ 3
      rcases hr with h | h | h <;> rw [h] <;> norm_num
  · intro ht
    unfold singlePublisherTrials at ht
    obtain ⟨mk, -, ht⟩ := List.mem_flatMap.1 ht
    obtain ⟨x, hx, ht⟩ := List.mem_flatMap.1 ht
    obtain ⟨eps, heps, rfl⟩ := List.mem_map.1 ht
    unfold tenths at hx
    obtain ⟨i, hi, rfl⟩ := List.mem_map.1 hx
    have hi9 := List.mem_range.1 hi
    refine ⟨⟨i + 1, by omega, by omega, ?_⟩, heps, ?_, rfl, rfl, rfl, rfl⟩
    · show [((i : ℚ) + 1) / 10] = _
      push_cast; rfl
    · show (1 : ℚ) / 1000000000 = _
      norm_num

/-- **C97 (test points).** On a data set with `n` publishers, each with a positive maximum spend, the
shipped designs use this many test points, all with one coordinate per publisher between zero and
the maximum spend:

* first round: `100 n`, but at most 2000 for the latin hypercube (`n ≥ 1`);
* analysis example: the larger of 100 and `10 n`, but at most 2000 for the latin hypercube;
* single publisher design: `20 ^ n`;
* sampled design: 100, 500 or `5 ^ n`. -/
theorem C97_test_points (src : PointSource) (ds : DataSet) (hsrc : GoodPoints src ds.data.length)
    (hpos : ∀ q ∈ ds.data, 0 < q.maxSpend) (hne : ds.data ≠ []) (seed : Int) (t : TrialTemplate Nat) :
    let e := (t.update id ds.publisherCount).desc.experiment
    let n := ds.data.length
    (t ∈ factorialTrials m3TrialLevels seed →
      (e.testPointStrategy = "latin_hypercube".toList ∧ TestPointsOf e src ds (min (100 * n) 2000)) ∨
      (e.testPointStrategy = "uniformly_random".toList ∧ TestPointsOf e src ds (100 * n))) ∧
    (t ∈ factorialTrials analysisTrialLevels seed →
      (e.testPointStrategy = "latin_hypercube".toList ∧
        TestPointsOf e src ds (min (max 100 (10 * n)) 2000)) ∨
      (e.testPointStrategy = "uniformly_random".toList ∧
        TestPointsOf e src ds (max 100 (10 * n)))) ∧
    (t ∈ singlePublisherTrials seed →
      e.testPointStrategy = "grid".toList ∧ TestPointsOf e src ds (20 ^ n)) ∧
    (∀ samples ts, (∀ s ∈ samples, ∀ k, 0 ≤ s k ∧ s k < 1) →
      sampleTrials sampleLevels seed samples = .ok ts → t ∈ ts →
      (e.testPointStrategy = "latin_hypercube".toList ∧ TestPointsOf e src ds 100) ∨
      (e.testPointStrategy = "uniformly_random".toList ∧ TestPointsOf e src ds 500) ∨
      (e.testPointStrategy = "grid".toList ∧ TestPointsOf e src ds (5 ^ n))) := by
  intro e n
  have hnn : ∀ q ∈ ds.data, 0 ≤ q.maxSpend := fun q hq => (hpos q hq).le
  have hn1 : 1 ≤ n := List.length_pos_of_ne_nil hne
  have hes : e.testPointStrategy = t.desc.experiment.testPointStrategy := rfl
  have hek : e.testPointKwargs = fillPublishers n t.desc.experiment.testPointKwargs := rfl
  have cast1 : ∀ (z : Int) (k : Nat), z = (k : Int) → z.toNat = k := by intro z k h; omega
  refine ⟨?_, ?_, ?_, ?_⟩
  · intro ht
    rw [C80_trials] at ht
    obtain ⟨-, -, -, -, -, -, -, -, -, ht⟩ := ht
    have hargs : t.desc.experiment.testPointKwargs = [("npublishers".toList, "1".toList)] →
        randomPointArgs e.testPointKwargs = .ok (100, (n : Int), 100) := by
      intro h
      rw [hek, h]
      have : fillPublishers n [("npublishers".toList, "1".toList)] =
          [("npublishers".toList, showNat n)] := rfl
      rw [this]
      have hp : kwInt [("npublishers".toList, showNat n)] "npublishers".toList 1 = .ok (n : Int) := by
        have : List.lookup "npublishers".toList [("npublishers".toList, showNat n)] =
            some (showNat n) := rfl
        unfold kwInt
        rw [this]
        simp only [parseInt_showNat]
      unfold randomPointArgs
      rw [if_pos (by rfl), hp]
      rfl
    simp only [m3TrialLevels, List.mem_cons, List.not_mem_nil, or_false, Prod.mk.injEq] at ht
    rcases ht with ⟨h1, h2⟩ | ⟨h1, h2⟩
    · refine Or.inl ⟨hes.trans h1, ?_⟩
      have := latin_points e src ds (hes.trans h1) _ _ _ (hargs h2) hsrc hnn
      rwa [cast1 _ (min (100 * n) 2000) (by push_cast; omega)] at this
    · refine Or.inr ⟨hes.trans h1, ?_⟩
      have := uniform_points e src ds (hes.trans h1) _ _ _ (hargs h2) hsrc hnn
      rwa [cast1 _ (100 * n) (by push_cast; omega)] at this
  · intro ht
    rw [C80_trials] at ht
    obtain ⟨-, -, -, -, -, -, -, -, -, ht⟩ := ht
    have hargs : t.desc.experiment.testPointKwargs = [("npublishers".toList, "1".toList),
          ("minimum_points_per_publisher".toList, "10".toList)] →
        randomPointArgs e.testPointKwargs = .ok (100, (n : Int), 10) := by
      intro h
      rw [hek, h]
      have : fillPublishers n [("npublishers".toList, "1".toList),
            ("minimum_points_per_publisher".toList, "10".toList)] =
          [("npublishers".toList, showNat n),
            ("minimum_points_per_publisher".toList, "10".toList)] := rfl
      rw [this]
      have hp : kwInt [("npublishers".toList, showNat n),
          ("minimum_points_per_publisher".toList, "10".toList)] "npublishers".toList 1 =
          .ok (n : Int) := by
        have : List.lookup "npublishers".toList [("npublishers".toList, showNat n),
            ("minimum_points_per_publisher".toList, "10".toList)] = some (showNat n) := rfl
        unfold kwInt
        rw [this]
        simp only [parseInt_showNat]
      have hm : kwInt [("npublishers".toList, showNat n),
          ("minimum_points_per_publisher".toList, "10".toList)]
          "minimum_points_per_publisher".toList minTestPointsPerPublisher = .ok 10 := by
        have : List.lookup "minimum_points_per_publisher".toList
            [("npublishers".toList, showNat n),
            ("minimum_points_per_publisher".toList, "10".toList)] = some "10".toList := rfl
        unfold kwInt
        rw [this]
        rfl
      unfold randomPointArgs
      rw [if_pos (by rfl), hp, hm]
      rfl
    simp only [analysisTrialLevels, List.mem_cons, List.not_mem_nil, or_false, Prod.mk.injEq] at ht
    rcases ht with ⟨h1, h2⟩ | ⟨h1, h2⟩
    · refine Or.inl ⟨hes.trans h1, ?_⟩
      have := latin_points e src ds (hes.trans h1) _ _ _ (hargs h2) hsrc hnn
      rwa [cast1 _ (min (max 100 (10 * n)) 2000) (by push_cast; omega)] at this
    · refine Or.inr ⟨hes.trans h1, ?_⟩
      have := uniform_points e src ds (hes.trans h1) _ _ _ (hargs h2) hsrc hnn
      rwa [cast1 _ (max 100 (10 * n)) (by push_cast; omega)] at this
  · intro ht
    obtain ⟨m, -, x, -, eps, -, rfl⟩ := mem_singlePublisherTrials seed t ht
    refine ⟨rfl, grid_points e src ds rfl 20 ?_ hpos⟩
    have hk : e.testPointKwargs = [("grid_size".toList, "20".toList)] := rfl
    rw [hk]
    decide
  · intro samples ts hs hts ht
    unfold sampleTrials at hts
    rw [mapM_ok_iff] at hts
    obtain ⟨s, hsm, hst⟩ := forall₂_exists_left hts t ht
    obtain ⟨-, -, -, -, -, -, -, -, -, h⟩ :=
      sampleTrial_ok sampleLevels seed s (fun k => (hs s hsm k).1) t hst
    simp only [sampleLevels, List.mem_cons, List.not_mem_nil, or_false, Prod.mk.injEq] at h
    rcases h with ⟨h1, h2⟩ | ⟨h1, h2⟩ | ⟨h1, h2⟩
    · have hk : e.testPointKwargs = [("npoints".toList, "100".toList)] := by rw [hek, h2]; rfl
      refine Or.inl ⟨hes.trans h1, ?_⟩
      exact latin_points e src ds (hes.trans h1) 100 1 100 (by rw [hk]; decide) hsrc hnn
    · have hk : e.testPointKwargs = [("npoints".toList, "500".toList)] := by rw [hek, h2]; rfl
      refine Or.inr (Or.inl ⟨hes.trans h1, ?_⟩)
      exact uniform_points e src ds (hes.trans h1) 500 1 100 (by rw [hk]; decide) hsrc hnn
    · have hk : e.testPointKwargs = [("grid_size".toList, "5".toList)] := by rw [hek, h2]; rfl
      refine Or.inr (Or.inr ⟨hes.trans h1, ?_⟩)
      exact grid_points e src ds (hes.trans h1) 5 (by rw [hk]; decide) hpos

/-! ## Failures that are reported in the row -/

/-- What a row of a trial is made of. -/
theorem trialOutcome_row (E : TrialEnv S C) (name : String) (ds : DataSet) (d : TrialDesc)
    (analysisType : String) (draws : Nat) (row : Row)
    (hrow : (trialOutcome E name ds d analysisType draws).1 = .ok row) :
    ∃ h o, HaloSimulator.new ds d.system.spends
        (E.lib d.system.decayRate d.system.sketchSize d.system.randomSeed) E.rand = .ok h ∧
      d.strategy.instantiate = .ok o ∧
      trialRow (trialInputs E name ds d analysisType h
        (E.models.fit o h d.experiment.budget ⟨PrivacyTracker.new, draws⟩).1
        (E.models.fit o h d.experiment.budget ⟨PrivacyTracker.new, draws⟩).2.tracker) = .ok row := by
  unfold trialOutcome at hrow
  rcases hh : HaloSimulator.new ds d.system.spends
      (E.lib d.system.decayRate d.system.sketchSize d.system.randomSeed) E.rand with e | h
  · rw [hh] at hrow; cases hrow
  rcases ho : d.strategy.instantiate with e | o
  · rw [hh, ho] at hrow; cases hrow
  rw [hh, ho] at hrow
  exact ⟨h, o, rfl, rfl, hrow⟩

theorem halo_publishers (ds : DataSet) (fs : List ℚ) (lib : SketchLib S) (rand : RandomLib)
    (h : HaloSimulator S) (hh : HaloSimulator.new ds fs lib rand = .ok h) :
    h.publisherCount = ds.data.length ∧ h.dataSet = ds ∧ h.lib = lib := by
  obtain ⟨h1, h2, h3, -⟩ := C66_campaign_spends ds fs lib rand h hh
  refine ⟨?_, h1, h2⟩
  have := congrArg List.length h3
  simpa [HaloSimulator.publisherCount] using this

/-- The result of `fit` and the strategy. -/
theorem trialFit_ok (M : ModelLib C) (o : StrategyObject) (h : HaloSimulator S) (b : PrivacyBudget ℚ)
    (st : HaloState) (s : Surface) (hf : (M.fit o h b st).1 = .ok s) :
    ∃ f st', s = M.fittedView f ∧
      ((o.cls = .m3 ∧ (M.strategy o).fitM3 h b st = (.ok f, st')) ∨
       (o.cls = .singlePublisher ∧ (M.strategy o).fitSingle h b st = (.ok f, st'))) := by
  rcases hm : M.fit o h b st with ⟨r, st1⟩
  rw [hm] at hf
  simp only at hf
  subst hf
  unfold ModelLib.fit at hm
  rcases hc : o.cls with _ | _
  · rw [hc] at hm
    obtain ⟨f, st2, h1, h2⟩ := HaloM.bind_eq_ok hm
    cases h2
    exact ⟨f, _, rfl, Or.inl ⟨rfl, h1⟩⟩
  · rw [hc] at hm
    obtain ⟨f, st2, h1, h2⟩ := HaloM.bind_eq_ok hm
    cases h2
    exact ⟨f, _, rfl, Or.inr ⟨rfl, h1⟩⟩

/-- Keyword arguments that the single publisher model of this name knows. -/
def KnownModelKwargs (d : StrategyDescriptor) : Prop :=
  ∀ kv ∈ d.singlePubKwargs,
    (d.singlePub = "gamma_poisson".toList ∧
      (kv.1 = "max_reach".toList ∨ kv.1 = "extrapolation_multiplier".toList)) ∨
    (d.singlePub = "kinflated_gamma_poisson".toList ∧
      (kv.1 = "kmax".toList ∨ kv.1 = "debug".toList ∨ kv.1 = "extrapolation_multiplier".toList))

theorem model_keywords (d : StrategyDescriptor) (o : StrategyObject) (ho : d.instantiate = .ok o)
    (hk : acceptsKwargs o.single.keywords o.singleKwargs = true) : KnownModelKwargs d := by
  obtain ⟨i1, i2, i3⟩ := C97_instantiate d
  by_cases hr : RegisteredNames d
  swap
  · rw [i1 hr] at ho; cases ho
  by_cases hks : KnownStrategyKwargs d
  swap
  · rw [i2 hr hks] at ho; cases ho
  obtain ⟨o', ho', -, -, g1, g2, g3, -, -, -, g4, -⟩ := i3 hr hks
  rw [ho] at ho'
  cases ho'
  rw [acceptsKwargs_iff, g4] at hk
  intro kv hkv
  have := hk kv hkv
  rcases ho : o.single with _ | _ | _
  · rw [ho] at this; exact absurd this List.not_mem_nil
  · rw [ho] at this
    simp only [SingleModel.keywords, List.mem_cons, List.not_mem_nil, or_false] at this
    exact Or.inl ⟨g2.1 ho, this⟩
  · rw [ho] at this
    simp only [SingleModel.keywords, List.mem_cons, List.not_mem_nil, or_false] at this
    exact Or.inr ⟨g3.1 ho, this⟩

/-- **C97 (reported failures).** A row that claims success comes from a trial whose test point
strategy is registered with known arguments, whose models know their keyword arguments (the single
publisher model need not if ground truth curves are used), which has a multi publisher model if there
are several publishers, and which uses the single publisher strategy for one publisher only.  All
other trials that return a row report a failure. -/
theorem C97_success_needs (E : TrialEnv S C) (name : String) (ds : DataSet) (d : TrialDesc)
    (analysisType : String) (draws : Nat) (row : Row)
    (hrow : (trialOutcome E name ds d analysisType draws).1 = .ok row)
    (hs : HasCell row "model_succeeded" (.int 1)) :
    ((d.experiment.testPointStrategy = "latin_hypercube".toList ∨
        d.experiment.testPointStrategy = "uniformly_random".toList) ∧
      (∀ kv ∈ d.experiment.testPointKwargs, kv.1 = "npoints".toList ∨ kv.1 = "npublishers".toList ∨
        kv.1 = "minimum_points_per_publisher".toList) ∨
     d.experiment.testPointStrategy = "grid".toList ∧ d.experiment.testPointKwargs ≠ [] ∧
      ∀ kv ∈ d.experiment.testPointKwargs, kv.1 = "grid_size".toList) ∧
    (d.strategy.strategyKwargs = [] → KnownModelKwargs d.strategy) ∧
    (2 ≤ ds.data.length → d.strategy.strategy = "m3strategy".toList ∧
      d.strategy.multiPub ≠ "none".toList ∧ d.strategy.multiPubKwargs = []) := by
  obtain ⟨h, o, hh, ho, htr⟩ := trialOutcome_row E name ds d analysisType draws row hrow
  obtain ⟨surface, points, -, -, -, hfit, hpts, -⟩ := (C69_success _ row htr).2.1 hs
  obtain ⟨f, st', rfl, hf⟩ := trialFit_ok _ _ _ _ _ _ hfit
  obtain ⟨hcount, hds, -⟩ := halo_publishers _ _ _ _ h hh
  obtain ⟨hne, hl, hreg, hkw⟩ := (C97_returns_row E name ds d analysisType draws).1 ⟨row, hrow⟩
  obtain ⟨o', ho', hc1, hc2, -, -, -, -, -, hmn, -, hmk, hgt, -⟩ :=
    (C97_instantiate d.strategy).2.2 hreg hkw
  rw [ho] at ho'
  cases ho'
  refine ⟨?_, ?_, ?_⟩
  · have hpts' : d.experiment.generateTestPoints E.points ds = .ok points := hpts
    unfold ExperimentParams.generateTestPoints at hpts'
    by_cases h1 : d.experiment.testPointStrategy = "latin_hypercube".toList ∨
        d.experiment.testPointStrategy = "uniformly_random".toList
    · refine Or.inl ⟨h1, ?_⟩
      have harg : ∃ a, randomPointArgs d.experiment.testPointKwargs = .ok a := by
        rcases ha : randomPointArgs d.experiment.testPointKwargs with e | a
        · exfalso
          rcases h1 with h1 | h1
          · rw [if_pos h1, ha] at hpts'; cases hpts'
          · rw [if_neg (by rw [h1]; decide), if_pos h1, ha] at hpts'; cases hpts'
        · exact ⟨a, rfl⟩
      obtain ⟨a, ha⟩ := harg
      unfold randomPointArgs at ha
      split at ha
      · rename_i hacc
        rw [acceptsKwargs_iff] at hacc
        intro kv hkv
        have := hacc kv hkv
        simpa only [List.mem_cons, List.not_mem_nil, or_false] using this
      · cases ha
    · rw [not_or] at h1
      rw [if_neg h1.1, if_neg h1.2] at hpts'
      by_cases h2 : d.experiment.testPointStrategy = "grid".toList
      · rw [if_pos h2] at hpts'
        refine Or.inr ⟨h2, ?_⟩
        rcases hg : gridPointArg d.experiment.testPointKwargs with e | g
        · rw [hg] at hpts'; cases hpts'
        unfold gridPointArg at hg
        split at hg
        · rename_i hacc
          rw [acceptsKwargs_iff] at hacc
          refine ⟨?_, fun kv hkv => List.mem_singleton.1 (hacc kv hkv)⟩
          intro he
          rw [he] at hg
          cases hg
        · cases hg
      · rw [if_neg h2] at hpts'; cases hpts'
  · intro hkn
    apply model_keywords d.strategy o ho
    have hsingle : ∃ pts c, (E.models.strategy o).single pts = .ok c := by
      rcases hf with ⟨hc, hf⟩ | ⟨hc, hf⟩
      · obtain ⟨singles, loo, total, curves, t1, t2, -⟩ := C19_m3_training _ h _ _ _ _ hf
        have hu : (E.models.strategy o).useGroundTruth = false := hgt hkn
        have hlen : singles.length = ds.data.length := by
          rw [← t1.length_eq, List.length_range, hcount]
        rcases singles with _ | ⟨p, singles⟩
        · simp only [List.length_nil] at hlen; omega
        · rw [List.zipIdx_cons] at t2
          cases t2 with
          | cons hp _ =>
            rw [hu] at hp
            simp only [Bool.false_eq_true, if_false] at hp
            exact ⟨_, _, hp⟩
      · obtain ⟨r, c, -, -, hr, -⟩ := (C19_single_publisher_strategy _ h _ _).2 _ _ hf
        exact ⟨_, _, hr⟩
    obtain ⟨pts, c, hc⟩ := hsingle
    have hc' : E.models.fitCurve o.single o.singleKwargs pts = .ok c := hc
    unfold ModelLib.fitCurve at hc'
    split at hc'
    · assumption
    · cases hc'
  · intro h2
    rcases hf with ⟨hc, hf⟩ | ⟨hc, hf⟩
    · obtain ⟨singles, loo, total, curves, -, -, -, t4, -⟩ := C19_m3_training _ h _ _ _ _ hf
      obtain ⟨s, hs, -⟩ := t4 (by omega)
      have hs' : E.models.fitSurface o.multi o.multiKwargs curves
          (loo ++ [total]) = .ok s := hs
      unfold ModelLib.fitSurface at hs'
      split at hs'
      · cases hs'
      · rename_i m hm
        split at hs'
        · rename_i hacc
          rw [acceptsKwargs_iff] at hacc
          refine ⟨hc1.1 hc, ?_, ?_⟩
          · intro hnone
            rw [hmn.2 hnone] at hm
            cases hm
          · rw [← hmk]
            rw [List.eq_nil_iff_forall_not_mem]
            intro kv hkv
            exact absurd (hacc kv hkv) List.not_mem_nil
        · cases hs'
    · rw [(C19_single_publisher_strategy _ h _ _).1 (by omega)] at hf
      cases hf

/-! ## Examples -/

/-- The first publisher of `exDataSet` alone. -/
def exOne : DataSet :=
  { data := [exPubs[0]], maximumReach := 3, name := "one", universeSize := 8 }

/-- Surroundings without noise, where optimised models cannot be fitted. -/
def exEnv : TrialEnv (List Int) Unit where
  lib := fun _ _ _ => exLib
  rand := exRand
  models := ⟨fun _ _ _ => .error .runtimeError, fun _ => ⟨fun _ _ => .error .runtimeError, .ok []⟩,
    fun _ _ _ => .error .runtimeError⟩
  points := ⟨fun _ => [1/2], fun n s => List.replicate s (List.replicate n (1/2)),
    fun _ n => List.range n⟩
  text := fracText
  traceback := fun _ => "traceback"

/-- A single publisher trial that buys everything and is tested at three points. -/
def exWholeTrial : TrialDesc where
  strategy := ⟨"single_publisher".toList, [], "goerg".toList, [], "none".toList, []⟩
  system := ⟨[1], 12, 1000, 1, 0⟩
  experiment := ⟨⟨1, 1/100⟩, 1, 3, "grid".toList, [("grid_size".toList, "3".toList)]⟩

/-- It succeeds. -/
example : (trialOutcome exEnv "one" exOne exWholeTrial "" 0).1.map
    (fun row => (row.lookup "model_succeeded", row.lookup "npoints")) =
    .ok (some (.int 1), some (.int 3)) := by decide +kernel

/-- With a keyword argument that Goerg models do not have there is a row that reports a failure. -/
example : (trialOutcome exEnv "one" exOne { exWholeTrial with strategy :=
      { exWholeTrial.strategy with singlePubKwargs := [("kmax".toList, "3".toList)] } } "" 0).1.map
    (fun row => row.lookup "model_succeeded") = .ok (some (.int 0)) := by decide +kernel

/-- With a keyword argument that the strategy does not have there is no row. -/
example : (trialOutcome exEnv "one" exOne { exWholeTrial with strategy :=
      { exWholeTrial.strategy with
        strategyKwargs := [("use_ground_truth_for_reach_curves".toList, "True".toList)] } } "" 0).1 =
    .error .typeError := by decide +kernel

/-- On two publishers there is no row: the list of spend fractions is too short. -/
example : (trialOutcome exEnv "two" exDataSet exWholeTrial "" 0).1 = .error .indexError := by
  decide +kernel

example : RegisteredNames exWholeTrial.strategy ∧ KnownStrategyKwargs exWholeTrial.strategy ∧
    KnownModelKwargs exWholeTrial.strategy :=
  ⟨⟨Or.inr rfl, Or.inl rfl, Or.inr (Or.inr rfl)⟩, fun _ h => absurd h List.not_mem_nil,
    fun _ h => absurd h List.not_mem_nil⟩

/-- Random sources as the generators assume them. -/
example : GoodPoints exEnv.points exOne.data.length where
  uniform := fun _ => ⟨rfl, by simp [exEnv]; norm_num⟩
  lhs := fun n s => ⟨by simp [exEnv], by
    intro r hr
    have hr' : r = List.replicate n (1/2) := (List.mem_replicate.1 hr).2
    subst hr'
    exact ⟨by simp, fun x hx => by rw [(List.mem_replicate.1 hx).2]; norm_num⟩⟩
  perm := fun _ n => List.Perm.refl _

end Verif
