import Verif.Props.WholeTrial

/-!
# C80: how many trials the shipped designs have

The first round design is counted in `Props/Designs.lean`; here are the analysis example, the single
publisher design and the sampled design.
-/

namespace Verif

/-- If the trials of a design are described differently on each data set, and no data set name
contains a colon, no trial is removed as a duplicate. -/
theorem designTrials_all {DS : Type} (T : FloatText) (count : DS → Nat)
    (dataSet : String → DS) (hidden : TrialTemplate DS → String → Int) (ts : List (TrialTemplate DS))
    (dir analysisType : String) (names : List String) (hnd : names.Nodup)
    (hcolon : ∀ n ∈ names, ':' ∉ n.toList)
    (h : ∀ n ∈ names, (ts.map (fun t => (t.update count (dataSet n)).desc.str T)).Nodup) :
    designTrials dir analysisType (ts.map (describe T count dataSet hidden)) names =
      names.flatMap (experimentTrials dir analysisType (ts.map (describe T count dataSet hidden))) ∧
    (designTrials dir analysisType (ts.map (describe T count dataSet hidden)) names).length =
      names.length * ts.length := by
  have hall : designTrials dir analysisType (ts.map (describe T count dataSet hidden)) names =
      names.flatMap (experimentTrials dir analysisType
        (ts.map (describe T count dataSet hidden))) := by
    unfold designTrials
    apply removeDuplicatesFrom_of_nodup _ _ _ (by simp)
    rw [List.map_flatMap, List.nodup_flatMap]
    constructor
    · intro n hn
      have := h n hn
      have he : (experimentTrials dir analysisType
          (ts.map (describe T count dataSet hidden)) n).map trialName =
          (ts.map (fun t => (t.update count (dataSet n)).desc.str T)).map
            (fun s => n ++ "::" ++ String.ofList s) := by
        unfold experimentTrials
        simp only [List.map_map]
        rfl
      rw [he]
      refine this.map ?_
      intro a b hab
      have h2 := congrArg String.toList hab
      simp only [String.toList_append, String.toList_ofList] at h2
      exact List.append_cancel_left h2
    · refine hnd.imp_of_mem ?_
      intro a b ha hb hab
      rw [Function.onFun, List.disjoint_left]
      intro x hx hx'
      obtain ⟨t, ht, rfl⟩ := List.mem_map.1 hx
      obtain ⟨u, hu, he⟩ := List.mem_map.1 hx'
      unfold experimentTrials at ht hu
      obtain ⟨d, -, rfl⟩ := List.mem_map.1 ht
      obtain ⟨d', -, rfl⟩ := List.mem_map.1 hu
      have := (trialName_inj (hcolon b hb) (hcolon a ha)).1 he
      unfold trialKey at this
      simp only [Prod.mk.injEq] at this
      exact hab this.1.symm
  refine ⟨hall, ?_⟩
  rw [hall]
  clear hall hnd hcolon h
  induction names with
  | nil => simp
  | cons n rest ih =>
    rw [List.flatMap_cons, List.length_append, ih]
    have hl : (experimentTrials dir analysisType
        (ts.map (describe T count dataSet hidden)) n).length = ts.length := by
      simp [experimentTrials]
    rw [hl, List.length_cons]
    ring

/-! ## Analysis example -/

/-- The levels of the analysis example are told apart on every data set with at least one
publisher. -/
theorem analysisTrialLevels_told (n : Nat) (hn : 1 ≤ n) : TrialLevelsTold analysisTrialLevels n where
  strategies := by decide +kernel
  plain := by unfold PlainKwargs Plain; decide +kernel
  spends := by
    obtain ⟨k, rfl⟩ : ∃ k, n = k + 1 := ⟨n - 1, by omega⟩
    simp only [analysisTrialLevels, List.map_cons, List.map_nil, List.nodup_cons, List.mem_singleton,
      List.not_mem_nil, not_false_eq_true, List.nodup_nil, and_true]
    intro h
    rw [List.replicate_succ, List.range_succ_eq_map, List.map_cons, List.cons.injEq] at h
    have := h.1
    revert this
    decide +kernel
  liquidLegions := by decide +kernel
  budgets := by decide +kernel
  replicas := by decide +kernel
  maxFrequencies := by decide +kernel
  testPoints := by decide +kernel
  plainPoints := by unfold PlainKwargs Plain; decide +kernel

/-- **C80 (analysis example).** The analysis example evaluates each data set with at least one
publisher 96 times. -/
theorem C80_analysis_example (T : FloatText) (hT : GoodFloats T) (publishers : String → Nat)
    (hidden : TrialTemplate Nat → String → Int) (seed : Int) (dir analysisType : String)
    (names : List String) (hnd : names.Nodup) (hcolon : ∀ n ∈ names, ':' ∉ n.toList)
    (h : ∀ n ∈ names, 1 ≤ publishers n) :
    (designTrials dir analysisType
      ((factorialTrials analysisTrialLevels seed).map (describe T id publishers hidden)) names).length =
      names.length * 96 :=
  (C80_evaluated T hT id publishers hidden analysisTrialLevels seed dir analysisType names hnd
    hcolon (fun n hn => analysisTrialLevels_told _ (h n hn))).2

/-! ## Single publisher design -/

/-- The models that the single publisher design compares. -/
def ComparedSingles (name : Text) (kwargs : Kwargs) : Prop :=
  (name = "goerg".toList ∧ kwargs = []) ∨
  ((name = "gamma_poisson".toList ∨ name = "kinflated_gamma_poisson".toList) ∧
    (kwargs = [] ∨ kwargs = [("extrapolation_multiplier".toList, "2.0".toList)]))

theorem mem_tenths (x : ℚ) : x ∈ tenths ↔ ∃ k : Nat, 1 ≤ k ∧ k ≤ 9 ∧ x = (k : ℚ) / 10 := by
  unfold tenths
  rw [List.mem_map]
  constructor
  · rintro ⟨i, hi, rfl⟩
    have := List.mem_range.1 hi
    exact ⟨i + 1, by omega, by omega, by push_cast; rfl⟩
  · rintro ⟨k, h1, h9, rfl⟩
    obtain ⟨i, rfl⟩ : ∃ i, k = i + 1 := ⟨k - 1, by omega⟩
    exact ⟨i, List.mem_range.2 (by omega), by push_cast; rfl⟩

theorem mem_singlePublisherModels (m : Text × Kwargs) :
    m ∈ singlePublisherModels ↔ ComparedSingles m.1 m.2 := by
  obtain ⟨a, b⟩ := m
  simp only [singlePublisherModels, List.mem_cons, List.not_mem_nil, or_false, Prod.mk.injEq,
    ComparedSingles]
  tauto

/-- **C80 (single publisher design).** The trials of the single publisher design are exactly the
combinations of five models, the spend fractions 1/10, …, 9/10 and five values of epsilon, on a grid
of 20 points, with ten frequencies and a sketch of size 100000 and decay rate 10. -/
theorem C80_single_publisher_trials (seed : Int) (t : TrialTemplate Nat) :
    t ∈ singlePublisherTrials seed ↔
      t.spendsGenerator = none ∧
      t.desc.strategy.strategy = "single_publisher".toList ∧ t.desc.strategy.strategyKwargs = [] ∧
      ComparedSingles t.desc.strategy.singlePub t.desc.strategy.singlePubKwargs ∧
      t.desc.strategy.multiPub = "none".toList ∧ t.desc.strategy.multiPubKwargs = [] ∧
      (∃ k : Nat, 1 ≤ k ∧ k ≤ 9 ∧ t.desc.system.spends = [(k : ℚ) / 10]) ∧
      t.desc.system.decayRate = 10 ∧ t.desc.system.sketchSize = 100000 ∧
      t.desc.system.randomSeed = 1 ∧ t.desc.system.generatorSeed = seed ∧
      (t.desc.experiment.budget.epsilon = 1 / 20 ∨ t.desc.experiment.budget.epsilon = 1 / 10 ∨
        t.desc.experiment.budget.epsilon = 3 / 20 ∨ t.desc.experiment.budget.epsilon = 1 / 5 ∨
        t.desc.experiment.budget.epsilon = 100) ∧
      t.desc.experiment.budget.delta = 1 / 10 ^ 9 ∧ t.desc.experiment.replicaId = 1 ∧
      t.desc.experiment.maxFrequency = 10 ∧ t.desc.experiment.testPointStrategy = "grid".toList ∧
      t.desc.experiment.testPointKwargs = [("grid_size".toList, "20".toList)] := by
  have hmem : t ∈ singlePublisherTrials seed ↔ ∃ m ∈ singlePublisherModels, ∃ x ∈ tenths,
      ∃ eps ∈ ([1/20, 1/10, 3/20, 1/5, 100] : List ℚ), t = singlePublisherTrial seed m x eps := by
    refine ⟨mem_singlePublisherTrials seed t, ?_⟩
    rintro ⟨m, hm, x, hx, eps, heps, rfl⟩
    exact List.mem_flatMap.2 ⟨m, hm, List.mem_flatMap.2 ⟨x, hx, List.mem_map.2 ⟨eps, heps, rfl⟩⟩⟩
  rw [hmem]
  constructor
  · rintro ⟨m, hm, x, hx, eps, heps, rfl⟩
    obtain ⟨k, h1, h9, rfl⟩ := (mem_tenths x).1 hx
    simp only [List.mem_cons, List.not_mem_nil, or_false] at heps
    exact ⟨rfl, rfl, rfl, (mem_singlePublisherModels m).1 hm, rfl, rfl, ⟨k, h1, h9, rfl⟩, rfl, rfl, rfl,
      rfl, heps, show (1 : ℚ) / 1000000000 = _ by norm_num, rfl, rfl, rfl, rfl⟩
  · obtain ⟨⟨⟨s, skw, a, akw, mp, mkw⟩, ⟨sp, dr, ss, rs, gs⟩, ⟨⟨eps, dl⟩, rep, mf, tp, tkw⟩⟩, gen⟩ := t
    rintro ⟨h1, h2, h3, h4, h5, h6, ⟨k, k1, k9, h7⟩, h8, h9, h10, h11, h12, h13, h14, h15, h16, h17⟩
    simp only at h1 h2 h3 h4 h5 h6 h7 h8 h9 h10 h11 h12 h13 h14 h15 h16 h17
    subst h1 h2 h3 h5 h6 h7 h8 h9 h10 h11 h13 h14 h15 h16 h17
    refine ⟨(a, akw), (mem_singlePublisherModels _).2 h4, (k : ℚ) / 10,
      (mem_tenths _).2 ⟨k, k1, k9, rfl⟩, eps, ?_, ?_⟩
    · simpa only [List.mem_cons, List.not_mem_nil, or_false] using h12
    · have hd : (1 : ℚ) / 10 ^ 9 = 1 / 1000000000 := by norm_num
      rw [hd]
      rfl

theorem flatMap_product {α β γ δ : Type} (f : α → β → γ → δ) (l : List α) (l' : List β)
    (l'' : List γ) :
    (l.flatMap fun a => l'.flatMap fun b => l''.map fun c => f a b c) =
      (l ×ˢ l' ×ˢ l'').map (fun t => f t.1 t.2.1 t.2.2) := by
  simp only [SProd.sprod, List.product, List.map_flatMap, List.map_map]
  rfl

theorem single_trial_texts (T : FloatText) (hT : GoodFloats T) (seed : Int) (n : Nat)
    (ms : List (Text × Kwargs)) (xs es : List ℚ) (h1 : ms.Nodup) (h2 : xs.Nodup) (h3 : es.Nodup)
    (hms : ∀ m ∈ ms, Plain m.1 ∧ PlainKwargs m.2) :
    (((ms ×ˢ xs ×ˢ es).map (fun t => singlePublisherTrial seed t.1 t.2.1 t.2.2)).map
      (fun t => (t.update id n).desc.str T)).Nodup := by
  rw [List.map_map]
  refine List.Nodup.map_on ?_ (h1.product (h2.product h3))
  have hplain : ∀ m ∈ ms, ∀ x eps,
      (((singlePublisherTrial seed m x eps).update id n).desc).PlainNames := by
    intro m hm x eps
    obtain ⟨a, b⟩ := hms m hm
    exact ⟨show Plain "single_publisher".toList by unfold Plain; decide +kernel,
      fun _ h => absurd h List.not_mem_nil, a, b,
      show Plain "none".toList by unfold Plain; decide +kernel,
      fun _ h => absurd h List.not_mem_nil,
      show Plain "grid".toList by unfold Plain; decide +kernel, plain_fill _ _
        (show PlainKwargs [("grid_size".toList, "20".toList)] by
          unfold PlainKwargs Plain; decide +kernel)⟩
  rintro ⟨m, x, eps⟩ h1 ⟨m', x', eps'⟩ h2 hs
  simp only [List.mem_product] at h1 h2
  have hsame := trialDesc_inj T hT _ _ (hplain m h1.1 x eps) (hplain m' h2.1 x' eps') hs
  have e1 : m.1 = m'.1 := congrArg StrategyDescriptor.singlePub hsame.1
  have e2 : m.2 = m'.2 := congrArg StrategyDescriptor.singlePubKwargs hsame.1
  have e3 : [x] = [x'] := hsame.2.1
  have e4 : eps = eps' := congrArg (fun e : ExperimentParams => e.budget.epsilon) hsame.2.2.2.2
  rw [Prod.ext e1 e2, List.singleton_injective e3, e4]

theorem singlePublisher_texts (T : FloatText) (hT : GoodFloats T) (seed : Int) (n : Nat) :
    ((singlePublisherTrials seed).map (fun t => (t.update id n).desc.str T)).Nodup := by
  have he : singlePublisherTrials seed =
      (singlePublisherModels ×ˢ tenths ×ˢ ([1/20, 1/10, 3/20, 1/5, 100] : List ℚ)).map
        (fun t => singlePublisherTrial seed t.1 t.2.1 t.2.2) :=
    flatMap_product _ _ _ _
  rw [he]
  exact single_trial_texts T hT seed n _ _ _ (by decide +kernel) (by decide +kernel)
    (by decide +kernel) (by unfold PlainKwargs Plain; decide +kernel)

/-- **C80 (single publisher design).** The single publisher design evaluates each data set 225 times,
whatever its number of publishers. -/
theorem C80_single_publisher_design (T : FloatText) (hT : GoodFloats T) (publishers : String → Nat)
    (hidden : TrialTemplate Nat → String → Int) (seed : Int) (dir analysisType : String)
    (names : List String) (hnd : names.Nodup) (hcolon : ∀ n ∈ names, ':' ∉ n.toList) :
    (designTrials dir analysisType
      ((singlePublisherTrials seed).map (describe T id publishers hidden)) names).length =
      names.length * 225 :=
  (designTrials_all T id publishers hidden _ dir analysisType names hnd hcolon
    (fun n _ => singlePublisher_texts T hT seed (publishers n))).2

/-! ## Sampled design -/

theorem sampleTrial_combination (L : SampleLevels) (seed : Int) (m : StrategyDescriptor) (s : List ℚ)
    (l : ℚ × ℚ) (b : PrivacyBudget ℚ) (r f : Int) (p : Text × Kwargs) (hm : m ∈ L.strategies)
    (hs : s ∈ L.spends) (hl : l ∈ L.liquidLegions) (hb : b ∈ L.budgets) (hr : r ∈ L.replicas)
    (hf : f ∈ L.maxFrequencies) (hp : p ∈ L.testPoints) :
    ∃ sample : Fin 7 → ℚ, (∀ k, 0 ≤ sample k ∧ sample k < 1) ∧
      sampleTrial L seed sample = .ok ⟨⟨m, ⟨s, l.1, l.2, 1, seed⟩, ⟨b, r, f, p.1, p.2⟩⟩, none⟩ := by
  have key : ∀ {α : Type} (levels : List α) (x : α), x ∈ levels →
      ∃ u : ℚ, 0 ≤ u ∧ u < 1 ∧ pickLevel levels u = .ok x := by
    intro α levels x hx
    obtain ⟨j, hj, he⟩ := List.mem_iff_getElem.1 hx
    have hL : (0 : ℚ) < (levels.length : ℚ) := by
      exact_mod_cast (by omega : 0 < levels.length)
    have h0 : (0 : ℚ) ≤ (j : ℚ) / (levels.length : ℚ) := by positivity
    refine ⟨(j : ℚ) / levels.length, h0, ?_, ?_⟩
    · rw [div_lt_one hL]; exact_mod_cast hj
    · rw [pickLevel_ok_iff _ _ h0]
      refine ⟨j, by rw [List.getElem?_eq_getElem hj, he], le_refl _, ?_⟩
      exact div_lt_div_of_pos_right (by linarith) hL
  obtain ⟨u0, a0, b0, c0⟩ := key _ _ hm
  obtain ⟨u1, a1, b1, c1⟩ := key _ _ hs
  obtain ⟨u2, a2, b2, c2⟩ := key _ _ hl
  obtain ⟨u3, a3, b3, c3⟩ := key _ _ hb
  obtain ⟨u4, a4, b4, c4⟩ := key _ _ hr
  obtain ⟨u5, a5, b5, c5⟩ := key _ _ hf
  obtain ⟨u6, a6, b6, c6⟩ := key _ _ hp
  refine ⟨![u0, u1, u2, u3, u4, u5, u6], ?_, ?_⟩
  · intro k
    fin_cases k
    exacts [⟨a0, b0⟩, ⟨a1, b1⟩, ⟨a2, b2⟩, ⟨a3, b3⟩, ⟨a4, b4⟩, ⟨a5, b5⟩, ⟨a6, b6⟩]
  · unfold sampleTrial
    have e0 : pickLevel L.strategies (![u0, u1, u2, u3, u4, u5, u6] 0) = .ok m := c0
    have e1 : pickLevel L.spends (![u0, u1, u2, u3, u4, u5, u6] 1) = .ok s := c1
    have e2 : pickLevel L.liquidLegions (![u0, u1, u2, u3, u4, u5, u6] 2) = .ok l := c2
    have e3 : pickLevel L.budgets (![u0, u1, u2, u3, u4, u5, u6] 3) = .ok b := c3
    have e4 : pickLevel L.replicas (![u0, u1, u2, u3, u4, u5, u6] 4) = .ok r := c4
    have e5 : pickLevel L.maxFrequencies (![u0, u1, u2, u3, u4, u5, u6] 5) = .ok f := c5
    have e6 : pickLevel L.testPoints (![u0, u1, u2, u3, u4, u5, u6] 6) = .ok p := c6
    simp only [e0, e1, e2, e3, e4, e5, e6, bind, Except.bind, pure, Except.pure]

/-- **C80 (sampled design).** Every combination of a Goerg or gamma-Poisson model, spend fractions of
one to nine tenths at each of two publishers, the listed sketches and budgets, replica, frequencies
and test points is the trial of some sample in the unit cube, and each trial of a sample is such a
combination. -/
theorem C80_sampled_combinations (seed : Int) (t : TrialTemplate Nat) :
    (∃ sample : Fin 7 → ℚ, (∀ k, 0 ≤ sample k ∧ sample k < 1) ∧
      sampleTrial sampleLevels seed sample = .ok t) ↔
      t.spendsGenerator = none ∧
      (∃ model, (model = "goerg".toList ∨ model = "gamma_poisson".toList) ∧ t.desc.strategy =
        ⟨"m3strategy".toList, [], model, [], "restricted_pairwise_union".toList, []⟩) ∧
      (∃ i j : Nat, 1 ≤ i ∧ i ≤ 9 ∧ 1 ≤ j ∧ j ≤ 9 ∧
        t.desc.system.spends = [(i : ℚ) / 10, (j : ℚ) / 10]) ∧
      (t.desc.system.decayRate = 10 ∨ t.desc.system.decayRate = 12 ∨ t.desc.system.decayRate = 17) ∧
      (t.desc.system.sketchSize = 100000 ∨ t.desc.system.sketchSize = 200000) ∧
      t.desc.system.randomSeed = 1 ∧ t.desc.system.generatorSeed = seed ∧
      (t.desc.experiment.budget.epsilon = 1 ∨ t.desc.experiment.budget.epsilon = 1 / 10) ∧
      (t.desc.experiment.budget.delta = 1 / 10 ^ 7 ∨ t.desc.experiment.budget.delta = 1 / 10 ^ 8) ∧
      (t.desc.experiment.replicaId = 1 ∨ t.desc.experiment.replicaId = 2 ∨
        t.desc.experiment.replicaId = 3) ∧
      (t.desc.experiment.maxFrequency = 5 ∨ t.desc.experiment.maxFrequency = 10 ∨
        t.desc.experiment.maxFrequency = 20) ∧
      ((t.desc.experiment.testPointStrategy = "latin_hypercube".toList ∧
          t.desc.experiment.testPointKwargs = [("npoints".toList, "100".toList)]) ∨
        (t.desc.experiment.testPointStrategy = "uniformly_random".toList ∧
          t.desc.experiment.testPointKwargs = [("npoints".toList, "500".toList)]) ∨
        (t.desc.experiment.testPointStrategy = "grid".toList ∧
          t.desc.experiment.testPointKwargs = [("grid_size".toList, "5".toList)])) := by
  have hsp : ∀ s : List ℚ, s ∈ sampleLevels.spends ↔ ∃ i j : Nat, 1 ≤ i ∧ i ≤ 9 ∧ 1 ≤ j ∧ j ≤ 9 ∧
      s = [(i : ℚ) / 10, (j : ℚ) / 10] := by
    intro s
    simp only [sampleLevels, List.mem_flatMap, List.mem_map, mem_tenths]
    constructor
    · rintro ⟨a, ⟨i, i1, i9, rfl⟩, b, ⟨j, j1, j9, rfl⟩, rfl⟩
      exact ⟨i, j, i1, i9, j1, j9, rfl⟩
    · rintro ⟨i, j, i1, i9, j1, j9, rfl⟩
      exact ⟨_, ⟨i, i1, i9, rfl⟩, _, ⟨j, j1, j9, rfl⟩, rfl⟩
  constructor
  · rintro ⟨s, hs, hst⟩
    obtain ⟨hg, h0, h1, h2, h3, h4, h5, h6, h7, h8⟩ :=
      sampleTrial_ok sampleLevels seed s (fun k => (hs k).1) t hst
    rw [hsp] at h1
    simp only [sampleLevels, List.mem_cons, List.not_mem_nil, or_false] at h0 h2 h5 h6 h7 h8
    refine ⟨hg, ?_, h1, ?_, ?_, h3, h4, ?_, ?_, h6, h7, ?_⟩
    · rcases h0 with h | h
      · exact ⟨_, Or.inl rfl, h⟩
      · exact ⟨_, Or.inr rfl, h⟩
    · simp only [Prod.mk.injEq] at h2
      rcases h2 with ⟨h, -⟩ | ⟨h, -⟩ | ⟨h, -⟩ | ⟨h, -⟩ | ⟨h, -⟩ | ⟨h, -⟩ <;> rw [h] <;> norm_num
    · simp only [Prod.mk.injEq] at h2
      rcases h2 with ⟨-, h⟩ | ⟨-, h⟩ | ⟨-, h⟩ | ⟨-, h⟩ | ⟨-, h⟩ | ⟨-, h⟩ <;> rw [h] <;> norm_num
    · rcases h5 with h | h | h | h <;> rw [h] <;> norm_num
    · rcases h5 with h | h | h | h <;> rw [h] <;> norm_num
    · simp only [Prod.mk.injEq] at h8; exact h8
  · obtain ⟨⟨m, ⟨sp, dr, ss, rs, gs⟩, ⟨⟨eps, dl⟩, rep, mf, tp, tkw⟩⟩, gen⟩ := t
    rintro ⟨h1, ⟨model, hmodel, h2⟩, h3, h4, h5, h6, h7, h8, h9, h10, h11, h12⟩
    simp only at h1 h2 h3 h4 h5 h6 h7 h8 h9 h10 h11 h12
    subst h1 h6 h7
    refine sampleTrial_combination sampleLevels gs m sp (dr, ss) ⟨eps, dl⟩ rep mf (tp, tkw) ?_
      ((hsp sp).2 h3) ?_ ?_ ?_ ?_ ?_
    · subst h2
      simp only [sampleLevels, List.mem_cons, List.not_mem_nil, or_false]
      rcases hmodel with rfl | rfl <;> simp
    · rcases h4 with rfl | rfl | rfl <;> rcases h5 with rfl | rfl <;> decide +kernel
    · rcases h8 with rfl | rfl <;> rcases h9 with rfl | rfl <;> decide +kernel
    · simpa only [sampleLevels, List.mem_cons, List.not_mem_nil, or_false] using h10
    · simpa only [sampleLevels, List.mem_cons, List.not_mem_nil, or_false] using h11
    · simp only [sampleLevels, List.mem_cons, List.not_mem_nil, or_false, Prod.mk.injEq]
      exact h12

/-- **C80 (sampled design).** If no two samples choose the same parameters, the sampled design
evaluates each data set as many times as there are samples. -/
theorem C80_sampled_design (T : FloatText) (hT : GoodFloats T) (publishers : String → Nat)
    (hidden : TrialTemplate Nat → String → Int) (seed : Int) (dir analysisType : String)
    (names : List String) (hnd : names.Nodup) (hcolon : ∀ n ∈ names, ':' ∉ n.toList)
    (samples : List (Fin 7 → ℚ)) (hs : ∀ s ∈ samples, ∀ k, 0 ≤ s k ∧ s k < 1)
    (ts : List (TrialTemplate Nat)) (hts : sampleTrials sampleLevels seed samples = .ok ts)
    (hdiff : (ts.map (·.desc)).Nodup) :
    (designTrials dir analysisType (ts.map (describe T id publishers hidden)) names).length =
      names.length * samples.length := by
  have hF : List.Forall₂ (fun s t => sampleTrial sampleLevels seed s = .ok t) samples ts := by
    unfold sampleTrials at hts
    rwa [mapM_ok_iff] at hts
  have hprops : ∀ t ∈ ts, t.spendsGenerator = none ∧ t.desc.PlainNames ∧
      (∀ n, (t.update id n).desc = t.desc) ∧ t.desc.system.randomSeed = 1 ∧
      t.desc.system.generatorSeed = seed := by
    intro t ht
    obtain ⟨s, hsm, hst⟩ := forall₂_exists_left hF t ht
    obtain ⟨hg, ⟨model, hmodel, hm⟩, -, -, -, hr, hgs, -, -, -, -, hp⟩ :=
      (C80_sampled_combinations seed t).1 ⟨s, hs s hsm, hst⟩
    refine ⟨hg, ?_, ?_, hr, hgs⟩
    · unfold TrialDesc.PlainNames
      rw [hm]
      have hmod : Plain model := by
        rcases hmodel with rfl | rfl <;> (unfold Plain; decide +kernel)
      refine ⟨show Plain "m3strategy".toList by unfold Plain; decide +kernel,
        fun _ h => absurd h List.not_mem_nil, hmod, fun _ h => absurd h List.not_mem_nil,
        show Plain "restricted_pairwise_union".toList by unfold Plain; decide +kernel,
        fun _ h => absurd h List.not_mem_nil, ?_⟩
      rcases hp with ⟨h1, h2⟩ | ⟨h1, h2⟩ | ⟨h1, h2⟩ <;> rw [h1, h2] <;>
        (unfold PlainKwargs Plain; decide +kernel)
    · intro n
      obtain ⟨⟨m, sys, ⟨b, r, f, tp, tkw⟩⟩, gen⟩ := t
      simp only at hg hp
      subst hg
      simp only [TrialTemplate.update]
      rcases hp with ⟨h1, h2⟩ | ⟨h1, h2⟩ | ⟨h1, h2⟩ <;> rw [h2] <;> rfl
  rw [(designTrials_all T id publishers hidden ts dir analysisType names hnd hcolon ?_).2,
    hF.length_eq]
  intro n hn
  have hnd' : ts.Nodup := hdiff.of_map _
  refine List.Nodup.map_on ?_ hnd'
  intro t ht t' ht' he
  obtain ⟨g1, p1, u1, r1, s1⟩ := hprops t ht
  obtain ⟨g2, p2, u2, r2, s2⟩ := hprops t' ht'
  rw [u1, u2] at he
  obtain ⟨e1, e2, e3, e4, e5⟩ := trialDesc_inj T hT _ _ p1 p2 he
  obtain ⟨⟨m, ⟨sp, dr, ss, rs, gs⟩, ex⟩, gen⟩ := t
  obtain ⟨⟨m', ⟨sp', dr', ss', rs', gs'⟩, ex'⟩, gen'⟩ := t'
  simp only at g1 g2 r1 r2 s1 s2 e1 e2 e3 e4 e5
  subst g1 g2 r1 r2 s1 s2 e1 e2 e3 e4 e5
  rfl

/-! ## Examples -/

/-- Two samples that choose different trials. -/
example : ∃ ts, sampleTrials sampleLevels 1 [fun _ => 0, fun _ => 1/2] = .ok ts ∧
    (ts.map (·.desc)).Nodup := by
  rcases h : sampleTrials sampleLevels 1 [fun _ => 0, fun _ => 1/2] with e | ts
  · exfalso
    have : (sampleTrials sampleLevels 1 [fun _ => 0, fun _ => 1/2]).isOk = true := by decide +kernel
    rw [h] at this
    cases this
  · refine ⟨ts, rfl, ?_⟩
    have : (sampleTrials sampleLevels 1 [fun _ => 0, fun _ => 1/2]).toOption.map
        (fun ts => decide (ts.map (·.desc)).Nodup) = some true := by decide +kernel
    rw [h] at this
    have h2 : decide (ts.map (·.desc)).Nodup = true := Option.some.inj this
    exact of_decide_eq_true h2

/-- Two samples in the same box choose the same trial: it is run once only. -/
example : (sampleTrials sampleLevels 1 [fun _ => 0, fun _ => 1/100]).toOption.map
    (fun ts => ts.map (·.desc.system.spends)) = some [[1/10, 1/10], [1/10, 1/10]] := by
  decide +kernel

end Verif
