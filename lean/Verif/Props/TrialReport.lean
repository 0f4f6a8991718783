import Verif.Props.WholeTrial

/-!
# C69, C97: what the row of a trial says about the trial

The describing columns of a whole trial, and the exception that a failed trial reports.
-/

namespace Verif

variable {S C : Type}

/-! ## Which exception is reported -/

/-- A list comprehension raises the exception of the first element that fails. -/
theorem mapM_first_error {α β : Type} (f : α → Except PyErr β) (pre post : List α) (x : α) (e : PyErr)
    (hpre : ∀ y ∈ pre, ∃ b, f y = .ok b) (hx : f x = .error e) :
    (pre ++ x :: post).mapM f = .error e := by
  induction pre with
  | nil => simp [List.mapM_cons, hx, bind, Except.bind]
  | cons y pre ih =>
    obtain ⟨b, hb⟩ := hpre y (by simp)
    rw [List.cons_append, List.mapM_cons, hb, ih (fun z hz => hpre z (by simp [hz]))]
    rfl

theorem trialRow_error (inp : TrialInputs) (row : Row) (h : trialRow inp = .ok row) (e : PyErr)
    (he : trialAttempt inp = .error e) :
    HasCell row "model_succeeded" (.int 0) ∧
    HasCell row "model_exception" (.text (inp.traceback e)) := by
  obtain ⟨vars, -, hrow⟩ := trialRow_ok inp row h
  rcases hrow with ⟨x, hx, -⟩ | ⟨e', he', hr⟩
  · rw [he] at hx; cases hx
  · rw [he] at he'
    cases he'
    obtain ⟨-, hc2, hc3, -⟩ := C47_columns.2.2 (inp.traceback e)
    rw [hr]
    exact ⟨List.mem_append_left _ (List.mem_append_right _ hc2),
      List.mem_append_left _ (List.mem_append_right _ hc3)⟩

/-- **C69 (reported exceptions).** A failed trial reports the exception that came first: that of
fitting; then that of the test points; then that of the true reach at the first test point where it
fails; then that of the fitted surface at the first test point where it fails.  In all of these cases
the trial is marked as failed. -/
theorem C69_reported (inp : TrialInputs) (row : Row) (h : trialRow inp = .ok row) (e : PyErr) :
    (inp.fit = .error e → HasCell row "model_succeeded" (.int 0) ∧
      HasCell row "model_exception" (.text (inp.traceback e))) ∧
    (∀ surface, inp.fit = .ok surface →
      (inp.testPoints = .error e → HasCell row "model_succeeded" (.int 0) ∧
        HasCell row "model_exception" (.text (inp.traceback e))) ∧
      (∀ pre t post, inp.testPoints = .ok (pre ++ t :: post) →
        (∀ t' ∈ pre, ∃ p, inp.trueReach t' inp.maxFrequency = .ok p) →
        inp.trueReach t inp.maxFrequency = .error e → HasCell row "model_succeeded" (.int 0) ∧
        HasCell row "model_exception" (.text (inp.traceback e))) ∧
      (∀ pre t post, inp.testPoints = .ok (pre ++ t :: post) →
        (∀ t' ∈ pre ++ t :: post, ∃ p, inp.trueReach t' inp.maxFrequency = .ok p) →
        (∀ t' ∈ pre, ∃ p, surface.bySpend t' inp.maxFrequency = .ok p) →
        surface.bySpend t inp.maxFrequency = .error e → HasCell row "model_succeeded" (.int 0) ∧
        HasCell row "model_exception" (.text (inp.traceback e)))) := by
  have key := trialRow_error inp row h e
  refine ⟨fun hf => key ?_, fun surface hs => ⟨fun hp => key ?_, fun pre t post hp hpre ht => key ?_,
    fun pre t post hp htr hpre ht => key ?_⟩⟩
  · unfold trialAttempt
    rw [hf]; rfl
  · unfold trialAttempt
    rw [hs, hp]; rfl
  · unfold trialAttempt
    simp only [hs, hp, bind, Except.bind, mapM_first_error _ pre post t e hpre ht]
  · unfold trialAttempt
    have hall : ∃ tr, (pre ++ t :: post).mapM (fun t => inp.trueReach t inp.maxFrequency) = .ok tr := by
      generalize pre ++ t :: post = l at htr
      induction l with
      | nil => exact ⟨[], rfl⟩
      | cons y l ih =>
        obtain ⟨b, hb⟩ := htr y (by simp)
        obtain ⟨tr, htr'⟩ := ih (fun z hz => htr z (by simp [hz]))
        exact ⟨b :: tr, by rw [List.mapM_cons, hb, htr']; rfl⟩
    obtain ⟨tr, htr'⟩ := hall
    simp only [hs, hp, htr', bind, Except.bind, mapM_first_error _ pre post t e hpre ht]

/-! ## Exceptions of test points and models -/

/-- **C97 (test point errors).** Which exception `generate_test_points` raises: a `ValueError` for a
strategy that is not registered, a `TypeError` for an unknown or missing argument and for an
argument that is not an integer. -/
theorem C97_test_point_errors (e : ExperimentParams) (src : PointSource) (ds : DataSet) :
    (e.testPointStrategy ≠ "latin_hypercube".toList →
      e.testPointStrategy ≠ "uniformly_random".toList → e.testPointStrategy ≠ "grid".toList →
      e.generateTestPoints src ds = .error .valueError) ∧
    (e.testPointStrategy = "latin_hypercube".toList ∨
        e.testPointStrategy = "uniformly_random".toList →
      ((∃ kv ∈ e.testPointKwargs, kv.1 ≠ "npoints".toList ∧ kv.1 ≠ "npublishers".toList ∧
          kv.1 ≠ "minimum_points_per_publisher".toList) ∨
        ∃ kv ∈ e.testPointKwargs, e.testPointKwargs.lookup kv.1 = some kv.2 ∧
          parseInt kv.2 = none) →
      e.generateTestPoints src ds = .error .typeError) ∧
    (e.testPointStrategy = "grid".toList →
      ((∃ kv ∈ e.testPointKwargs, kv.1 ≠ "grid_size".toList) ∨ e.testPointKwargs = [] ∨
        ∃ v, e.testPointKwargs = [("grid_size".toList, v)] ∧ parseInt v = none) →
      e.generateTestPoints src ds = .error .typeError) := by
  refine ⟨?_, ?_, ?_⟩
  · intro h1 h2 h3
    unfold ExperimentParams.generateTestPoints
    rw [if_neg h1, if_neg h2, if_neg h3]
  · intro hst hbad
    have harg : randomPointArgs e.testPointKwargs = .error .typeError := by
      unfold randomPointArgs
      split
      · rename_i hacc
        rw [acceptsKwargs_iff] at hacc
        rcases hbad with ⟨kv, hkv, a, b, c⟩ | ⟨kv, hkv, hlk, hnone⟩
        · have := hacc kv hkv
          simp only [List.mem_cons, List.not_mem_nil, or_false] at this
          rcases this with h | h | h
          · exact absurd h a
          · exact absurd h b
          · exact absurd h c
        · have hk : ∀ d, kwInt e.testPointKwargs kv.1 d = .error .typeError := by
            intro d
            unfold kwInt
            rw [hlk]
            simp only [hnone]
          have hor : ∀ k d, kwInt e.testPointKwargs k d = .error .typeError ∨
              ∃ n, kwInt e.testPointKwargs k d = .ok n := by
            intro k d
            unfold kwInt
            split
            · exact Or.inr ⟨_, rfl⟩
            · split
              · exact Or.inr ⟨_, rfl⟩
              · exact Or.inl rfl
          have := hacc kv hkv
          simp only [List.mem_cons, List.not_mem_nil, or_false] at this
          rcases this with h | h | h
          · rw [← h, hk]; rfl
          · rw [← h, hk]
            rcases hor "npoints".toList minTestPoints with h1 | ⟨n, h1⟩ <;> rw [h1] <;> rfl
          · rw [← h, hk]
            rcases hor "npoints".toList minTestPoints with h1 | ⟨n, h1⟩ <;>
              rcases hor "npublishers".toList 1 with h2 | ⟨n2, h2⟩ <;> rw [h1] <;>
              simp only [h2] <;> rfl
      · rfl
    unfold ExperimentParams.generateTestPoints
    rcases hst with h | h
    · rw [if_pos h, harg]; rfl
    · rw [if_neg (by rw [h]; decide), if_pos h, harg]; rfl
  · intro hst hbad
    have harg : gridPointArg e.testPointKwargs = .error .typeError := by
      unfold gridPointArg
      rcases hbad with ⟨kv, hkv, hne⟩ | hnil | ⟨v, hv, hnone⟩
      · rw [if_neg]
        rw [acceptsKwargs_iff]
        intro hacc
        exact hne (List.mem_singleton.1 (hacc kv hkv))
      · rw [hnil]; rfl
      · rw [hv]
        have : acceptsKwargs ["grid_size".toList] [("grid_size".toList, v)] = true := by
          rw [acceptsKwargs_iff]
          intro kv hkv
          rw [List.mem_singleton.1 hkv]
          simp
        rw [if_pos this]
        have hl : List.lookup "grid_size".toList [("grid_size".toList, v)] = some v := by
          simp [List.lookup]
        rw [hl]
        simp only [hnone]
    unfold ExperimentParams.generateTestPoints
    rw [if_neg (by rw [hst]; decide), if_neg (by rw [hst]; decide), if_pos hst, harg]
    rfl

/-- **C97 (model errors).** Constructing a model with a keyword argument that it does not have is a
`TypeError`, before any optimisation; so is calling the multi publisher model `None`. -/
theorem C97_model_errors (M : ModelLib C) (kwargs : Kwargs) (data : List ReachPoint)
    (curves : List (TrialCurve C)) :
    (kwargs ≠ [] → M.fitCurve .goerg kwargs data = .error .typeError) ∧
    ((∃ kv ∈ kwargs, kv.1 ≠ "max_reach".toList ∧ kv.1 ≠ "extrapolation_multiplier".toList) →
      M.fitCurve .gammaPoisson kwargs data = .error .typeError) ∧
    ((∃ kv ∈ kwargs, kv.1 ≠ "kmax".toList ∧ kv.1 ≠ "debug".toList ∧
        kv.1 ≠ "extrapolation_multiplier".toList) →
      M.fitCurve .kInflated kwargs data = .error .typeError) ∧
    M.fitSurface none kwargs curves data = .error .typeError ∧
    (kwargs ≠ [] → ∀ m, M.fitSurface (some m) kwargs curves data = .error .typeError) := by
  have hne : kwargs ≠ [] → ¬ acceptsKwargs [] kwargs = true := by
    intro h hacc
    rw [acceptsKwargs_iff] at hacc
    rcases kwargs with _ | ⟨kv, l⟩
    · exact h rfl
    · exact absurd (hacc kv (by simp)) List.not_mem_nil
  refine ⟨fun h => ?_, ?_, ?_, rfl, fun h m => ?_⟩
  · unfold ModelLib.fitCurve
    rw [if_neg (show ¬ acceptsKwargs SingleModel.goerg.keywords kwargs = true from hne h)]
  · rintro ⟨kv, hkv, a, b⟩
    unfold ModelLib.fitCurve
    rw [if_neg]
    rw [acceptsKwargs_iff]
    intro hacc
    have := hacc kv hkv
    simp only [SingleModel.keywords, List.mem_cons, List.not_mem_nil, or_false] at this
    tauto
  · rintro ⟨kv, hkv, a, b, c⟩
    unfold ModelLib.fitCurve
    rw [if_neg]
    rw [acceptsKwargs_iff]
    intro hacc
    have := hacc kv hkv
    simp only [SingleModel.keywords, List.mem_cons, List.not_mem_nil, or_false] at this
    tauto
  · simp only [ModelLib.fitSurface]
    rw [if_neg (hne h)]

/-! ## Whole trials -/

/-- **C69 (describing columns of a trial).** The row of a trial names the data set, prints the
descriptor, and gives the models, the strategy and the numbers of that descriptor, the numbers of the
data set, and the budget; replica, models and strategy are those that the trial was run with. -/
theorem C69_trial_describing (E : TrialEnv S C) (name : String) (ds : DataSet) (d : TrialDesc)
    (analysisType : String) (draws : Nat) (row : Row)
    (hrow : (trialOutcome E name ds d analysisType draws).1 = .ok row) :
    HasCell row "dataset" (.text name) ∧
    HasCell row "trial" (.text (String.ofList (d.strategy.str ++ ",".toList ++ d.system.str E.text ++
      ",".toList ++ d.experiment.str E.text))) ∧
    HasCell row "replica_id" (.int d.experiment.replicaId) ∧
    HasCell row "single_pub_model" (.text (String.ofList d.strategy.singlePub)) ∧
    HasCell row "multi_pub_model" (.text (String.ofList d.strategy.multiPub)) ∧
    HasCell row "strategy" (.text (String.ofList d.strategy.strategy)) ∧
    HasCell row "liquid_legions_sketch_size" (.float (some d.system.sketchSize)) ∧
    HasCell row "liquid_legions_decay_rate" (.float (some d.system.decayRate)) ∧
    HasCell row "maximum_reach" (.int ds.maximumReach) ∧
    HasCell row "ncampaigns" (.int ds.data.length) ∧
    (∃ p ∈ ds.data, (∀ q ∈ ds.data, q.maxReach ≤ p.maxReach) ∧
      HasCell row "largest_pub_reach" (.int p.maxReach)) ∧
    HasCell row "max_frequency" (.int d.experiment.maxFrequency) ∧
    HasCell row "average_spend_fraction"
      (.float (some (d.system.spends.sum / d.system.spends.length))) ∧
    HasCell row "privacy_budget_epsilon" (.float (some d.experiment.budget.epsilon)) ∧
    HasCell row "privacy_budget_delta" (.float (some d.experiment.budget.delta)) := by
  obtain ⟨hne, hl, -, -⟩ := (C97_returns_row E name ds d analysisType draws).1 ⟨row, hrow⟩
  obtain ⟨h, o, -, -, htr⟩ := trialOutcome_row E name ds d analysisType draws row hrow
  obtain ⟨c1, c2, c3, c4, c5, c6, c7, c8, c9, c10, ⟨m, hm, hmax, c11⟩, c12, c13, c14, c15, -⟩ :=
    C69_describing _ row htr
  simp only [trialInputs] at c1 c2 c3 c4 c5 c6 c7 c8 c9 c10 hm hmax c11 c12 c13 c14 c15
  obtain ⟨p, hp, rfl⟩ := List.mem_map.1 hm
  refine ⟨c1, ?_, c3, c4, c5, c6, c7, c8, c9, ?_, ⟨p, hp, ?_, c11⟩, c12, c13 ?_, c14, c15⟩
  · have : d.str E.text = d.strategy.str ++ ",".toList ++ d.system.str E.text ++ ",".toList ++
        d.experiment.str E.text := by
      simp [TrialDesc.str]
    rw [← this]
    exact c2
  · rw [List.length_map] at c10
    exact c10
  · intro q hq
    have := hmax _ (List.mem_map_of_mem hq)
    exact_mod_cast this
  · intro h0
    rw [h0] at hl
    simp only [List.length_nil] at hl
    omega

/-- **C97 (failures in the row).** A trial whose models are fitted but whose test points are refused
reports the exception of the test points; one whose fitting fails reports that exception. -/
theorem C97_reported (E : TrialEnv S C) (name : String) (ds : DataSet) (d : TrialDesc)
    (analysisType : String) (draws : Nat) (row : Row) (h : HaloSimulator S) (o : StrategyObject)
    (hrow : (trialOutcome E name ds d analysisType draws).1 = .ok row)
    (hh : HaloSimulator.new ds d.system.spends
      (E.lib d.system.decayRate d.system.sketchSize d.system.randomSeed) E.rand = .ok h)
    (ho : d.strategy.instantiate = .ok o) (e : PyErr) :
    ((E.models.fit o h d.experiment.budget ⟨PrivacyTracker.new, draws⟩).1 = .error e →
      HasCell row "model_succeeded" (.int 0) ∧
      HasCell row "model_exception" (.text (E.traceback e))) ∧
    (∀ surface, (E.models.fit o h d.experiment.budget ⟨PrivacyTracker.new, draws⟩).1 = .ok surface →
      d.experiment.generateTestPoints E.points ds = .error e →
      HasCell row "model_succeeded" (.int 0) ∧
      HasCell row "model_exception" (.text (E.traceback e))) := by
  obtain ⟨h', o', hh', ho', htr⟩ := trialOutcome_row E name ds d analysisType draws row hrow
  rw [hh] at hh'
  cases hh'
  rw [ho] at ho'
  cases ho'
  obtain ⟨r1, r2⟩ := C69_reported _ row htr e
  exact ⟨r1, fun s hs hp => (r2 s hs).1 hp⟩

/-! ## Examples -/

/-- The columns of a successful trial. -/
example : (trialOutcome exEnv "one" exOne exWholeTrial "" 0).1.map
    (fun row => (row.lookup "strategy", row.lookup "single_pub_model", row.lookup "multi_pub_model",
      row.lookup "dataset")) =
    .ok (some (.text "single_publisher"), some (.text "goerg"), some (.text "none"),
      some (.text "one")) := by decide +kernel

/-- A trial with a grid of unknown size reports a `TypeError`, one with an unknown strategy for test
points a `ValueError`. -/
example :
    (trialOutcome { exEnv with traceback := fun e => if e = .typeError then "TypeError" else "other" }
      "one" exOne { exWholeTrial with experiment :=
        { exWholeTrial.experiment with testPointKwargs := [] } } "" 0).1.map
      (fun row => (row.lookup "model_succeeded", row.lookup "model_exception")) =
      .ok (some (.int 0), some (.text "TypeError")) ∧
    (trialOutcome { exEnv with traceback := fun e => if e = .valueError then "ValueError" else "other" }
      "one" exOne { exWholeTrial with experiment :=
        { exWholeTrial.experiment with testPointStrategy := "random".toList } } "" 0).1.map
      (fun row => (row.lookup "model_succeeded", row.lookup "model_exception")) =
      .ok (some (.int 0), some (.text "ValueError")) := by
  constructor <;> decide +kernel

/-- An argument that is not an integer. -/
example : parseInt "abc".toList = none ∧
    ([("npoints".toList, "abc".toList)] : Kwargs).lookup "npoints".toList = some "abc".toList := by
  decide +kernel

end Verif
