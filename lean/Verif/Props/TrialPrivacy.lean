import Verif.Props.WholeTrial

/-!
# C98: the privacy columns of a trial

What the row of a trial says about the privacy budget, also if the trial failed halfway.
-/

namespace Verif

open Verif.Spec

variable {S C : Type}

/-- Shares into which the strategy divides the budget: one for each measurement that it might make. -/
def budgetShares (strategy : Text) (publishers : Nat) : Nat :=
  if strategy = "m3strategy".toList then 2 * publishers + 1 else 1

/-- Measurements that a successful fit makes: M3 measures all campaigns together, each campaign alone,
and, if there are three or more, all but each one; the single publisher strategy measures once. -/
def measurements (strategy : Text) (publishers : Nat) : Nat :=
  if strategy = "m3strategy".toList then
    1 + publishers + if 2 < publishers then publishers else 0
  else 1

theorem budgetShares_pos (s : Text) (n : Nat) : 0 < budgetShares s n := by
  unfold budgetShares; split <;> omega

theorem measurements_le (s : Text) (n : Nat) : measurements s n ≤ budgetShares s n := by
  unfold measurements budgetShares
  split
  · split <;> omega
  · omega

theorem Uses.fitSingle {Curve Surf : Type} (st : Strategy Curve Surf) (h : HaloSimulator S)
    (hlib : ReportsItsBudgets h.lib) (budget : PrivacyBudget ℚ) :
    Uses budget 1 (st.fitSingle h budget) ∨
      ∀ s, st.fitSingle h budget s = (.error .valueError, s) := by
  unfold Strategy.fitSingle
  by_cases hp : h.publisherCount ≠ 1
  · right
    intro s
    rw [if_pos hp]
    rfl
  · left
    rw [if_neg hp]
    exact Uses.bind (Uses.simulated h hlib _ _ _) (k := 0) (fun total =>
      Uses.bind (Uses.lift _ _) (k := 0) (fun c => Uses.pure _ _))

theorem Uses.map {α β : Type} {b : PrivacyBudget ℚ} {n : Nat} {m : HaloM α} (h : Uses b n m)
    (f : α → β) : Uses b n (m >>= fun a => (Pure.pure (f a) : HaloM β)) :=
  (Uses.bind h (k := 0) (fun _ => Uses.pure _ _)).cast (Nat.add_zero n)

/-- The events that the fit of a trial records. -/
theorem trialFit_events (M : ModelLib C) (o : StrategyObject) (d : StrategyDescriptor)
    (ho : d.instantiate = .ok o) (h : HaloSimulator S) (hlib : ReportsItsBudgets h.lib)
    (b : PrivacyBudget ℚ) (st : HaloState) :
    ∃ (es : List (NoisingEvent ℚ)) (k : Nat),
      (M.fit o h b st).2.tracker = es.foldl PrivacyTracker.append st.tracker ∧
      (∀ e ∈ es, e.samplingBuckets = fullBucket ∧ (0 ≤ b.epsilon → 0 ≤ e.budget.epsilon) ∧
        (0 ≤ b.delta → 0 ≤ e.budget.delta) ∧ e.mechanism = "Discrete Gaussian") ∧
      k ≤ measurements d.strategy h.publisherCount ∧
      epsSum es = k / budgetShares d.strategy h.publisherCount * b.epsilon ∧
      deltaSum es = k / budgetShares d.strategy h.publisherCount * b.delta ∧
      (∀ a, (M.fit o h b st).1 = .ok a → k = measurements d.strategy h.publisherCount) ∧
      es.length = 2 * k := by
  have hcls : (o.cls = .m3 ↔ d.strategy = "m3strategy".toList) := by
    obtain ⟨i1, i2, i3⟩ := C97_instantiate d
    by_cases hr : RegisteredNames d
    swap
    · rw [i1 hr] at ho; cases ho
    by_cases hks : KnownStrategyKwargs d
    swap
    · rw [i2 hr hks] at ho; cases ho
    obtain ⟨o', ho', g, -⟩ := i3 hr hks
    rw [ho] at ho'
    cases ho'
    exact g
  have hn : (0 : ℚ) < 2 * (h.publisherCount : ℚ) + 1 := by positivity
  rcases hc : o.cls with _ | _
  · have hs := hcls.1 hc
    obtain ⟨es, k, h1, h2, h3, h4, h5, h6, h7⟩ :=
      Uses.map (Uses.fitM3 (M.strategy o) h hlib b) M.fittedView st
    have hfit : M.fit o h b st = ((M.strategy o).fitM3 h b >>= fun a => pure (M.fittedView a)) st := by
      unfold ModelLib.fit; rw [hc]
    rw [hfit]
    refine ⟨es, k, h1, ?_, ?_, ?_, ?_, ?_, h7⟩
    · intro e he
      obtain ⟨a1, a2, a3, a4⟩ := h2 e he
      exact ⟨a1, fun hb => a2 (div_nonneg hb hn.le), fun hb => a3 (div_nonneg hb hn.le), a4⟩
    · rw [measurements, if_pos hs]; exact h3
    · rw [h4, budgetShares, if_pos hs]; push_cast; ring
    · rw [h5, budgetShares, if_pos hs]; push_cast; ring
    · intro a ha
      rw [measurements, if_pos hs]; exact h6 a ha
  · have hs : d.strategy ≠ "m3strategy".toList := fun hs => by
      have := hcls.2 hs
      rw [hc] at this
      cases this
    have hfit : M.fit o h b st =
        ((M.strategy o).fitSingle h b >>= fun a => pure (M.fittedView a)) st := by
      unfold ModelLib.fit; rw [hc]
    rcases Uses.fitSingle (M.strategy o) h hlib b with hu | hu
    · obtain ⟨es, k, h1, h2, h3, h4, h5, h6, h7⟩ := Uses.map hu M.fittedView st
      rw [hfit]
      refine ⟨es, k, h1, h2, ?_, ?_, ?_, ?_, h7⟩
      · rw [measurements, if_neg hs]; exact h3
      · rw [h4, budgetShares, if_neg hs]; simp
      · rw [h5, budgetShares, if_neg hs]; simp
      · intro a ha
        rw [measurements, if_neg hs]; exact h6 a ha
    · have he : M.fit o h b st = (.error .valueError, st) := by
        rw [hfit, HaloM.bind_apply, hu]
      rw [he]
      refine ⟨[], 0, rfl, by simp, by omega, by simp [epsSum], by simp [deltaSum], ?_, rfl⟩
      intro a ha
      cases ha

/-- **C98 (privacy columns).** The row of a trial, successful or not, names the configured budget, and
as consumption some number `k` of the equal shares into which the strategy divides the budget: no more
than the measurements that the strategy makes, and exactly these if the fit succeeds.  The mechanism
is named if and only if something was measured. -/
theorem C98_columns (E : TrialEnv S C) (hlib : ∀ x y z, ReportsItsBudgets (E.lib x y z))
    (name : String) (ds : DataSet) (d : TrialDesc) (analysisType : String) (draws : Nat) (row : Row)
    (hrow : (trialOutcome E name ds d analysisType draws).1 = .ok row)
    (he : 0 ≤ d.experiment.budget.epsilon) (hd : 0 ≤ d.experiment.budget.delta) :
    HasCell row "privacy_budget_epsilon" (.float (some d.experiment.budget.epsilon)) ∧
    HasCell row "privacy_budget_delta" (.float (some d.experiment.budget.delta)) ∧
    ∃ k : Nat, k ≤ measurements d.strategy.strategy ds.data.length ∧
      HasCell row "privacy_used_epsilon" (.float (some
        (k / budgetShares d.strategy.strategy ds.data.length * d.experiment.budget.epsilon))) ∧
      HasCell row "privacy_used_delta" (.float (some
        (k / budgetShares d.strategy.strategy ds.data.length * d.experiment.budget.delta))) ∧
      HasCell row "privacy_mechanisms" (.text (if k = 0 then "" else "Discrete Gaussian")) ∧
      (HasCell row "model_succeeded" (.int 1) →
        k = measurements d.strategy.strategy ds.data.length) := by
  obtain ⟨h, o, hh, ho, htr⟩ := trialOutcome_row E name ds d analysisType draws row hrow
  obtain ⟨hcount, hds, hlb⟩ := halo_publishers _ _ _ _ h hh
  obtain ⟨es, k, h1, h2, h3, h4, h5, h6, h7⟩ := trialFit_events E.models o d.strategy ho h
    (by rw [hlb]; exact hlib _ _ _) d.experiment.budget ⟨PrivacyTracker.new, draws⟩
  rw [hcount] at h3 h4 h5 h6
  obtain ⟨-, -, -, -, -, -, -, -, -, -, -, -, -, c1, c2, c3, c4, ms, c5, c6, c7, c8⟩ :=
    C69_describing _ row htr
  have hrun : (E.models.fit o h d.experiment.budget ⟨PrivacyTracker.new, draws⟩).2.tracker =
      PrivacyTracker.run es := h1
  have hcons := consumption_foldl_full [] es (by simp)
    (fun e hem => ⟨(h2 e hem).1, (h2 e hem).2.1 he, (h2 e hem).2.2.1 hd⟩)
  have hz : (PrivacyTracker.run ([] : List (NoisingEvent ℚ))).privacyConsumption = ⟨0, 0⟩ := by
    decide +kernel
  have hcons' : (PrivacyTracker.run es).privacyConsumption = ⟨epsSum es, deltaSum es⟩ := by
    have : es.foldl PrivacyTracker.append (PrivacyTracker.run []) = PrivacyTracker.run es := rfl
    rw [this, hz] at hcons
    rw [hcons]
    simp
  have hev : (PrivacyTracker.run es).noisingEvents = es := by
    have : ∀ (l : List (NoisingEvent ℚ)) (t : PrivacyTracker ℚ),
        (l.foldl PrivacyTracker.append t).noisingEvents = t.noisingEvents ++ l := by
      intro l
      induction l with
      | nil => intro t; simp
      | cons e l ih =>
        intro t
        rw [List.foldl_cons, ih]
        simp [PrivacyTracker.append]
    exact this es PrivacyTracker.new
  refine ⟨c1, c2, k, h3, ?_, ?_, ?_, ?_⟩
  · rw [← h4]
    have : HasCell row "privacy_used_epsilon"
        (.float (some (PrivacyTracker.run es).privacyConsumption.epsilon)) := by
      rw [← hrun]; exact c3
    rw [hcons'] at this
    exact this
  · rw [← h5]
    have : HasCell row "privacy_used_delta"
        (.float (some (PrivacyTracker.run es).privacyConsumption.delta)) := by
      rw [← hrun]; exact c4
    rw [hcons'] at this
    exact this
  · have c8' : ∀ x, x ∈ ms ↔ ∃ e ∈ es, e.mechanism = x := by
      intro x
      rw [c8 x]
      have : (trialInputs E name ds d analysisType h
        (E.models.fit o h d.experiment.budget ⟨PrivacyTracker.new, draws⟩).1
        (E.models.fit o h d.experiment.budget ⟨PrivacyTracker.new, draws⟩).2.tracker).tracker =
          PrivacyTracker.run es := hrun
      rw [this, hev]
    by_cases hk : k = 0
    · rw [if_pos hk]
      have hes : es = [] := List.length_eq_zero_iff.1 (by omega)
      have hms : ms = [] := by
        rw [List.eq_nil_iff_forall_not_mem]
        intro x hx
        rw [c8' x, hes] at hx
        obtain ⟨e, hx, -⟩ := hx
        exact List.not_mem_nil hx
      rw [hms] at c5
      exact c5
    · rw [if_neg hk]
      obtain ⟨e, hem⟩ : ∃ e, e ∈ es := List.exists_mem_of_length_pos (by omega)
      have hall : ∀ x ∈ ms, x = "Discrete Gaussian" := by
        intro x hx
        obtain ⟨e', he', rfl⟩ := (c8' x).1 hx
        exact (h2 e' he').2.2.2
      have hin : "Discrete Gaussian" ∈ ms := (c8' _).2 ⟨e, hem, (h2 e hem).2.2.2⟩
      have hms : ms = ["Discrete Gaussian"] := by
        rcases ms with _ | ⟨x, _ | ⟨y, ms⟩⟩
        · exact absurd hin List.not_mem_nil
        · rw [hall x (by simp)]
        · exfalso
          rw [List.nodup_cons] at c6
          apply c6.1
          rw [hall x (by simp), hall y (by simp)]
          simp
      rw [hms] at c5
      exact c5
  · intro hs
    obtain ⟨surface, _, _, _, _, hfit, -⟩ := (C69_success _ row htr).2.1 hs
    exact h6 _ hfit

/-- **C98 (within budget).** No row, successful or not, reports a consumption above its budget. -/
theorem C98_within_budget (E : TrialEnv S C) (hlib : ∀ x y z, ReportsItsBudgets (E.lib x y z))
    (name : String) (ds : DataSet) (d : TrialDesc) (analysisType : String) (draws : Nat) (row : Row)
    (hrow : (trialOutcome E name ds d analysisType draws).1 = .ok row)
    (he : 0 ≤ d.experiment.budget.epsilon) (hd : 0 ≤ d.experiment.budget.delta) :
    ∃ eps delta, HasCell row "privacy_used_epsilon" (.float (some eps)) ∧
      HasCell row "privacy_used_delta" (.float (some delta)) ∧
      0 ≤ eps ∧ eps ≤ d.experiment.budget.epsilon ∧ 0 ≤ delta ∧ delta ≤ d.experiment.budget.delta := by
  obtain ⟨-, -, k, hk, c1, c2, -⟩ := C98_columns E hlib name ds d analysisType draws row hrow he hd
  have hpos : (0 : ℚ) < budgetShares d.strategy.strategy ds.data.length := by
    exact_mod_cast budgetShares_pos _ _
  have h1 : (k : ℚ) / budgetShares d.strategy.strategy ds.data.length ≤ 1 := by
    rw [div_le_one hpos]
    exact_mod_cast hk.trans (measurements_le _ _)
  have h0 : (0 : ℚ) ≤ (k : ℚ) / budgetShares d.strategy.strategy ds.data.length := by positivity
  exact ⟨_, _, c1, c2, mul_nonneg h0 he, mul_le_of_le_one_left he h1, mul_nonneg h0 hd,
    mul_le_of_le_one_left hd h1⟩

/-- **C98 (successful trials).** A successful trial of the M3 strategy has used its whole budget if it
has three or more publishers, two thirds of it for one publisher and three fifths for two; a
successful trial of the single publisher strategy has used its whole budget. -/
theorem C98_successful (E : TrialEnv S C) (hlib : ∀ x y z, ReportsItsBudgets (E.lib x y z))
    (name : String) (ds : DataSet) (d : TrialDesc) (analysisType : String) (draws : Nat) (row : Row)
    (hrow : (trialOutcome E name ds d analysisType draws).1 = .ok row)
    (he : 0 ≤ d.experiment.budget.epsilon) (hd : 0 ≤ d.experiment.budget.delta)
    (hs : HasCell row "model_succeeded" (.int 1)) :
    ∃ part : ℚ, HasCell row "privacy_used_epsilon" (.float (some
        (part * d.experiment.budget.epsilon))) ∧
      HasCell row "privacy_used_delta" (.float (some (part * d.experiment.budget.delta))) ∧
      HasCell row "privacy_mechanisms" (.text "Discrete Gaussian") ∧
      (d.strategy.strategy = "single_publisher".toList → part = 1) ∧
      (d.strategy.strategy = "m3strategy".toList →
        (ds.data.length = 1 → part = 2 / 3) ∧ (ds.data.length = 2 → part = 3 / 5) ∧
        (3 ≤ ds.data.length → part = 1)) := by
  obtain ⟨-, -, k, hk, c1, c2, c3, c4⟩ :=
    C98_columns E hlib name ds d analysisType draws row hrow he hd
  have hk' := c4 hs
  refine ⟨_, c1, c2, ?_, ?_, ?_⟩
  · have : k ≠ 0 := by rw [hk']; unfold measurements; split <;> omega
    rw [if_neg this] at c3
    exact c3
  · intro hst
    have hn : d.strategy.strategy ≠ "m3strategy".toList := by rw [hst]; decide
    rw [hk', measurements, budgetShares, if_neg hn, if_neg hn]
    norm_num
  · intro hst
    refine ⟨?_, ?_, ?_⟩
    · intro hp
      rw [hk', measurements, budgetShares, if_pos hst, if_pos hst, hp]
      norm_num
    · intro hp
      rw [hk', measurements, budgetShares, if_pos hst, if_pos hst, hp]
      norm_num
    · intro hp
      rw [hk', measurements, budgetShares, if_pos hst, if_pos hst, if_pos (by omega)]
      push_cast
      field_simp
      ring

/-- The library of the examples does report its budgets. -/
example : ∀ x y z, ReportsItsBudgets (exEnv.lib x y z) := fun _ _ _ _ _ => rfl

/-- A successful trial: everything is used. -/
example : (trialOutcome exEnv "one" exOne exWholeTrial "" 0).1.map
    (fun row => (row.lookup "model_succeeded", row.lookup "privacy_used_epsilon",
      row.lookup "privacy_used_delta", row.lookup "privacy_mechanisms")) =
    .ok (some (.int 1), some (.float (some 1)), some (.float (some (1 / 100))),
      some (.text "Discrete Gaussian")) := by decide +kernel

/-- A failed M3 trial on two publishers (its model cannot be fitted): three fifths are used. -/
example : (trialOutcome exEnv "two" exDataSet { exWholeTrial with
      strategy := ⟨"m3strategy".toList, [], "goerg".toList, [], "pairwise_union".toList, []⟩
      system := ⟨[1, 1], 12, 1000, 1, 0⟩ } "" 0).1.map
    (fun row => (row.lookup "model_succeeded", row.lookup "privacy_used_epsilon")) =
    .ok (some (.int 0), some (.float (some (3 / 5)))) := by decide +kernel

/-- A single publisher trial on two publishers is refused before anything is measured. -/
example : (trialOutcome exEnv "two" exDataSet
      { exWholeTrial with system := ⟨[1, 1], 12, 1000, 1, 0⟩ } "" 0).1.map
    (fun row => (row.lookup "model_succeeded", row.lookup "privacy_used_epsilon",
      row.lookup "privacy_mechanisms")) =
    .ok (some (.int 0), some (.float (some 0)), some (.text "")) := by decide +kernel

end Verif
