import Verif.Model.Strategy
import Verif.Lemmas.DataSet
import Verif.Lemmas.ListExcept
import Mathlib.Tactic.Linarith
import Mathlib.Tactic.Ring

/-! # Lemmas about the Halo simulator -/

namespace Verif

/-! ## The effect monad -/

namespace HaloM

theorem bind_apply {α β : Type} (m : HaloM α) (f : α → HaloM β) (st : HaloState) :
    (m >>= f) st = match m st with
      | (.ok a, st') => f a st'
      | (.error e, st') => (.error e, st') := rfl

theorem bind_ok {α β : Type} {m : HaloM α} {f : α → HaloM β} {st st' : HaloState} {a : α}
    (h : m st = (.ok a, st')) : (m >>= f) st = f a st' := by
  rw [bind_apply, h]

theorem bind_error {α β : Type} {m : HaloM α} {f : α → HaloM β} {st st' : HaloState} {e : PyErr}
    (h : m st = (.error e, st')) : (m >>= f) st = (.error e, st') := by
  rw [bind_apply, h]

/-- If a sequence succeeds, both parts do. -/
theorem bind_eq_ok {α β : Type} {m : HaloM α} {f : α → HaloM β} {st st' : HaloState} {b : β}
    (h : (m >>= f) st = (.ok b, st')) : ∃ a st1, m st = (.ok a, st1) ∧ f a st1 = (.ok b, st') := by
  rw [bind_apply] at h
  rcases hm : m st with ⟨r, st1⟩
  rw [hm] at h
  cases r with
  | error e => simp at h
  | ok a => exact ⟨a, st1, rfl, h⟩

@[simp] theorem pure_apply {α : Type} (a : α) (st : HaloState) :
    (pure a : HaloM α) st = (.ok a, st) := rfl

@[simp] theorem lift_apply {α : Type} (e : Except PyErr α) (st : HaloState) :
    lift e st = (e, st) := rfl

@[simp] theorem draw_apply (st : HaloState) :
    draw st = (.ok st.draws, { st with draws := st.draws + 1 }) := rfl

@[simp] theorem record_apply (e : NoisingEvent ℚ) (st : HaloState) :
    record e st = (.ok (), { st with tracker := st.tracker.append e }) := rfl

theorem recordAll_apply (es : List (NoisingEvent ℚ)) (st : HaloState) :
    recordAll es st = (.ok (), { st with tracker := es.foldl PrivacyTracker.append st.tracker }) := by
  induction es generalizing st with
  | nil => rfl
  | cons e es ih =>
    unfold recordAll
    rw [bind_ok (record_apply e st), ih]
    rfl

end HaloM

/-! ## `simulated_reach_by_spend` -/

namespace HaloSimulator

variable {S : Type}

/-- The part of `simulated_reach_by_spend` after the estimate. -/
def simPost (h : HaloSimulator S) (spends : List ℚ) (maxFrequency : Int) (estimates : List ℚ) :
    Except PyErr ReachPoint := do
  let impressions ← h.dataSet.impressionsBySpend spends
  let capped ← capReaches impressions (minAccumulate ((estimates.map pyRound).map (max 0)))
    maxFrequency
  ReachPoint.new (impressions.map (fun n : Nat => (n : ℚ)))
    (capped.map (fun n : Int => (n : ℚ))) (some spends) (some (h.dataSet.universeSize : ℚ))

/-- The events recorded by one request. -/
def requestEvents (h : HaloSimulator S) (budget : PrivacyBudget ℚ) (split : ℚ) :
    List (NoisingEvent ℚ) :=
  (h.lib.outputPrivacyParameters ⟨budget.epsilon * split, budget.delta * split⟩
    ⟨budget.epsilon * (1 - split), budget.delta * (1 - split)⟩).map
    (fun ed => { budget := ⟨ed.1, ed.2⟩, mechanism := "Discrete Gaussian",
                 samplingBuckets := fullBucket })

/-- The estimates one request sees. -/
def requestEstimates (h : HaloSimulator S) (budget : PrivacyBudget ℚ) (split : ℚ)
    (maxFrequency : Int) (draws : Nat) (sketch : S) : List ℚ :=
  h.lib.estimate draws (draws + 1) maxFrequency ⟨budget.epsilon * split, budget.delta * split⟩
    ⟨budget.epsilon * (1 - split), budget.delta * (1 - split)⟩ sketch

theorem simulated_apply (h : HaloSimulator S) (spends : List ℚ) (budget : PrivacyBudget ℚ)
    (split : ℚ) (F : Int) (st : HaloState) :
    h.simulatedReachBySpend spends budget split F st =
      match h.combinedSketch spends with
      | .error e => (.error e, { tracker := st.tracker, draws := st.draws + 2 })
      | .ok sk =>
        (h.simPost spends F (h.requestEstimates budget split F st.draws sk),
          { tracker := (h.requestEvents budget split).foldl PrivacyTracker.append st.tracker
            draws := st.draws + 2 }) := by
  unfold simulatedReachBySpend
  rw [HaloM.bind_ok (HaloM.draw_apply st)]
  rw [HaloM.bind_ok (HaloM.draw_apply _)]
  rcases hsk : h.combinedSketch spends with e | sk
  · rw [HaloM.bind_error (HaloM.lift_apply _ _)]
  · rw [HaloM.bind_ok (HaloM.lift_apply _ _)]
    rw [HaloM.bind_ok (HaloM.recordAll_apply _ _)]
    unfold simPost requestEstimates requestEvents
    rcases hi : h.dataSet.impressionsBySpend spends with e | imps
    · rw [HaloM.bind_error (HaloM.lift_apply _ _)]
      rfl
    · rw [HaloM.bind_ok (HaloM.lift_apply _ _)]
      simp only [bind, Except.bind]
      rcases hc : capReaches imps (minAccumulate (List.map (max 0) (List.map pyRound
        (h.lib.estimate st.draws (st.draws + 1) F ⟨budget.epsilon * split, budget.delta * split⟩
          ⟨budget.epsilon * (1 - split), budget.delta * (1 - split)⟩ sk)))) F with e | c
      · exact HaloM.bind_error (HaloM.lift_apply _ _)
      · exact HaloM.bind_ok (HaloM.lift_apply _ _)

end HaloSimulator

/-! ## Running minima -/

theorem minAccumulate_length (l : List Int) : (minAccumulate l).length = l.length := by
  induction l with
  | nil => rfl
  | cons a l ih => simp [minAccumulate, ih]

theorem minAccumulate_pairwise (l : List Int) : (minAccumulate l).Pairwise (fun a b => b ≤ a) := by
  induction l with
  | nil => simp [minAccumulate]
  | cons a l ih =>
    rw [minAccumulate, List.pairwise_cons]
    constructor
    · intro b hb
      obtain ⟨c, _, rfl⟩ := List.mem_map.1 hb
      exact min_le_left _ _
    · rw [List.pairwise_map]
      exact ih.imp (fun h => min_le_min_left _ h)

theorem minAccumulate_nonneg (l : List Int) (h : ∀ x ∈ l, 0 ≤ x) :
    ∀ x ∈ minAccumulate l, 0 ≤ x := by
  induction l with
  | nil => simp [minAccumulate]
  | cons a l ih =>
    intro x hx
    rw [minAccumulate] at hx
    rcases List.mem_cons.1 hx with rfl | hx
    · exact h x (by simp)
    · obtain ⟨c, hc, rfl⟩ := List.mem_map.1 hx
      exact le_min (h a (by simp)) (ih (fun y hy => h y (by simp [hy])) c hc)

theorem minAccumulate_eq_self (l : List Int) (h : l.Pairwise (fun a b => b ≤ a)) :
    minAccumulate l = l := by
  induction l with
  | nil => rfl
  | cons a l ih =>
    rw [List.pairwise_cons] at h
    rw [minAccumulate, ih h.2]
    congr 1
    nth_rewrite 2 [← List.map_id l]
    apply List.map_congr_left
    intro b hb
    exact min_eq_right (h.1 b hb)

theorem pyRound_intCast (n : Int) : pyRound (n : ℚ) = n := by
  unfold pyRound
  have : (n : ℚ).floor = n := Rat.floor_intCast n
  rw [this]
  norm_num


/-! ## Success conditions -/

theorem impressionsBySpend_ok (ds : DataSet) (spends : List ℚ)
    (hl : ds.data.length ≤ spends.length) :
    ds.impressionsBySpend spends
      = .ok ((ds.data.zip spends).map (fun ps => ps.1.impressionsBySpend ps.2)) := by
  unfold DataSet.impressionsBySpend
  rw [mapM_ok_iff]
  apply forall₂_zipIdx_of (by simp [hl])
  intro i hi hi'
  simp only [bind, Except.bind, pyIndex_nat spends i (by omega)]
  simp [pure, Except.pure]

theorem impressionsBySpend_length (ds : DataSet) (spends : List ℚ) (l : List Nat)
    (h : ds.impressionsBySpend spends = .ok l) : l.length = ds.data.length := by
  unfold DataSet.impressionsBySpend at h
  rw [mapM_ok_iff] at h
  exact (forall₂_zipIdx h).1

theorem foldlM_ok {α β : Type} (f : β → α → Except PyErr β) (l : List α)
    (h : ∀ a ∈ l, ∀ b, ∃ b', f b a = .ok b') (b : β) : ∃ b', l.foldlM f b = .ok b' := by
  induction l generalizing b with
  | nil => exact ⟨b, rfl⟩
  | cons a l ih =>
    obtain ⟨b1, hb1⟩ := h a (by simp) b
    rw [List.foldlM_cons, hb1]
    exact ih (fun a ha => h a (by simp [ha])) b1

namespace HaloSimulator

variable {S : Type}

theorem combinedSketch_ok (h : HaloSimulator S) (spends : List ℚ) (h1 : 1 ≤ spends.length)
    (h2 : spends.length ≤ h.publishers.length) : ∃ sk, h.combinedSketch spends = .ok sk := by
  unfold combinedSketch
  have e1 := pyIndex_nat h.publishers 0 (by omega)
  have e2 := pyIndex_nat spends 0 (by omega)
  simp only [Nat.cast_zero] at e1 e2
  rw [e1, e2]
  simp only [bind, Except.bind]
  apply foldlM_ok
  intro si hsi acc
  have hm := List.mem_of_mem_drop hsi
  obtain ⟨i, hi, hi'⟩ := List.getElem_of_mem hm
  simp only [List.length_zipIdx] at hi
  have : si.2 < h.publishers.length := by
    rw [← hi']; simp; omega
  rw [pyIndex_nat _ _ this]
  exact ⟨_, rfl⟩

theorem combinedSketch_ne_nil (h : HaloSimulator S) (spends : List ℚ) (sk : S)
    (hs : h.combinedSketch spends = .ok sk) : spends ≠ [] := by
  rintro rfl
  unfold combinedSketch at hs
  rcases hp : pyIndex h.publishers 0 with e | p <;> rw [hp] at hs <;> cases hs

/-- What a successful request looks like. -/
theorem simulated_ok (h : HaloSimulator S) (spends : List ℚ) (budget : PrivacyBudget ℚ)
    (split : ℚ) (F : Int) (st st' : HaloState) (r : ReachPoint)
    (hr : h.simulatedReachBySpend spends budget split F st = (.ok r, st')) :
    ∃ sk imps capped, h.combinedSketch spends = .ok sk ∧
      h.dataSet.impressionsBySpend spends = .ok imps ∧
      capReaches imps (minAccumulate (((h.requestEstimates budget split F st.draws sk).map
        pyRound).map (max 0))) F = .ok capped ∧
      r.impressions = imps.map (fun n : Nat => (n : ℚ)) ∧
      r.kplusReaches = capped.map (fun n : Int => (n : ℚ)) ∧
      r.spends = some spends ∧ r.universeSize? = some (h.dataSet.universeSize : ℚ) ∧
      spends.length = h.dataSet.data.length ∧
      st' = { tracker := (h.requestEvents budget split).foldl PrivacyTracker.append st.tracker
              draws := st.draws + 2 } := by
  rw [simulated_apply] at hr
  rcases hsk : h.combinedSketch spends with e | sk
  · rw [hsk] at hr; simp at hr
  rw [hsk] at hr
  simp only [Prod.mk.injEq] at hr
  obtain ⟨hr, hst⟩ := hr
  unfold simPost at hr
  rcases hi : h.dataSet.impressionsBySpend spends with e | imps
  · rw [hi] at hr; cases hr
  rw [hi] at hr
  simp only [bind, Except.bind] at hr
  rcases hc : capReaches imps (minAccumulate (((h.requestEstimates budget split F st.draws sk).map
        pyRound).map (max 0))) F with e | capped
  · rw [hc] at hr; cases hr
  rw [hc] at hr
  simp only at hr
  have hne := combinedSketch_ne_nil h spends sk hsk
  have htr : ReachPoint.truthySpends (some spends) = true := by
    cases spends with
    | nil => exact absurd rfl hne
    | cons a l => rfl
  unfold ReachPoint.new at hr
  split at hr
  · cases hr
  next hcond =>
    simp only [Except.ok.injEq] at hr
    refine ⟨sk, imps, capped, rfl, rfl, hc, ?_, ?_, ?_, ?_, ?_, hst.symm⟩
    · rw [← hr]
    · rw [← hr]
    · rw [← hr]
    · rw [← hr]
    · simp only [htr, true_and, ne_eq, not_not, Option.getD_some, List.length_map] at hcond
      rw [← hcond]
      exact impressionsBySpend_length _ _ _ hi

end HaloSimulator

/-- Adding `[id] * freq` for every user of a dictionary. -/
theorem count_flatten_groups (d : Dict Int Int) (hn : (dictKeys d).Nodup) (hp : DictPos d) (u : Int) :
    (((d.map (fun kv => pyRepeat kv.1 kv.2)).flatten).count u : Int) = dictGet d u := by
  induction d with
  | nil => simp [dictGet]
  | cons kv d ih =>
    obtain ⟨k, v⟩ := kv
    have hn' : k ∉ dictKeys d ∧ (dictKeys d).Nodup := by
      simpa [dictKeys] using hn
    have hv : 1 ≤ v := hp (k, v) (by simp)
    have hp' : DictPos d := fun x hx => hp x (by simp [hx])
    rw [List.map_cons, List.flatten_cons, List.count_append]
    push_cast
    rw [ih hn'.2 hp']
    simp only [dictGet, pyRepeat]
    by_cases h : k = u
    · subst h
      rw [if_pos rfl, dictGet_eq_zero_of_notMem d k hn'.1, List.count_replicate_self]
      omega
    · rw [if_neg h, List.count_replicate]
      simp [h]

theorem length_flatten_groups (d : Dict Int Int) (hp : DictPos d) :
    (((d.map (fun kv => pyRepeat kv.1 kv.2)).flatten).length : Int) = (d.map (·.2)).sum := by
  induction d with
  | nil => simp
  | cons kv d ih =>
    have hv : 1 ≤ kv.2 := hp kv (by simp)
    have hp' : DictPos d := fun x hx => hp x (by simp [hx])
    rw [List.map_cons, List.flatten_cons, List.length_append, List.map_cons, List.sum_cons,
      ← ih hp']
    simp only [pyRepeat, List.length_replicate]
    push_cast
    omega

end Verif
