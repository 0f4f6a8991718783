import Verif.Props.Halo
import Verif.Props.PrivacyTracker
import Mathlib.Tactic.FieldSimp

/-!
# C18–C19: the M3 and single publisher strategies
-/

namespace Verif

open Verif.Spec

variable {S Curve Surface : Type}

/-! ## Budget bookkeeping -/

/-- What the library documents: one entry for the reach noise, one for the frequency noise. -/
def ReportsItsBudgets (lib : SketchLib S) : Prop :=
  ∀ r f : PrivacyBudget ℚ,
    lib.outputPrivacyParameters r f = [(r.epsilon, r.delta), (f.epsilon, f.delta)]

/-- Summed epsilon of events. -/
def epsSum (es : List (NoisingEvent ℚ)) : ℚ := (es.map (·.budget.epsilon)).sum

/-- Summed delta of events. -/
def deltaSum (es : List (NoisingEvent ℚ)) : ℚ := (es.map (·.budget.delta)).sum

/-- `m` records `n` requests of budget `b` (at most that many if it raises), all on the whole
universe. -/
def Uses {α : Type} (b : PrivacyBudget ℚ) (n : Nat) (m : HaloM α) : Prop :=
  ∀ st, ∃ (es : List (NoisingEvent ℚ)) (k : Nat),
    (m st).2.tracker = es.foldl PrivacyTracker.append st.tracker ∧
    (∀ e ∈ es, e.samplingBuckets = fullBucket ∧ (0 ≤ b.epsilon → 0 ≤ e.budget.epsilon) ∧
      (0 ≤ b.delta → 0 ≤ e.budget.delta) ∧ e.mechanism = "Discrete Gaussian") ∧
    k ≤ n ∧ epsSum es = k * b.epsilon ∧ deltaSum es = k * b.delta ∧
    (∀ a, (m st).1 = .ok a → k = n) ∧ es.length = 2 * k

theorem Uses.lift {α : Type} (b : PrivacyBudget ℚ) (e : Except PyErr α) :
    Uses b 0 (HaloM.lift e) := by
  intro st
  exact ⟨[], 0, rfl, by simp, le_rfl, by simp [epsSum], by simp [deltaSum], fun _ _ => rfl, rfl⟩

theorem Uses.pure {α : Type} (b : PrivacyBudget ℚ) (a : α) : Uses b 0 (pure a : HaloM α) :=
  Uses.lift b (.ok a)

theorem Uses.bind {α β : Type} {b : PrivacyBudget ℚ} {n k : Nat} {m : HaloM α} {f : α → HaloM β}
    (hm : Uses b n m) (hf : ∀ a, Uses b k (f a)) : Uses b (n + k) (m >>= f) := by
  intro st
  obtain ⟨es, j, h1, h2, h3, h4, h5, h6, h7⟩ := hm st
  rw [HaloM.bind_apply]
  rcases hr : m st with ⟨r, st'⟩
  rw [hr] at h1 h6
  simp only at h1 h6
  cases r with
  | error e => exact ⟨es, j, h1, h2, by omega, h4, h5, by simp, h7⟩
  | ok a =>
    obtain ⟨es', j', g1, g2, g3, g4, g5, g6, g7⟩ := hf a st'
    have hj := h6 a rfl
    refine ⟨es ++ es', j + j', ?_, ?_, by omega, ?_, ?_, ?_, ?_⟩
    · simp only [g1, h1, List.foldl_append]
    · intro e he
      rcases List.mem_append.1 he with he | he
      · exact h2 e he
      · exact g2 e he
    · unfold epsSum at *
      rw [List.map_append, List.sum_append, h4, g4]
      push_cast; ring
    · unfold deltaSum at *
      rw [List.map_append, List.sum_append, h5, g5]
      push_cast; ring
    · intro x hx
      rw [hj, g6 x hx]
    · rw [List.length_append, h7, g7]; omega

theorem Uses.simulated (h : HaloSimulator S) (hlib : ReportsItsBudgets h.lib) (spends : List ℚ)
    (b : PrivacyBudget ℚ) (F : Int) : Uses b 1 (h.simulatedReachBySpend spends b (1 / 2) F) := by
  intro st
  rw [HaloSimulator.simulated_apply]
  rcases hsk : h.combinedSketch spends with e | sk
  · exact ⟨[], 0, rfl, by simp, by omega, by simp [epsSum], by simp [deltaSum], by simp,
      rfl⟩
  · refine ⟨h.requestEvents b (1 / 2), 1, rfl, ?_, le_rfl, ?_, ?_, fun _ _ => rfl, ?_⟩
    · intro e he
      unfold HaloSimulator.requestEvents at he
      rw [hlib] at he
      simp only [List.map_cons, List.map_nil, List.mem_cons, List.not_mem_nil, or_false] at he
      rcases he with rfl | rfl
      · exact ⟨rfl, fun h => by simp only; linarith, fun h => by simp only; linarith, rfl⟩
      · exact ⟨rfl, fun h => by simp only; linarith, fun h => by simp only; linarith, rfl⟩
    · unfold epsSum HaloSimulator.requestEvents
      rw [hlib]
      simp only [List.map_cons, List.map_nil, List.sum_cons, List.sum_nil]
      push_cast; ring
    · unfold deltaSum HaloSimulator.requestEvents
      rw [hlib]
      simp only [List.map_cons, List.map_nil, List.sum_cons, List.sum_nil]
      push_cast; ring
    · unfold HaloSimulator.requestEvents
      rw [hlib]
      rfl

theorem Uses.cast {α : Type} {b : PrivacyBudget ℚ} {n k : Nat} {m : HaloM α} (h : Uses b n m)
    (e : n = k) : Uses b k m := e ▸ h

theorem Uses.singleLoop (h : HaloSimulator S) (hlib : ReportsItsBudgets h.lib)
    (b : PrivacyBudget ℚ) (ids : List Nat) :
    Uses b ids.length (Strategy.singleLoop h b ids) := by
  induction ids with
  | nil => exact Uses.pure b _
  | cons i ids ih =>
    unfold Strategy.singleLoop
    refine Uses.cast (Uses.bind (Uses.lift b _) (fun _ => Uses.bind
      (Uses.simulated h hlib _ b _) (fun _ => Uses.bind (Uses.lift b _) (fun _ =>
        Uses.bind ih (fun _ => Uses.pure b _))))) ?_
    simp only [List.length_cons]; omega

theorem Uses.leaveOneOutLoop (h : HaloSimulator S) (hlib : ReportsItsBudgets h.lib)
    (b : PrivacyBudget ℚ) (ids : List Nat) :
    Uses b ids.length (Strategy.leaveOneOutLoop h b ids) := by
  induction ids with
  | nil => exact Uses.pure b _
  | cons i ids ih =>
    unfold Strategy.leaveOneOutLoop
    refine Uses.cast (Uses.bind (Uses.simulated h hlib _ b _) (fun _ =>
        Uses.bind ih (fun _ => Uses.pure b _))) ?_
    simp only [List.length_cons]; omega

theorem Uses.fitM3 (st : Strategy Curve Surface) (h : HaloSimulator S)
    (hlib : ReportsItsBudgets h.lib) (budget : PrivacyBudget ℚ) :
    Uses ⟨budget.epsilon / (2 * h.publisherCount + 1), budget.delta / (2 * h.publisherCount + 1)⟩
      (1 + h.publisherCount + if 2 < h.publisherCount then h.publisherCount else 0)
      (st.fitM3 h budget) := by
  unfold Strategy.fitM3
  have hloo : Uses (⟨budget.epsilon / (2 * h.publisherCount + 1),
      budget.delta / (2 * h.publisherCount + 1)⟩ : PrivacyBudget ℚ)
      (if 2 < h.publisherCount then h.publisherCount else 0)
      (Strategy.leaveOneOutPoints h
        ⟨budget.epsilon / (2 * h.publisherCount + 1), budget.delta / (2 * h.publisherCount + 1)⟩
        h.publisherCount) := by
    unfold Strategy.leaveOneOutPoints
    split
    · exact (Uses.leaveOneOutLoop h hlib _ _).cast (by simp)
    · exact Uses.pure _ _
  refine Uses.cast (Uses.bind (Uses.simulated h hlib _ _ _) (fun total =>
    Uses.bind (Uses.singleLoop h hlib _ _) (fun singles => Uses.bind hloo (fun loo =>
      Uses.bind (Uses.lift _ _) (k := 0) (fun curves => ?_))))) ?_
  · split
    · exact Uses.bind (Uses.lift _ _) (fun _ => Uses.pure _ _)
    · exact Uses.bind (Uses.lift _ _) (fun _ => Uses.pure _ _)
  · simp only [List.length_range]; omega

/-- Whole-universe events add up in the tracker. -/
theorem consumption_foldl_full (es0 es : List (NoisingEvent ℚ)) (h0 : ∀ e ∈ es0, ValidEvent e)
    (hes : ∀ e ∈ es, e.samplingBuckets = fullBucket ∧ 0 ≤ e.budget.epsilon ∧ 0 ≤ e.budget.delta) :
    (es.foldl PrivacyTracker.append (PrivacyTracker.run es0)).privacyConsumption =
      ⟨(PrivacyTracker.run es0).privacyConsumption.epsilon + epsSum es,
       (PrivacyTracker.run es0).privacyConsumption.delta + deltaSum es⟩ := by
  induction es generalizing es0 with
  | nil => simp [epsSum, deltaSum]
  | cons e es ih =>
    have he := hes e (by simp)
    have hve : ValidEvent e := by
      refine ⟨?_, ?_, ?_, ?_, he.2.1, he.2.2⟩ <;> rw [he.1] <;> simp [fullBucket]
    have hv : ∀ e' ∈ es0 ++ [e], ValidEvent e' := by
      intro e' he'
      rcases List.mem_append.1 he' with h | h
      · exact h0 e' h
      · rw [List.mem_singleton.1 h]; exact hve
    have hrun : (PrivacyTracker.run es0).append e = PrivacyTracker.run (es0 ++ [e]) := by
      simp [PrivacyTracker.run, List.foldl_append]
    rw [List.foldl_cons, hrun, ih (es0 ++ [e]) hv (fun e' he' => hes e' (by simp [he'])), ← hrun,
      C17_full_event_adds es0 e hv (by rw [he.1]; rfl)]
    simp only [epsSum, deltaSum, List.map_cons, List.sum_cons, add_assoc]

/-! ## C18 -/

/-- C18: the events one M3 fit records, whether it succeeds or raises, add up to at most the
budget given; a successful fit of three or more publishers uses it exactly; and the consumption
reported by the tracker grows by exactly that amount. -/
theorem C18_m3_within_budget (st : Strategy Curve Surface) (h : HaloSimulator S)
    (hlib : ReportsItsBudgets h.lib) (budget : PrivacyBudget ℚ) (he : 0 ≤ budget.epsilon)
    (hd : 0 ≤ budget.delta) (hs : HaloState) (past : List (NoisingEvent ℚ))
    (hpast : ∀ e ∈ past, ValidEvent e) (hrun : hs.tracker = PrivacyTracker.run past) :
    ∃ es, (st.fitM3 h budget hs).2.tracker = PrivacyTracker.run (past ++ es) ∧
      epsSum es ≤ budget.epsilon ∧ deltaSum es ≤ budget.delta ∧
      (∀ a, (st.fitM3 h budget hs).1 = .ok a → 3 ≤ h.publisherCount →
        epsSum es = budget.epsilon ∧ deltaSum es = budget.delta) ∧
      (st.fitM3 h budget hs).2.tracker.privacyConsumption =
        ⟨hs.tracker.privacyConsumption.epsilon + epsSum es,
         hs.tracker.privacyConsumption.delta + deltaSum es⟩ := by
  obtain ⟨es, k, h1, h2, h3, h4, h5, h6, -⟩ := Uses.fitM3 st h hlib budget hs
  have hden : (0 : ℚ) < 2 * h.publisherCount + 1 := by positivity
  have hk : (k : ℚ) ≤ 2 * h.publisherCount + 1 := by
    have : k ≤ 2 * h.publisherCount + 1 := by split at h3 <;> omega
    exact_mod_cast this
  have bound : ∀ x : ℚ, 0 ≤ x → (k : ℚ) * (x / (2 * h.publisherCount + 1)) ≤ x := by
    intro x hx
    rw [← mul_div_assoc, div_le_iff₀ hden, mul_comm x]
    exact mul_le_mul_of_nonneg_right hk hx
  refine ⟨es, ?_, ?_, ?_, ?_, ?_⟩
  · rw [h1, hrun]; simp [PrivacyTracker.run, List.foldl_append]
  · rw [h4]; exact bound _ he
  · rw [h5]; exact bound _ hd
  · intro a ha hp
    have hk' := h6 a ha
    rw [if_pos (by omega)] at hk'
    have hkq : (k : ℚ) = 2 * h.publisherCount + 1 := by
      have : k = 2 * h.publisherCount + 1 := by omega
      rw [this]; push_cast; ring
    rw [h4, h5, hkq]
    constructor <;> field_simp
  · rw [h1, hrun]
    apply consumption_foldl_full past es hpast
    intro e hem
    exact ⟨(h2 e hem).1, (h2 e hem).2.1 (by positivity), (h2 e hem).2.2.1 (by positivity)⟩

/-- C18 (few publishers): a successful fit of one publisher uses 2/3 of the budget, of two
publishers 3/5. -/
theorem C18_few_publishers (st : Strategy Curve Surface) (h : HaloSimulator S)
    (hlib : ReportsItsBudgets h.lib) (budget : PrivacyBudget ℚ) (hs : HaloState)
    (past : List (NoisingEvent ℚ)) (hrun : hs.tracker = PrivacyTracker.run past)
    (a : Fitted Curve Surface) (ha : (st.fitM3 h budget hs).1 = .ok a) :
    ∃ es, (st.fitM3 h budget hs).2.tracker = PrivacyTracker.run (past ++ es) ∧
      (h.publisherCount = 1 →
        epsSum es = 2 / 3 * budget.epsilon ∧ deltaSum es = 2 / 3 * budget.delta) ∧
      (h.publisherCount = 2 →
        epsSum es = 3 / 5 * budget.epsilon ∧ deltaSum es = 3 / 5 * budget.delta) := by
  obtain ⟨es, k, h1, h2, h3, h4, h5, h6, -⟩ := Uses.fitM3 st h hlib budget hs
  have hk := h6 a ha
  refine ⟨es, ?_, ?_, ?_⟩
  · rw [h1, hrun]; simp [PrivacyTracker.run, List.foldl_append]
  · intro hp
    rw [hp] at hk h4 h5
    norm_num at hk h4 h5
    rw [h4, h5, hk]; constructor <;> push_cast <;> ring
  · intro hp
    rw [hp] at hk h4 h5
    norm_num at hk h4 h5
    rw [h4, h5, hk]; constructor <;> push_cast <;> ring

/-- A strategy that just records what it was trained on. -/
def exStrategy : Strategy (List ReachPoint) (List (List ReachPoint) × List ReachPoint) where
  single := fun l => .ok l
  multi := fun cs pts => .ok (cs, pts)
  groundTruth := fun _ _ => []
  useGroundTruth := false

example : ReportsItsBudgets (exHalo exLib).lib ∧
    (exStrategy.fitM3 (exHalo exLib) ⟨5, 1 / 2⟩ exState).2.tracker.privacyConsumption
      = ⟨3, 3 / 10⟩ := by
  refine ⟨fun _ _ => rfl, by decide +kernel⟩

/-! ## C19 -/

theorem singleLoop_ok (h : HaloSimulator S) (b : PrivacyBudget ℚ) (ids : List Nat)
    (st st' : HaloState) (pts : List ReachPoint)
    (hr : Strategy.singleLoop h b ids st = (.ok pts, st')) :
    List.Forall₂ (fun i pt => ∃ c r s s',
      h.campaignSpends[i]? = some c ∧
      h.simulatedReachBySpend ((List.replicate h.publisherCount 0).set i c) b (1 / 2) 10 s
        = (.ok r, s') ∧ Strategy.projectPoint r i = .ok pt) ids pts := by
  induction ids generalizing st pts with
  | nil =>
    simp only [Strategy.singleLoop, HaloM.pure_apply, Prod.mk.injEq, Except.ok.injEq] at hr
    rw [← hr.1]; exact List.Forall₂.nil
  | cons i ids ih =>
    unfold Strategy.singleLoop at hr
    obtain ⟨c, s1, hc, hr⟩ := HaloM.bind_eq_ok hr
    obtain ⟨r, s2, hsim, hr⟩ := HaloM.bind_eq_ok hr
    obtain ⟨pt, s3, hpt, hr⟩ := HaloM.bind_eq_ok hr
    obtain ⟨rest, s4, hrest, hr⟩ := HaloM.bind_eq_ok hr
    simp only [HaloM.pure_apply, HaloM.lift_apply, Prod.mk.injEq, Except.ok.injEq] at hr hc hpt
    rw [← hr.1]
    refine List.Forall₂.cons ⟨c, r, s1, s2, ?_, hsim, hpt.1⟩ (ih _ _ (by rw [hrest, hr.2]))
    exact (pyIndex_ok_iff _ i c).1 hc.1

theorem leaveOneOutLoop_ok (h : HaloSimulator S) (b : PrivacyBudget ℚ) (ids : List Nat)
    (st st' : HaloState) (pts : List ReachPoint)
    (hr : Strategy.leaveOneOutLoop h b ids st = (.ok pts, st')) :
    List.Forall₂ (fun i pt => ∃ s s',
      h.simulatedReachBySpend (h.campaignSpends.set i 0) b (1 / 2) 1 s = (.ok pt, s')) ids pts := by
  induction ids generalizing st pts with
  | nil =>
    simp only [Strategy.leaveOneOutLoop, HaloM.pure_apply, Prod.mk.injEq, Except.ok.injEq] at hr
    rw [← hr.1]; exact List.Forall₂.nil
  | cons i ids ih =>
    unfold Strategy.leaveOneOutLoop at hr
    obtain ⟨r, s2, hsim, hr⟩ := HaloM.bind_eq_ok hr
    obtain ⟨rest, s4, hrest, hr⟩ := HaloM.bind_eq_ok hr
    simp only [HaloM.pure_apply, Prod.mk.injEq, Except.ok.injEq] at hr
    rw [← hr.1]
    exact List.Forall₂.cons ⟨st, s2, hsim⟩ (ih _ _ (by rw [hrest, hr.2]))

/-- A training point of publisher `i`'s curve: its impressions and spends are those of the
campaign spend of publisher `i` alone. -/
def IsSingleTrainingPoint (h : HaloSimulator S) (b : PrivacyBudget ℚ) (i : Nat) (pt : ReachPoint) :
    Prop :=
  ∃ (c : ℚ) (r : ReachPoint) (s s' : HaloState), h.campaignSpends[i]? = some c ∧
    -- it was measured with everybody else's spend at zero
    h.simulatedReachBySpend ((List.replicate h.publisherCount 0).set i c) b (1 / 2) 10 s
      = (.ok r, s') ∧
    pt.kplusReaches = r.kplusReaches ∧
    pt.spends = some [c] ∧
    (∃ pd, h.dataSet.data[i]? = some pd ∧ pt.impressions = [(pd.impressionsBySpend c : ℚ)])

theorem reach_list (r : ReachPoint) (l : List ℚ)
    (h : (List.range r.maxFrequency).mapM (fun k : Nat => r.reach ((k : Int) + 1)) = .ok l) :
    l = r.kplusReaches := by
  rw [mapM_ok_iff] at h
  have hl := h.length_eq
  simp only [List.length_range, ReachPoint.maxFrequency] at hl
  apply List.ext_getElem hl.symm
  intro k h1 h2
  have := h.get (i := k) (by simpa [ReachPoint.maxFrequency] using h2) h1
  simp only [List.get_eq_getElem, List.getElem_range] at this
  unfold ReachPoint.reach at this
  rw [if_pos (by omega)] at this
  have e : ((k : Int) + 1 - 1) = (k : Int) := by omega
  rw [e, pyIndex_ok_iff, List.getElem?_eq_getElem h2] at this
  exact (Option.some.inj this).symm

theorem projectPoint_ok (h : HaloSimulator S) (b : PrivacyBudget ℚ) (i : Nat) (c : ℚ)
    (hc : h.campaignSpends[i]? = some c) (r pt : ReachPoint) (s s' : HaloState)
    (hsim : h.simulatedReachBySpend ((List.replicate h.publisherCount 0).set i c) b (1 / 2) 10 s
      = (.ok r, s')) (hpt : Strategy.projectPoint r i = .ok pt) : IsSingleTrainingPoint h b i pt := by
  refine ⟨c, r, s, s', hc, hsim, ?_⟩
  obtain ⟨sk, imps, capped, _, himp, _, hi, hk, hsp, _, hlen, _⟩ := h.simulated_ok _ _ _ _ _ _ _ hsim
  unfold Strategy.projectPoint at hpt
  rcases h1 : (List.range r.maxFrequency).mapM (fun k : Nat => r.reach ((k : Int) + 1)) with e | ks
  · rw [h1] at hpt; cases hpt
  rw [h1, hsp] at hpt
  simp only [bind, Except.bind] at hpt
  rcases h2 : pyIndex r.impressions (i : Int) with e | im
  · rw [h2] at hpt; cases hpt
  rw [h2] at hpt
  simp only at hpt
  have hip : i < h.publisherCount := by
    have := (List.getElem?_eq_some_iff.1 hc).1
    simpa [HaloSimulator.campaignSpends, HaloSimulator.publisherCount] using this
  have h3 : pyIndex ((List.replicate h.publisherCount (0 : ℚ)).set i c) (i : Int) = .ok c := by
    rw [pyIndex_ok_iff, List.getElem?_set_self (by simpa using hip)]
  rw [h3] at hpt
  simp only [ReachPoint.new, ReachPoint.truthySpends, Option.getD_some, List.length_cons,
    List.length_nil, ne_eq, not_true_eq_false, and_false, if_false, Except.ok.injEq] at hpt
  rw [← hpt]
  refine ⟨by simp only; exact reach_list r ks h1, by simp, ?_⟩
  have hil : i < h.dataSet.data.length := by
    rw [← hlen]; simpa using hip
  refine ⟨h.dataSet.data[i], List.getElem?_eq_getElem hil, ?_⟩
  simp only
  congr 1
  rw [pyIndex_ok_iff, hi, List.getElem?_map] at h2
  rw [impressionsBySpend_ok _ _ (by rw [hlen])] at himp
  simp only [Except.ok.injEq] at himp
  have hz : (h.dataSet.data.zip ((List.replicate h.publisherCount (0 : ℚ)).set i c))[i]?
      = some (h.dataSet.data[i], c) :=
    List.getElem?_zip_eq_some.2
      ⟨List.getElem?_eq_getElem hil, List.getElem?_set_self (by simpa using hip)⟩
  rw [← himp, List.getElem?_map, hz] at h2
  simp only [Option.map_some, Option.some.injEq] at h2
  exact h2.symm

/-- C19: a successful M3 fit of `p` publishers
* trained curve `i` on one point, measured with publisher `i`'s campaign spend and zero spend
  elsewhere, carrying only publisher `i`'s impressions and spend (or used the ground truth curve);
* for `p = 1` returns that curve;
* otherwise returns the surface fitted to all curves and to the leave-one-out campaigns (only if
  `p > 2`) followed by the full campaign. -/
theorem C19_m3_training (st : Strategy Curve Surface) (h : HaloSimulator S)
    (budget : PrivacyBudget ℚ) (hs hs' : HaloState) (res : Fitted Curve Surface)
    (hr : st.fitM3 h budget hs = (.ok res, hs')) :
    let b : PrivacyBudget ℚ :=
      ⟨budget.epsilon / (2 * h.publisherCount + 1), budget.delta / (2 * h.publisherCount + 1)⟩
    ∃ (singles loo : List ReachPoint) (total : ReachPoint) (curves : List Curve),
      List.Forall₂ (IsSingleTrainingPoint h b) (List.range h.publisherCount) singles ∧
      List.Forall₂ (fun pi c => if st.useGroundTruth then st.groundTruth h.dataSet pi.2 = c
        else st.single [pi.1] = .ok c) singles.zipIdx curves ∧
      (h.publisherCount = 1 → ∃ c, curves = [c] ∧ res = .curve c) ∧
      (h.publisherCount ≠ 1 → ∃ s, st.multi curves (loo ++ [total]) = .ok s ∧ res = .surface s) ∧
      (2 < h.publisherCount → loo.map (·.spends) =
        (List.range h.publisherCount).map (fun i => some (h.campaignSpends.set i 0))) ∧
      (h.publisherCount ≤ 2 → loo = []) ∧
      total.spends = some h.campaignSpends ∧
      (∀ pt ∈ loo ++ [total], ∃ sp s s', pt.spends = some sp ∧
        h.simulatedReachBySpend sp b (1 / 2) 1 s = (.ok pt, s')) := by
  intro b
  unfold Strategy.fitM3 at hr
  obtain ⟨total, s1, htot, hr⟩ := HaloM.bind_eq_ok hr
  obtain ⟨singles, s2, hsing, hr⟩ := HaloM.bind_eq_ok hr
  obtain ⟨loo, s3, hloo, hr⟩ := HaloM.bind_eq_ok hr
  obtain ⟨curves, s4, hcur, hr⟩ := HaloM.bind_eq_ok hr
  have hs1 := singleLoop_ok h _ _ _ _ _ hsing
  have hsingles : List.Forall₂ (IsSingleTrainingPoint h b) (List.range h.publisherCount) singles := by
    refine hs1.imp ?_
    rintro i pt ⟨c, r, s, s', e1, e2, e3⟩
    exact projectPoint_ok h b i c e1 r pt s s' e2 e3
  unfold Strategy.leaveOneOutPoints at hloo
  have htots : total.spends = some h.campaignSpends := by
    obtain ⟨_, _, _, _, _, _, _, _, e, _⟩ := h.simulated_ok _ _ _ _ _ _ _ htot
    exact e
  have hl2 : 2 < h.publisherCount → List.Forall₂ (fun i pt => ∃ s s',
      h.simulatedReachBySpend (h.campaignSpends.set i 0) b (1 / 2) 1 s = (.ok pt, s'))
      (List.range h.publisherCount) loo := by
    intro hp
    rw [if_pos hp] at hloo
    exact leaveOneOutLoop_ok h _ _ _ _ _ hloo
  have hl3 : h.publisherCount ≤ 2 → loo = [] := by
    intro hp
    rw [if_neg (by omega)] at hloo
    simp only [HaloM.pure_apply, Prod.mk.injEq, Except.ok.injEq] at hloo
    exact hloo.1.symm
  have hcurves : List.Forall₂ (fun pi c => if st.useGroundTruth then st.groundTruth h.dataSet pi.2 = c
        else st.single [pi.1] = .ok c) singles.zipIdx curves := by
    simp only [HaloM.lift_apply, Prod.mk.injEq] at hcur
    have := (mapM_ok_iff _ _ _).1 hcur.1
    refine this.imp ?_
    intro a c hac
    split
    · rename_i hg; rw [if_pos hg] at hac; exact Except.ok.inj hac
    · rename_i hg; rw [if_neg hg] at hac; exact hac
  have hclen : curves.length = h.publisherCount := by
    have e1 := hcurves.length_eq
    have e2 := hsingles.length_eq
    simp only [List.length_zipIdx, List.length_range] at e1 e2
    omega
  refine ⟨singles, loo, total, curves, hsingles, hcurves, ?_, ?_, ?_, hl3, htots, ?_⟩
  · intro hp
    rw [if_pos hp] at hr
    obtain ⟨c, s5, hc, hr⟩ := HaloM.bind_eq_ok hr
    simp only [HaloM.lift_apply, HaloM.pure_apply, Prod.mk.injEq, Except.ok.injEq] at hc hr
    match curves, hclen, hc with
    | [c'], _, hc =>
      have : c' = c := by simpa [pyIndex] using hc.1
      exact ⟨c', rfl, by rw [this]; exact hr.1.symm⟩
    | [], hl, _ => simp only [List.length_nil] at hl; omega
    | _ :: _ :: _, hl, _ => simp only [List.length_cons] at hl; omega
  · intro hp
    rw [if_neg hp] at hr
    obtain ⟨s, s5, hsf, hr⟩ := HaloM.bind_eq_ok hr
    simp only [HaloM.lift_apply, HaloM.pure_apply, Prod.mk.injEq, Except.ok.injEq] at hsf hr
    exact ⟨s, hsf.1, hr.1.symm⟩
  · intro hp
    have h2 := hl2 hp
    apply List.ext_getElem
    · simp [h2.length_eq.symm]
    · intro i hi1 hi2
      simp only [List.length_map] at hi1
      simp only [List.length_map, List.length_range] at hi2
      simp only [List.getElem_map, List.getElem_range]
      obtain ⟨s, s', hsim⟩ := h2.get (i := i) (by simpa using hi2) hi1
      simp only [List.get_eq_getElem, List.getElem_range] at hsim
      obtain ⟨_, _, _, _, _, _, _, _, e, _⟩ := h.simulated_ok _ _ _ _ _ _ _ hsim
      exact e
  · intro pt hpt
    rcases List.mem_append.1 hpt with hpt | hpt
    · by_cases hp : 2 < h.publisherCount
      · have h2 := hl2 hp
        obtain ⟨i, hi, rfl⟩ := List.getElem_of_mem hpt
        obtain ⟨s, s', hsim⟩ := h2.get (i := i) (by rw [h2.length_eq]; exact hi) hi
        simp only [List.get_eq_getElem, List.getElem_range] at hsim
        obtain ⟨_, _, _, _, _, _, _, _, e, _⟩ := h.simulated_ok _ _ _ _ _ _ _ hsim
        exact ⟨_, s, s', e, hsim⟩
      · rw [hl3 (by omega)] at hpt; simp at hpt
    · rw [List.mem_singleton.1 hpt]
      exact ⟨_, hs, s1, htots, htot⟩

/-- C19 (single publisher strategy): it refuses several publishers, and otherwise returns the curve
trained on the full campaign measured up to frequency 20 with the whole budget. -/
theorem C19_single_publisher_strategy (st : Strategy Curve Surface) (h : HaloSimulator S)
    (budget : PrivacyBudget ℚ) (hs : HaloState) :
    (h.publisherCount ≠ 1 → (st.fitSingle h budget hs) = (.error .valueError, hs)) ∧
    (∀ res hs', st.fitSingle h budget hs = (.ok res, hs') →
      ∃ r c, h.simulatedReachBySpend h.campaignSpends budget (1 / 2) 20 hs = (.ok r, hs') ∧
        r.spends = some h.campaignSpends ∧ st.single [r] = .ok c ∧ res = .curve c) := by
  constructor
  · intro hp
    unfold Strategy.fitSingle
    rw [if_pos hp]
    rfl
  · intro res hs' hr
    unfold Strategy.fitSingle at hr
    split at hr
    · simp at hr
    · obtain ⟨r, s1, hsim, hr⟩ := HaloM.bind_eq_ok hr
      obtain ⟨c, s2, hc, hr⟩ := HaloM.bind_eq_ok hr
      simp only [HaloM.lift_apply, HaloM.pure_apply, Prod.mk.injEq, Except.ok.injEq] at hc hr
      refine ⟨r, c, ?_, ?_, hc.1, hr.1.symm⟩
      · rw [← hr.2, ← hc.2]; exact hsim
      · obtain ⟨_, _, _, _, _, _, _, _, e, _⟩ := h.simulated_ok _ _ _ _ _ _ _ hsim
        exact e

/-- Two publishers: what the recording strategy was trained on. -/
def exTraining : Option (List (List (Option (List ℚ) × List ℚ)) × List (Option (List ℚ) × List ℚ)) :=
  match (exStrategy.fitM3 (exHalo exLib) ⟨5, 1 / 2⟩ exState).1 with
  | .ok (.surface (cs, pts)) =>
    some (cs.map (fun l => l.map (fun r => (r.spends, r.kplusReaches.take 3))),
      pts.map (fun r => (r.spends, r.kplusReaches)))
  | _ => none

example :
    (exTraining.map (fun t => t.1.map (fun l => l.map (·.1)))) = some [[some [2]], [some [1]]] ∧
    (exTraining.map (fun t => t.1.map (fun l => l.map (·.2)))) = some [[[2, 1, 0]], [[1, 0, 0]]] ∧
    (exTraining.map (fun t => t.2.map (·.1))) = some [some [2, 1]] ∧
    (exTraining.map (fun t => t.2.map (·.2))) = some [[3]] := by
  decide +kernel

end Verif
