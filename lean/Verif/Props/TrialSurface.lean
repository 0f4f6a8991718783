import Verif.Props.TrialModels
import Verif.Props.PlannerFit
import Verif.Props.RestrictedWhole

/-!
# C99: which trials of several publishers succeed
-/

namespace Verif

open Verif.Spec

variable {S C : Type}

/-! ## Measurements -/

/-- What Halo reports of a campaign that buys `ns` impressions for the spends `cs`, whatever the
estimates are. -/
structure MeasuredMany (lib : SketchLib S) (ns : List Nat) (cs : List ℚ) (F : Nat) (r : ReachPoint) :
    Prop where
  impressions : r.impressions = ns.map (fun n : Nat => (n : ℚ))
  spends : r.spends = some cs
  length : r.kplusReaches.length = F
  made : MadeFrom r.kplusReaches r
  reach : ∃ x : Int, r.reach 1 = .ok (x : ℚ) ∧ 0 ≤ x ∧ (2 ≤ ns.sum → x < ns.sum) ∧
    ((∀ a b B B' s, ∀ y ∈ lib.estimate a b F B B' s, 1 ≤ y) → 1 ≤ x) ∧
    ((∀ a b B B' s, ∀ y ∈ lib.estimate a b F B B' s, y ≤ 0) → 1 ≤ ns.sum →
      ∀ y ∈ r.kplusReaches, y = 0) ∧ x ≤ max 1 (ns.sum : Int)

theorem measure_many (h : HaloSimulator S) (spends : List ℚ)
    (hpub : h.publishers.length = h.dataSet.data.length) (hpos : 1 ≤ h.publishers.length)
    (hs : spends.length = h.publishers.length) (F : Nat) (hF : 1 ≤ F)
    (hest : ∀ a b B B' s, (h.lib.estimate a b F B B' s).length = F)
    (budget : PrivacyBudget ℚ) (st : HaloState) :
    ∃ r st', h.simulatedReachBySpend spends budget (1 / 2) F st = (.ok r, st') ∧
      MeasuredMany h.lib ((h.dataSet.data.zip spends).map (fun ps => ps.1.impressionsBySpend ps.2))
        spends F r := by
  obtain ⟨r, hr, hmf, hsp⟩ := C20_length_and_success h spends budget (1 / 2) F hF st hest hpub hpos hs
  have hr' : h.simulatedReachBySpend spends budget (1 / 2) F st =
      (.ok r, (h.simulatedReachBySpend spends budget (1 / 2) F st).2) := Prod.ext hr rfl
  refine ⟨r, _, hr', ?_⟩
  obtain ⟨sk, imps, capped, -, himp, hcap, hi, hk, -⟩ := h.simulated_ok _ _ _ _ _ _ _ hr'
  rw [impressionsBySpend_ok _ _ (by omega)] at himp
  rw [Except.ok.inj himp]
  have hlen : r.kplusReaches.length = F := hmf
  refine ⟨hi, hsp, hlen, simulated_made h _ _ _ _ _ _ _ hr', ?_⟩
  clear himp hi
  set n := imps.sum with hn
  set es := h.requestEstimates budget (1 / 2) F st.draws sk with hes
  have hesl : es.length = F := by
    rw [hes]; unfold HaloSimulator.requestEstimates; exact hest _ _ _ _ _
  obtain ⟨e, es', hee⟩ : ∃ e es', es = e :: es' := by
    rcases hq : es with _ | ⟨e, es'⟩
    · rw [hq] at hesl; simp at hesl; omega
    · exact ⟨e, es', rfl⟩
  have hk0 : minAccumulate ((es.map pyRound).map (max 0)) =
      max 0 (pyRound e) ::
        (minAccumulate ((es'.map pyRound).map (max 0))).map (min (max 0 (pyRound e))) := by
    rw [hee]; rfl
  unfold HaloSimulator.capReaches at hcap
  rw [hk0] at hcap
  have hpi : pyIndex (max 0 (pyRound e) ::
        (minAccumulate ((es'.map pyRound).map (max 0))).map (min (max 0 (pyRound e)))) 0
      = .ok (max 0 (pyRound e)) := rfl
  rw [hpi] at hcap
  simp only [bind, Except.bind, pure, Except.pure, Except.ok.injEq] at hcap
  have hreach : ∀ (x : Int) (l : List Int), capped = x :: l → r.reach 1 = .ok (x : ℚ) := by
    intro x l hl
    unfold ReachPoint.reach
    rw [if_pos (by rw [hlen]; omega), hk, hl]
    rfl
  have hin : e ∈ es := by rw [hee]; simp
  have hine : ∀ y ∈ es, y ∈ h.lib.estimate st.draws (st.draws + 1) F
      ⟨budget.epsilon * (1 / 2), budget.delta * (1 / 2)⟩
      ⟨budget.epsilon * (1 - 1 / 2), budget.delta * (1 - 1 / 2)⟩ sk := by
    intro y hy; rw [hes] at hy; exact hy
  by_cases hle : ((n : Nat) : Int) ≤ max 0 (pyRound e)
  · rw [if_pos hle] at hcap
    refine ⟨_, hreach _ _ hcap.symm, ?_, ?_, ?_, ?_, by omega⟩
    · omega
    · intro h2; omega
    · intro _; omega
    · intro hz h1
      have := pyRound_nonpos e (hz _ _ _ _ _ e (hine e hin))
      omega
  · rw [if_neg hle] at hcap
    refine ⟨_, hreach _ _ hcap.symm, ?_, ?_, ?_, ?_, by omega⟩
    · omega
    · intro h2; omega
    · intro hone
      have := pyRound_pos e (hone _ _ _ _ _ e (hine e hin))
      omega
    · intro hz h1 y hy
      rw [hk] at hy
      obtain ⟨z, hz', rfl⟩ := List.mem_map.1 hy
      have hlow : 0 ≤ z := by
        rw [← hcap, ← hk0] at hz'
        refine minAccumulate_nonneg _ ?_ z hz'
        intro x hx
        obtain ⟨w, -, rfl⟩ := List.mem_map.1 hx
        exact le_max_left _ _
      have hup : z ≤ 0 := by
        rw [← hcap, ← hk0] at hz'
        refine minAccumulate_le _ ?_ z hz'
        intro x hx
        obtain ⟨w, hw, rfl⟩ := List.mem_map.1 hx
        obtain ⟨v, hv, rfl⟩ := List.mem_map.1 hw
        exact max_le le_rfl (pyRound_nonpos v (hz _ _ _ _ _ v (hine v hv)))
      have : z = 0 := le_antisymm hup hlow
      rw [this]; rfl

/-- Projecting the measurement of a campaign that buys impressions from one publisher only. -/
theorem MeasuredMany.project {lib : SketchLib S} {ns : List Nat} {cs : List ℚ} {F : Nat}
    {r : ReachPoint} (hm : MeasuredMany lib ns cs F r) (i n : Nat) (c : ℚ) (hn : ns[i]? = some n)
    (hc : cs[i]? = some c) (hsum : ns.sum = n) :
    ∃ pt, Strategy.projectPoint r i = .ok pt ∧ Measured lib n c F pt := by
  have hks : (List.range r.maxFrequency).mapM (fun k : Nat => r.reach ((k : Int) + 1)) =
      .ok r.kplusReaches := by
    rw [mapM_ok_iff, List.forall₂_iff_get]
    refine ⟨by simp [ReachPoint.maxFrequency], ?_⟩
    intro i h1 h2
    simp only [List.get_eq_getElem, List.getElem_range]
    unfold ReachPoint.reach
    rw [if_pos (by omega)]
    have : (i : Int) + 1 - 1 = (i : Int) := by omega
    rw [this, pyIndex_nat _ _ (by simpa using h2)]
  have e1 : pyIndex r.impressions (i : Int) = .ok (n : ℚ) := by
    rw [pyIndex_ok_iff, hm.impressions, List.getElem?_map, hn]; rfl
  have e2 : pyIndex cs (i : Int) = .ok c := (pyIndex_ok_iff _ _ _).2 hc
  have hp : Strategy.projectPoint r i = ReachPoint.new [(n : ℚ)] r.kplusReaches (some [c]) := by
    unfold Strategy.projectPoint
    simp only [hks, hm.spends, e1, e2, bind, Except.bind]
  have hnew : ReachPoint.new [(n : ℚ)] r.kplusReaches (some [c]) = .ok
      { impressions := [(n : ℚ)], kplusReaches := r.kplusReaches,
        frequencies := ReachPoint.successiveDifferences r.kplusReaches, spends := some [c],
        universeSize? := none } := rfl
  obtain ⟨x, hx, h1, h2, h3, h4, h5⟩ := hm.reach
  rw [hsum] at h2 h4 h5
  refine ⟨_, hp.trans hnew, rfl, rfl, hm.length, made_of_new hnew, ?_, x, hx, h1, h2, h3, h4⟩
  intro v hv
  have hv' : r.reach 1 = .ok v := hv
  rw [hx] at hv'
  rw [← Except.ok.inj hv']
  exact_mod_cast h5

/-! ## Fitting -/

/-- A Halo simulator over publishers of whom one impression costs something: `n i` impressions of
publisher `i` are bought for its campaign spend `c i`, and none for free. -/
structure CostlyHalo (h : HaloSimulator S) (p : Nat) (n : Nat → Nat) (c : Nat → ℚ) : Prop where
  pubs : h.publishers.length = p
  data : h.dataSet.data.length = p
  nonempty : 1 ≤ p
  spends : ∀ i < p, h.campaignSpends[i]? = some (c i)
  bought : ∀ i (hi : i < h.dataSet.data.length), h.dataSet.data[i].impressionsBySpend (c i) = n i
  free : ∀ q ∈ h.dataSet.data, q.impressionsBySpend 0 = 0
  asked : ∀ a b (F : Nat) B B' s, (h.lib.estimate a b F B B' s).length = F

theorem CostlyHalo.campaign {h : HaloSimulator S} {p : Nat} {n : Nat → Nat} {c : Nat → ℚ}
    (hc : CostlyHalo h p n c) : h.campaignSpends = (List.range p).map c ∧ h.publisherCount = p := by
  have hl : h.campaignSpends.length = p := by
    unfold HaloSimulator.campaignSpends; rw [List.length_map]; exact hc.pubs
  refine ⟨?_, hc.pubs⟩
  apply List.ext_getElem?
  intro i
  by_cases hi : i < p
  · rw [hc.spends i hi]; simp [hi]
  · rw [List.getElem?_eq_none (by omega), List.getElem?_eq_none (by simp; omega)]

theorem CostlyHalo.singles {h : HaloSimulator S} {p : Nat} {n : Nat → Nat} {c : Nat → ℚ}
    (hc : CostlyHalo h p n c) (b : PrivacyBudget ℚ) (ids : List Nat) (hids : ∀ i ∈ ids, i < p)
    (st : HaloState) : ∃ pts st', Strategy.singleLoop h b ids st = (.ok pts, st') ∧
      List.Forall₂ (fun i pt => Measured h.lib (n i) (c i) 10 pt) ids pts := by
  induction ids generalizing st with
  | nil => exact ⟨[], st, rfl, .nil⟩
  | cons i ids ih =>
    have hi : i < p := hids i (by simp)
    obtain ⟨hcs, hpc⟩ := hc.campaign
    obtain ⟨r, s1, hr, hm⟩ := measure_many h ((List.replicate p 0).set i (c i))
      (by rw [hc.pubs, hc.data]) (by rw [hc.pubs]; exact hc.nonempty)
      (by rw [hc.pubs]; simp) 10 (by omega) (fun a b B B' s => hc.asked a b 10 B B' s) b st
    set ns := (h.dataSet.data.zip ((List.replicate p (0 : ℚ)).set i (c i))).map
      (fun ps => ps.1.impressionsBySpend ps.2) with hns
    have hnsl : ns.length = p := by rw [hns]; simp [hc.data]
    have hns' : ns = (List.replicate p 0).set i (n i) := by
      apply List.ext_getElem?
      intro j
      by_cases hj : j < p
      · have hjd : j < h.dataSet.data.length := by rw [hc.data]; exact hj
        rw [hns]
        by_cases hij : i = j
        · subst hij
          have := hc.bought i hjd
          simp [hjd, hj, this, List.zip]
        · have := hc.free _ (List.getElem_mem hjd)
          simp [hjd, hj, this, List.zip, hij]
      · rw [List.getElem?_eq_none (by omega), List.getElem?_eq_none (by simp; omega)]
    have hsum : ns.sum = n i := by
      rw [hns', List.sum_set]
      simp [hi]
    obtain ⟨pt, hpt, hmp⟩ := hm.project i (n i) (c i) (by rw [hns']; simp [hi]) (by simp [hi]) hsum
    obtain ⟨pts, s2, hloop, hall⟩ := ih (fun j hj => hids j (by simp [hj])) s1
    refine ⟨pt :: pts, s2, ?_, .cons hmp hall⟩
    unfold Strategy.singleLoop
    have hci : pyIndex h.campaignSpends (i : Int) = .ok (c i) := (pyIndex_ok_iff _ _ _).2 (hc.spends i hi)
    rw [hci, HaloM.bind_ok (HaloM.lift_apply _ _), hpc]
    have hr' : h.simulatedReachBySpend ((List.replicate p 0).set i (c i)) b (1 / 2) 10 st =
      (.ok r, s1) := hr
    rw [HaloM.bind_ok hr', hpt, HaloM.bind_ok (HaloM.lift_apply _ _), HaloM.bind_ok hloop]
    rfl

/-- A training point of a surface: numbers of impressions of `p` publishers and an estimated reach. -/
def TrainingPoint (p : Nat) (r : ReachPoint) : Prop :=
  ∃ ns : List Nat, ns.length = p ∧ r.impressions = ns.map (fun n : Nat => (n : ℚ)) ∧
    ∃ y, r.reach 1 = .ok y

theorem MeasuredMany.training {lib : SketchLib S} {ns : List Nat} {cs : List ℚ} {F : Nat}
    {r : ReachPoint} (hm : MeasuredMany lib ns cs F r) : TrainingPoint ns.length r := by
  obtain ⟨x, hx, -⟩ := hm.reach
  exact ⟨ns, rfl, hm.impressions, _, hx⟩

theorem CostlyHalo.leaveOneOut {h : HaloSimulator S} {p : Nat} {n : Nat → Nat} {c : Nat → ℚ}
    (hc : CostlyHalo h p n c) (b : PrivacyBudget ℚ) (ids : List Nat) (st : HaloState) :
    ∃ pts st', Strategy.leaveOneOutLoop h b ids st = (.ok pts, st') ∧ ∀ r ∈ pts, TrainingPoint p r := by
  induction ids generalizing st with
  | nil => exact ⟨[], st, rfl, by simp⟩
  | cons i ids ih =>
    obtain ⟨hcs, hpc⟩ := hc.campaign
    obtain ⟨r, s1, hr, hm⟩ := measure_many h (h.campaignSpends.set i 0)
      (by rw [hc.pubs, hc.data]) (by rw [hc.pubs]; exact hc.nonempty)
      (by rw [hc.pubs, hcs]; simp) 1 le_rfl (fun a b B B' s => hc.asked a b 1 B B' s) b st
    obtain ⟨pts, s2, hloop, hall⟩ := ih s1
    refine ⟨r :: pts, s2, ?_, ?_⟩
    · unfold Strategy.leaveOneOutLoop
      have hr' : h.simulatedReachBySpend (h.campaignSpends.set i 0) b (1 / 2) 1 st = (.ok r, s1) := hr
      rw [HaloM.bind_ok hr', HaloM.bind_ok hloop]
      rfl
    · intro q hq
      rcases List.mem_cons.1 hq with rfl | hq
      · have := hm.training
        rwa [List.length_map, List.length_zip, List.length_set, hcs, List.length_map,
          List.length_range, hc.data, min_self] at this
      · exact hall q hq

/-- `M3Strategy.fit` for at least two publishers: all measurements are made; it remains to fit the
curves and the surface. -/
theorem fitM3_many {Curve Surf : Type} (str : Strategy Curve Surf) {h : HaloSimulator S} {p : Nat}
    {n : Nat → Nat} {c : Nat → ℚ} (hc : CostlyHalo h p n c) (hp : 2 ≤ p) (b : PrivacyBudget ℚ)
    (s : HaloState) :
    ∃ singles others total s', List.Forall₂ (fun i pt => Measured h.lib (n i) (c i) 10 pt)
        (List.range p) singles ∧ (∀ r ∈ others, TrainingPoint p r) ∧
      MeasuredMany h.lib ((List.range p).map n) ((List.range p).map c) 1 total ∧
      str.fitM3 h b s = ((do
        let curves ← (singles.zipIdx).mapM (fun pi =>
          if str.useGroundTruth then .ok (str.groundTruth h.dataSet pi.2) else str.single [pi.1])
        let surf ← str.multi curves (others ++ [total])
        return Fitted.surface surf : Except PyErr (Fitted Curve Surf)), s') := by
  obtain ⟨hcs, hpc⟩ := hc.campaign
  set b' : PrivacyBudget ℚ := ⟨b.epsilon / (2 * p + 1), b.delta / (2 * p + 1)⟩ with hb'
  obtain ⟨total, s1, ht, hmt⟩ := measure_many h h.campaignSpends
      (by rw [hc.pubs, hc.data]) (by rw [hc.pubs]; exact hc.nonempty)
      (by rw [hc.pubs, hcs]; simp) 1 le_rfl (fun a b B B' s => hc.asked a b 1 B B' s) b' s
  obtain ⟨singles, s2, hs, hall⟩ := hc.singles b' (List.range p) (by simp) s1
  have hloo : ∃ others s3, Strategy.leaveOneOutPoints h b' p s2 = (.ok others, s3) ∧
      ∀ r ∈ others, TrainingPoint p r := by
    unfold Strategy.leaveOneOutPoints
    split
    · exact hc.leaveOneOut b' _ s2
    · exact ⟨[], s2, rfl, by simp⟩
  obtain ⟨others, s3, ho, hoall⟩ := hloo
  have hns : (h.dataSet.data.zip h.campaignSpends).map (fun ps => ps.1.impressionsBySpend ps.2) =
      (List.range p).map n := by
    rw [hcs]
    apply List.ext_getElem
    · simp [hc.data]
    · intro i h1 h2
      have hi : i < p := by simpa using h2
      simp [hc.bought i (by rw [hc.data]; exact hi)]
  rw [hns, hcs] at hmt
  refine ⟨singles, others, total, s3, hall, hoall, hmt, ?_⟩
  unfold Strategy.fitM3
  rw [hpc]
  have ht' : h.simulatedReachBySpend h.campaignSpends b' (1 / 2) 1 s = (.ok total, s1) := ht
  rw [HaloM.bind_ok ht', HaloM.bind_ok hs, HaloM.bind_ok ho]
  rcases hcv : (singles.zipIdx).mapM (fun pi =>
      if str.useGroundTruth then .ok (str.groundTruth h.dataSet pi.2) else str.single [pi.1]) with e | cv
  · have hl : HaloM.lift ((singles.zipIdx).mapM (fun pi => if str.useGroundTruth then
        .ok (str.groundTruth h.dataSet pi.2) else str.single [pi.1])) s3 = (.error e, s3) := by
      rw [hcv]; rfl
    rw [HaloM.bind_error hl, hcv]
    rfl
  · have hl : HaloM.lift ((singles.zipIdx).mapM (fun pi => if str.useGroundTruth then
        .ok (str.groundTruth h.dataSet pi.2) else str.single [pi.1])) s3 = (.ok cv, s3) := by
      rw [hcv]; rfl
    rw [HaloM.bind_ok hl, if_neg (by omega), hcv]
    rcases hm : str.multi cv (others ++ [total]) with e | sf
    · rw [HaloM.bind_error (HaloM.lift_apply _ _)]
      simp only [bind, Except.bind, hm]
    · rw [HaloM.bind_ok (HaloM.lift_apply _ _)]
      simp only [bind, Except.bind, hm]
      rfl

/-! ## Surfaces -/

/-- A curve that a surface can use: its maximal reach is positive, it answers for every number of
impressions, and for those that can be bought for any spend. -/
structure UsableCurve (c : PlannerCurve) : Prop where
  positive : 0 < c.surface.maxReach
  counts : ∀ n : Nat, ∃ v, c.surface.reachAt n = .ok v
  spends : ∀ s, 0 ≤ s → ∃ x v, c.impressionsForSpend s = .ok x ∧ c.surface.reachAt x = .ok v

theorem usable_vector (curves : List PlannerCurve) (hu : ∀ c ∈ curves, UsableCurve c)
    (ns : List Nat) : ∃ r, PairwiseSurface.getReachVector (curves.map (·.surface))
      (ns.map (fun n : Nat => (n : ℚ))) = .ok r := by
  unfold PairwiseSurface.getReachVector
  refine mapM_total _ _ ?_
  rintro ⟨c, x⟩ hcx
  obtain ⟨hc, hx⟩ := List.of_mem_zip hcx
  obtain ⟨c, hc', rfl⟩ := List.mem_map.1 hc
  obtain ⟨n, -, rfl⟩ := List.mem_map.1 hx
  exact (hu c hc').counts n

theorem quadraticProgram_cols (s : PairwiseSurface) (Q : PairwiseSurface.QP)
    (h : s.quadraticProgram = .ok Q) : Q.G.cols = s.p * s.p := by
  obtain ⟨G, hh, g1, -, g3, -⟩ := ineq_shape s.p
  obtain ⟨A, b, a1, -⟩ := eq_shape s.p
  unfold PairwiseSurface.quadraticProgram at h
  simp only [g1, a1, bind, Except.bind] at h
  split at h
  · cases h
  split at h
  · cases h
  rw [← Except.ok.inj h]
  exact g3

theorem training_checks (p : Nat) (points : List ReachPoint) (hne : points ≠ [])
    (hpts : ∀ r ∈ points, TrainingPoint p r) :
    (∃ first, pyIndex points 0 = .ok first ∧ first.impressions.length = p) ∧
      checkSurfaceData points = .ok () ∧ ∀ r ∈ points, r.impressions.length = p := by
  have hl : ∀ r ∈ points, r.impressions.length = p := by
    intro r hr
    obtain ⟨ns, h1, h2, -⟩ := hpts r hr
    rw [h2, List.length_map]; exact h1
  refine ⟨?_, ?_, hl⟩
  · obtain ⟨f, l, rfl⟩ := List.exists_cons_of_ne_nil hne
    exact ⟨f, rfl, hl f (by simp)⟩
  · obtain ⟨f, l, rfl⟩ := List.exists_cons_of_ne_nil hne
    unfold checkSurfaceData
    simp only
    rw [if_pos]
    rw [List.all_eq_true]
    intro r hr
    simp [hl r hr, hl f (by simp)]

/-- The vector satisfies the constraints of the quadratic program. -/
def MeetsConstraints (Q : PairwiseSurface.QP) (x : List ℚ) : Prop :=
  SatisfiesLe Q.G.rows Q.G.cols Q.G.entry (fun r => Q.h.getD r 0) (fun c => x.getD c 0) ∧
    SatisfiesEq Q.A.rows Q.A.cols Q.A.entry (fun r => Q.b.getD r 0) (fun c => x.getD c 0)

/-- The solver returns a vector satisfying the constraints if there is one. -/
def MeetsFeasible (solve : PairwiseSurface.QP → List ℚ) : Prop :=
  ∀ Q, (∃ x : List ℚ, x.length = Q.G.cols ∧ MeetsConstraints Q x) → MeetsConstraints Q (solve Q)

/-- The pairwise union surface is fitted if the curves are usable. -/
theorem pairwise_fits (solve : PairwiseSurface.QP → List ℚ)
    (hsolve : ∀ Q, (solve Q).length = Q.G.cols) (curves : List PlannerCurve) (p : Nat)
    (hl : curves.length = p) (hu : ∀ c ∈ curves, UsableCurve c) (points : List ReachPoint)
    (hne : points ≠ []) (hpts : ∀ r ∈ points, TrainingPoint p r) :
    ∃ s, PairwiseSurface.fit solve (curves.map (·.surface)) points = .ok s ∧ WellFormed s ∧
      s.curves = curves.map (·.surface) ∧ s.p = p ∧ s.data = points ∧
      (MeetsFeasible solve → PlausibleOverlap s.p (surfaceMatrix s)) := by
  obtain ⟨⟨first, hf, hfl⟩, hcheck, hdim⟩ := training_checks p points hne hpts
  set s0 : PairwiseSurface := ⟨curves.map (·.surface), p, points, List.replicate (p * p) 0⟩ with hs0
  have hw : WellFormed s0 := by
    refine ⟨by simp [hs0, hl], by simp [hs0], ?_⟩
    intro c hc
    obtain ⟨c, hc', rfl⟩ := List.mem_map.1 hc
    exact (hu c hc').positive
  obtain ⟨ys, hys⟩ := mapM_total (fun pt : ReachPoint => pt.reach 1) points (by
    intro r hr
    obtain ⟨_, -, -, h⟩ := hpts r hr
    exact h)
  obtain ⟨Q, preds, hQ, -, hiff⟩ := C31_minimisers s0 hw hdim ys hys (by
    intro r hr
    obtain ⟨ns, -, h2, -⟩ := hpts r hr
    rw [h2]
    exact usable_vector curves hu ns)
  have hcols := quadraticProgram_cols s0 Q hQ
  refine ⟨⟨curves.map (·.surface), p, points, solve Q⟩, ?_, ⟨by simp [hl], ?_, hw.positive⟩, rfl, rfl,
    rfl, ?_⟩
  · unfold PairwiseSurface.fit
    have hQ' : ({ curves := curves.map (·.surface), p := p, data := points, a := [] } :
        PairwiseSurface).quadraticProgram = .ok Q := hQ
    simp only [hf, hcheck, hfl, hQ', bind, Except.bind]
    rfl
  · show (solve Q).length = p * p
    rw [hsolve, hcols]
  · intro hfeas
    refine (hiff (solve Q) (by rw [hsolve, hcols])).1.1 (hfeas Q ⟨List.replicate (p * p) 0, by
      rw [List.length_replicate, hcols], ?_⟩)
    refine (hiff (List.replicate (p * p) 0) (by simp [hs0])).1.2 ?_
    have h0 : ∀ i j, surfaceMatrix { s0 with a := List.replicate (p * p) 0 } i j = 0 := by
      intro i j
      unfold surfaceMatrix
      rw [List.getD_eq_getElem?_getD, List.getElem?_replicate]
      split <;> rfl
    constructor <;> simp [h0]

theorem feasible_plausible (s : PairwiseSurface) (lbd : Nat → ℚ) (h : FeasibleLambda s.p lbd) :
    PlausibleOverlap s.p (surfaceMatrix { s with a := Restricted.constructA s.p lbd }) := by
  refine (C35_plausible s.p lbd 0 (by norm_num) ?_).1
  unfold Restricted.checkFeasibility
  rw [List.all_eq_true]
  intro j hj
  have hj' := List.mem_range.1 hj
  have := h j hj'
  simp only [gt_iff_lt, Bool.decide_or, Bool.not_or, Bool.and_eq_true, Bool.not_eq_eq_eq_not,
    Bool.not_true, decide_eq_false_iff_not, not_lt]
  rw [total_sub s.p lbd j hj']
  simpa using this

/-- What is assumed of the sampler of the restricted surface for `p` publishers: feasible vectors of
numbers at most one, two of them positive; and the permutations are of the publishers. -/
structure SamplerOk (L : Solvers) (p : Nat) : Prop where
  starts : ∀ k, RestrictedStart p (L.starts p k)
  orders : ∀ n k, ∀ i ∈ L.orders p n k, i < p

/-- The restricted surface is fitted if the curves are usable, predict no negative reach, and somebody
is reached by every publisher at one of the training points. -/
theorem restricted_fits (L : Solvers) (curves : List (TrialCurve OptimisedCurve)) (p : Nat)
    (hp : 2 ≤ p) (hp' : p ≤ 1000000) (hL : SamplerOk L p)
    (hl : curves.length = p) (hu : ∀ c ∈ curves, UsableCurve (L.plannerCurve c))
    (points : List ReachPoint) (total : ReachPoint) (ns : List Nat) (hns : ∀ n ∈ ns, 1 ≤ n)
    (htot : total.impressions = ns.map (fun n : Nat => (n : ℚ)))
    (hmem : total ∈ points) (hpts : ∀ r ∈ points, TrainingPoint p r)
    (hsign : ∀ c ∈ curves, ∀ n : Nat, ∀ v, (L.plannerCurve c).surface.reachAt n = .ok v →
      0 ≤ v ∧ (1 ≤ n → 0 < v)) :
    ∃ s r, L.newSurface curves points = .ok s ∧ s.p = p ∧
      Restricted.fit s (L.starts p) (L.orders p) = .ok (some r) ∧ WellFormed r ∧
      r.curves = (curves.map L.plannerCurve).map (·.surface) ∧ r.p = p ∧ r.data = points ∧
      PlausibleOverlap r.p (surfaceMatrix r) := by
  obtain ⟨⟨first, hf, hfl⟩, hcheck, hdim⟩ := training_checks p points (List.ne_nil_of_mem hmem) hpts
  have hu' : ∀ c ∈ curves.map L.plannerCurve, UsableCurve c := by
    intro c hc
    obtain ⟨c, hc', rfl⟩ := List.mem_map.1 hc
    exact hu c hc'
  set s : PairwiseSurface := ⟨curves.map (fun c => (L.plannerCurve c).surface), p, points, []⟩ with hs
  have hcv : s.curves = (curves.map L.plannerCurve).map (·.surface) := by
    rw [hs, List.map_map]; rfl
  have hpos : ∀ c ∈ s.curves, 0 < c.maxReach := by
    intro c hc
    rw [hcv] at hc
    obtain ⟨c, hc', rfl⟩ := List.mem_map.1 hc
    exact (hu' c hc').positive
  have hval : ∀ (ms : List Nat) (r : List ℚ), PairwiseSurface.getReachVector s.curves
      (ms.map (fun n : Nat => (n : ℚ))) = .ok r → ∀ x ∈ r, 0 ≤ x ∧ ((∀ m ∈ ms, 1 ≤ m) → 0 < x) := by
    intro ms r hr x hx
    unfold PairwiseSurface.getReachVector at hr
    rw [mapM_ok_iff] at hr
    obtain ⟨⟨c, y⟩, hcy, hv⟩ := forall₂_mem_right hr x hx
    obtain ⟨hc, hy⟩ := List.of_mem_zip hcy
    obtain ⟨c, hc', rfl⟩ := List.mem_map.1 hc
    obtain ⟨n, hn, rfl⟩ := List.mem_map.1 hy
    obtain ⟨h1, h2⟩ := hsign c hc' n x hv
    exact ⟨h1, fun h => h2 (h n hn)⟩
  have hd : RestrictedData s := by
    refine ⟨by simp [hs, hl], hpos, hdim, ?_, total, hmem, ?_, ?_⟩
    · intro pt hpt
      obtain ⟨ms, -, h2, y, hy⟩ := hpts pt hpt
      obtain ⟨r, hr⟩ := usable_vector (curves.map L.plannerCurve) hu' ms
      rw [← hcv] at hr
      refine ⟨r, y, by rw [h2]; exact hr, hy, fun x hx => (hval ms r hr x hx).1⟩
    · have : total.impressions.count 0 = 0 := by
        rw [List.count_eq_zero, htot]
        intro h0
        obtain ⟨n, hn, h0⟩ := List.mem_map.1 h0
        have := hns n hn
        have h1 : (n : ℚ) = 0 := h0
        have : n = 0 := by exact_mod_cast h1
        omega
      have hsp : s.p = p := rfl
      rw [this, hsp]; omega
    · obtain ⟨r, hr⟩ := usable_vector (curves.map L.plannerCurve) hu' ns
      rw [← hcv] at hr
      exact ⟨r, by rw [htot]; exact hr, fun x hx => (hval ns r hr x hx).2 hns⟩
  obtain ⟨-, lbd, -, hfit, hfea, -⟩ := C89_fit s hd hp' (L.starts p) hL.starts (L.orders p) hL.orders
  refine ⟨s, _, ?_, rfl, hfit, ⟨hd.curves, ?_, hpos⟩, hcv, rfl, rfl, feasible_plausible s lbd hfea⟩
  · unfold Solvers.newSurface
    simp only [hf, hcheck, hfl, bind, Except.bind, pure, Except.pure, hs]
  · simp [Restricted.constructA, hs]

/-- A fitted surface over usable curves answers for all spends. -/
theorem surface_answers (curves : List PlannerCurve) (hu : ∀ c ∈ curves, UsableCurve c)
    (s : PairwiseSurface) (hw : WellFormed s) (hc : s.curves = curves.map (·.surface))
    (spends : List ℚ) (hl : spends.length = s.p) (hs : ∀ x ∈ spends, 0 ≤ x) (F : Int) :
    ∃ pt, s.bySpend curves spends F = .ok pt ∧ MadeFrom pt.kplusReaches pt ∧ pt.kplusReaches ≠ [] := by
  have hcl : curves.length = s.p := by
    rw [← hw.curves, hc, List.length_map]
  obtain ⟨imps, hi⟩ := mapM_total (fun cs : PlannerCurve × ℚ => cs.1.impressionsForSpend cs.2)
    (curves.zip spends) (by
      rintro ⟨c, x⟩ hcx
      obtain ⟨h1, h2⟩ := List.of_mem_zip hcx
      obtain ⟨y, -, hy, -⟩ := (hu c h1).spends x (hs x h2)
      exact ⟨y, hy⟩)
  have hi' := (mapM_ok_iff _ _ _).1 hi
  have hil : imps.length = s.p := by
    rw [← hi'.length_eq, List.length_zip, hcl, hl, min_self]
  obtain ⟨r, hr⟩ : ∃ r, PairwiseSurface.getReachVector s.curves imps = .ok r := by
    unfold PairwiseSurface.getReachVector
    refine mapM_total _ _ ?_
    rintro ⟨c, x⟩ hcx
    obtain ⟨j, hj, hjx⟩ := List.getElem_of_mem hcx
    rw [List.getElem_zip, Prod.mk.injEq] at hjx
    obtain ⟨rfl, rfl⟩ := hjx
    rw [List.length_zip, hw.curves, hil, min_self] at hj
    obtain ⟨y, v, h1, h2⟩ := (hu (curves[j]'(by omega)) (List.getElem_mem _)).spends
      (spends[j]'(by omega)) (hs _ (List.getElem_mem _))
    have h3 := (List.forall₂_iff_get.1 hi').2 j (by rw [List.length_zip]; omega) (by omega)
    simp only [List.get_eq_getElem, List.getElem_zip] at h3
    rw [h1] at h3
    refine ⟨v, ?_⟩
    simp only [hc, List.getElem_map]
    rw [← Except.ok.inj h3]
    exact h2
  obtain ⟨pt, h1, -, h2, -⟩ := C30_formula s hw imps hil r hr
  refine ⟨pt, ?_, ?_, ?_⟩
  · unfold PairwiseSurface.bySpend surfaceBySpend
    simp only [hi, bind, Except.bind]
    exact h1
  · unfold PairwiseSurface.byImpressions at h1
    simp only [bind, Except.bind] at h1
    split at h1
    · cases h1
    split at h1
    · cases h1
    exact made_of_new h1
  · intro h0
    rw [ReachPoint.maxFrequency, h0] at h2
    simp at h2

end Verif
