import Verif.Lemmas.VennLaw
import Verif.Props.Venn

/-!
# C92: the privacy of a Venn diagram request
-/

namespace Verif

open Verif.Spec HaloSimulator

variable {S : Type}

/-- The table scaled to a given total. -/
def scaledTo (t : Dict Nat ℚ) (c : ℚ) : Dict Nat ℚ :=
  t.map (fun rv => (rv.1, rv.2 * (if (t.map (·.2)).sum ≠ 0 then c / (t.map (·.2)).sum else 0)))

/-- State after a successful request. -/
def afterVenn (budget : PrivacyBudget ℚ) (split : ℚ) (st : HaloState) : HaloState :=
  { tracker := (vennEvents budget split).foldl PrivacyTracker.append st.tracker
    draws := st.draws + 5 }

theorem mapM_heads (d : Dict Nat (List Int)) (h : ∀ rv ∈ d, rv.2 ≠ []) :
    d.mapM (fun rk => do
      let r ← pyIndex rk.2 0
      return (rk.1, r)) = (.ok ((dictKeys d).zip (regionCounts d)) : Except PyErr _) := by
  induction d with
  | nil => rfl
  | cons rv d ih =>
    rw [List.mapM_cons, ih (fun x hx => h x (by simp [hx]))]
    have : pyIndex rv.2 (0 : Int) = .ok (rv.2.getD 0 0) := by
      have hne := h rv (by simp)
      cases hv : rv.2 with
      | nil => exact absurd hv hne
      | cons x l => rfl
    simp only [this, bind, Except.bind, pure, Except.pure]
    rfl

/-- What a request does, given the draws. -/
theorem venn_run (h : HaloSimulator S) (spends : List ℚ) (budget : PrivacyBudget ℚ) (split : ℚ)
    (st : HaloState) (d : Dict Nat (List Int)) (hd : h.formVennDiagramRegions spends 1 = .ok d)
    (hne : d ≠ []) (hrows : ∀ rv ∈ d, rv.2 ≠ []) (hnn : ∀ x ∈ regionCounts d, 0 ≤ x)
    (r : ReachPoint) (hr : h.trueReachBySpend spends = .ok r)
    (hc : r.reach 1 = .ok (((regionCounts d).sum : Int) : ℚ))
    (dr : Draws) (hle : dr.active ≤ (regionCounts d).sum.toNat) :
    HaloSimulator.simulatedVenn { h with
        rand := answers st.draws (regionCounts d).sum.toNat (regionCounts d)
          (budget.epsilon * split) (budget.epsilon * (1 - split)) dr } spends budget split 1 st
      = if dr.active = 0 then (.error .runtimeError, { st with draws := st.draws + 1 })
        else (h.generateReachPoints spends (scaledTo
            (noised ((dictKeys d).zip dr.sample) dr.noise) (dr.estimate + (dr.cardinalityNoise : ℚ))),
          afterVenn budget split st) := by
  set h' : HaloSimulator S := { h with
        rand := answers st.draws (regionCounts d).sum.toNat (regionCounts d)
          (budget.epsilon * split) (budget.epsilon * (1 - split)) dr } with hh'
  have hd' : h'.formVennDiagramRegions spends 1 = .ok d := hd
  have hr' : h'.trueReachBySpend spends = .ok r := hr
  have hsum0 : 0 ≤ (regionCounts d).sum := List.sum_nonneg hnn
  have hcast : (((regionCounts d).sum : Int) : ℚ) = (((regionCounts d).sum.toNat : Nat) : ℚ) := by
    rw [← Int.cast_natCast, Int.toNat_of_nonneg hsum0]
  unfold simulatedVenn
  rw [if_neg (by decide), HaloM.bind_apply, HaloM.lift_apply, hd']
  simp only
  rw [if_neg hne, HaloM.bind_apply, HaloM.lift_apply, hr']
  simp only
  rw [HaloM.bind_apply, HaloM.lift_apply, hc]
  simp only
  have hact : h'.rand.activeRegisters st.draws (((regionCounts d).sum : Int) : ℚ) = (dr.active : Int) := by
    rw [hh']
    simp only [answers]
    rw [if_pos ⟨trivial, hcast⟩]
  have hn : h'.numActiveRegions (((regionCounts d).sum : Int) : ℚ) st
      = (if (dr.active : Int) = 0 then .error .runtimeError else .ok (dr.active : Int),
          { st with draws := st.draws + 1 }) := by
    unfold numActiveRegions
    rw [HaloM.bind_ok (HaloM.draw_apply st), hact]
    split <;> simp
  rw [HaloM.bind_apply, hn]
  by_cases h0 : dr.active = 0
  · rw [if_pos h0, if_pos (by rw [h0]; rfl)]
  · rw [if_neg h0, if_neg (by exact_mod_cast h0)]
    simp only
    have hs : h'.sampleVennDiagram d (dr.active : Int) { st with draws := st.draws + 1 }
        = (.ok ((dictKeys d).zip dr.sample), { st with draws := st.draws + 2 }) := by
      unfold sampleVennDiagram
      rw [HaloM.bind_apply, HaloM.lift_apply, mapM_heads d hrows]
      simp only
      have hl2 : (dictKeys d).length = (regionCounts d).length := by simp [dictKeys, regionCounts]
      rw [if_neg (by
        intro h1
        apply hne
        have := congrArg List.length h1
        simp only [List.length_zip, hl2, min_self, List.length_nil] at this
        simpa [regionCounts] using this)]
      rw [List.map_snd_zip (by omega), List.map_fst_zip (by omega), if_neg (by omega)]
      rw [HaloM.bind_ok (HaloM.draw_apply _)]
      simp only [HaloM.pure_apply]
      rw [hh']
      simp only [answers]
      simp
    rw [HaloM.bind_ok hs]
    have ha : h'.addDpNoise ((dictKeys d).zip dr.sample) budget split { st with draws := st.draws + 2 }
        = (.ok (noised ((dictKeys d).zip dr.sample) dr.noise),
          { tracker := st.tracker.append (vennEvent budget split), draws := st.draws + 3 }) := by
      simp only [HaloSimulator.addDpNoise, bind, HaloM.bind, HaloM.draw, HaloM.record, pure, noised,
        hh', answers]
      simp [vennEvent]
    rw [HaloM.bind_ok ha]
    have hsc : h'.scaleUp (noised ((dictKeys d).zip dr.sample) dr.noise)
        (((regionCounts d).sum : Int) : ℚ) budget (1 - split)
        { tracker := st.tracker.append (vennEvent budget split), draws := st.draws + 3 }
        = (.ok (scaledTo (noised ((dictKeys d).zip dr.sample) dr.noise)
            (dr.estimate + (dr.cardinalityNoise : ℚ))), afterVenn budget split st) := by
      simp only [HaloSimulator.scaleUp, bind, HaloM.bind, HaloM.draw, HaloM.record, pure,
        hh', answers, hcast]
      simp [vennEvent, vennEvents, afterVenn, scaledTo]
    rw [HaloM.bind_ok hsc, HaloM.lift_apply]
    rfl


/-! ## The distribution of the result -/

section
variable {R : Type} [Fintype R] [DecidableEq R]

theorem hyperLaw_length (pops : List Int) (k : Nat) (s : List Int) (h : hyperLaw pops k s ≠ 0) :
    s.length = pops.length := by
  unfold hyperLaw at h
  split at h
  · rw [← PMF.mem_support_iff, PMF.mem_support_map_iff] at h
    obtain ⟨T, _, rfl⟩ := h
    exact countsOf_length _ _ _
  · rw [← PMF.mem_support_iff, PMF.support_pure, Set.mem_singleton_iff] at h
    rw [h]; simp

theorem activeRegs_le {n : Nat} (a : Fin n → R) : activeRegs a ≤ n := by
  rw [← card_single]
  exact (Finset.card_le_univ _).trans (by simp)

/-- The result of a request as a computation on the sampled counts. -/
noncomputable def resultLaw (l : Laws R) (h : HaloSimulator S) (spends : List ℚ)
    (budget : PrivacyBudget ℚ) (split : ℚ) (st : HaloState) (keys : List Nat) (n : Nat)
    (ks : Nat × List Int) : PMF (Except PyErr (List ReachPoint) × HaloState) :=
  if ks.1 = 0 then PMF.pure (.error .runtimeError, { st with draws := st.draws + 1 })
  else (tableLaw l.noise (keys.zip ks.2)).bind fun t => (cardinalityLaw l n).map fun c =>
    (h.generateReachPoints spends (scaledTo t c), afterVenn budget split st)

theorem vennLaw_eq (l : Laws R) (h : HaloSimulator S) (spends : List ℚ) (budget : PrivacyBudget ℚ)
    (split : ℚ)
    (st : HaloState) (d : Dict Nat (List Int)) (hd : h.formVennDiagramRegions spends 1 = .ok d)
    (hne : d ≠ []) (hrows : ∀ rv ∈ d, rv.2 ≠ []) (hnn : ∀ x ∈ regionCounts d, 0 ≤ x)
    (r : ReachPoint) (hr : h.trueReachBySpend spends = .ok r)
    (hc : r.reach 1 = .ok (((regionCounts d).sum : Int) : ℚ)) :
    vennLaw l h spends budget split st
      = (jointLaw l.register (regionCounts d).sum.toNat (regionCounts d)).bind
          (resultLaw l h spends budget split st (dictKeys d) (regionCounts d).sum.toNat) := by
  unfold vennLaw
  rw [hd]
  simp only
  unfold drawsLaw jointLaw
  rw [PMF.map_bind, PMF.bind_bind]
  congr 1
  funext a
  rw [PMF.map_bind, PMF.bind_map]
  apply bind_congr_support
  intro s hs
  have hlen := hyperLaw_length _ _ _ hs
  have hrun := fun dr hle => venn_run h spends budget split st d hd hne hrows hnn r hr hc dr hle
  simp only [Function.comp_apply, resultLaw]
  by_cases h0 : activeRegs a = 0
  · rw [if_pos h0]
    have : ∀ (z : List ℤ) (e : ℚ) (y : ℤ), HaloSimulator.simulatedVenn { h with
        rand := answers st.draws (regionCounts d).sum.toNat (regionCounts d)
          (budget.epsilon * split) (budget.epsilon * (1 - split)) ⟨activeRegs a, s, z, e, y⟩ }
          spends budget split 1 st = (.error .runtimeError, { st with draws := st.draws + 1 }) := by
      intro z e y
      rw [hrun _ (activeRegs_le a), if_pos h0]
    simp only [PMF.map_bind, PMF.map_comp, Function.comp_def, this, PMF.bind_const]
    exact PMF.map_const _ _
  · rw [if_neg h0]
    have : ∀ (z : List ℤ) (e : ℚ) (y : ℤ), HaloSimulator.simulatedVenn { h with
        rand := answers st.draws (regionCounts d).sum.toNat (regionCounts d)
          (budget.epsilon * split) (budget.epsilon * (1 - split)) ⟨activeRegs a, s, z, e, y⟩ }
          spends budget split 1 st = (h.generateReachPoints spends (scaledTo
            (noised ((dictKeys d).zip s) z) (e + (y : ℚ))), afterVenn budget split st) := by
      intro z e y
      rw [hrun _ (activeRegs_le a), if_neg h0]
    have hz : ((dictKeys d).zip s).length = (regionCounts d).length := by
      simp [hlen, dictKeys, regionCounts]
    unfold tableLaw
    simp only [PMF.map_bind, PMF.map_comp, Function.comp_def, this, PMF.bind_map, hz,
      cardinalityLaw]

/-! ## One user more in a region -/

theorem zip_distance (keys : List Nat) : ∀ (a b : List Int), a.length = b.length →
    tableDistance (keys.zip a) (keys.zip b) ≤ listDistance a b := by
  induction keys with
  | nil => intro a b _; simp [tableDistance]
  | cons k keys ih =>
    intro a b hab
    match a, b, hab with
    | [], [], _ => simp [tableDistance]
    | x :: a, y :: b, hab =>
      have := ih a b (by simpa using hab)
      simp only [tableDistance, listDistance, List.zip_cons_cons, List.zipWith_cons_cons,
        List.sum_cons] at this ⊢
      omega

theorem zip_keys (keys : List Nat) : ∀ (a b : List Int), a.length = b.length →
    dictKeys (keys.zip a) = dictKeys (keys.zip b) := by
  induction keys with
  | nil => intro a b _; rfl
  | cons k keys ih =>
    intro a b hab
    match a, b, hab with
    | [], [], _ => rfl
    | x :: a, y :: b, hab =>
      have := ih a b (by simpa using hab)
      simp only [dictKeys, List.zip_cons_cons, List.map_cons] at this ⊢
      rw [this]

/-- The reaches reported for a table. -/
def reachesOf (spends : List ℚ) (table : Dict Nat ℚ) : List (List ℚ) :=
  (nonemptySubsets ((spends.zipIdx.filter (fun si => si.1 ≠ 0)).map (·.2))).map
    (fun sub => [aggregateReach sub table])

theorem generate_reaches (h : HaloSimulator S) (spends : List ℚ) (table : Dict Nat ℚ)
    (hlen : h.dataSet.data.length = spends.length) (st : HaloState) :
    seen (h.generateReachPoints spends table, st) = (.ok (reachesOf spends table), st) := by
  have himps := impressionsBySpend_ok h.dataSet spends (by omega)
  set imps := (h.dataSet.data.zip spends).map (fun ps => ps.1.impressionsBySpend ps.2) with hi
  have hil : imps.length = spends.length := by simp [hi, hlen]
  have key : ∀ subs : List (List Nat), ∃ pts, subs.mapM (fun sub => do
      let mask : List ℚ := (List.range spends.length).map (fun i => if i ∈ sub then 1 else 0)
      if imps.length ≠ spends.length then .error .valueError
      else
        ReachPoint.new
          (List.zipWith (· * ·) (imps.map (fun n : Nat => (n : ℚ))) mask)
          [aggregateReach sub table]
          (some (List.zipWith (· * ·) spends mask)) (some (h.dataSet.universeSize : ℚ)))
        = (.ok pts : Except PyErr (List ReachPoint)) ∧
      pts.map (·.kplusReaches) = subs.map (fun sub => [aggregateReach sub table]) := by
    intro subs
    induction subs with
    | nil => exact ⟨[], rfl, rfl⟩
    | cons sub subs ih =>
      obtain ⟨pts, h1, h2⟩ := ih
      rw [List.mapM_cons, h1]
      simp only [hil, ne_eq, not_true_eq_false, if_false, ReachPoint.new]
      rw [if_neg (by simp [hil])]
      exact ⟨_, rfl, by simp [h2]⟩
  obtain ⟨pts, h1, h2⟩ := key (nonemptySubsets ((spends.zipIdx.filter (fun si => si.1 ≠ 0)).map (·.2)))
  have : h.generateReachPoints spends table = .ok pts := by
    unfold generateReachPoints
    rw [himps]
    simp only [bind, Except.bind] at h1 ⊢
    exact h1
  rw [this]
  simp only [seen, h2, reachesOf]

/-- What is seen of the result, as a computation on the sampled counts. -/
noncomputable def seenLaw (l : Laws R) (spends : List ℚ) (budget : PrivacyBudget ℚ) (split : ℚ)
    (st : HaloState) (keys : List Nat) (n : Nat) (ks : Nat × List Int) :
    PMF (Except PyErr (List (List ℚ)) × HaloState) :=
  if ks.1 = 0 then PMF.pure (.error .runtimeError, { st with draws := st.draws + 1 })
  else (tableLaw l.noise (keys.zip ks.2)).bind fun t => (cardinalityLaw l n).map fun c =>
    (.ok (reachesOf spends (scaledTo t c)), afterVenn budget split st)

omit [Fintype R] [DecidableEq R] in
theorem resultLaw_seen (l : Laws R) (h : HaloSimulator S) (spends : List ℚ)
    (budget : PrivacyBudget ℚ) (split : ℚ) (st : HaloState) (keys : List Nat) (n : Nat)
    (ks : Nat × List Int) (hlen : h.dataSet.data.length = spends.length) :
    (resultLaw l h spends budget split st keys n ks).map seen
      = seenLaw l spends budget split st keys n ks := by
  unfold resultLaw seenLaw
  split
  · rw [PMF.pure_map]; rfl
  · rw [PMF.map_bind]
    congr 1
    funext t
    rw [PMF.map_comp]
    congr 1
    funext c
    exact generate_reaches h spends _ hlen _

/-- The closeness of the results for two populations that differ by one user. -/
theorem seen_close (l : Laws R) (spends : List ℚ) (budget : PrivacyBudget ℚ) (split : ℚ)
    (st : HaloState) (keys : List Nat) {pops pops' : List Int} {j₀ : Nat} (ho : OneMore pops pops' j₀)
    (hj : j₀ < pops.length) (hs0 : 0 ≤ budget.epsilon * split)
    (hν : StepLaw ((budget.epsilon * split : ℚ) : ℝ) l.noise)
    (hcard : DpClose ((budget.epsilon * (1 - split) : ℚ) : ℝ) 0
      (cardinalityLaw l (urn pops).length) (cardinalityLaw l (urn pops').length))
    (hcard' : DpClose ((budget.epsilon * (1 - split) : ℚ) : ℝ) 0
      (cardinalityLaw l (urn pops').length) (cardinalityLaw l (urn pops).length)) :
    DpClose (budget.epsilon : ℝ) (noActive l (urn pops).length + noActive l (urn pops').length)
      ((jointLaw l.register (urn pops).length pops).bind
        (seenLaw l spends budget split st keys (urn pops).length))
      ((jointLaw l.register (urn pops').length pops').bind
        (seenLaw l spends budget split st keys (urn pops').length)) ∧
    DpClose (budget.epsilon : ℝ) (noActive l (urn pops).length + noActive l (urn pops').length)
      ((jointLaw l.register (urn pops').length pops').bind
        (seenLaw l spends budget split st keys (urn pops').length))
      ((jointLaw l.register (urn pops).length pops).bind
        (seenLaw l spends budget split st keys (urn pops).length)) := by
  obtain ⟨e1, e2⟩ := jointLaw_couple l.register ho hj
  rw [e1, e2, PMF.bind_map, PMF.bind_map]
  set N := (urn pops).length with hN
  have hN' : (urn pops').length = N + 1 := ho.urn_length hj
  rw [hN'] at hcard hcard' ⊢
  have hε : (budget.epsilon : ℝ) = ((budget.epsilon * split : ℚ) : ℝ)
      + ((budget.epsilon * (1 - split) : ℚ) : ℝ) := by push_cast; ring
  have hs0' : (0 : ℝ) ≤ ((budget.epsilon * split : ℚ) : ℝ) := by exact_mod_cast hs0
  -- the pairs of draws in which one of the requests fails
  set bad : Set (Fin (N + 1) → R) := {a | activeRegs (Fin.tail a) = 0} ∪ {a | activeRegs a = 0} with hbad
  have hbadle : (registersLaw l.register (N + 1)).toOuterMeasure bad
      ≤ ENNReal.ofReal (noActive l N + noActive l (N + 1)) := by
    have hne : ∀ (n : Nat) (A : Set (Fin n → R)), (registersLaw l.register n).toOuterMeasure A ≠ ⊤ :=
      fun n A => ne_top_of_le_ne_top ENNReal.one_ne_top (outer_le_one _ _)
    unfold noActive
    rw [ENNReal.ofReal_add ENNReal.toReal_nonneg ENNReal.toReal_nonneg]
    rw [ENNReal.ofReal_toReal (hne _ _), ENNReal.ofReal_toReal (hne _ _)]
    refine (MeasureTheory.measure_union_le _ _).trans ?_
    gcongr
    conv_rhs => rw [← registersLaw_tail l.register N, PMF.toOuterMeasure_map_apply]
    exact le_rfl
  -- closeness when both succeed
  have hgood : ∀ (n n' : Nat) (ks ks' : Nat × List Int), ks.1 ≠ 0 → ks'.1 ≠ 0 →
      ks.2.length = ks'.2.length → listDistance ks.2 ks'.2 ≤ 1 →
      DpClose ((budget.epsilon * (1 - split) : ℚ) : ℝ) 0 (cardinalityLaw l n) (cardinalityLaw l n') →
      DpClose (budget.epsilon : ℝ) 0 (seenLaw l spends budget split st keys n ks)
        (seenLaw l spends budget split st keys n' ks') := by
    intro n n' ks ks' h1 h2 h3 h4 h5
    unfold seenLaw
    rw [if_neg h1, if_neg h2, hε, ← add_zero (0 : ℝ)]
    refine DpClose.bind le_rfl le_rfl ?_ (fun t => h5.map _)
    refine (tableLaw_close hν _ _ ?_).mono ?_ le_rfl
    · exact zip_keys keys _ _ h3
    · have h6 := (zip_distance keys _ _ h3).trans h4
      have h7 : (tableDistance (keys.zip ks.2) (keys.zip ks'.2) : ℝ) ≤ 1 := by exact_mod_cast h6
      nlinarith
  have hlast := fun a : Fin (N + 1) → R =>
    single_cons_counts a (fun i : Fin N => (urn pops)[i]) j₀ pops.length
  have hcomm : ∀ a b : List Int, listDistance a b = listDistance b a := by
    intro a b
    unfold listDistance
    rw [List.zipWith_comm]
    congr 1
    congr 1
    funext x y
    omega
  constructor
  · refine DpClose.couple _ _ _ bad (fun a ha => ?_) _ hbadle
    simp only [hbad, Set.mem_union, Set.mem_ofPred_eq, not_or, ← card_single] at ha
    refine hgood _ _ _ _ ha.1 ha.2 ?_ ?_ hcard
    · simp only [countsOf_length]
    · rw [hcomm]; exact hlast a
  · refine DpClose.couple _ _ _ bad (fun a ha => ?_) _ hbadle
    simp only [hbad, Set.mem_union, Set.mem_ofPred_eq, not_or, ← card_single] at ha
    refine hgood _ _ _ _ ha.2 ha.1 ?_ ?_ hcard'
    · simp only [countsOf_length]
    · exact hlast a

/-! ## The request on the logs -/

/-- The regions, in the order of the table. -/
def regionKeys (spends : List ℚ) : List Nat :=
  (nonemptySubsets ((activePairs spends).map (·.2))).map regionOf

/-- Number of users in a region. -/
noncomputable def popOf (logs : List Log) (spends : List ℚ) (m : Nat) : Int :=
  ((Set.ncard {u : Int | inRegion logs spends m u ∧ 1 ≤ activeExposures logs spends u} : Nat) : Int)

/-- Numbers of users in the regions. -/
noncomputable def pops (logs : List Log) (spends : List ℚ) : List Int :=
  (regionKeys spends).map (popOf logs spends)

theorem form_keys {logs : List Log} {h : HaloSimulator S} (hb : HaloBuilt logs h)
    (spends : List ℚ) (hl : spends.length = logs.length) (d : Dict Nat (List Int))
    (hd : h.formVennDiagramRegions spends 1 = .ok d) : dictKeys d = regionKeys spends := by
  obtain ⟨counts, e1, e2, e3, e4, e5, e6⟩ := activeCounts_spec hb spends hl
  have hsorted : (counts.map (·.1)).SortedLT := by rw [e2]; exact activePairs_sorted spends
  obtain ⟨freqs, f1, f2, f3⟩ := table_spec counts hsorted e3 e4 1 le_rfl
  unfold formVennDiagramRegions at hd
  rw [e1] at hd
  simp only [bind, Except.bind] at hd
  split at hd
  · exact absurd hd (by simp)
  rw [locateUsers_eq] at hd
  simp only [Nat.cast_one] at f1 hd
  rw [f1] at hd
  simp only [pure, Except.pure, Except.ok.injEq] at hd
  rw [← hd]
  unfold regionKeys
  rw [← e2, ← f2]
  simp [dictKeys, Function.comp_def]

theorem request_table {logs : List Log} {h : HaloSimulator S} (hb : HaloBuilt logs h)
    (spends : List ℚ) (hl : spends.length = logs.length) (hact : numActive spends ≤ 20) :
    ∃ d, h.formVennDiagramRegions spends 1 = .ok d ∧ dictKeys d = regionKeys spends ∧
      (regionKeys spends).Nodup ∧
      (∀ m, m ∈ regionKeys spends ↔ m ≠ 0 ∧ ∀ i, m.testBit i = true → isActive spends i) ∧
      (∀ rv ∈ d, rv.2 = [popOf logs spends rv.1]) ∧ regionCounts d = pops logs spends ∧
      d.length = 2 ^ numActive spends - 1 := by
  obtain ⟨d, h1, h2, h3, h4, h5⟩ := C22_regions hb spends hl hact 1 le_rfl
  have hk := form_keys hb spends hl d (by simpa using h1)
  have h5' : ∀ rv ∈ d, rv.2 = [popOf logs spends rv.1] := by
    intro rv hrv
    rw [h5 rv hrv]
    rfl
  refine ⟨d, by simpa using h1, hk, hk ▸ h2, fun m => hk ▸ h4 m, h5', ?_, h3⟩
  unfold regionCounts pops
  rw [← hk, dictKeys, List.map_map]
  apply List.map_congr_left
  intro rv hrv
  simp [h5' rv hrv]

theorem pops_nonneg (logs : List Log) (spends : List ℚ) : ∀ x ∈ pops logs spends, 0 ≤ x := by
  intro x hx
  obtain ⟨m, _, rfl⟩ := List.mem_map.1 hx
  exact Int.natCast_nonneg _

theorem pops_urn {logs : List Log} {h : HaloSimulator S} (hb : HaloBuilt logs h)
    (spends : List ℚ) (hl : spends.length = logs.length) (hact : numActive spends ≤ 20) :
    (pops logs spends).sum = (reachedCount logs spends : Int) ∧
    (urn (pops logs spends)).length = reachedCount logs spends := by
  obtain ⟨d, h1, _, _, _, _, h6, _⟩ := request_table hb spends hl hact
  have := C22_sum_is_deduplicated_reach hb spends hl hact 1 le_rfl d h1
  have hs : (pops logs spends).sum = (reachedCount logs spends : Int) := by
    rw [← h6]; exact this
  refine ⟨hs, ?_⟩
  have := urn_length_eq _ (pops_nonneg logs spends)
  omega

/-- The distribution of a request on given logs. -/
theorem request_law (l : Laws R) {logs : List Log} {h : HaloSimulator S} (hb : HaloBuilt logs h)
    (hds : h.dataSet.data = h.publishers.map (·.publisherData))
    (hcost : ∀ log ∈ logs, ∀ e ∈ log, 0 < e.2)
    (spends : List ℚ) (hl : spends.length = logs.length) (hact : numActive spends ≤ 20)
    (hpos : numActive spends ≠ 0) (budget : PrivacyBudget ℚ) (split : ℚ) (st : HaloState) :
    vennLaw l h spends budget split st
      = (jointLaw l.register (reachedCount logs spends) (pops logs spends)).bind
          (resultLaw l h spends budget split st (regionKeys spends) (reachedCount logs spends)) := by
  obtain ⟨d, h1, h2, h3, h4, h5, h6, h7⟩ := request_table hb spends hl hact
  obtain ⟨r, hr, hc⟩ := C22_sum_is_true_reach hb hds hcost spends hl hact 1 le_rfl d h1
  obtain ⟨p1, p2⟩ := pops_urn hb spends hl hact
  have hne : d ≠ [] := by
    rintro rfl
    have : 2 ≤ 2 ^ numActive spends := by
      calc 2 = 2 ^ 1 := rfl
        _ ≤ _ := Nat.pow_le_pow_right (by norm_num) (by omega)
    simp at h7
    omega
  rw [vennLaw_eq l h spends budget split st d h1 hne (fun rv hrv => by simp [h5 rv hrv])
    (by rw [h6]; exact pops_nonneg _ _) r hr hc, h6, h2, p1]
  simp

/-- Without any publisher taking part there is nothing to report. -/
theorem request_empty (l : Laws R) {logs : List Log} {h : HaloSimulator S} (hb : HaloBuilt logs h)
    (spends : List ℚ) (hl : spends.length = logs.length)
    (hpos : numActive spends = 0) (budget : PrivacyBudget ℚ) (split : ℚ) (st : HaloState) :
    vennLaw l h spends budget split st = PMF.pure (.ok [], st) := by
  obtain ⟨d, h1, h2, h3, h4, h5, h6, h7⟩ := request_table hb spends hl (by omega)
  have hd : d = [] := by
    rw [hpos] at h7
    simpa using h7
  subst hd
  unfold vennLaw
  rw [h1]
  simp only
  refine Eq.trans ?_ (PMF.map_const (drawsLaw l (regionCounts []).sum.toNat (regionCounts [])) _)
  congr 1
  funext dr
  unfold HaloSimulator.simulatedVenn
  rw [if_neg (by simp), HaloM.bind_apply, HaloM.lift_apply]
  have : HaloSimulator.formVennDiagramRegions { h with
          rand := answers st.draws (regionCounts []).sum.toNat (regionCounts [])
            (budget.epsilon * split) (budget.epsilon * (1 - split)) dr } spends 1 = .ok [] := h1
  rw [this]
  rfl

theorem seen_law (l : Laws R) {logs : List Log} {h : HaloSimulator S} (hb : HaloBuilt logs h)
    (hds : h.dataSet.data = h.publishers.map (·.publisherData))
    (hcost : ∀ log ∈ logs, ∀ e ∈ log, 0 < e.2)
    (spends : List ℚ) (hl : spends.length = logs.length) (hact : numActive spends ≤ 20)
    (hpos : numActive spends ≠ 0) (budget : PrivacyBudget ℚ) (split : ℚ) (st : HaloState) :
    (vennLaw l h spends budget split st).map seen
      = (jointLaw l.register (reachedCount logs spends) (pops logs spends)).bind
          (seenLaw l spends budget split st (regionKeys spends) (reachedCount logs spends)) := by
  rw [request_law l hb hds hcost spends hl hact hpos, PMF.map_bind]
  congr 1
  funext ks
  refine resultLaw_seen l h spends budget split st _ _ ks ?_
  rw [hds, hl]
  exact (List.Forall₂.length_eq hb).symm

/-! ### Leaving a user out -/

theorem exposures_without (u : Int) (log : Log) (s : ℚ) (w : Int) :
    exposuresAtSpend (log.filter (fun e => e.1 ≠ u)) s w
      = if w = u then 0 else exposuresAtSpend log s w := by
  unfold exposuresAtSpend
  rw [List.countP_filter]
  split
  · rename_i h
    subst h
    rw [List.countP_eq_zero]
    intro e _
    simp
    tauto
  · rename_i h
    apply List.countP_congr
    intro e _
    simp
    rintro rfl
    tauto

theorem reachedBy_without (u : Int) (logs : List Log) (spends : List ℚ) (i : Nat) (w : Int) :
    reachedBy (withoutUser u logs) spends i w ↔ w ≠ u ∧ reachedBy logs spends i w := by
  unfold reachedBy withoutUser
  constructor
  · rintro ⟨log, s, h1, h2, h3, h4⟩
    rw [List.getElem?_map, Option.map_eq_some_iff] at h1
    obtain ⟨log', h1, rfl⟩ := h1
    rw [exposures_without] at h4
    split at h4
    · omega
    · exact ⟨by assumption, log', s, h1, h2, h3, h4⟩
  · rintro ⟨hw, log, s, h1, h2, h3, h4⟩
    refine ⟨_, s, by rw [List.getElem?_map, h1]; rfl, h2, h3, ?_⟩
    rw [exposures_without, if_neg hw]
    exact h4

theorem activeExposures_without (u : Int) (logs : List Log) (spends : List ℚ) (w : Int) :
    activeExposures (withoutUser u logs) spends w
      = if w = u then 0 else activeExposures logs spends w := by
  unfold activeExposures withoutUser
  rw [List.zip_map_left, List.filter_map, List.map_map]
  simp only [Function.comp_def, Prod.map_fst, Prod.map_snd, id, exposures_without]
  split
  · simp
  · rfl

theorem popOf_without (u : Int) (logs : List Log) (spends : List ℚ) (m : Nat)
    (hm : m ≠ 0) : popOf logs spends m
      = popOf (withoutUser u logs) spends m +
        open Classical in if inRegion logs spends m u then 1 else 0 := by
  unfold popOf
  have hset : {w : Int | inRegion (withoutUser u logs) spends m w ∧
        1 ≤ activeExposures (withoutUser u logs) spends w}
      = {w : Int | inRegion logs spends m w ∧ 1 ≤ activeExposures logs spends w} \ {u} := by
    ext w
    simp only [Set.mem_ofPred_eq, Set.mem_sdiff, Set.mem_singleton_iff, activeExposures_without]
    by_cases hw : w = u
    · simp [hw]
    · simp only [hw, if_false, not_false_eq_true, and_true, inRegion, reachedBy_without, ne_eq, true_and]
  rw [hset]
  split
  · rename_i hin
    have hmem : u ∈ {w : Int | inRegion logs spends m w ∧ 1 ≤ activeExposures logs spends w} := by
      obtain ⟨i, hi⟩ := Nat.exists_testBit_of_ne_zero hm
      exact ⟨hin, activeExposures_pos logs spends i u ((hin i).1 hi)⟩
    have hfin : {w : Int | inRegion logs spends m w ∧ 1 ≤ activeExposures logs spends w}.Finite := by
      refine (reachedBy_finite logs spends).subset ?_
      rintro w ⟨hw, _⟩
      obtain ⟨i, hi⟩ := Nat.exists_testBit_of_ne_zero hm
      exact ⟨i, (hw i).1 hi⟩
    have := Set.ncard_sdiff_singleton_add_one hmem hfin
    omega
  · rename_i hin
    rw [Set.sdiff_singleton_eq_self]
    · simp
    · rintro ⟨h1, _⟩; exact hin h1

theorem pops_without {logs : List Log} {h : HaloSimulator S} (hb : HaloBuilt logs h) (u : Int)
    (spends : List ℚ) (hl : spends.length = logs.length) (hact : numActive spends ≤ 20) :
    (¬ (∃ i, reachedBy logs spends i u) → pops (withoutUser u logs) spends = pops logs spends) ∧
    ((∃ i, reachedBy logs spends i u) → ∃ j₀, j₀ < (pops (withoutUser u logs) spends).length ∧
      OneMore (pops (withoutUser u logs) spends) (pops logs spends) j₀) := by
  obtain ⟨d, h1, h2, h3, h4, h5, h6, h7⟩ := request_table hb spends hl hact
  have hreg : ∀ m ∈ regionKeys spends, inRegion logs spends m u → ∃ i, reachedBy logs spends i u := by
    intro m hm hin
    obtain ⟨i, hi⟩ := Nat.exists_testBit_of_ne_zero ((h4 m).1 hm).1
    exact ⟨i, (hin i).1 hi⟩
  constructor
  · intro hu
    unfold pops
    apply List.map_congr_left
    intro m hm
    rw [popOf_without u logs spends m ((h4 m).1 hm).1, if_neg (fun hin => hu (hreg m hm hin)), add_zero]
  · intro hu
    obtain ⟨m, ⟨hm, hin⟩, huniq⟩ := (C22_each_user_once hb spends hl hact 1 le_rfl d h1 u).1 hu
    rw [h2] at hm
    obtain ⟨j₀, hj, hjm⟩ := List.getElem_of_mem hm
    refine ⟨j₀, by simpa [pops] using hj, by simp [pops], pops_nonneg _ _, ?_⟩
    intro j
    unfold pops
    by_cases hjl : j < (regionKeys spends).length
    · rw [List.getD_eq_getElem _ _ (by simpa using hjl), List.getD_eq_getElem _ _ (by simpa using hjl),
        List.getElem_map, List.getElem_map,
        popOf_without u logs spends _ ((h4 _).1 (List.getElem_mem hjl)).1]
      congr 1
      have : inRegion logs spends (regionKeys spends)[j] u ↔ j = j₀ := by
        constructor
        · intro hin'
          have := inRegion_unique logs spends _ _ u hin' hin
          rw [← hjm] at this
          exact (List.Nodup.getElem_inj_iff h3).1 this
        · rintro rfl
          rw [hjm]; exact hin
      simp only [this]
    · have : j ≠ j₀ := by omega
      rw [List.getD_eq_default _ _ (by simpa using hjl), List.getD_eq_default _ _ (by simpa using hjl),
        if_neg this, add_zero]

/-! ## C92 -/

/-- C92, full claim: the distributions of the response to a Venn diagram request, with and without
the impressions of one user, are as close as the recorded budget says. -/
def C92_full : Prop :=
  ∀ (R S : Type) [Fintype R] [DecidableEq R] (l : Laws R) (u : Int) (logs : List Log)
    (h h' : HaloSimulator S) (_ : HaloBuilt logs h) (_ : HaloBuilt (withoutUser u logs) h')
    (_ : h.dataSet.data = h.publishers.map (·.publisherData))
    (_ : h'.dataSet.data = h'.publishers.map (·.publisherData))
    (_ : ∀ log ∈ logs, ∀ e ∈ log, 0 < e.2) (spends : List ℚ) (_ : spends.length = logs.length)
    (_ : numActive spends ≤ 20) (budget : PrivacyBudget ℚ) (split : ℚ) (st : HaloState)
    (_ : 0 < budget.epsilon) (_ : 0 < split) (_ : split < 1)
    (_ : StepLaw ((budget.epsilon * split : ℚ) : ℝ) l.noise)
    (_ : ∀ n, DpClose ((budget.epsilon * (1 - split) : ℚ) : ℝ) 0
      (cardinalityLaw l n) (cardinalityLaw l (n + 1)))
    (_ : ∀ n, DpClose ((budget.epsilon * (1 - split) : ℚ) : ℝ) 0
      (cardinalityLaw l (n + 1)) (cardinalityLaw l n)),
    DpClose (budget.epsilon : ℝ) (budget.delta : ℝ)
      (vennLaw l h spends budget split st) (vennLaw l h' spends budget split st)

/-- C92 for the reported reaches and the state: up to the probability that a request fails because
no register is active, they are protected by the whole budget.  Missing for the full claim: the
impressions of the reach points and these failures. -/
theorem C92_reaches_partial (l : Laws R) (u : Int) {logs : List Log} {h h' : HaloSimulator S}
    (hb : HaloBuilt logs h) (hb' : HaloBuilt (withoutUser u logs) h')
    (hds : h.dataSet.data = h.publishers.map (·.publisherData))
    (hds' : h'.dataSet.data = h'.publishers.map (·.publisherData))
    (hcost : ∀ log ∈ logs, ∀ e ∈ log, 0 < e.2)
    (spends : List ℚ) (hl : spends.length = logs.length) (hact : numActive spends ≤ 20)
    (budget : PrivacyBudget ℚ) (split : ℚ) (st : HaloState)
    (hε : 0 ≤ budget.epsilon) (hs : 0 ≤ split)
    (hν : StepLaw ((budget.epsilon * split : ℚ) : ℝ) l.noise)
    (hcard : ∀ n, DpClose ((budget.epsilon * (1 - split) : ℚ) : ℝ) 0
      (cardinalityLaw l n) (cardinalityLaw l (n + 1)))
    (hcard' : ∀ n, DpClose ((budget.epsilon * (1 - split) : ℚ) : ℝ) 0
      (cardinalityLaw l (n + 1)) (cardinalityLaw l n)) :
    DpClose (budget.epsilon : ℝ)
      (noActive l (reachedCount (withoutUser u logs) spends) + noActive l (reachedCount logs spends))
      ((vennLaw l h spends budget split st).map seen)
      ((vennLaw l h' spends budget split st).map seen) ∧
    DpClose (budget.epsilon : ℝ)
      (noActive l (reachedCount (withoutUser u logs) spends) + noActive l (reachedCount logs spends))
      ((vennLaw l h' spends budget split st).map seen)
      ((vennLaw l h spends budget split st).map seen) := by
  have hε' : (0 : ℝ) ≤ (budget.epsilon : ℝ) := by exact_mod_cast hε
  have hl' : spends.length = (withoutUser u logs).length := by simp [withoutUser, hl]
  have hcost' : ∀ log ∈ withoutUser u logs, ∀ e ∈ log, 0 < e.2 := by
    intro log hlog e he
    obtain ⟨log', h1, rfl⟩ := List.mem_map.1 hlog
    exact hcost log' h1 e (List.mem_filter.1 he).1
  by_cases hpos : numActive spends = 0
  · rw [request_empty l hb spends hl hpos, request_empty l hb' spends hl' hpos]
    exact ⟨DpClose.refl hε' _, DpClose.refl hε' _⟩
  rw [seen_law l hb hds hcost spends hl hact hpos, seen_law l hb' hds' hcost' spends hl' hact hpos]
  obtain ⟨p1, p2⟩ := pops_without hb u spends hl hact
  obtain ⟨q1, q2⟩ := pops_urn hb spends hl hact
  obtain ⟨q1', q2'⟩ := pops_urn hb' spends hl' hact
  by_cases hu : ∃ i, reachedBy logs spends i u
  · obtain ⟨j₀, hj, ho⟩ := p2 hu
    have hN := ho.urn_length hj
    have := seen_close l spends budget split st (regionKeys spends) ho hj (mul_nonneg hε hs) hν
      (by rw [hN]; exact hcard _) (by rw [hN]; exact hcard' _)
    rw [q2, q2'] at this
    exact ⟨this.2, this.1⟩
  · have hp := p1 hu
    have hn : reachedCount (withoutUser u logs) spends = reachedCount logs spends := by
      rw [← q2, ← q2', hp]
    rw [hp, hn]
    exact ⟨DpClose.refl hε' _, DpClose.refl hε' _⟩

omit [Fintype R] [DecidableEq R] in
/-- The assumption on the cardinality in `C92_reaches_partial` holds when the error of the
estimate does not depend on the cardinality. -/
theorem C92_cardinality (l : Laws R) (err : PMF ℚ) (ε : ℝ)
    (hest : ∀ n, l.estimate n = err.map (fun e => (n : ℚ) + e)) (hν : StepLaw ε l.cardinalityNoise)
    (n : Nat) :
    DpClose ε 0 (cardinalityLaw l n) (cardinalityLaw l (n + 1)) ∧
    DpClose ε 0 (cardinalityLaw l (n + 1)) (cardinalityLaw l n) := by
  have form : ∀ m : Nat, cardinalityLaw l m = err.bind (fun e =>
      (l.cardinalityNoise.map (fun z => (m : ℤ) + z)).map (fun y : ℤ => e + (y : ℚ))) := by
    intro m
    unfold cardinalityLaw
    rw [hest, PMF.bind_map]
    congr 1
    funext e
    rw [PMF.map_comp]
    simp only [Function.comp_def]
    congr 1
    funext y
    push_cast
    ring
  rw [form n, form (n + 1)]
  have d1 : (((n : ℤ) - ((n + 1 : ℕ) : ℤ)).natAbs : ℝ) = 1 := by
    have : ((n : ℤ) - ((n + 1 : ℕ) : ℤ)).natAbs = 1 := by omega
    rw [this]; norm_num
  have d2 : (((((n + 1 : ℕ) : ℤ)) - (n : ℤ)).natAbs : ℝ) = 1 := by
    have : ((((n + 1 : ℕ) : ℤ)) - (n : ℤ)).natAbs = 1 := by omega
    rw [this]; norm_num
  have h1 := hν.shift (n : ℤ) ((n + 1 : ℕ) : ℤ)
  have h2 := hν.shift ((n + 1 : ℕ) : ℤ) (n : ℤ)
  rw [d1, one_mul] at h1
  rw [d2, one_mul] at h2
  constructor
  · have := DpClose.bind le_rfl le_rfl (DpClose.refl (ε := 0) (δ := 0) le_rfl err)
      (fun e => h1.map (fun y : ℤ => e + (y : ℚ)))
    rwa [zero_add, zero_add] at this
  · have := DpClose.bind le_rfl le_rfl (DpClose.refl (ε := 0) (δ := 0) le_rfl err)
      (fun e => h2.map (fun y : ℤ => e + (y : ℚ)))
    rwa [zero_add, zero_add] at this

theorem success_le {O : Type} (p : PMF R) (n : Nat) (ps : List Int) (F : Nat × List Int → PMF O)
    (A : Set O) (hA : ∀ ks : Nat × List Int, ks.1 ≠ 0 → (F ks).support ⊆ A) :
    1 ≤ ((jointLaw p n ps).bind F).toOuterMeasure A
      + (registersLaw p n).toOuterMeasure {a | activeRegs a = 0} := by
  unfold jointLaw
  rw [PMF.bind_bind, PMF.toOuterMeasure_bind_apply, PMF.toOuterMeasure_apply, ← ENNReal.tsum_add,
    ← (registersLaw p n).tsum_coe]
  apply ENNReal.tsum_le_tsum
  intro a
  by_cases ha : activeRegs a = 0
  · rw [Set.indicator_of_mem (by exact ha)]
    exact le_add_self
  · have : (((hyperLaw ps (activeRegs a)).map fun s => (activeRegs a, s)).bind F).toOuterMeasure A
        = 1 := by
      rw [PMF.toOuterMeasure_apply_eq_one_iff, PMF.bind_map]
      intro o ho
      obtain ⟨s, _, hs⟩ := (PMF.mem_support_bind_iff _ _ _).1 ho
      exact hA _ ha hs
    rw [this, mul_one]
    exact le_self_add

omit [Fintype R] [DecidableEq R] in
theorem resultLaw_support (l : Laws R) (h : HaloSimulator S) (spends : List ℚ)
    (budget : PrivacyBudget ℚ) (split : ℚ) (st : HaloState) (keys : List Nat) (n : Nat)
    (ks : Nat × List Int) (hk : ks.1 ≠ 0) (out : Except PyErr (List ReachPoint) × HaloState)
    (ho : out ∈ (resultLaw l h spends budget split st keys n ks).support) :
    ∃ table, out.1 = h.generateReachPoints spends table := by
  unfold resultLaw at ho
  rw [if_neg hk] at ho
  obtain ⟨t, _, ho⟩ := (PMF.mem_support_bind_iff _ _ _).1 ho
  obtain ⟨c, _, rfl⟩ := (PMF.mem_support_map_iff _ _ _).1 ho
  exact ⟨_, rfl⟩

theorem forall₂_left_mem {A B : Type} {r : A → B → Prop} {a : List A} {b : List B}
    (h : List.Forall₂ r a b) {x : A} (hx : x ∈ a) : ∃ y ∈ b, r x y := by
  induction h with
  | nil => simp at hx
  | cons h1 _ ih =>
    rcases List.mem_cons.1 hx with rfl | hx
    · exact ⟨_, List.mem_cons_self, h1⟩
    · obtain ⟨y, hy, hr⟩ := ih hx
      exact ⟨y, List.mem_cons_of_mem _ hy, hr⟩

theorem forall₂_right_mem {A B : Type} {r : A → B → Prop} {a : List A} {b : List B}
    (h : List.Forall₂ r a b) {y : B} (hy : y ∈ b) : ∃ x ∈ a, r x y :=
  forall₂_left_mem h.flip hy

theorem affordable_without (u : Int) (log : Log) (s : ℚ) :
    affordable log s = affordable (log.filter (fun e => e.1 ≠ u)) s + exposuresAtSpend log s u := by
  unfold affordable exposuresAtSpend
  induction log with
  | nil => rfl
  | cons e log ih =>
    by_cases h1 : e.1 = u <;> by_cases h2 : e.2 ≤ s <;>
      simp [h1, h2] at ih ⊢ <;> omega

/-- C92: the response as a whole is not protected: the reach points state the exact numbers of
impressions, so a response that arrives tells whether any reached user's impressions are there.
Closeness needs a `δ` of one, less the probability that the request fails. -/
theorem C92_impressions_reveal (l : Laws R) (u : Int) {logs : List Log} {h h' : HaloSimulator S}
    (hb : HaloBuilt logs h) (hb' : HaloBuilt (withoutUser u logs) h')
    (hds : h.dataSet.data = h.publishers.map (·.publisherData))
    (hds' : h'.dataSet.data = h'.publishers.map (·.publisherData))
    (hcost : ∀ log ∈ logs, ∀ e ∈ log, 0 < e.2)
    (hsort : ∀ log ∈ logs, log.Pairwise (fun a b => a.2 ≤ b.2))
    (spends : List ℚ) (hl : spends.length = logs.length) (hact : numActive spends ≤ 20)
    (budget : PrivacyBudget ℚ) (split : ℚ) (st : HaloState)
    (hu : ∃ i, reachedBy logs spends i u) (ε δ : ℝ) (hδ : 0 ≤ δ)
    (hclose : DpClose ε δ (vennLaw l h spends budget split st) (vennLaw l h' spends budget split st)) :
    1 ≤ δ + noActive l (reachedCount logs spends) := by
  have hl' : spends.length = (withoutUser u logs).length := by simp [withoutUser, hl]
  have hcost' : ∀ log ∈ withoutUser u logs, ∀ e ∈ log, 0 < e.2 := by
    intro log hlog e he
    obtain ⟨log', h1, rfl⟩ := List.mem_map.1 hlog
    exact hcost log' h1 e (List.mem_filter.1 he).1
  obtain ⟨i, log, s, hi1, hi2, hi3, hi4⟩ := hu
  have hpos : numActive spends ≠ 0 := by
    unfold numActive
    intro h0
    rw [List.countP_eq_zero] at h0
    exact h0 s (List.mem_of_getElem? hi2) (by simpa using hi3)
  have hil : i < spends.length := (List.getElem?_eq_some_iff.1 hi2).1
  -- the exact numbers of impressions of publisher `i`
  have himp : ∀ (logs : List Log) (h : HaloSimulator S), HaloBuilt logs h →
      h.dataSet.data = h.publishers.map (·.publisherData) → spends.length = logs.length →
      (∀ log ∈ logs, log.Pairwise (fun a b => a.2 ≤ b.2)) → ∀ log, logs[i]? = some log →
      ∀ imps, h.dataSet.impressionsBySpend spends = .ok imps →
      imps[i]? = some (affordable log s) := by
    intro logs h hb hds hl hsort log hlog imps himps
    have hb2 : List.Forall₂ Built logs h.dataSet.data := by rw [hds]; exact hb
    rw [impressionsBySpend_ok _ _ (by rw [← hb2.length_eq, hl])] at himps
    rw [← Except.ok.inj himps]
    have hi' : i < h.dataSet.data.length := by rw [← hb2.length_eq]; omega
    have hi'' : i < logs.length := by omega
    have hbi := List.forall₂_iff_get.1 hb2
    obtain ⟨nm, rnd, hn⟩ := hbi.2 i hi'' hi'
    have hlg : logs.get ⟨i, hi''⟩ = log := by
      rw [List.getElem?_eq_getElem hi''] at hlog
      exact Option.some.inj hlog
    rw [hlg] at hn
    have hs' : spends[i] = s := by
      rw [List.getElem?_eq_getElem hil] at hi2
      exact Option.some.inj hi2
    rw [List.getElem?_map, List.getElem?_zip_eq_some (z := (h.dataSet.data[i], s)) |>.2
      ⟨List.getElem?_eq_getElem hi', hi2⟩]
    simp only [Option.map_some, Option.some.injEq]
    exact C01_impressions_by_spend_partial log nm rnd _ s hn (hsort log (List.mem_of_getElem? hlog))
  have hsort' : ∀ log ∈ withoutUser u logs, log.Pairwise (fun a b => a.2 ≤ b.2) := by
    intro log hlog
    obtain ⟨log', h1, rfl⟩ := List.mem_map.1 hlog
    exact (hsort log' h1).filter _
  have hi1' : (withoutUser u logs)[i]? = some (log.filter (fun e => e.1 ≠ u)) := by
    unfold withoutUser
    rw [List.getElem?_map, hi1]
    rfl
  have haff := affordable_without u log s
  have hlen : h.dataSet.data.length = spends.length := by
    rw [hds, hl]; exact (List.Forall₂.length_eq hb).symm
  have hlen' : h'.dataSet.data.length = spends.length := by
    rw [hds', hl']; exact (List.Forall₂.length_eq hb').symm
  -- some reach point states the number of impressions with the user
  set A : Set (Except PyErr (List ReachPoint) × HaloState) :=
    {out | ∃ pts, out.1 = .ok pts ∧ ∃ pt ∈ pts, pt.impressions[i]? = some (affordable log s : ℚ)} with hA
  have hrestrict : ∀ (t : Finset Nat) (l : List ℚ), (restrictTo t l)[i]?
      = l[i]?.map (fun x => if i ∈ t then x else 0) := by
    intro t l
    unfold restrictTo
    rw [List.getElem?_map, List.getElem?_zipIdx]
    cases l[i]? <;> simp
  have hwith : ∀ ks : Nat × List Int, ks.1 ≠ 0 → (resultLaw l h spends budget split st
      (regionKeys spends) (reachedCount logs spends) ks).support ⊆ A := by
    intro ks hk out ho
    obtain ⟨table, ht⟩ := resultLaw_support l h spends budget split st _ _ ks hk out ho
    obtain ⟨pts, sets, imps, g1, g2, _, g4, g5⟩ := C23_reach_points h spends table hlen
    refine ⟨pts, by rw [ht, g1], ?_⟩
    have hmem : ({i} : Finset Nat) ∈ sets := by
      rw [g4]
      refine ⟨Finset.singleton_nonempty i, fun j hj => ?_⟩
      rw [Finset.mem_singleton.1 hj]
      exact ⟨s, hi2, hi3⟩
    obtain ⟨pt, hpt, hprop⟩ := forall₂_left_mem g5 hmem
    refine ⟨pt, hpt, ?_⟩
    rw [hprop.2.1, hrestrict, List.getElem?_map, himp logs h hb hds hl hsort log hi1 imps g2]
    simp
  have hwithout : ((vennLaw l h' spends budget split st)).toOuterMeasure A = 0 := by
    rw [request_law l hb' hds' hcost' spends hl' hact hpos, PMF.toOuterMeasure_apply_eq_zero_iff,
      Set.disjoint_left]
    rintro out ho ⟨pts, hpts, pt, hpt, hx⟩
    obtain ⟨ks, _, ho⟩ := (PMF.mem_support_bind_iff _ _ _).1 ho
    by_cases hk : ks.1 = 0
    · unfold resultLaw at ho
      rw [if_pos hk, PMF.mem_support_pure_iff] at ho
      rw [ho] at hpts
      exact absurd hpts (by simp)
    · obtain ⟨table, ht⟩ := resultLaw_support l h' spends budget split st _ _ ks hk out ho
      obtain ⟨pts', sets, imps, g1, g2, _, _, g5⟩ := C23_reach_points h' spends table hlen'
      rw [ht, g1] at hpts
      rw [← Except.ok.inj hpts] at hpt
      obtain ⟨t, _, hprop⟩ := forall₂_right_mem g5 hpt
      rw [hprop.2.1, hrestrict, List.getElem?_map,
        himp _ h' hb' hds' hl' hsort' _ hi1' imps g2] at hx
      simp only [Option.map_some, Option.some.injEq] at hx
      split at hx
      · have : affordable (log.filter (fun e => e.1 ≠ u)) s = affordable log s := by exact_mod_cast hx
        omega
      · have : affordable log s = 0 := by exact_mod_cast hx.symm
        omega
  have h1 := success_le l.register (reachedCount logs spends) (pops logs spends) _ A hwith
  rw [← request_law l hb hds hcost spends hl hact hpos budget split st] at h1
  have h2 := hclose A
  rw [hwithout, mul_zero, zero_add] at h2
  have h3 := h1.trans (add_le_add_left h2 _)
  have hne : (registersLaw l.register (reachedCount logs spends)).toOuterMeasure
      {a | activeRegs a = 0} ≠ ⊤ := ne_top_of_le_ne_top ENNReal.one_ne_top (outer_le_one _ _)
  unfold noActive
  rw [← ENNReal.ofReal_toReal hne, ← ENNReal.ofReal_add hδ ENNReal.toReal_nonneg,
    ENNReal.one_le_ofReal] at h3
  exact h3

theorem noActive_one (l : Laws R) : noActive l 1 = 0 := by
  unfold noActive
  have : {a : Fin 1 → R | activeRegs a = 0} = ∅ := by
    ext a
    simp only [Set.mem_ofPred_eq, Set.mem_empty_iff_false, iff_false, ← card_single]
    have : (0 : Fin 1) ∈ single a := (mem_single a 0).2 (fun j _ => Subsingleton.elim _ _)
    exact Finset.card_ne_zero_of_mem this
  rw [this]
  simp

theorem activeRegs_zero (a : Fin 0 → R) : activeRegs a = 0 := by
  rw [← card_single, Finset.card_eq_zero]
  exact Finset.eq_empty_of_isEmpty _

/-- C92: when `u` is the only user reached, even the reaches alone are not protected by any budget:
the request succeeds with `u` and raises without. -/
theorem C92_failure_reveals (l : Laws R) (u : Int) {logs : List Log} {h h' : HaloSimulator S}
    (hb : HaloBuilt logs h) (hb' : HaloBuilt (withoutUser u logs) h')
    (hds : h.dataSet.data = h.publishers.map (·.publisherData))
    (hds' : h'.dataSet.data = h'.publishers.map (·.publisherData))
    (hcost : ∀ log ∈ logs, ∀ e ∈ log, 0 < e.2)
    (spends : List ℚ) (hl : spends.length = logs.length) (hact : numActive spends ≤ 20)
    (budget : PrivacyBudget ℚ) (split : ℚ) (st : HaloState)
    (hu : ∃ i, reachedBy logs spends i u) (honly : reachedCount (withoutUser u logs) spends = 0)
    (ε δ : ℝ) (hclose : DpClose ε δ ((vennLaw l h spends budget split st).map seen)
      ((vennLaw l h' spends budget split st).map seen)) :
    1 ≤ δ := by
  have hl' : spends.length = (withoutUser u logs).length := by simp [withoutUser, hl]
  have hcost' : ∀ log ∈ withoutUser u logs, ∀ e ∈ log, 0 < e.2 := by
    intro log hlog e he
    obtain ⟨log', h1, rfl⟩ := List.mem_map.1 hlog
    exact hcost log' h1 e (List.mem_filter.1 he).1
  obtain ⟨j₀, hj, ho⟩ := (pops_without hb u spends hl hact).2 hu
  have hone : reachedCount logs spends = 1 := by
    have := ho.urn_length hj
    rw [(pops_urn hb spends hl hact).2, (pops_urn hb' spends hl' hact).2, honly] at this
    exact this
  have hpos : numActive spends ≠ 0 := by
    obtain ⟨i, log, s, hi1, hi2, hi3, hi4⟩ := hu
    unfold numActive
    intro h0
    rw [List.countP_eq_zero] at h0
    exact h0 s (List.mem_of_getElem? hi2) (by simpa using hi3)
  set A : Set (Except PyErr (List (List ℚ)) × HaloState) := {out | ∃ rs, out.1 = .ok rs} with hA
  have h1 := success_le l.register (reachedCount logs spends) (pops logs spends)
    (seenLaw l spends budget split st (regionKeys spends) (reachedCount logs spends)) A (by
      intro ks hk out ho
      unfold seenLaw at ho
      rw [if_neg hk] at ho
      obtain ⟨t, _, ho⟩ := (PMF.mem_support_bind_iff _ _ _).1 ho
      obtain ⟨c, _, rfl⟩ := (PMF.mem_support_map_iff _ _ _).1 ho
      exact ⟨_, rfl⟩)
  rw [← seen_law l hb hds hcost spends hl hact hpos budget split st] at h1
  have h0 : ((vennLaw l h' spends budget split st).map seen).toOuterMeasure A = 0 := by
    rw [seen_law l hb' hds' hcost' spends hl' hact hpos, PMF.toOuterMeasure_apply_eq_zero_iff,
      Set.disjoint_left]
    rintro out ho ⟨rs, hrs⟩
    obtain ⟨ks, hks, ho⟩ := (PMF.mem_support_bind_iff _ _ _).1 ho
    have hk : ks.1 = 0 := by
      unfold jointLaw at hks
      rw [honly] at hks
      obtain ⟨a, _, hks⟩ := (PMF.mem_support_bind_iff _ _ _).1 hks
      obtain ⟨c, _, rfl⟩ := (PMF.mem_support_map_iff _ _ _).1 hks
      exact activeRegs_zero a
    unfold seenLaw at ho
    rw [if_pos hk, PMF.mem_support_pure_iff] at ho
    rw [ho] at hrs
    exact absurd hrs (by simp)
  have h2 := hclose A
  rw [h0, mul_zero, zero_add] at h2
  have h3 : (registersLaw l.register (reachedCount logs spends)).toOuterMeasure
      {a | activeRegs a = 0} = 0 := by
    have hn := noActive_one l
    rw [hone]
    unfold noActive at hn
    rcases (ENNReal.toReal_eq_zero_iff _).1 hn with h | h
    · exact h
    · exact absurd h (ne_top_of_le_ne_top ENNReal.one_ne_top (outer_le_one _ _))
  rw [h3, add_zero] at h1
  exact ENNReal.one_le_ofReal.1 (h1.trans h2)

/-! ### Concrete requests -/

/-- Four equally likely registers, discrete Laplace noise and exact estimates. -/
noncomputable def exLaws : Laws (Fin 4) where
  register := PMF.uniformOfFintype (Fin 4)
  noise := discreteLaplace (1 / 2) (by norm_num)
  estimate := fun n => PMF.pure (n : ℚ)
  cardinalityNoise := discreteLaplace (1 / 2) (by norm_num)

theorem exLaws_cardinality (n : Nat) :
    DpClose (1 / 2) 0 (cardinalityLaw exLaws n) (cardinalityLaw exLaws (n + 1)) ∧
    DpClose (1 / 2) 0 (cardinalityLaw exLaws (n + 1)) (cardinalityLaw exLaws n) :=
  C92_cardinality exLaws (PMF.pure 0) (1 / 2)
    (fun n => by rw [PMF.pure_map]; simp [exLaws]) (discreteLaplace_step (by norm_num)) n

theorem exLaws_noise : StepLaw (1 / 2) exLaws.noise := discreteLaplace_step (by norm_num)

/-- `exLogs` without user 7. -/
def exWithoutPubs : List PublisherData :=
  [ { data := [(8, 2), (9, 5)], spends := [5, 2], maxSpend := 5, maxReach := 2, name := "a" },
    { data := [(3, 1)], spends := [1], maxSpend := 1, maxReach := 1, name := "b" } ]

def exWithoutHalo : HaloSimulator (List Int) :=
  { exHalo exLib with
    dataSet := { data := exWithoutPubs, maximumReach := 3, name := "ex", universeSize := 8 }
    publishers := [⟨exWithoutPubs[0], 2⟩, ⟨exWithoutPubs[1], 1⟩] }

theorem exWithoutBuilt : HaloBuilt (withoutUser 7 exLogs) exWithoutHalo := by
  refine List.Forall₂.cons ⟨"a", "", by decide +kernel⟩
    (List.Forall₂.cons ⟨"b", "", by decide +kernel⟩ List.Forall₂.nil)

example : DpClose (((1 : ℚ)) : ℝ)
    (noActive exLaws (reachedCount (withoutUser 7 exLogs) [2, 1])
      + noActive exLaws (reachedCount exLogs [2, 1]))
    ((vennLaw exLaws (exHalo exLib) [2, 1] ⟨1, 0⟩ (1 / 2) exState).map seen)
    ((vennLaw exLaws exWithoutHalo [2, 1] ⟨1, 0⟩ (1 / 2) exState).map seen) :=
  (C92_reaches_partial exLaws 7 exHaloBuilt exWithoutBuilt (by decide +kernel) (by decide +kernel)
    (by decide +kernel) [2, 1] rfl (by decide +kernel) ⟨1, 0⟩ (1 / 2) exState (by norm_num)
    (by norm_num) (by norm_num; simpa using exLaws_noise)
    (fun n => by norm_num; exact (exLaws_cardinality n).1)
    (fun n => by norm_num; exact (exLaws_cardinality n).2)).1

/-- One publisher, with one affordable impression for user 1 and an unaffordable one for user 2. -/
def exTwoLogs : List Log := [[(1, 1), (2, 5)]]

def exTwoPub : PublisherData :=
  { data := [(1, 1), (2, 5)], spends := [1, 5], maxSpend := 5, maxReach := 2, name := "a" }

def exOnePub : PublisherData :=
  { data := [(2, 5)], spends := [5], maxSpend := 5, maxReach := 1, name := "a" }

def exTwoHalo : HaloSimulator (List Int) :=
  { exHalo exLib with
    dataSet := { data := [exTwoPub], maximumReach := 2, name := "ex", universeSize := 8 }
    publishers := [⟨exTwoPub, 5⟩] }

def exOneHalo : HaloSimulator (List Int) :=
  { exHalo exLib with
    dataSet := { data := [exOnePub], maximumReach := 1, name := "ex", universeSize := 8 }
    publishers := [⟨exOnePub, 5⟩] }

theorem exTwoBuilt : HaloBuilt exTwoLogs exTwoHalo :=
  List.Forall₂.cons ⟨"a", "", by decide +kernel⟩ List.Forall₂.nil

theorem exOneBuilt : HaloBuilt (withoutUser 1 exTwoLogs) exOneHalo :=
  List.Forall₂.cons ⟨"a", "", by decide +kernel⟩ List.Forall₂.nil

theorem exTwo_reached : ∃ i, reachedBy exTwoLogs [2] i 1 :=
  ⟨0, [(1, 1), (2, 5)], 2, rfl, rfl, by norm_num, by decide +kernel⟩

theorem exOne_count : reachedCount (withoutUser 1 exTwoLogs) [2] = 0 := by
  unfold reachedCount
  have : {u | ∃ i, reachedBy (withoutUser 1 exTwoLogs) [2] i u} = ∅ := by
    ext u
    simp only [Set.mem_ofPred_eq, Set.mem_empty_iff_false, iff_false]
    rintro ⟨i, log, s, h1, h2, _, h4⟩
    match i with
    | 0 =>
      have e1 : log = [(2, 5)] := by
        have : (withoutUser 1 exTwoLogs)[0]? = some [(2, 5)] := by decide +kernel
        rw [this] at h1
        exact (Option.some.inj h1).symm
      have e2 : s = 2 := by simpa using h2.symm
      rw [e1, e2] at h4
      simp [exposuresAtSpend] at h4
      norm_num at h4
    | i + 1 => simp at h2
  rw [this]
  simp

/-- C92 is false of the code. -/
theorem C92_full_is_false : ¬ C92_full := by
  intro hfull
  have h1 := hfull (Fin 4) (List Int) exLaws 1 exTwoLogs exTwoHalo exOneHalo exTwoBuilt exOneBuilt
    (by decide +kernel) (by decide +kernel) (by decide +kernel) [2] rfl (by decide +kernel) ⟨1, 0⟩
    (1 / 2) exState (by norm_num) (by norm_num) (by norm_num)
    (by norm_num; simpa using exLaws_noise)
    (fun n => by norm_num; exact (exLaws_cardinality n).1)
    (fun n => by norm_num; exact (exLaws_cardinality n).2)
  have := C92_failure_reveals exLaws 1 exTwoBuilt exOneBuilt (by decide +kernel) (by decide +kernel)
    (by decide +kernel) [2] rfl (by decide +kernel) ⟨1, 0⟩ (1 / 2) exState exTwo_reached exOne_count
    _ _ (h1.map seen)
  norm_num at this

/-- The hypotheses of `C92_impressions_reveal` hold for the same request. -/
example : HaloBuilt exTwoLogs exTwoHalo ∧ HaloBuilt (withoutUser 1 exTwoLogs) exOneHalo ∧
    (∀ log ∈ exTwoLogs, log.Pairwise (fun a b => a.2 ≤ b.2)) ∧
    (∃ i, reachedBy exTwoLogs [2] i 1) :=
  ⟨exTwoBuilt, exOneBuilt, by decide +kernel, exTwo_reached⟩

end

end Verif
