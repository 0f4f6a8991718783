import Verif.Props.Venn
import Verif.Model.ReachCurve

/-!
# C65, C66: universe sizes; what a request measures without noise
-/

namespace Verif

open Verif.Spec

variable {S : Type}

/-! ## C65 -/

/-- C65: without an explicit universe size, a data set reports twice its number of distinct users,
so every reach is at most half the reported universe; an explicit size is reported unchanged. -/
theorem C65_universe_size (pubs : List PublisherData) (nm : String) (us : Option Int)
    (ds : DataSet) (hds : DataSet.new pubs nm us = .ok ds) (logs : List Log)
    (hb : List.Forall₂ Built logs ds.data) (v : List Nat) (hv : v.length = logs.length)
    (F : Nat) (hF : 1 ≤ F) :
    ∃ r, ds.reachByImpressions (v.map (fun n : Nat => (n : Int))) F = .ok r ∧
      (∀ u, us = some u → r.universeSize = .ok (u : ℚ)) ∧
      (us = none → r.universeSize = .ok (2 * ((allUsers logs).ncard : ℚ)) ∧
        ∃ h : List ℚ, r.zeroIncludedHistogram = .ok h ∧ h.sum = 2 * ((allUsers logs).ncard : ℚ) ∧
          ∀ x ∈ h, 0 ≤ x) := by
  obtain ⟨hmax, r0, hr0, hmono⟩ := C09_bounded_and_decreasing pubs nm us ds hds logs hb v hv F hF
  obtain ⟨r, h1, _, hF', h3, hu, _⟩ := C07_reach_by_impressions ds logs hb v hv F hF
  obtain rfl : r0 = r := by rw [hr0] at h1; exact Except.ok.inj h1
  have huniv : ds.universeSize = us.getD (2 * (ds.maximumReach : Int)) := by
    clear hb hr0 hmono h1 h3 hu hmax
    unfold DataSet.new at hds
    split at hds
    · simp at hds
    simp only [Except.ok.injEq] at hds
    rw [← hds]
    cases us <;> rfl
  refine ⟨r0, hr0, ?_, ?_⟩
  · rintro u rfl
    simp only [Option.getD_some] at huniv
    simp only [ReachPoint.universeSize, hu, huniv]
  · rintro rfl
    simp only [Option.getD_none] at huniv
    have hu2 : (ds.universeSize : ℚ) = 2 * ((allUsers logs).ncard : ℚ) := by
      rw [huniv, hmax]; push_cast; ring
    have hus : r0.universeSize = .ok (2 * ((allUsers logs).ncard : ℚ)) := by
      simp only [ReachPoint.universeSize, hu, hu2]
    refine ⟨hus, ?_⟩
    -- the point is one the constructor made
    obtain ⟨im, kp, sp, hnew⟩ : ∃ im kp sp,
        ReachPoint.new im kp sp (some (2 * ((allUsers logs).ncard : ℚ))) = .ok r0 := by
      unfold DataSet.reachByImpressions at hr0
      split at hr0
      · cases hr0
      · simp only [bind, Except.bind] at hr0
        split at hr0
        · cases hr0
        · rename_i cs _
          split at hr0
          · cases hr0
          · rename_i k _
            rw [hu2] at hr0
            exact ⟨_, _, _, hr0⟩
    have hkp : r0.kplusReaches = kp ∧ r0.frequencies = ReachPoint.successiveDifferences kp ∧
        r0.universeSize? = some (2 * ((allUsers logs).ncard : ℚ)) := by
      unfold ReachPoint.new at hnew
      split at hnew
      · cases hnew
      · rw [← Except.ok.inj hnew]; exact ⟨rfl, rfl, rfl⟩
    obtain ⟨hk1, hk2, hk3⟩ := hkp
    have hlen : kp.length = F := by
      rw [← hk1]; exact hF'
    have hel : ∀ i (hi : i < kp.length), r0.reach ((i + 1 : Nat) : Int) = .ok kp[i] := by
      intro i hi
      unfold ReachPoint.reach
      rw [hk1, if_pos ⟨by omega, by omega⟩]
      have : (((i + 1 : Nat) : Int) - 1) = (i : Int) := by omega
      rw [this, pyIndex_nat _ _ hi]
    have hdec : kp.Pairwise (fun a b => b ≤ a) := by
      rw [List.pairwise_iff_getElem]
      intro i j hi hj hij
      obtain ⟨x, x', e1, e2, hle, _⟩ := hmono (i + 1) (j + 1) (by omega) (by omega) (by omega)
      rw [hel i hi] at e1
      rw [hel j hj] at e2
      rw [Except.ok.inj e1, Except.ok.inj e2]
      exact hle
    have hnn : ∀ x ∈ kp, 0 ≤ x := by
      intro x hx
      obtain ⟨i, hi, rfl⟩ := List.getElem_of_mem hx
      obtain ⟨x, x', e1, e2, _, _, hle⟩ := hmono (i + 1) (i + 1) (by omega) (by omega) (by omega)
      rw [hel i hi] at e2
      rw [Except.ok.inj e2]
      exact hle
    have h0 : 0 < kp.length := by omega
    obtain ⟨hist, hh, _, hs, _⟩ := (C15_zero_included_histogram _ _ _ _ r0 hnew (by
      intro h; rw [h] at h0; simp at h0)).2 _ rfl
    refine ⟨hist, hh, hs, ?_⟩
    unfold ReachPoint.zeroIncludedHistogram at hh
    rw [hk3] at hh
    simp only [bind, Except.bind, hus] at hh
    have e1 := hel 0 h0
    simp only [Nat.zero_add, Nat.cast_one] at e1
    rw [e1] at hh
    simp only [ReachPoint.frequenciesWithKplusBucket, bind, Except.bind] at hh
    rw [hk1, hk2] at hh
    cases hlast : pyIndex kp (-1) with
    | error e => rw [hlast] at hh; cases hh
    | ok last =>
      rw [hlast] at hh
      simp only [pure, Except.pure, Except.ok.injEq] at hh
      have hlm : last ∈ kp := by
        unfold pyIndex at hlast
        simp only at hlast
        simp only [show ((-1 : Int) < 0) from by norm_num, if_true] at hlast
        rw [if_neg (by omega)] at hlast
        split at hlast
        · rename_i hx
          cases hlast
          exact List.mem_of_getElem? hx
        · cases hlast
      subst hh
      intro x hx
      simp only [List.mem_cons, List.mem_append, List.not_mem_nil, or_false] at hx
      rcases hx with rfl | hx | rfl
      · obtain ⟨x, x', e1', e2, _, hle, _⟩ := hmono 1 1 le_rfl le_rfl hF
        simp only [Nat.cast_one] at e1'
        rw [e1] at e1'
        rw [Except.ok.inj e1']
        have : (ds.maximumReach : ℚ) = ((allUsers logs).ncard : ℚ) := by rw [hmax]
        have h2 : (0 : ℚ) ≤ ((allUsers logs).ncard : ℚ) := by positivity
        linarith
      · obtain ⟨i, hi, rfl⟩ := List.getElem_of_mem hx
        simp only [ReachPoint.successiveDifferences, List.length_zipWith, List.length_tail] at hi
        simp only [ReachPoint.successiveDifferences, List.getElem_zipWith, List.getElem_tail]
        have := List.pairwise_iff_getElem.1 hdec i (i + 1) (by omega) (by omega) (by omega)
        linarith
      · exact hnn _ hlm

example : (exDataSet.reachByImpressions [2, 1] 2).toOption.bind
    (fun r => r.zeroIncludedHistogram.toOption) = some [6, 1, 1] ∧
    (DataSet.new exPubs "ex").toOption = some exDataSet := by decide +kernel

/-! ## C66 -/

/-- A sketch library without noise: `content s u` is how often `u` was added. -/
structure ExactLib (lib : SketchLib S) (content : S → Int → Nat) : Prop where
  empty : ∀ u, content lib.empty u = 0
  addIds : ∀ s ids u, content (lib.addIds s ids) u = content s u + ids.count u
  merge : ∀ s t u, content (lib.merge s t) u = content s u + content t u
  estimate : ∀ d d' (F : Nat) b b' s, lib.estimate d d' F b b' s
    = (List.range F).map (fun k => (kPlusReach (content s) (k + 1) : ℚ))

/-- C66 (a): the constructor gives every publisher its fraction of its own maximum spend. -/
theorem C66_campaign_spends (ds : DataSet) (fractions : List ℚ) (lib : SketchLib S)
    (rand : RandomLib) (h : HaloSimulator S) (hh : HaloSimulator.new ds fractions lib rand = .ok h) :
    h.dataSet = ds ∧ h.lib = lib ∧ h.publishers.map (·.publisherData) = ds.data ∧
    ds.data.length ≤ fractions.length ∧
    h.campaignSpends = (ds.data.zip fractions).map (fun pf => pf.2 * pf.1.maxSpend) ∧
    h.maxSpends = ds.data.map (·.maxSpend) := by
  unfold HaloSimulator.new at hh
  simp only [bind, Except.bind] at hh
  split at hh
  · cases hh
  rename_i pubs hp
  simp only [pure, Except.pure, Except.ok.injEq] at hh
  subst hh
  rw [mapM_ok_iff] at hp
  obtain ⟨hl, he⟩ := forall₂_zipIdx hp
  have hel : ∀ i (hi : i < ds.data.length) (hi' : i < pubs.length), ∃ hf : i < fractions.length,
      pubs[i] = ⟨ds.data[i], fractions[i] * ds.data[i].maxSpend⟩ := by
    intro i hi hi'
    have := he i hi hi'
    simp only [Publisher.new, bind, Except.bind] at this
    cases hf : pyIndex fractions (i : Int) with
    | error e => rw [hf] at this; cases this
    | ok f =>
      rw [hf] at this
      simp only [pure, Except.pure, Except.ok.injEq] at this
      rw [pyIndex_ok_iff] at hf
      obtain ⟨hlt, rfl⟩ := List.getElem?_eq_some_iff.1 hf
      exact ⟨hlt, this.symm⟩
  have hlf : ds.data.length ≤ fractions.length := by
    by_contra hcon
    obtain ⟨hf, _⟩ := hel fractions.length (by omega) (by omega)
    omega
  refine ⟨rfl, rfl, ?_, hlf, ?_, ?_⟩
  · apply List.ext_getElem (by simp [hl])
    intro i h1 h2
    obtain ⟨_, e⟩ := hel i (by simpa using h2) (by simpa using h1)
    simp [e]
  · unfold HaloSimulator.campaignSpends
    apply List.ext_getElem (by simp [hl, hlf])
    intro i h1 h2
    obtain ⟨_, e⟩ := hel i (by simp at h1; omega) (by simpa using h1)
    simp [e]
  · unfold HaloSimulator.maxSpends
    apply List.ext_getElem (by simp [hl])
    intro i h1 h2
    obtain ⟨_, e⟩ := hel i (by simp at h1; omega) (by simpa using h1)
    simp [e, Publisher.maxSpend]

theorem ExactLib.foldl_addIds {lib : SketchLib S} {content : S → Int → Nat}
    (hx : ExactLib lib content) (groups : List (List Int)) (s : S) (u : Int) :
    content (groups.foldl lib.addIds s) u = content s u + groups.flatten.count u := by
  induction groups generalizing s with
  | nil => simp
  | cons g gs ih =>
    rw [List.foldl_cons, ih, hx.addIds, List.flatten_cons, List.count_append]
    omega

/-- C66 (b): the merged sketch contains, for every user, exactly the impressions affordable at the
requested spends, each capped at the publisher's campaign spend. -/
theorem C66_combined_content (h : HaloSimulator S) (content : S → Int → Nat)
    (hx : ExactLib h.lib content) (logs : List Log)
    (hb : List.Forall₂ (fun log (p : Publisher) => Built log p.publisherData) logs h.publishers)
    (spends : List ℚ) (hs : spends.length = logs.length) (hne : spends ≠ []) :
    ∃ sk, h.combinedSketch spends = .ok sk ∧
      ∀ u, content sk u = totalAtSpend logs (List.zipWith min spends h.campaignSpends) u := by
  have hlen := hb.length_eq
  have hone : ∀ (p : Publisher) (log : Log), Built log p.publisherData → ∀ s u,
      content (p.liquidLegionsSketch h.lib s) u = exposuresAtSpend log (min s p.campaignSpend) u := by
    intro p log hp s u
    obtain ⟨g, h1, h2, _⟩ := C55_sketch_contents h.lib p log hp s
    rw [h1, hx.foldl_addIds, hx.empty, h2, Nat.zero_add]
  unfold HaloSimulator.combinedSketch HaloSimulator.campaignSpends
  generalize hpubs : h.publishers = pubs at hb hlen
  cases hb with
  | nil => simp only [List.length_nil] at hs; exact absurd (List.length_eq_zero_iff.1 hs) hne
  | @cons log p logs pubs' hp hps =>
    cases spends with
    | nil => exact absurd rfl hne
    | cons s spends =>
      simp only [bind, Except.bind]
      have e1 := pyIndex_nat (p :: pubs') 0 (by simp)
      have e2 := pyIndex_nat (s :: spends) 0 (by simp)
      simp only [Nat.cast_zero, List.getElem_cons_zero] at e1 e2
      rw [e1, e2]
      simp only
      rw [List.zipIdx_cons, List.drop_one, List.tail_cons]
      have key : ∀ (pre : List Publisher) (logs : List Log) (rest : List Publisher) (spends : List ℚ)
          (acc : S), List.Forall₂ (fun log (p : Publisher) => Built log p.publisherData) logs rest →
          spends.length = logs.length →
          ∃ sk, (spends.zipIdx pre.length).foldlM (fun acc si =>
              match pyIndex (pre ++ rest) ((si.2 : Nat) : Int) with
              | .error e => Except.error e
              | .ok p => (pure (h.lib.merge acc (p.liquidLegionsSketch h.lib si.1)) : Except PyErr S)) acc
              = .ok sk ∧
            ∀ u, content sk u = content acc u
              + totalAtSpend logs (List.zipWith min spends (rest.map (·.campaignSpend))) u := by
        intro pre logs rest spends acc hf hsl
        induction hf generalizing pre spends acc with
        | nil =>
          cases spends with
          | nil => exact ⟨acc, rfl, fun u => by simp [totalAtSpend]⟩
          | cons _ _ => simp at hsl
        | @cons log p logs rest hp _ ih =>
          cases spends with
          | nil => simp at hsl
          | cons s spends =>
            rw [List.zipIdx_cons, List.foldlM_cons]
            have e := pyIndex_nat (pre ++ p :: rest) pre.length (by simp)
            rw [List.getElem_append_right (le_refl _)] at e
            simp only [Nat.sub_self, List.getElem_cons_zero] at e
            simp only [e]
            obtain ⟨sk, h1, h2⟩ := ih (pre ++ [p]) spends
              (h.lib.merge acc (p.liquidLegionsSketch h.lib s)) (by simpa using hsl)
            simp only [List.length_append, List.length_cons, List.length_nil, List.append_assoc,
              List.cons_append, List.nil_append, Nat.zero_add] at h1
            refine ⟨sk, h1, ?_⟩
            intro u
            rw [h2, hx.merge, hone p log hp]
            simp only [totalAtSpend, List.map_cons, List.zipWith_cons_cons, List.zip_cons_cons,
              List.sum_cons]
            omega
      obtain ⟨sk, h1, h2⟩ := key [p] logs pubs' spends (p.liquidLegionsSketch h.lib s) hps
        (by simpa using hs)
      refine ⟨sk, ?_, ?_⟩
      · simp only [List.length_singleton, List.singleton_append] at h1
        rw [← h1, Nat.zero_add]
        have hfun : (fun (acc : S) (si : ℚ × Nat) =>
            match pyIndex (p :: pubs') ((si.2 : Nat) : Int) with
            | .error e => Except.error e
            | .ok v => (pure (h.lib.merge acc (v.liquidLegionsSketch h.lib si.1)) : Except PyErr S))
            = (fun (acc : S) (si : ℚ × Nat) => Except.bind (pyIndex (p :: pubs') ((si.2 : Nat) : Int))
              (fun v => pure (h.lib.merge acc (v.liquidLegionsSketch h.lib si.1)))) := by
          funext acc si
          cases pyIndex (p :: pubs') (si.2 : Int) <;> rfl
        exact congrArg (fun f => (spends.zipIdx 1).foldlM f (p.liquidLegionsSketch h.lib s)) hfun.symm
      · intro u
        rw [h2, hone p log hp]
        simp only [totalAtSpend, List.map_cons, List.zipWith_cons_cons, List.zip_cons_cons,
          List.sum_cons]

/-- C66 (c): with a noiseless library a request returns the deduplicated k+ reach at the capped
spends, provided that is less than the number of impressions of the request. -/
theorem C66_noiseless_request (h : HaloSimulator S) (content : S → Int → Nat)
    (hx : ExactLib h.lib content) (logs : List Log)
    (hb : List.Forall₂ (fun log (p : Publisher) => Built log p.publisherData) logs h.publishers)
    (hd : h.publishers.map (·.publisherData) = h.dataSet.data)
    (spends : List ℚ) (hs : spends.length = logs.length) (hne : spends ≠ [])
    (budget : PrivacyBudget ℚ) (split : ℚ) (F : Nat) (hF : 1 ≤ F) (st : HaloState)
    (hfew : ∀ imps, h.dataSet.impressionsBySpend spends = .ok imps →
      kPlusReach (totalAtSpend logs (List.zipWith min spends h.campaignSpends)) 1 < imps.sum) :
    ∃ r st', h.simulatedReachBySpend spends budget split F st = (.ok r, st') ∧
      r.maxFrequency = F ∧
      ∀ k : Nat, 1 ≤ k → k ≤ F → r.reach k
        = .ok (kPlusReach (totalAtSpend logs (List.zipWith min spends h.campaignSpends)) k : ℚ) := by
  obtain ⟨sk, hsk, hcont⟩ := C66_combined_content h content hx logs hb spends hs hne
  have hcf : content sk = totalAtSpend logs (List.zipWith min spends h.campaignSpends) :=
    funext hcont
  set T := totalAtSpend logs (List.zipWith min spends h.campaignSpends) with hT
  have hdl : h.dataSet.data.length = spends.length := by
    rw [← hd, List.length_map, ← hb.length_eq, hs]
  have himp := impressionsBySpend_ok h.dataSet spends (by omega)
  rw [HaloSimulator.simulated_apply, hsk]
  simp only
  unfold HaloSimulator.simPost HaloSimulator.requestEstimates
  rw [hx.estimate, hcf, himp]
  have hdecr : ((List.range F).map (fun k => (kPlusReach T (k + 1) : Int))).Pairwise
      (fun a b => b ≤ a) := by
    rw [List.pairwise_map]
    apply List.Pairwise.imp _ List.pairwise_lt_range
    intro a b hab
    have := kPlusReach_anti_k T _ (allUsers_finite logs) (totalAtSpend_mem logs _) (a + 1) (b + 1)
      (by omega) (by omega)
    exact_mod_cast this
  have hround : (((List.range F).map (fun k => (kPlusReach T (k + 1) : ℚ))).map pyRound).map (max 0)
      = (List.range F).map (fun k => (kPlusReach T (k + 1) : Int)) := by
    rw [List.map_map, List.map_map]
    apply List.map_congr_left
    intro k _
    simp only [Function.comp]
    have := pyRound_intCast (kPlusReach T (k + 1) : Int)
    rw [Int.cast_natCast] at this
    rw [this]
    simp
  rw [hround, minAccumulate_eq_self _ hdecr]
  have hk0 : pyIndex ((List.range F).map (fun k => (kPlusReach T (k + 1) : Int))) 0
      = .ok (kPlusReach T 1 : Int) := by
    have := pyIndex_nat ((List.range F).map (fun k => (kPlusReach T (k + 1) : Int))) 0 (by simp; omega)
    simpa using this
  have hlt := hfew _ himp
  have hcap : HaloSimulator.capReaches
      ((h.dataSet.data.zip spends).map (fun ps => ps.1.impressionsBySpend ps.2))
      ((List.range F).map (fun k => (kPlusReach T (k + 1) : Int))) F
      = .ok ((List.range F).map (fun k => (kPlusReach T (k + 1) : Int))) := by
    unfold HaloSimulator.capReaches
    rw [hk0]
    simp only [bind, Except.bind, pure, Except.pure]
    rw [if_neg (by
      have : (kPlusReach T 1 : Int) < (((h.dataSet.data.zip spends).map
        (fun ps => ps.1.impressionsBySpend ps.2)).sum : Nat) := by exact_mod_cast hlt
      omega)]
  simp only [bind, Except.bind, hcap]
  have hnew : ∃ r, ReachPoint.new (((h.dataSet.data.zip spends).map
        (fun ps => ps.1.impressionsBySpend ps.2)).map (fun n : Nat => (n : ℚ)))
      (((List.range F).map (fun k => (kPlusReach T (k + 1) : Int))).map (fun n : Int => (n : ℚ)))
      (some spends) (some (h.dataSet.universeSize : ℚ)) = .ok r := by
    unfold ReachPoint.new
    rw [if_neg (by simp [hdl])]
    exact ⟨_, rfl⟩
  obtain ⟨r, hr⟩ := hnew
  rw [hr]
  refine ⟨r, _, rfl, ?_, ?_⟩
  · unfold ReachPoint.new at hr
    rw [if_neg (by simp [hdl])] at hr
    rw [← Except.ok.inj hr]
    simp [ReachPoint.maxFrequency]
  · intro k hk1 hk2
    obtain ⟨w, hw, hw'⟩ := (C15_reach_accessor _ _ _ _ r hr (k : Int)).1 ⟨by omega, by simp; omega⟩
    rw [hw]
    have : ((k : Int) - 1).toNat = k - 1 := by omega
    rw [this] at hw'
    simp only [List.map_map, List.getElem?_map, List.getElem?_range (show k - 1 < F by omega),
      Option.map_some, Option.some.injEq, Function.comp] at hw'
    rw [← hw', show k - 1 + 1 = k by omega]
    simp

/-- The library of the examples is exact. -/
theorem exLib_exact : ExactLib exLib (fun s u => s.count u) := by
  constructor
  · intro u; simp [exLib]
  · intro s ids u; simp [exLib]
  · intro s t u; simp [exLib]
  · intro d d' F b b' s
    simp only [exLib, Int.toNat_natCast]
    apply List.map_congr_left
    intro k _
    congr 1
    unfold kPlusReach
    rw [List.countP_eq_length_filter, ← List.toFinset_card_of_nodup (s.nodup_dedup.filter _),
      ← Set.ncard_coe_finset]
    congr 1
    ext u
    simp only [List.coe_toFinset, List.mem_filter, List.mem_dedup, decide_eq_true_eq,
      Set.mem_ofPred_eq]
    constructor
    · rintro ⟨_, h⟩; omega
    · intro h
      refine ⟨List.count_pos_iff.1 (by omega), by omega⟩

/-- Two publishers, campaign spends 2 and 1, request for spends 5 and 1: two of the three users of
the first publisher and both of the second, one shared. -/
example : ((exHalo exLib).simulatedReachBySpend [5, 1] ⟨1, 0⟩ (1 / 2) 2 exState).1.toOption.map
      (·.kplusReaches) = some [3, 1] ∧
    (exHalo exLib).campaignSpends = [2, 1] ∧
    (exHalo exLib).publishers.map (·.publisherData) = (exHalo exLib).dataSet.data := by
  refine ⟨by decide +kernel, by decide +kernel, by decide +kernel⟩

/-- The simulator's constructor on the example data set. -/
example : (HaloSimulator.new exDataSet [2 / 5, 1] exLib exRand).toOption.map (·.campaignSpends)
    = some [2, 1] := by decide +kernel

/-! ## C25, an empty sample -/

/-- C25: a Venn request whose sketch has no usable register is refused before any budget is
used. -/
theorem C25_empty_sample (h : HaloSimulator S) (spends : List ℚ) (budget : PrivacyBudget ℚ)
    (split : ℚ) (st : HaloState) (regions : Dict Nat (List Int)) (hne : regions ≠ [])
    (hf : h.formVennDiagramRegions spends 1 = .ok regions) (r : ReachPoint)
    (hr : h.trueReachBySpend spends = .ok r) (c : ℚ) (hc : r.reach 1 = .ok c)
    (hk : h.rand.activeRegisters st.draws c = 0) :
    ∃ st', h.simulatedVenn spends budget split 1 st = (.error .runtimeError, st') ∧
      st'.tracker = st.tracker := by
  refine ⟨{ st with draws := st.draws + 1 }, ?_, rfl⟩
  unfold HaloSimulator.simulatedVenn
  rw [if_neg (by simp), HaloM.bind_ok (HaloM.lift_apply _ _ |>.trans (by rw [hf])), if_neg hne,
    HaloM.bind_ok (HaloM.lift_apply _ _ |>.trans (by rw [hr])),
    HaloM.bind_ok (HaloM.lift_apply _ _ |>.trans (by rw [hc]))]
  apply HaloM.bind_error
  unfold HaloSimulator.numActiveRegions
  rw [HaloM.bind_ok (HaloM.draw_apply st), if_pos hk]
  rfl

example :
    let h : HaloSimulator (List Int) := { exHalo exLib with rand := { exRand with activeRegisters := fun _ _ => 0 } }
    (h.formVennDiagramRegions [2, 1] 1).toOption.map List.length = some 3 ∧
    ((h.trueReachBySpend [2, 1]).toOption.bind (fun r => (r.reach 1).toOption)) = some 3 := by
  decide +kernel

/-! ## C13, the second implementation -/

theorem cumsum_append (acc : Int) (l : List Int) (x : Int) :
    ReachCurve.cumsum acc (l ++ [x]) = ReachCurve.cumsum acc l ++ [acc + l.sum + x] := by
  induction l generalizing acc with
  | nil => simp [ReachCurve.cumsum]
  | cons a l ih =>
    simp only [List.cons_append, ReachCurve.cumsum, ih, List.sum_cons, List.cons.injEq, true_and]
    congr 2
    ring

/-- C13: `_kplus_reaches_from_frequencies` of the curve models: entry `k` is the number of users in
the buckets from `k` on. -/
theorem C13_curve_kplus (hist : List Int) :
    (ReachCurve.kplusReachesFromFrequencies hist).length = hist.length ∧
    ∀ k (hk : k < (ReachCurve.kplusReachesFromFrequencies hist).length),
      (ReachCurve.kplusReachesFromFrequencies hist)[k] = (hist.drop k).sum := by
  have hrec : ∀ a l, ReachCurve.kplusReachesFromFrequencies (a :: l)
      = (a :: l).sum :: ReachCurve.kplusReachesFromFrequencies l := by
    intro a l
    unfold ReachCurve.kplusReachesFromFrequencies
    rw [List.reverse_cons, cumsum_append, List.reverse_append]
    simp only [List.reverse_cons, List.reverse_nil, List.nil_append, List.cons_append,
      List.cons.injEq, and_true, List.sum_reverse, List.sum_cons]
    ring
  induction hist with
  | nil => exact ⟨rfl, fun k hk => absurd hk (by simp [ReachCurve.kplusReachesFromFrequencies,
      ReachCurve.cumsum])⟩
  | cons a l ih =>
    rw [hrec]
    refine ⟨by simp [ih.1], ?_⟩
    intro k hk
    cases k with
    | zero => simp
    | succ k =>
      simp only [List.getElem_cons_succ, List.drop_succ_cons]
      exact ih.2 k _

example : ReachCurve.kplusReachesFromFrequencies [5, 3, 1] = [9, 4, 1] := by decide

/-- C65: a point made without a universe size has none: asking for it, or for the histogram with the
people not reached, is refused with a `ValueError`. -/
theorem C65_missing (imps ks : List ℚ) (spends : Option (List ℚ)) (r : ReachPoint)
    (h : ReachPoint.new imps ks spends = .ok r) :
    r.universeSize = .error .valueError ∧ r.zeroIncludedHistogram = .error .valueError := by
  unfold ReachPoint.new at h
  split at h
  · cases h
  · cases h
    exact ⟨rfl, rfl⟩

example : ∃ r, ReachPoint.new [10] [8, 3] (some [2]) = .ok r := ⟨_, rfl⟩

end Verif
