import Verif.Lemmas.Halo
import Verif.Props.DataSet
import Mathlib.Tactic.NormNum

/-!
# C20, C21, C55: noisy reach requests

The sketch library and the noise are arbitrary (`h.lib`), so a theorem about all `h` and `st` is a
theorem about every noise realisation.
-/

namespace Verif

open Verif.Spec

variable {S : Type}

/-! A small concrete Halo instance for the examples: sketches are the lists of ids added, estimates
are exact counts. -/

/-- Exact, noiseless sketch library. -/
def exLib : SketchLib (List Int) where
  empty := []
  addIds := fun s ids => s ++ ids
  merge := fun s t => s ++ t
  estimate := fun _ _ F _ _ s =>
    (List.range F.toNat).map (fun k : Nat => ((s.dedup.countP (fun u => k < s.count u) : Nat) : ℚ))
  outputPrivacyParameters := fun r f => [(r.epsilon, r.delta), (f.epsilon, f.delta)]

/-- The same with absurd estimates: noise pushed them up and out of order. -/
def exNoisyLib : SketchLib (List Int) :=
  { exLib with estimate := fun _ _ F _ _ _ =>
      (List.range F.toNat).map (fun k : Nat => if k = 0 then 13 / 5 else if k = 1 then 7 else -2) }

def exRand : RandomLib where
  activeRegisters := fun _ n => n.floor
  hypergeometric := fun _ pop _ => pop
  noiser := fun _ _ _ x => x
  normalEstimate := fun _ x => x

def exHalo (lib : SketchLib (List Int)) : HaloSimulator (List Int) :=
  { dataSet := exDataSet
    publishers := [⟨exPubs[0], 2⟩, ⟨exPubs[1], 1⟩]
    lib := lib
    rand := exRand }

def exState : HaloState := ⟨PrivacyTracker.new, 0⟩

/-- The simulator's constructor gives this instance for campaign fractions 2/5 and 1. -/
example : (HaloSimulator.new exDataSet [2 / 5, 1] exLib exRand).toOption.map (·.publishers)
    = some (exHalo exLib).publishers := by decide +kernel

/-! ## C20 -/

/-- C20: whatever the estimator returns, the reported k+ reaches are non-negative and
non-increasing. -/
theorem C20_kplus_nonneg_nonincreasing (h : HaloSimulator S) (spends : List ℚ)
    (budget : PrivacyBudget ℚ) (split : ℚ) (F : Int) (st st' : HaloState) (r : ReachPoint)
    (hr : h.simulatedReachBySpend spends budget split F st = (.ok r, st')) :
    (∀ x ∈ r.kplusReaches, 0 ≤ x) ∧ r.kplusReaches.Pairwise (fun a b => b ≤ a) := by
  obtain ⟨sk, imps, capped, _, _, hc, _, hk, _⟩ := h.simulated_ok spends budget split F st st' r hr
  rw [hk]
  have key : (∀ x ∈ capped, 0 ≤ x) ∧ capped.Pairwise (fun a b => b ≤ a) := by
    unfold HaloSimulator.capReaches at hc
    rcases h0 : pyIndex (minAccumulate (((h.requestEstimates budget split F st.draws sk).map
        pyRound).map (max 0))) 0 with e | k0
    · rw [h0] at hc; cases hc
    rw [h0] at hc
    simp only [bind, Except.bind, pure, Except.pure, Except.ok.injEq] at hc
    split at hc
    · rw [← hc]
      unfold pyRepeat
      constructor
      · intro x hx
        rcases List.mem_cons.1 hx with rfl | hx
        · omega
        · rw [List.eq_of_mem_replicate hx]
      · rw [List.pairwise_cons]
        refine ⟨?_, ?_⟩
        · intro x hx
          rw [List.eq_of_mem_replicate hx]; omega
        · rw [List.pairwise_replicate]; simp
    · rw [← hc]
      refine ⟨minAccumulate_nonneg _ ?_, minAccumulate_pairwise _⟩
      intro x hx
      obtain ⟨y, _, rfl⟩ := List.mem_map.1 hx
      exact le_max_left _ _
  constructor
  · intro x hx
    obtain ⟨y, hy, rfl⟩ := List.mem_map.1 hx
    exact_mod_cast key.1 y hy
  · rw [List.pairwise_map]
    exact key.2.imp (fun h => by exact_mod_cast h)

/-- C20 (length): with an estimator that returns as many estimates as asked for, exactly
`max_frequency` k+ reaches are reported, and requests for all publishers never fail. -/
theorem C20_length_and_success (h : HaloSimulator S) (spends : List ℚ)
    (budget : PrivacyBudget ℚ) (split : ℚ) (F : Nat) (hF : 1 ≤ F) (st : HaloState)
    (hest : ∀ a b B B' s, (h.lib.estimate a b F B B' s).length = F)
    (hpub : h.publishers.length = h.dataSet.data.length) (hpos : 1 ≤ h.publishers.length)
    (hs : spends.length = h.publishers.length) :
    ∃ r, (h.simulatedReachBySpend spends budget split F st).1 = .ok r ∧ r.maxFrequency = F ∧
      r.spends = some spends := by
  obtain ⟨sk, hsk⟩ := h.combinedSketch_ok spends (by omega) (by omega)
  rw [HaloSimulator.simulated_apply, hsk]
  simp only
  unfold HaloSimulator.simPost
  rw [impressionsBySpend_ok _ _ (by omega)]
  simp only [bind, Except.bind]
  have hlen : (minAccumulate (((h.requestEstimates budget split F st.draws sk).map
        pyRound).map (max 0))).length = F := by
    rw [minAccumulate_length]
    simp [HaloSimulator.requestEstimates, hest]
  generalize minAccumulate (((h.requestEstimates budget split F st.draws sk).map
        pyRound).map (max 0)) = ks at hlen
  have hk0 := pyIndex_nat ks 0 (by omega)
  simp only [Nat.cast_zero] at hk0
  unfold HaloSimulator.capReaches
  rw [hk0]
  simp only [bind, Except.bind, pure, Except.pure]
  have htr : ReachPoint.truthySpends (some spends) = true := by
    cases spends with
    | nil => simp only [List.length_nil] at hs; omega
    | cons a l => rfl
  unfold ReachPoint.new
  rw [if_neg (by simp; intro _; omega)]
  refine ⟨_, rfl, ?_, by simp [htr]⟩
  unfold ReachPoint.maxFrequency
  simp only [List.length_map]
  split
  · simp only [pyRepeat, List.length_cons, List.length_replicate]; omega
  · exact hlen

/-- C20 (faithful): estimates that are already non-negative, non-increasing integers below the
number of impressions bought are reported unchanged. -/
theorem C20_valid_estimates_unchanged (h : HaloSimulator S) (spends : List ℚ)
    (budget : PrivacyBudget ℚ) (split : ℚ) (F : Int) (st st' : HaloState) (r : ReachPoint)
    (hr : h.simulatedReachBySpend spends budget split F st = (.ok r, st'))
    (sk : S) (hsk : h.combinedSketch spends = .ok sk) (e : Int) (es : List Int)
    (hes : h.lib.estimate st.draws (st.draws + 1) F ⟨budget.epsilon * split, budget.delta * split⟩
      ⟨budget.epsilon * (1 - split), budget.delta * (1 - split)⟩ sk
        = (e :: es).map (fun n : Int => (n : ℚ)))
    (hnn : ∀ x ∈ e :: es, 0 ≤ x) (hdec : (e :: es).Pairwise (fun a b => b ≤ a))
    (hlt : (e : ℚ) < r.impressions.sum) :
    r.kplusReaches = (e :: es).map (fun n : Int => (n : ℚ)) := by
  obtain ⟨sk', imps, capped, hsk', _, hc, hi, hk, _⟩ :=
    h.simulated_ok spends budget split F st st' r hr
  rw [hsk] at hsk'
  cases hsk'
  rw [hk]
  congr 1
  have hm : (((h.requestEstimates budget split F st.draws sk).map pyRound).map (max 0))
      = e :: es := by
    unfold HaloSimulator.requestEstimates
    rw [hes, List.map_map, List.map_map]
    nth_rewrite 2 [← List.map_id (e :: es)]
    apply List.map_congr_left
    intro x hx
    simp only [Function.comp, pyRound_intCast, id]
    exact max_eq_right (hnn x hx)
  rw [hm, minAccumulate_eq_self _ hdec] at hc
  unfold HaloSimulator.capReaches at hc
  simp only [pyIndex, bind, Except.bind, pure, Except.pure] at hc
  simp only [lt_self_iff_false, if_false, Int.toNat_zero, List.getElem?_cons_zero,
    Except.ok.injEq] at hc
  rw [if_neg] at hc
  · exact hc.symm
  · intro hle
    rw [hi] at hlt
    have : ((imps.map (fun n : Nat => (n : ℚ))).sum) = ((imps.sum : Nat) : ℚ) := by
      rw [Nat.cast_list_sum]
    rw [this] at hlt
    generalize imps.sum = n at hlt hle
    have h3 : e < (n : Int) := by exact_mod_cast hlt
    omega

/-- Estimates 13/5, 7, -2 become 3, 3, 0. -/
example : ((exHalo exNoisyLib).simulatedReachBySpend [2, 1] ⟨1, 0⟩ (1 / 2) 3 exState).1.toOption.map
    (fun r => (r.kplusReaches, r.impressions)) = some ([3, 3, 0], [4, 2]) := by decide +kernel

/-! ## C21 -/

/-- C21, full claim: the reported reach is below the impressions bought. -/
def C21_full : Prop :=
  ∀ (h : HaloSimulator (List Int)) (spends : List ℚ) (budget : PrivacyBudget ℚ) (split : ℚ)
    (F : Int) (st st' : HaloState) (r : ReachPoint) (x : ℚ), 1 ≤ F →
    h.simulatedReachBySpend spends budget split F st = (.ok r, st') →
    r.reach 1 = .ok x → x < r.impressions.sum

/-- C21 fails when nothing is bought: a request with zero spends reports one reached person. -/
theorem C21_full_is_false : ¬ C21_full := by
  intro hf
  have hrun : ∃ r st', (exHalo exLib).simulatedReachBySpend [0, 0] ⟨1, 0⟩ (1 / 2) 1 exState
      = (.ok r, st') ∧ r.reach 1 = .ok 1 ∧ r.impressions.sum = 0 := by
    rcases hr : (exHalo exLib).simulatedReachBySpend [0, 0] ⟨1, 0⟩ (1 / 2) 1 exState with ⟨x, st'⟩
    have h2 : ((exHalo exLib).simulatedReachBySpend [0, 0] ⟨1, 0⟩ (1 / 2) 1 exState).1.toOption.map
        (fun r => (r.reach 1, r.impressions.sum)) = some (.ok 1, 0) := by decide +kernel
    rw [hr] at h2
    cases x with
    | error e => simp [Except.toOption] at h2
    | ok r =>
      simp only [Except.toOption, Option.map_some, Option.some.injEq, Prod.mk.injEq] at h2
      exact ⟨r, st', rfl, h2.1, h2.2⟩
  obtain ⟨r, st', h1, h2, h3⟩ := hrun
  have := hf _ _ _ _ _ _ _ r 1 le_rfl h1 h2
  rw [h3] at this
  norm_num at this

theorem reach_one_of_kplus (r : ReachPoint) (x : ℚ) (hx : r.reach 1 = .ok x) :
    ∃ l, r.kplusReaches = x :: l := by
  unfold ReachPoint.reach at hx
  split at hx
  · cases hk : r.kplusReaches with
    | nil => rw [hk] at hx; simp [pyIndex] at hx
    | cons a l =>
      rw [hk] at hx
      simp [pyIndex] at hx
      exact ⟨l, by rw [hx]⟩
  · cases hx

/-- C21 once at least two impressions are bought. Missing for the full claim: campaigns buying
at most one impression, where it is false. -/
theorem C21_reach_below_impressions_partial (h : HaloSimulator S) (spends : List ℚ)
    (budget : PrivacyBudget ℚ) (split : ℚ) (F : Int) (st st' : HaloState) (r : ReachPoint)
    (hr : h.simulatedReachBySpend spends budget split F st = (.ok r, st'))
    (h2 : 2 ≤ r.impressions.sum) (x : ℚ) (hx : r.reach 1 = .ok x) : x < r.impressions.sum := by
  obtain ⟨sk, imps, capped, _, _, hc, hi, hk, _⟩ := h.simulated_ok spends budget split F st st' r hr
  obtain ⟨l, hl⟩ := reach_one_of_kplus r x hx
  have hsum : r.impressions.sum = ((imps.sum : Nat) : ℚ) := by
    rw [hi, Nat.cast_list_sum]
  rw [hsum] at h2 ⊢
  have h2' : 2 ≤ imps.sum := by exact_mod_cast h2
  unfold HaloSimulator.capReaches at hc
  rcases h0 : pyIndex (minAccumulate (((h.requestEstimates budget split F st.draws sk).map
      pyRound).map (max 0))) 0 with e | k0
  · rw [h0] at hc; cases hc
  rw [h0] at hc
  simp only [bind, Except.bind, pure, Except.pure, Except.ok.injEq] at hc
  rw [hk] at hl
  split at hc
  · rw [← hc] at hl
    simp only [List.map_cons, List.cons.injEq] at hl
    rw [← hl.1]
    generalize imps.sum = n at h2'
    have : max ((n : Int) - 1) 1 < (n : Int) := by omega
    exact_mod_cast this
  · rename_i hlt
    rw [← hc] at hl
    have hk0 : ((k0 : Int) : ℚ) = x := by
      cases hm : minAccumulate (((h.requestEstimates budget split F st.draws sk).map
        pyRound).map (max 0)) with
      | nil => rw [hm] at hl; simp at hl
      | cons a l' =>
        rw [hm] at hl h0
        simp only [List.map_cons, List.cons.injEq] at hl
        simp [pyIndex] at h0
        rw [← h0]; exact hl.1
    rw [← hk0]
    generalize imps.sum = n at hlt
    have : k0 < (n : Int) := by omega
    exact_mod_cast this

example : ((exHalo exNoisyLib).simulatedReachBySpend [1, 0] ⟨1, 0⟩ (1 / 2) 3 exState).1.toOption.map
    (fun r => (r.kplusReaches, r.impressions.sum)) = some ([1, 0, 0], 2) := by decide +kernel

/-- C21 (how it fails): buying nothing always reports exactly one reached person. -/
theorem C21_nothing_bought_reports_one (h : HaloSimulator S) (spends : List ℚ)
    (budget : PrivacyBudget ℚ) (split : ℚ) (F : Int) (st st' : HaloState) (r : ReachPoint)
    (hr : h.simulatedReachBySpend spends budget split F st = (.ok r, st'))
    (h0 : r.impressions.sum = 0) : r.reach 1 = .ok 1 := by
  have hnn := (C20_kplus_nonneg_nonincreasing h spends budget split F st st' r hr).1
  obtain ⟨sk, imps, capped, _, _, hc, hi, hk, _⟩ := h.simulated_ok spends budget split F st st' r hr
  have hsum : imps.sum = 0 := by
    have : r.impressions.sum = ((imps.sum : Nat) : ℚ) := by rw [hi, Nat.cast_list_sum]
    rw [this] at h0
    exact_mod_cast h0
  unfold HaloSimulator.capReaches at hc
  rcases h1 : pyIndex (minAccumulate (((h.requestEstimates budget split F st.draws sk).map
      pyRound).map (max 0))) 0 with e | k0
  · rw [h1] at hc; cases hc
  rw [h1] at hc
  simp only [bind, Except.bind, pure, Except.pure, Except.ok.injEq, hsum] at hc
  have hk0 : 0 ≤ k0 := by
    have hmem : k0 ∈ minAccumulate (((h.requestEstimates budget split F st.draws sk).map
      pyRound).map (max 0)) := by
      have := (pyIndex_ok_iff _ 0 k0).1 h1
      exact List.mem_of_getElem? this
    refine minAccumulate_nonneg _ ?_ k0 hmem
    intro y hy
    obtain ⟨z, _, rfl⟩ := List.mem_map.1 hy
    exact le_max_left _ _
  rw [if_pos (by simpa using hk0)] at hc
  unfold ReachPoint.reach
  rw [hk, ← hc]
  simp [pyIndex]

/-! ## C55 -/

/-- C55: the sketch of a publisher for a requested spend is built by adding, user by user, exactly
the impressions affordable at the smaller of the request and the campaign spend. -/
theorem C55_sketch_contents (lib : SketchLib S) (p : Publisher) (log : Log)
    (hb : Built log p.publisherData) (spend : ℚ) :
    ∃ groups : List (List Int),
      p.liquidLegionsSketch lib spend = groups.foldl lib.addIds lib.empty ∧
      (∀ u, (groups.flatten).count u = exposuresAtSpend log (min spend p.campaignSpend) u) ∧
      (∀ g ∈ groups, ∃ u, ∀ v ∈ g, v = u) ∧
      (groups.flatten).length = affordable log (min spend p.campaignSpend) := by
  obtain ⟨hn, hpos, hget, hsum⟩ := hb.counts_spend (min spend p.campaignSpend)
  refine ⟨(p.publisherData.userCountsBySpend (min spend p.campaignSpend)).map
    (fun kv => pyRepeat kv.1 kv.2), ?_, ?_, ?_, ?_⟩
  · unfold Publisher.liquidLegionsSketch
    rw [List.foldl_map]
  · intro u
    have := count_flatten_groups _ hn hpos u
    rw [hget] at this
    exact_mod_cast this
  · intro g hg
    obtain ⟨kv, _, rfl⟩ := List.mem_map.1 hg
    exact ⟨kv.1, fun v hv => List.eq_of_mem_replicate hv⟩
  · have := length_flatten_groups _ hpos
    rw [hsum] at this
    exact_mod_cast this

/-- C55: asking for more than the campaign spend changes nothing. -/
theorem C55_capped_at_campaign (lib : SketchLib S) (p : Publisher) (spend : ℚ)
    (h : p.campaignSpend ≤ spend) :
    p.liquidLegionsSketch lib spend = p.liquidLegionsSketch lib p.campaignSpend := by
  unfold Publisher.liquidLegionsSketch
  rw [min_eq_right h, min_self]

/-- C55: the true reach of a publisher counts the users with affordable impressions at the
requested spend. -/
theorem C55_true_reach (p : Publisher) (log : Log) (hb : Built log p.publisherData) (spend : ℚ)
    (F : Nat) (hF : 1 ≤ F) :
    ∃ r, p.trueReachBySpend spend F = .ok r ∧ r.impressions = [(affordable log spend : ℚ)] ∧
      r.spends = some [spend] ∧
      ∀ k : Nat, 1 ≤ k → k ≤ F → r.reach k = .ok (kPlusReach (exposuresAtSpend log spend) k : ℚ) := by
  obtain ⟨hn, hpos, hget, hsum⟩ := hb.counts_spend spend
  have e5 := countsToHistogram_spec _ hn hpos _ hget F hF
  have e6 : ReachPoint.userCountsToKplusReaches (p.publisherData.userCountsBySpend spend) F
      = DataSet.countsToHistogram (p.publisherData.userCountsBySpend spend) F := rfl
  have hnew : ∃ r, ReachPoint.new [(affordable log spend : ℚ)]
      (((List.range F).map (fun i => (kPlusReach (exposuresAtSpend log spend) (i + 1) : Int))).map
        (fun n : Int => (n : ℚ))) (some [spend]) none = .ok r ∧ r.spends = some [spend] ∧
      r.impressions = [(affordable log spend : ℚ)] := by
    unfold ReachPoint.new
    simp [ReachPoint.truthySpends]
  obtain ⟨r, hr, hsp, him⟩ := hnew
  refine ⟨r, ?_, him, hsp, ?_⟩
  · unfold Publisher.trueReachBySpend
    simp only [e6, e5, hsum, bind, Except.bind]
    simpa using hr
  · intro k hk1 hk2
    obtain ⟨w, hw, hw'⟩ := (C15_reach_accessor _ _ _ _ r hr (k : Int)).1
      ⟨by omega, by simp; omega⟩
    rw [hw]
    have : ((k : Int) - 1).toNat = k - 1 := by omega
    rw [this] at hw'
    simp only [List.map_map, List.getElem?_map, List.getElem?_range (show k - 1 < F by omega),
      Option.map_some, Option.some.injEq, Function.comp] at hw'
    rw [← hw', show k - 1 + 1 = k by omega]
    simp

/-- A campaign spend of 2 caps the request for 5. -/
example : (exHalo exLib).publishers[0].liquidLegionsSketch exLib 5 = [7, 7, 8] ∧
    Built exLogs[0] (exHalo exLib).publishers[0].publisherData := by
  refine ⟨by decide +kernel, "a", "", by decide +kernel⟩

end Verif
