import Verif.Props.Dirac
import Verif.Props.Strategy
import Verif.Props.TrialFit

/-!
# C78: the Dirac mixture model inside the two strategies

The M3 strategy hands the model points without the number of people (m3_strategy.py:92-97), the single
publisher strategy hands over the simulated point itself (single_publisher_strategy.py:57-63).
-/

namespace Verif

open Verif.Spec

variable {S Curve Surface : Type}

theorem except_bind_ok {α β : Type} {m : Except PyErr α} {f : α → Except PyErr β} {b : β}
    (h : (m >>= f) = .ok b) : ∃ a, m = .ok a ∧ f a = .ok b := by
  cases m with
  | error e => cases h
  | ok a => exact ⟨a, rfl, h⟩

/-- The points M3 makes for one publisher do not say how many people there are. -/
theorem projectPoint_universe {r q : ReachPoint} {i : Nat} (h : Strategy.projectPoint r i = .ok q) :
    q.universeSize? = none := by
  unfold Strategy.projectPoint at h
  obtain ⟨kplus, _, h⟩ := except_bind_ok h
  obtain ⟨imp, _, h⟩ := except_bind_ok h
  have key : ∀ spend, ReachPoint.new [imp] kplus (some [spend]) = .ok q → q.universeSize? = none := by
    intro spend h
    unfold ReachPoint.new at h
    split at h
    · cases h
    · cases h
      rfl
  simp only at h
  split at h
  · cases h
  · obtain ⟨spend, _, h⟩ := except_bind_ok h
    exact key spend h

theorem singleLoop_universe (h : HaloSimulator S) (b : PrivacyBudget ℚ) (ids : List Nat) :
    ∀ (st st' : HaloState) (pts : List ReachPoint),
      Strategy.singleLoop h b ids st = (.ok pts, st') →
      pts.length = ids.length ∧ ∀ q ∈ pts, q.universeSize? = none := by
  induction ids with
  | nil =>
    intro st st' pts hp
    cases hp
    exact ⟨rfl, by simp⟩
  | cons i ids ih =>
    intro st st' pts hp
    unfold Strategy.singleLoop at hp
    obtain ⟨c, s1, _, hp⟩ := HaloM.bind_eq_ok hp
    obtain ⟨r, s2, _, hp⟩ := HaloM.bind_eq_ok hp
    obtain ⟨q, s3, hq, hp⟩ := HaloM.bind_eq_ok hp
    obtain ⟨qs, s4, hqs, hp⟩ := HaloM.bind_eq_ok hp
    cases hp
    have hq' : Strategy.projectPoint r i = .ok q := congrArg Prod.fst hq
    obtain ⟨hl, hu⟩ := ih _ _ _ hqs
    refine ⟨by simp [hl], fun x hx => ?_⟩
    rcases List.mem_cons.1 hx with rfl | hx
    · exact projectPoint_universe hq'
    · exact hu x hx

/-- **C78.** Under the M3 strategy a Dirac mixture model is never fitted: whatever the data, the budget,
the noise and the number of components, `fit` ends with an exception. -/
theorem C78_refused_under_m3 (st : Strategy Curve Surface) (h : HaloSimulator S)
    (budget : PrivacyBudget ℚ) (n : Nat) (hgt : st.useGroundTruth = false)
    (hsingle : ∀ pts c, st.single pts = .ok c → ∃ m, Dirac.Model.new pts n = .ok m)
    (hp : 0 < h.publisherCount) (s : HaloState) :
    ∀ f, (st.fitM3 h budget s).1 ≠ .ok f := by
  intro f hf
  obtain ⟨s', hf⟩ : ∃ s', st.fitM3 h budget s = (.ok f, s') := ⟨_, Prod.ext hf rfl⟩
  unfold Strategy.fitM3 at hf
  obtain ⟨total, s1, _, hf⟩ := HaloM.bind_eq_ok hf
  obtain ⟨singles, s2, hs, hf⟩ := HaloM.bind_eq_ok hf
  obtain ⟨loo, s3, _, hf⟩ := HaloM.bind_eq_ok hf
  obtain ⟨curves, s4, hc, _⟩ := HaloM.bind_eq_ok hf
  obtain ⟨hl, hu⟩ := singleLoop_universe h _ _ _ _ _ hs
  have hc' := congrArg Prod.fst hc
  simp only [HaloM.lift_apply, hgt, Bool.false_eq_true, if_false] at hc'
  rw [List.length_range] at hl
  cases singles with
  | nil => simp only [List.length_nil] at hl; omega
  | cons q qs =>
    rw [List.zipIdx_cons, List.mapM_cons] at hc'
    obtain ⟨c, h1, _⟩ := except_bind_ok hc'
    obtain ⟨m, hm⟩ := hsingle _ _ h1
    obtain ⟨_, _, U, _, _, _, _, _, h5, _⟩ := dirac_new_ok hm
    rw [hu q (by simp)] at h5
    cases h5

/-- Two publishers, exact estimates, and the model with 200 components (as many as by default): the
hypotheses of `C78_refused_under_m3` are met. -/
example : ∃ (st : Strategy Dirac.Model Unit), st.useGroundTruth = false ∧
    (∀ pts c, st.single pts = .ok c → ∃ m, Dirac.Model.new pts 200 = .ok m) ∧
    0 < (exHalo exLib).publisherCount :=
  ⟨⟨fun pts => Dirac.Model.new pts, fun _ _ => .ok (), fun _ _ => ⟨⟨[], [], [], none, none⟩, [], none,
    0, none, false⟩, false⟩, rfl, fun _ c h => ⟨c, h⟩, by decide⟩

/-- **C78.** Under the single publisher strategy the model is constructed exactly if the campaign buys at
least one impression, whatever the noise. If in addition no more people were measured than there are
(below 2³¹) and the optimization does not fail, every query is answered with coherent reaches. -/
theorem C78_accepted_under_single (h : HaloSimulator S) (p : PublisherData) (c : ℚ)
    (hp : h.publishers = [⟨p, c⟩]) (hds : h.dataSet.data = [p]) (n : Nat) (hn : 0 < n)
    (hest : ∀ a b B B' s, (h.lib.estimate a b 20 B B' s).length = 20)
    (budget : PrivacyBudget ℚ) (st : HaloState) :
    ∃ r R st', h.simulatedReachBySpend [c] budget (1 / 2) 20 st = (.ok r, st') ∧
      r.reach 1 = .ok R ∧ r.universeSize? = some (h.dataSet.universeSize : ℚ) ∧
      (p.impressionsBySpend c = 0 → Dirac.Model.new [r] n = .error .valueError) ∧
      (1 ≤ p.impressionsBySpend c → ∃ m, Dirac.Model.new [r] n = .ok m ∧
        (R ≤ h.dataSet.universeSize → 0 < h.dataSet.universeSize → h.dataSet.universeSize < 2 ^ 31 →
          ∀ solve, SolveOk solve → ∀ x, 0 ≤ x → ∀ F : Nat,
          ∃ q m', m.byImpressions solve [x] F = .ok (q, m') ∧ q.kplusReaches.length = F ∧
            (∀ k, k < F → ∃ v : Nat, q.kplusReaches.getD k 0 = v ∧ (v : ℤ) ≤ h.dataSet.universeSize) ∧
            ∀ k, k + 1 < F → q.kplusReaches.getD (k + 1) 0 ≤ q.kplusReaches.getD k 0)) := by
  obtain ⟨r, st', hr, hm⟩ := measure h p c hp hds 20 (by norm_num) hest budget st
  obtain ⟨x, hx, hx0, hx2, -⟩ := hm.reach
  have hu : r.universeSize? = some (h.dataSet.universeSize : ℚ) := by
    obtain ⟨_, _, _, _, _, _, _, _, _, hu, _⟩ := h.simulated_ok _ _ _ _ _ _ _ hr
    exact hu
  have hi : pyIndex r.impressions 0 = .ok (p.impressionsBySpend c : ℚ) := by rw [hm.impressions]; rfl
  refine ⟨r, x, st', hr, hx, hu, ?_, ?_⟩
  · intro h0
    unfold Dirac.Model.new
    simp only [hi, h0, bind, Except.bind]
    rw [if_pos (by norm_num)]
    rfl
  · intro h1
    have hxn : (x : ℚ) ≤ (p.impressionsBySpend c : ℚ) := by
      have := hm.top _ hx
      rwa [max_eq_right (by exact_mod_cast h1)] at this
    have h1q : (1 : ℚ) ≤ (p.impressionsBySpend c : ℚ) := by exact_mod_cast h1
    have hus : r.universeSize = .ok (h.dataSet.universeSize : ℚ) := by
      unfold ReachPoint.universeSize; rw [hu]
    have hlast : ∃ y, pyIndex r.kplusReaches (-1) = .ok y := by
      have hne : r.kplusReaches ≠ [] := by
        intro he
        have := hm.length
        rw [he] at this
        simp at this
      exact ⟨_, pyIndex_neg_one _ hne⟩
    obtain ⟨y, hy⟩ := hlast
    have hz : r.zeroIncludedHistogram =
        .ok ((h.dataSet.universeSize - x) :: (r.frequencies ++ [y])) := by
      unfold ReachPoint.zeroIncludedHistogram ReachPoint.frequenciesWithKplusBucket
      rw [hu, hy]
      simp only [hus, hx, bind, Except.bind, pure, Except.pure]
    have hnew : ∃ m, Dirac.Model.new [r] n = .ok m := by
      unfold Dirac.Model.new
      simp only [hi, hx, hz, hus, bind, Except.bind, pure, Except.pure]
      rw [if_neg (by linarith), if_neg (by linarith)]
      split <;> exact ⟨_, rfl⟩
    obtain ⟨m, hm'⟩ := hnew
    refine ⟨m, hm', ?_⟩
    intro hRU hU0 hU solve hsolve q0 hq0 F
    obtain ⟨imps, sp, us, hmk⟩ := hm.made
    have hC20 := C20_kplus_nonneg_nonincreasing h [c] budget (1 / 2) 20 st st' r hr
    have hle : ∀ k ∈ r.kplusReaches, k ≤ (h.dataSet.universeSize : ℚ) := by
      have h0 := (reachPoint_reach_one _ _).1 hx
      cases hk : r.kplusReaches with
      | nil => simp
      | cons a l =>
        rw [hk] at h0
        simp only [List.getElem?_cons_zero, Option.some.injEq] at h0
        have hpw := hC20.2
        rw [hk, List.pairwise_cons] at hpw
        intro k hk'
        rcases List.mem_cons.1 hk' with rfl | hk'
        · rw [h0]; exact hRU
        · exact (hpw.1 k hk').trans (by rw [h0]; exact hRU)
    have hus' : us = some (h.dataSet.universeSize : ℚ) := by
      rw [← hu]
      unfold ReachPoint.new at hmk
      split at hmk
      · cases hmk
      · rw [← Except.ok.inj hmk]
    obtain ⟨U, hUn⟩ := Int.eq_ofNat_of_zero_le hU0.le
    rw [hUn] at hus' hle hU hU0 ⊢
    rw [hus'] at hmk
    simp only [Int.cast_natCast] at hmk hle
    obtain ⟨q, m', e1, -, e3, e4, e5, -⟩ := C78_answers_partial solve hsolve imps r.kplusReaches sp
      U r hmk n hn (by exact_mod_cast hU) hC20.2 hC20.1 hle (by exact_mod_cast hU0) m hm' q0 hq0 F
    refine ⟨q, m', e1, e3, ?_, e5⟩
    intro k hk
    obtain ⟨v, v1, v2⟩ := e4 k hk
    exact ⟨v, v1, by exact_mod_cast v2⟩

/-- One publisher of the example data set, which buys one or more impressions. -/
def exDiracHalo : HaloSimulator (List Int) :=
  { dataSet := { exDataSet with data := [exPubs[0]] }
    publishers := [⟨exPubs[0], 2⟩]
    lib := exLib
    rand := exRand }

/-- The hypotheses of `C78_accepted_under_single` are met by an exact library; the measured reach is no
more than the number of people. -/
example : exDiracHalo.publishers = [⟨exPubs[0], 2⟩] ∧ exDiracHalo.dataSet.data = [exPubs[0]] ∧
    (∀ a b B B' s, (exDiracHalo.lib.estimate a b 20 B B' s).length = 20) ∧
    1 ≤ exPubs[0].impressionsBySpend 2 ∧ 0 < exDiracHalo.dataSet.universeSize ∧
    ((exDiracHalo.simulatedReachBySpend [2] ⟨1, 1 / 10⟩ (1 / 2) 20 exState).1.toOption.map
      (fun r => decide (r.kplusReaches.headD 0 ≤ (exDiracHalo.dataSet.universeSize : ℚ)))) = some true := by
  refine ⟨rfl, rfl, ?_, by decide +kernel, by decide +kernel, by decide +kernel⟩
  intro a b B B' s
  exact (List.length_map _).trans List.length_range

end Verif
