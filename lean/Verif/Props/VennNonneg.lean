import Verif.Props.Venn

/-!
# C58: sign of the reported Venn reaches
-/

namespace Verif

open Verif.Spec HaloSimulator

variable {S : Type}

/-- C58, full claim: a Venn request never reports a negative reach. -/
def C58_full : Prop :=
  ∀ (h : HaloSimulator (List Int)) (spends : List ℚ) (budget : PrivacyBudget ℚ) (split : ℚ)
    (F : Int) (st : HaloState) (pts : List ReachPoint),
    (h.simulatedVenn spends budget split F st).1 = .ok pts →
    ∀ pt ∈ pts, ∀ x ∈ pt.kplusReaches, 0 ≤ x

/-- A noise realisation taking ten from the cardinality estimate (call number 0 of its noiser)
and nothing from the regions. -/
def exBadRand : RandomLib :=
  { exRand with noiser := fun _ _ k x => if k = 0 then x - 10 else x }

/-- C58 is false: the noised cardinality estimate is not clipped, and scaling the regions by a
negative number makes all of them negative. -/
theorem C58_full_is_false : ¬ C58_full := by
  intro hf
  have hrun : ((({ exHalo exLib with rand := exBadRand } : HaloSimulator (List Int)).simulatedVenn
      [2, 1] ⟨3, 0⟩ (1 / 2) 1 exState).1.toOption.map (fun l => l.map (·.kplusReaches)))
      = some [[-7 / 2], [-7], [-7]] := by decide +kernel
  rcases hr : (({ exHalo exLib with rand := exBadRand } : HaloSimulator (List Int)).simulatedVenn
      [2, 1] ⟨3, 0⟩ (1 / 2) 1 exState).1 with e | pts
  · rw [hr] at hrun; simp [Except.toOption] at hrun
  · have := hf _ _ _ _ _ _ _ hr
    rw [hr] at hrun
    simp only [Except.toOption, Option.map_some, Option.some.injEq] at hrun
    match pts, hrun with
    | pt :: rest, hrun =>
      simp only [List.map_cons, List.cons.injEq] at hrun
      have h0 := this pt (by simp) (-7 / 2) (by rw [hrun.1]; simp)
      norm_num at h0

/-- What a successful Venn request with active publishers went through. -/
theorem venn_steps (h : HaloSimulator S) (spends : List ℚ) (budget : PrivacyBudget ℚ) (split : ℚ)
    (F : Int) (st : HaloState) (pts : List ReachPoint)
    (hr : (h.simulatedVenn spends budget split F st).1 = .ok pts) (hne : pts ≠ []) :
    ∃ sampled c st1 st2 noised scaled st3 st4,
      h.addDpNoise sampled budget split st1 = (.ok noised, st2) ∧
      h.scaleUp noised c budget (1 - split) st3 = (.ok scaled, st4) ∧
      h.generateReachPoints spends scaled = .ok pts := by
  rcases hout : h.simulatedVenn spends budget split F st with ⟨res, st'⟩
  rw [hout] at hr
  simp only at hr
  subst hr
  unfold simulatedVenn at hout
  split at hout
  · simp at hout
  · obtain ⟨regions, s1, _, hout⟩ := HaloM.bind_eq_ok hout
    split at hout
    · simp only [HaloM.pure_apply, Prod.mk.injEq, Except.ok.injEq] at hout
      exact absurd hout.1.symm hne
    · obtain ⟨r, s2, _, hout⟩ := HaloM.bind_eq_ok hout
      obtain ⟨c, s3, _, hout⟩ := HaloM.bind_eq_ok hout
      obtain ⟨k, s4, _, hout⟩ := HaloM.bind_eq_ok hout
      obtain ⟨sampled, s5, _, hout⟩ := HaloM.bind_eq_ok hout
      obtain ⟨noised, s6, h1, hout⟩ := HaloM.bind_eq_ok hout
      obtain ⟨scaled, s7, h2, hout⟩ := HaloM.bind_eq_ok hout
      simp only [HaloM.lift_apply, Prod.mk.injEq] at hout
      exact ⟨sampled, c, _, _, noised, scaled, _, _, h1, h2, hout.1⟩

theorem aggregate_nonneg (sub : List Nat) (table : Dict Nat ℚ) (h : ∀ rv ∈ table, 0 ≤ rv.2) :
    0 ≤ aggregateReach sub table := by
  unfold aggregateReach
  apply List.sum_nonneg
  intro x hx
  obtain ⟨rv, hrv, rfl⟩ := List.mem_map.1 hx
  exact h rv (List.mem_filter.1 hrv).1

/-- Adding publishers to a set never lowers the aggregated reach of a non-negative table. -/
theorem aggregate_mono (sub sub' : List Nat) (hs : sub.Nodup) (hs' : sub'.Nodup)
    (hsub : ∀ i ∈ sub, i ∈ sub') (table : Dict Nat ℚ) (h : ∀ rv ∈ table, 0 ≤ rv.2) :
    aggregateReach sub table ≤ aggregateReach sub' table := by
  unfold aggregateReach
  induction table with
  | nil => simp
  | cons rv table ih =>
    have ih' := ih (fun x hx => h x (by simp [hx]))
    have hrv := h rv (by simp)
    have himp : rv.1 &&& regionOf sub ≠ 0 → rv.1 &&& regionOf sub' ≠ 0 := by
      intro hne h0
      obtain ⟨i, hi⟩ := Nat.exists_testBit_of_ne_zero hne
      rw [Nat.testBit_and, Bool.and_eq_true, testBit_regionOf_nodup sub hs] at hi
      have : (rv.1 &&& regionOf sub').testBit i = true := by
        rw [Nat.testBit_and, Bool.and_eq_true, testBit_regionOf_nodup sub' hs']
        exact ⟨hi.1, hsub i hi.2⟩
      rw [h0] at this
      simp at this
    by_cases h1 : rv.1 &&& regionOf sub ≠ 0
    · have h2 := himp h1
      rw [List.filter_cons_of_pos (by simpa using h1), List.filter_cons_of_pos (by simpa using h2)]
      simp only [List.map_cons, List.sum_cons]
      linarith
    · by_cases h2 : rv.1 &&& regionOf sub' ≠ 0
      · rw [List.filter_cons_of_neg (by simpa using h1), List.filter_cons_of_pos (by simpa using h2)]
        simp only [List.map_cons, List.sum_cons]
        linarith
      · rw [List.filter_cons_of_neg (by simpa using h1), List.filter_cons_of_neg (by simpa using h2)]
        exact ih'

/-- C58 for noise realisations that leave the cardinality estimate non-negative: no reported reach
is negative, and a larger set of publishers never reports less.  Missing: realisations with a
negative cardinality estimate. -/
theorem C58_nonneg_and_monotone_partial (h : HaloSimulator S) (spends : List ℚ)
    (budget : PrivacyBudget ℚ) (split : ℚ) (F : Int) (st : HaloState)
    (hest : ∀ seed eps d x, 0 ≤ h.rand.noiser seed eps 0 (h.rand.normalEstimate d x))
    (hlen : h.dataSet.data.length = spends.length) (pts : List ReachPoint)
    (hr : (h.simulatedVenn spends budget split F st).1 = .ok pts) (hne : pts ≠ []) :
    (∀ pt ∈ pts, ∀ x ∈ pt.kplusReaches, 0 ≤ x) ∧
    ∃ sets : List (Finset Nat),
      (∀ t, t ∈ sets ↔ t.Nonempty ∧ ∀ i ∈ t, isActive spends i) ∧
      List.Forall₂ (fun t pt => pt.spends = some (restrictTo t spends)) sets pts ∧
      ∀ (i j : Nat) (t t' : Finset Nat) (pt pt' : ReachPoint),
        sets[i]? = some t → sets[j]? = some t' → pts[i]? = some pt → pts[j]? = some pt' →
        t ⊆ t' → ∃ x x', pt.reach 1 = .ok x ∧ pt'.reach 1 = .ok x' ∧ x ≤ x' := by
  obtain ⟨sampled, c, s1, s2, noised, scaled, s3, s4, hn, hsc, hg⟩ :=
    venn_steps h spends budget split F st pts hr hne
  obtain ⟨noised', _, hn', _, hn2, _⟩ := C25_noise_nonneg h sampled budget split s1
  rw [hn] at hn'
  cases hn'
  obtain ⟨scaled', _, hs', _, _, _, _, hs2⟩ := C25_scaling h noised hn2 c budget (1 - split) s3
  rw [hsc] at hs'
  cases hs'
  have hpos := hs2 (hest _ _ _ _)
  obtain ⟨pts', sets, imps, hg', _, _, hsets, hall⟩ := C23_reach_points h spends scaled hlen
  rw [hg] at hg'
  cases hg'
  refine ⟨?_, sets, hsets, hall.imp (fun _ _ hh => hh.1), ?_⟩
  · intro pt hpt x hx
    obtain ⟨k, hk, rfl⟩ := List.getElem_of_mem hpt
    obtain ⟨_, _, _, sub, _, _, e6⟩ := hall.get (i := k) (by rw [hall.length_eq]; exact hk) hk
    simp only [List.get_eq_getElem] at e6
    rw [e6, List.mem_singleton] at hx
    rw [hx]
    exact aggregate_nonneg sub scaled hpos
  · intro i j t t' pt pt' hi hj hpi hpj hsub
    obtain ⟨hi1, rfl⟩ := List.getElem?_eq_some_iff.1 hi
    obtain ⟨hj1, rfl⟩ := List.getElem?_eq_some_iff.1 hj
    obtain ⟨hi2, rfl⟩ := List.getElem?_eq_some_iff.1 hpi
    obtain ⟨hj2, rfl⟩ := List.getElem?_eq_some_iff.1 hpj
    obtain ⟨_, _, _, sub, n1, e1, k1⟩ := hall.get hi1 hi2
    obtain ⟨_, _, _, sub', n2, e2, k2⟩ := hall.get hj1 hj2
    simp only [List.get_eq_getElem] at e1 e2 k1 k2
    have hreach : ∀ (p : ReachPoint) (y : ℚ), p.kplusReaches = [y] → p.reach 1 = .ok y := by
      intro p y hp
      unfold ReachPoint.reach
      rw [hp]; rfl
    refine ⟨_, _, hreach _ _ k1, hreach _ _ k2, ?_⟩
    apply aggregate_mono sub sub' n1 n2 _ scaled hpos
    intro l hl
    rw [← List.mem_toFinset, e2]
    apply hsub
    rw [← e1, List.mem_toFinset]; exact hl

/-- The hypothesis holds for noise that rounds a negative estimate up to zero. -/
def exClipRand : RandomLib := { exRand with normalEstimate := fun _ x => max 0 (x - 1) }

example : (∀ seed eps d x, 0 ≤ exClipRand.noiser seed eps 0 (exClipRand.normalEstimate d x)) ∧
    (exHalo exLib).dataSet.data.length = ([2, 1] : List ℚ).length ∧
    ((({ exHalo exLib with rand := exClipRand } : HaloSimulator (List Int)).simulatedVenn
      [2, 1] ⟨3, 0⟩ (1 / 2) 1 exState).1.toOption.map (fun l => l.map (·.kplusReaches)))
      = some [[4 / 3], [4 / 3], [2]] := by
  refine ⟨fun _ _ _ x => ?_, rfl, by decide +kernel⟩
  simp [exClipRand, exRand]

end Verif
