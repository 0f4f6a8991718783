import Verif.Props.Halo
import Verif.Props.VennNonneg
import Verif.Props.RestrictedFit
import Verif.Props.Design

/-!
# Further results on C21, C50, C58 and C61: what is computed where the claims fail

The claims as worded are false of the code for campaigns of at most one impression (C21), names with
colons (C50), a negative noised cardinality (C58) and runs of one round (C61). These theorems need no
such exclusions, or exclude less.
-/

namespace Verif

open Verif.Spec HaloSimulator

variable {S : Type}

/-! ## C21 -/

/-- C21 for every number of impressions: the reported reach is never negative, and it is below the
impressions bought or at most one. -/
theorem C21_reach_bound (h : HaloSimulator S) (spends : List ℚ)
    (budget : PrivacyBudget ℚ) (split : ℚ) (F : Int) (st st' : HaloState) (r : ReachPoint)
    (hr : h.simulatedReachBySpend spends budget split F st = (.ok r, st'))
    (x : ℚ) (hx : r.reach 1 = .ok x) : 0 ≤ x ∧ (x < r.impressions.sum ∨ x ≤ 1) := by
  have hnn := (C20_kplus_nonneg_nonincreasing h spends budget split F st st' r hr).1
  obtain ⟨sk, imps, capped, _, _, hc, hi, hk, _⟩ := h.simulated_ok spends budget split F st st' r hr
  obtain ⟨l, hl⟩ := reach_one_of_kplus r x hx
  refine ⟨hnn x (by rw [hl]; simp), ?_⟩
  rcases lt_or_ge (r.impressions.sum) 2 with h2 | h2
  · right
    have hsum : r.impressions.sum = ((imps.sum : Nat) : ℚ) := by
      rw [hi, Nat.cast_list_sum]
    rw [hsum] at h2
    have h2' : imps.sum ≤ 1 := by
      have : imps.sum < 2 := by exact_mod_cast h2
      omega
    unfold HaloSimulator.capReaches at hc
    rcases h0 : pyIndex (minAccumulate (((h.requestEstimates budget split F st.draws sk).map
        pyRound).map (max 0))) 0 with e | k0
    · rw [h0] at hc; cases hc
    rw [h0] at hc
    simp only [bind, Except.bind, pure, Except.pure, Except.ok.injEq] at hc
    rw [hk] at hl
    split at hc
    · rw [← hc] at hl
      simp only [List.map_cons, List.cons.injEq] at hl
      rw [← hl.1]
      generalize imps.sum = n at h2'
      have : max ((n : Int) - 1) 1 ≤ 1 := by omega
      exact_mod_cast this
    · rename_i hlt
      rw [← hc] at hl
      have hk0 : ((k0 : Int) : ℚ) = x := by
        cases hm : minAccumulate (((h.requestEstimates budget split F st.draws sk).map
          pyRound).map (max 0)) with
        | nil => rw [hm] at hl; simp at hl
        | cons a l' =>
          rw [hm] at hl h0
          simp only [List.map_cons, List.cons.injEq] at hl
          simp [pyIndex] at h0
          rw [← h0]; exact hl.1
      rw [← hk0]
      generalize imps.sum = n at hlt h2'
      have : k0 ≤ 1 := by omega
      exact_mod_cast this
  · exact Or.inl (C21_reach_below_impressions_partial h spends budget split F st st' r hr h2 x hx)

/-- Nothing bought: reach one. Two impressions bought: reach one. -/
example : ((exHalo exLib).simulatedReachBySpend [0, 0] ⟨1, 0⟩ (1 / 2) 1 exState).1.toOption.map
      (fun r => (r.reach 1, r.impressions.sum)) = some (.ok 1, 0) ∧
    ((exHalo exNoisyLib).simulatedReachBySpend [1, 0] ⟨1, 0⟩ (1 / 2) 3 exState).1.toOption.map
      (fun r => (r.reach 1, r.impressions.sum)) = some (.ok 1, 2) := by decide +kernel

/-! ## C58 -/

theorem aggregate_neg (sub : List Nat) (table : Dict Nat ℚ) :
    aggregateReach sub (table.map (fun rv => (rv.1, -rv.2))) = -aggregateReach sub table := by
  unfold aggregateReach
  induction table with
  | nil => simp
  | cons rv table ih =>
    rw [List.map_cons]
    by_cases h1 : rv.1 &&& regionOf sub ≠ 0
    · rw [List.filter_cons_of_pos (by simpa using h1), List.filter_cons_of_pos (by simpa using h1)]
      simp only [List.map_cons, List.sum_cons, ih]
      ring
    · rw [List.filter_cons_of_neg (by simpa using h1), List.filter_cons_of_neg (by simpa using h1)]
      exact ih

theorem scaleUp_one_sign (h : HaloSimulator S) (regions : Dict Nat ℚ)
    (hpos : ∀ rv ∈ regions, 0 ≤ rv.2) (card : ℚ) (budget : PrivacyBudget ℚ) (split : ℚ)
    (st st' : HaloState) (scaled : Dict Nat ℚ)
    (hs : h.scaleUp regions card budget split st = (.ok scaled, st')) :
    (∀ rv ∈ scaled, 0 ≤ rv.2) ∨ (∀ rv ∈ scaled, rv.2 ≤ 0) := by
  have hsum0 : 0 ≤ (regions.map (·.2)).sum := by
    apply List.sum_nonneg
    intro x hx
    obtain ⟨rv, hrv, rfl⟩ := List.mem_map.1 hx
    exact hpos rv hrv
  have key : ∃ f : ℚ, scaled = regions.map (fun rv => (rv.1, rv.2 * f)) := by
    unfold scaleUp at hs
    exact ⟨_, ((Except.ok.inj (Prod.mk.inj hs).1)).symm⟩
  obtain ⟨f, rfl⟩ := key
  rcases le_total 0 f with hf | hf
  · left
    intro rv hrv
    obtain ⟨x, hx, rfl⟩ := List.mem_map.1 hrv
    exact mul_nonneg (hpos x hx) hf
  · right
    intro rv hrv
    obtain ⟨x, hx, rfl⟩ := List.mem_map.1 hrv
    exact mul_nonpos_of_nonneg_of_nonpos (hpos x hx) hf

/-- C58 for every noise realisation: the reported reaches of one request all have the same sign, and
a larger set of publishers never reports a reach of smaller magnitude. -/
theorem C58_one_sign (h : HaloSimulator S) (spends : List ℚ)
    (budget : PrivacyBudget ℚ) (split : ℚ) (F : Int) (st : HaloState)
    (hlen : h.dataSet.data.length = spends.length) (pts : List ReachPoint)
    (hr : (h.simulatedVenn spends budget split F st).1 = .ok pts) (hne : pts ≠ []) :
    ((∀ pt ∈ pts, ∀ x ∈ pt.kplusReaches, 0 ≤ x) ∨ (∀ pt ∈ pts, ∀ x ∈ pt.kplusReaches, x ≤ 0)) ∧
    ∃ sets : List (Finset Nat),
      (∀ t, t ∈ sets ↔ t.Nonempty ∧ ∀ i ∈ t, isActive spends i) ∧
      List.Forall₂ (fun t pt => pt.spends = some (restrictTo t spends)) sets pts ∧
      ∀ (i j : Nat) (t t' : Finset Nat) (pt pt' : ReachPoint),
        sets[i]? = some t → sets[j]? = some t' → pts[i]? = some pt → pts[j]? = some pt' →
        t ⊆ t' → ∃ x x', pt.reach 1 = .ok x ∧ pt'.reach 1 = .ok x' ∧ |x| ≤ |x'| := by
  obtain ⟨sampled, c, s1, s2, noised, scaled, s3, s4, hn, hsc, hg⟩ :=
    venn_steps h spends budget split F st pts hr hne
  obtain ⟨noised', _, hn', _, hn2, _⟩ := C25_noise_nonneg h sampled budget split s1
  rw [hn] at hn'
  cases hn'
  have hsign := scaleUp_one_sign h noised hn2 c budget (1 - split) s3 s4 scaled hsc
  obtain ⟨pts', sets, imps, hg', _, _, hsets, hall⟩ := C23_reach_points h spends scaled hlen
  rw [hg] at hg'
  cases hg'
  have hnegpos : (∀ rv ∈ scaled, rv.2 ≤ 0) →
      ∀ rv ∈ scaled.map (fun rv => (rv.1, -rv.2)), 0 ≤ rv.2 := by
    intro hs rv hrv
    obtain ⟨y, hy, rfl⟩ := List.mem_map.1 hrv
    exact neg_nonneg.2 (hs y hy)
  refine ⟨?_, sets, hsets, hall.imp (fun _ _ hh => hh.1), ?_⟩
  · have hval : ∀ pt ∈ pts, ∀ x ∈ pt.kplusReaches, ∃ sub, x = aggregateReach sub scaled := by
      intro pt hpt x hx
      obtain ⟨k, hk, rfl⟩ := List.getElem_of_mem hpt
      obtain ⟨_, _, _, sub, _, _, e6⟩ := hall.get (i := k) (by rw [hall.length_eq]; exact hk) hk
      simp only [List.get_eq_getElem] at e6
      rw [e6, List.mem_singleton] at hx
      exact ⟨sub, hx⟩
    rcases hsign with hs | hs
    · left
      intro pt hpt x hx
      obtain ⟨sub, rfl⟩ := hval pt hpt x hx
      exact aggregate_nonneg sub scaled hs
    · right
      intro pt hpt x hx
      obtain ⟨sub, rfl⟩ := hval pt hpt x hx
      have := aggregate_nonneg sub _ (hnegpos hs)
      rw [aggregate_neg] at this
      linarith
  · intro i j t t' pt pt' hi hj hpi hpj hsub
    obtain ⟨hi1, rfl⟩ := List.getElem?_eq_some_iff.1 hi
    obtain ⟨hj1, rfl⟩ := List.getElem?_eq_some_iff.1 hj
    obtain ⟨hi2, rfl⟩ := List.getElem?_eq_some_iff.1 hpi
    obtain ⟨hj2, rfl⟩ := List.getElem?_eq_some_iff.1 hpj
    obtain ⟨_, _, _, sub, n1, e1, k1⟩ := hall.get hi1 hi2
    obtain ⟨_, _, _, sub', n2, e2, k2⟩ := hall.get hj1 hj2
    simp only [List.get_eq_getElem] at e1 e2 k1 k2
    have hreach : ∀ (p : ReachPoint) (y : ℚ), p.kplusReaches = [y] → p.reach 1 = .ok y := by
      intro p y hp
      unfold ReachPoint.reach
      rw [hp]; rfl
    refine ⟨_, _, hreach _ _ k1, hreach _ _ k2, ?_⟩
    have hss : ∀ l ∈ sub, l ∈ sub' := by
      intro l hl
      rw [← List.mem_toFinset, e2]
      apply hsub
      rw [← e1, List.mem_toFinset]; exact hl
    rcases hsign with hs | hs
    · rw [abs_of_nonneg (aggregate_nonneg sub scaled hs),
        abs_of_nonneg (aggregate_nonneg sub' scaled hs)]
      exact aggregate_mono sub sub' n1 n2 hss scaled hs
    · have a1 := aggregate_nonneg sub _ (hnegpos hs)
      have a2 := aggregate_nonneg sub' _ (hnegpos hs)
      have a3 := aggregate_mono sub sub' n1 n2 hss _ (hnegpos hs)
      rw [aggregate_neg] at a1 a2
      rw [aggregate_neg, aggregate_neg] at a3
      rw [abs_of_nonpos (by linarith), abs_of_nonpos (by linarith)]
      exact a3

/-- A realisation with a negative cardinality: every reach is negative, that of both publishers
has the largest magnitude. -/
example : (exHalo exLib).dataSet.data.length = ([2, 1] : List ℚ).length ∧
    ((({ exHalo exLib with rand := exBadRand } : HaloSimulator (List Int)).simulatedVenn
      [2, 1] ⟨3, 0⟩ (1 / 2) 1 exState).1.toOption.map (fun l => l.map (·.kplusReaches)))
      = some [[-7 / 2], [-7], [-7]] := ⟨rfl, by decide +kernel⟩

/-! ## C61 -/

/-- C61 for any number of rounds, exactly: a run that made `n + 1` rounds reports convergence if and
only if its last round improved the loss by at most the configured improvement - or, for a single
round, by at most one more than that. -/
theorem C61_converged_iff (p : Nat) (pts : List RestrictedPoint) (mi : ℚ) (maxRounds : Nat)
    (orders : Nat → List Nat) (lbd : Nat → ℚ) (fit fit' : Restricted.LocalFit) (n : Nat)
    (h : Restricted.fitOneInit p pts mi maxRounds orders lbd = some fit) (hn : fit.rounds = n + 1)
    (h' : Restricted.fitOneInit p pts mi n orders lbd = some fit') :
    fit.converge = true ↔
      Restricted.loss p pts fit'.lbd - (if n = 0 then mi + 1 else mi) ≤
        Restricted.loss p pts fit.lbd := by
  unfold Restricted.fitOneInit at h h'
  obtain ⟨f, a1, _, a3, a4, a5, a6⟩ := fitLoop_last p pts mi orders maxRounds lbd _ _ 0 fit n h (by omega)
  rw [h'] at a1
  obtain rfl : fit' = f := by simpa using a1
  rw [a3, decide_eq_true_iff, a4]
  by_cases hn0 : n = 0
  · subst hn0
    rw [if_pos rfl, a6 rfl]
    simp only [Restricted.fitLoop, Option.some.injEq] at h'
    rw [← h']
    constructor <;> intro hh <;> linarith
  · rw [if_neg hn0, a5 hn0]

/-- C61: a run stops before the maximal number of rounds only if it reports convergence. -/
theorem C61_stops_converged (p : Nat) (pts : List RestrictedPoint) (mi : ℚ) (maxRounds : Nat)
    (orders : Nat → List Nat) (lbd : Nat → ℚ) (fit : Restricted.LocalFit)
    (h : Restricted.fitOneInit p pts mi maxRounds orders lbd = some fit) :
    fit.rounds ≤ maxRounds ∧ (fit.rounds < maxRounds → fit.converge = true) := by
  unfold Restricted.fitOneInit at h
  have gen : ∀ (left : Nat) (lbd : Nat → ℚ) (prev cur : ℚ) (n : Nat),
      Restricted.fitLoop p pts mi orders left lbd prev cur n = some fit →
      fit.rounds ≤ n + left ∧ (fit.rounds < n + left → fit.converge = true) := by
    intro left
    induction left with
    | zero =>
      intro lbd prev cur n h
      simp only [Restricted.fitLoop, Option.some.injEq] at h
      rw [← h]
      exact ⟨le_rfl, fun hh => absurd hh (lt_irrefl _)⟩
    | succ left ih =>
      intro lbd prev cur n h
      unfold Restricted.fitLoop at h
      split at h
      · split at h
        · cases h
        · have := ih _ _ _ _ h
          rw [show n + (left + 1) = n + 1 + left by omega]
          exact this
      · rename_i hc
        simp only [Option.some.injEq] at h
        rw [← h]
        refine ⟨by simp, fun _ => ?_⟩
        simpa using hc
  simpa using gen maxRounds lbd _ _ 0 h

theorem exOnePoint_round : Restricted.round 2 exOnePoint (fun j => if j = 1 then 1 else 0) [0, 1]
    = some (Function.update (Function.update (fun j => if j = 1 then 1 else 0) 0 (7 / 10)) 1 1) := by
  have s1 : Restricted.step 2 exOnePoint (fun j => if j = 1 then 1 else 0) 0 = some (7 / 10) := by
    decide +kernel
  have s2 : Restricted.step 2 exOnePoint
      (Function.update (fun j => if j = 1 then 1 else 0) 0 (7 / 10)) 1 = some 1 := by
    decide +kernel
  unfold Restricted.round
  rw [s1]
  simp only
  unfold Restricted.round
  rw [s2]
  rfl

/-- A run of one round, stopped before the maximum, that reports convergence. -/
example : ∃ fit, Restricted.fitOneInit 2 exOnePoint (1 / 1000) 1000 (fun _ => [0, 1])
      (fun j => if j = 1 then 1 else 0) = some fit ∧ fit.rounds = 1 ∧ fit.converge = true ∧
    ∃ fit', Restricted.fitOneInit 2 exOnePoint (1 / 1000) 0 (fun _ => [0, 1])
      (fun j => if j = 1 then 1 else 0) = some fit' := by
  have hl : Restricted.loss 2 exOnePoint (fun j => if j = 1 then 1 else 0) = 49 / 100 := by
    simp [Restricted.loss, exOnePoint, Restricted.fitted]
    norm_num
  have hl2 : Restricted.loss 2 exOnePoint
      (Function.update (Function.update (fun j => if j = 1 then 1 else 0) 0 (7 / 10)) 1 1) = 0 := by
    decide +kernel
  refine ⟨⟨Function.update (Function.update (fun j => if j = 1 then 1 else 0) 0 (7 / 10)) 1 1, 0,
    true, 1⟩, ?_, rfl, rfl, _, rfl⟩
  unfold Restricted.fitOneInit
  rw [hl]
  unfold Restricted.fitLoop
  rw [if_pos (by norm_num), exOnePoint_round]
  simp only
  unfold Restricted.fitLoop
  rw [hl2, if_neg (by norm_num)]
  norm_num

/-! ## C50 -/

theorem append_sep_inj_last {a b c d : List Char} {x : Char} (hc : x ∉ c) (hd : x ∉ d)
    (h : a ++ x :: c = b ++ x :: d) : a = b ∧ c = d := by
  have h1 := congrArg List.reverse h
  simp only [List.reverse_append, List.reverse_cons, List.append_assoc, List.cons_append,
    List.nil_append] at h1
  obtain ⟨h2, h3⟩ := append_sep_inj (by simpa using hc) (by simpa using hd) h1
  exact ⟨List.reverse_injective h3, List.reverse_injective h2⟩

theorem trialName_inj_of_descriptor {c d : TrialConfig} (hc : ':' ∉ c.descriptor.toList)
    (hd : ':' ∉ d.descriptor.toList) : trialName c = trialName d ↔ trialKey c = trialKey d := by
  constructor
  · intro h
    have h1 := congrArg String.toList h
    simp only [trialName, String.toList_append] at h1
    have h2 : ("::" : String).toList = [':', ':'] := by decide
    rw [h2] at h1
    rw [show c.dataSetName.toList ++ [':', ':'] ++ c.descriptor.toList
        = (c.dataSetName.toList ++ [':']) ++ ':' :: c.descriptor.toList by simp,
      show d.dataSetName.toList ++ [':', ':'] ++ d.descriptor.toList
        = (d.dataSetName.toList ++ [':']) ++ ':' :: d.descriptor.toList by simp] at h1
    obtain ⟨h3, h4⟩ := append_sep_inj_last hc hd h1
    exact Prod.ext (String.toList_injective (List.append_cancel_right h3))
      (String.toList_injective h4)
  · intro h
    simp only [trialKey, Prod.mk.injEq] at h
    simp [trialName, h.1, h.2]

/-- **C50 (partial, trials with any data set names).** If no description contains a colon, a design
has exactly one trial per distinct data set and description, whatever the data sets are called.
Missing: names with colons together with descriptions with colons. -/
theorem C50_descriptions_partial (dir analysisType : String) (descs : List Descriptor)
    (names : List String) (hdescs : ∀ d ∈ descs, ∀ n ∈ names, ':' ∉ (d n).1.toList) :
    FirstOfEach trialKey (names.flatMap (experimentTrials dir analysisType descs))
      (designTrials dir analysisType descs names) := by
  have hm : ∀ t ∈ names.flatMap (experimentTrials dir analysisType descs),
      ':' ∉ t.descriptor.toList := by
    intro t ht
    obtain ⟨n, hn, ht⟩ := List.mem_flatMap.1 ht
    obtain ⟨d, hd, rfl⟩ := List.mem_map.1 ht
    exact hdescs d hd n hn
  exact firstOfEach_congr trialName trialKey
    (fun t ht u hu => trialName_inj_of_descriptor (hm t ht) (hm u hu))
    (C50_by_name dir analysisType descs names)

/-- Data sets `x` and `x::y` with descriptions without colons. -/
example : (∀ d ∈ exDescs.drop 1, ∀ n ∈ ["x", "x::y"], ':' ∉ (d n).1.toList) ∧
    (designTrials "d/e" "" (exDescs.drop 1) ["x", "x::y"]).map trialKey =
      [("x", "m,size=a"), ("x", "k"), ("x::y", "m,size=a"), ("x::y", "k")] := by
  decide +kernel

end Verif
