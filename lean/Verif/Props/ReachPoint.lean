import Verif.Lemmas.ReachPoint
import Verif.Lemmas.Dict
import Mathlib.Tactic.NormNum
import Mathlib.Algebra.Order.BigOperators.Group.List

/-!
# C13–C15: reach points
-/

namespace Verif

open ReachPoint

/-! ## C15: accessors -/

/-- C15 (a): `reach(k)` succeeds exactly for `1 ≤ k ≤ F`, and then is the `k`-th stored value;
everything else (zero, negative, too large) is a `ValueError`. -/
theorem C15_reach_accessor (imps ks : List ℚ) (sp : Option (List ℚ)) (us : Option ℚ)
    (r : ReachPoint) (hr : ReachPoint.new imps ks sp us = .ok r) (k : Int) :
    (1 ≤ k ∧ k ≤ ks.length → ∃ v, r.reach k = .ok v ∧ ks[(k - 1).toNat]? = some v) ∧
    (¬ (1 ≤ k ∧ k ≤ ks.length) → r.reach k = .error .valueError) := by
  unfold ReachPoint.new at hr
  split at hr
  · simp at hr
  · simp only [Except.ok.injEq] at hr
    subst hr
    constructor
    · rintro ⟨h1, h2⟩
      have hlt : (k - 1).toNat < ks.length := by omega
      refine ⟨ks[(k - 1).toNat], ?_, List.getElem?_eq_getElem hlt⟩
      have hn : ¬ (k - 1 < 0) := by omega
      simp only [ReachPoint.reach, show 0 < k by omega, h2, and_self, if_true, pyIndex, hn,
        if_false]
      rw [List.getElem?_eq_getElem hlt]
    · intro h
      have : ¬ (0 < k ∧ k ≤ (ks.length : Int)) := fun h' => h ⟨by omega, h'.2⟩
      simp only [ReachPoint.reach, this, if_false]

/-- C15 (b): `frequency(k)` succeeds exactly for `1 ≤ k < F`, and then is the difference of the
`k+` and `(k+1)+` reaches. -/
theorem C15_frequency_accessor (imps ks : List ℚ) (sp : Option (List ℚ)) (us : Option ℚ)
    (r : ReachPoint) (hr : ReachPoint.new imps ks sp us = .ok r) (k : Int) :
    (1 ≤ k ∧ k < ks.length → ∃ v w, r.reach k = .ok v ∧ r.reach (k + 1) = .ok w ∧
        r.frequency k = .ok (v - w)) ∧
    (¬ (1 ≤ k ∧ k < ks.length) → r.frequency k = .error .valueError) := by
  have hA := C15_reach_accessor imps ks sp us r hr
  constructor
  · rintro ⟨h1, h2⟩
    obtain ⟨v, hv, hv'⟩ := (hA k).1 ⟨h1, by omega⟩
    obtain ⟨w, hw, hw'⟩ := (hA (k+1)).1 ⟨by omega, by omega⟩
    refine ⟨v, w, hv, hw, ?_⟩
    unfold ReachPoint.new at hr
    split at hr
    · simp at hr
    · simp only [Except.ok.injEq] at hr
      subst hr
      have hn : ¬ (k - 1 < 0) := by omega
      simp only [ReachPoint.frequency, show 0 < k by omega, h2, and_self, if_true, pyIndex, hn,
        if_false]
      have hz : (successiveDifferences ks)[(k-1).toNat]? = some (v - w) := by
        unfold successiveDifferences
        rw [List.getElem?_zipWith, hv']
        have : ks.tail[(k-1).toNat]? = some w := by
          rw [List.getElem?_tail]
          rw [← hw']
          congr 1; omega
        rw [this]
      rw [hz]
  · intro h
    unfold ReachPoint.new at hr
    split at hr
    · simp at hr
    · simp only [Except.ok.injEq] at hr
      subst hr
      have : ¬ (0 < k ∧ k < (ks.length : Int)) := fun h' => h ⟨by omega, h'.2⟩
      simp only [ReachPoint.frequency, this, if_false]

theorem successiveDifferences_cons_cons (a b : ℚ) (l : List ℚ) :
    successiveDifferences (a :: b :: l) = (a - b) :: successiveDifferences (b :: l) := by
  simp [successiveDifferences]

theorem differences_append_last_sum (a : ℚ) (l : List ℚ) :
    (successiveDifferences (a :: l) ++ [(a :: l).getLast (by simp)]).sum = a := by
  induction l generalizing a with
  | nil => simp [successiveDifferences]
  | cons b l ih =>
    rw [successiveDifferences_cons_cons]
    have := ih b
    simp only [List.cons_append, List.sum_cons, List.getLast_cons_cons] at this ⊢
    rw [this]; ring

theorem pyIndex_neg_one {α : Type} (l : List α) (h : l ≠ []) :
    pyIndex l (-1) = .ok (l.getLast h) := by
  have hl : 0 < l.length := List.length_pos_iff.2 h
  unfold pyIndex
  have h1 : ((-1 : Int) < 0) := by omega
  have h2 : ¬ (((-1 : Int) + l.length) < 0) := by omega
  simp only [h1, if_true, h2, if_false]
  have h3 : ((-1 : Int) + l.length).toNat = l.length - 1 := by omega
  rw [h3, List.getElem?_eq_getElem (by omega), List.getLast_eq_getElem]

/-- C15 (c): the zero-included histogram exists exactly when a universe size is known (and there
is at least one reach), has `F + 1` entries and adds up to the universe size. -/
theorem C15_zero_included_histogram (imps ks : List ℚ) (sp : Option (List ℚ)) (us : Option ℚ)
    (r : ReachPoint) (hr : ReachPoint.new imps ks sp us = .ok r) (hks : ks ≠ []) :
    (us = none → r.zeroIncludedHistogram = .error .valueError) ∧
    (∀ u, us = some u → ∃ h, r.zeroIncludedHistogram = .ok h ∧ h.length = ks.length + 1 ∧
      h.sum = u ∧ ∃ r1, r.reach 1 = .ok r1 ∧ h.head? = some (u - r1)) := by
  have hA := C15_reach_accessor imps ks sp us r hr
  have hlen : 0 < ks.length := List.length_pos_iff.2 hks
  obtain ⟨r1, hr1, hr1'⟩ := (hA 1).1 ⟨le_rfl, by omega⟩
  unfold ReachPoint.new at hr
  split at hr
  · simp at hr
  · simp only [Except.ok.injEq] at hr
    subst hr
    constructor
    · rintro rfl; rfl
    · rintro u rfl
      have hlast := pyIndex_neg_one ks hks
      refine ⟨(u - r1) :: (successiveDifferences ks ++ [ks.getLast hks]), ?_, ?_, ?_, r1, hr1, rfl⟩
      · simp only [zeroIncludedHistogram, hr1, frequenciesWithKplusBucket, hlast,
          ReachPoint.universeSize]
        rfl
      · simp [successiveDifferences]; omega
      · obtain ⟨a, l, rfl⟩ := List.exists_cons_of_ne_nil hks
        rw [List.sum_cons, differences_append_last_sum]
        have : r1 = a := by simpa using hr1'.symm
        rw [this]; ring

example : ∃ r, ReachPoint.new [10, 20] [9, 5, 2] (some [1, 2]) (some 100) = .ok r ∧
    r.reach 3 = .ok 2 ∧ r.reach 4 = .error .valueError ∧ r.reach 0 = .error .valueError ∧
    r.frequency 2 = .ok 3 ∧ r.zeroIncludedHistogram = .ok [91, 4, 3, 2] :=
  ⟨_, rfl, by decide +kernel, by decide +kernel, by decide +kernel, by decide +kernel,
    by decide +kernel⟩

/-- The constructor refuses exactly the non-empty spend lists of another length, with a
`ValueError`. -/
theorem C15_constructor (imps ks : List ℚ) (sp : Option (List ℚ)) (us : Option ℚ) :
    ((∃ r, ReachPoint.new imps ks sp us = .ok r ∧ r.impressions = imps ∧ r.kplusReaches = ks) ↔
      ¬ (∃ l, sp = some l ∧ l ≠ [] ∧ l.length ≠ imps.length)) ∧
    (∀ l, sp = some l → l ≠ [] → l.length ≠ imps.length →
      ReachPoint.new imps ks sp us = .error .valueError) := by
  refine ⟨?_, ?_⟩
  swap
  · rintro l rfl h1 h2
    unfold ReachPoint.new
    rw [if_pos]
    refine ⟨?_, fun e => h2 e.symm⟩
    cases l with
    | nil => exact absurd rfl h1
    | cons a l => rfl
  unfold ReachPoint.new
  cases sp with
  | none => simp [truthySpends]
  | some l =>
    cases l with
    | nil => simp [truthySpends]
    | cons a l =>
      simp only [truthySpends, List.isEmpty_cons, Bool.not_false, true_and, Option.getD_some,
        Option.some.injEq, exists_eq_left', ne_eq, not_and, not_not]
      by_cases h : imps.length = (a :: l).length
      · simp [h]
      · have h' : ¬ (a :: l).length = imps.length := fun e => h e.symm
        simp only [h, h', not_false_eq_true, if_true, reduceCtorEq, false_and, exists_false,
          false_iff]
        intro hc
        exact hc (by simp)

/-! ## C13: frequency histograms and k+ reaches -/

/-- C13 (a): converting the frequency histogram (with the F+ bucket) of a reach point back to k+
reaches returns the stored reaches. -/
theorem C13_kplus_roundtrip (imps ks : List ℚ) (sp : Option (List ℚ)) (us : Option ℚ)
    (r : ReachPoint) (hr : ReachPoint.new imps ks sp us = .ok r) (hks : ks ≠ []) :
    ∃ fs, r.frequenciesWithKplusBucket = .ok fs ∧ fs.length = ks.length ∧
      frequenciesToKplusReaches fs = ks := by
  unfold ReachPoint.new at hr
  split at hr
  · simp at hr
  · simp only [Except.ok.injEq] at hr
    subst hr
    refine ⟨successiveDifferences ks ++ [ks.getLast hks], ?_, ?_, ?_⟩
    · simp only [frequenciesWithKplusBucket, pyIndex_neg_one ks hks]; rfl
    · have : 0 < ks.length := List.length_pos_iff.2 hks
      simp [successiveDifferences]; omega
    · unfold frequenciesToKplusReaches
      rw [suffixLoop_eq _ (by simp)]
      have key : ∀ (l : List ℚ) (h : l ≠ []),
          suffixSums (successiveDifferences l ++ [l.getLast h]) = l := by
        intro l
        induction l with
        | nil => intro h; exact absurd rfl h
        | cons a l ih =>
          intro h
          cases l with
          | nil => simp [successiveDifferences, suffixSums]
          | cons b l =>
            have hih := ih (by simp)
            have hsum := differences_append_last_sum a (b :: l)
            rw [successiveDifferences_cons_cons] at hsum ⊢
            simp only [List.cons_append, List.getLast_cons_cons] at hsum ⊢
            unfold suffixSums at hih ⊢
            rw [List.length_cons, List.range_succ_eq_map, List.map_cons, List.map_map]
            rw [List.drop_zero, hsum]
            congr 1
      exact key ks hks

/-- C13 (b): conversely, any histogram is recovered from its k+ reaches as the frequencies of
the reach point built on them. -/
theorem C13_frequency_roundtrip (fs imps : List ℚ) (hfs : fs ≠ []) :
    ∃ r, ReachPoint.new imps (frequenciesToKplusReaches fs) = .ok r ∧
      r.frequenciesWithKplusBucket = .ok fs := by
  refine ⟨_, rfl, ?_⟩
  unfold frequenciesToKplusReaches
  rw [suffixLoop_eq _ hfs]
  have hne : suffixSums fs ≠ [] := by
    intro h
    have := suffixSums_length fs
    rw [h] at this
    exact hfs (List.length_eq_zero_iff.1 this.symm)
  simp only [frequenciesWithKplusBucket, pyIndex_neg_one _ hne]
  have key : ∀ (l : List ℚ) (h : suffixSums l ≠ []),
      successiveDifferences (suffixSums l) ++ [(suffixSums l).getLast h] = l := by
    intro l
    induction l with
    | nil => intro h; simp [suffixSums] at h
    | cons a l ih =>
      intro h
      have hcons : suffixSums (a :: l) = (a + l.sum) :: suffixSums l := by
        simp [suffixSums, List.range_succ_eq_map, Function.comp_def]
      cases l with
      | nil => simp [suffixSums, successiveDifferences]
      | cons b l =>
        have hne' : suffixSums (b :: l) ≠ [] := by
          intro h'
          have := suffixSums_length (b :: l)
          rw [h'] at this; simp at this
        have hih := ih hne'
        have hcons' : suffixSums (b :: l) = (b + l.sum) :: suffixSums l := by
          simp [suffixSums, List.range_succ_eq_map, Function.comp_def]
        have e1 : successiveDifferences (suffixSums (a :: b :: l))
            = a :: successiveDifferences (suffixSums (b :: l)) := by
          rw [hcons, hcons', successiveDifferences_cons_cons, List.sum_cons]
          congr 1; ring
        have e2 : (suffixSums (a :: b :: l)).getLast h = (suffixSums (b :: l)).getLast hne' := by
          simp only [hcons]
          rw [List.getLast_cons hne']
        rw [e1, e2, List.cons_append, hih]
  have := key fs hne
  simp only [bind, Except.bind, pure, Except.pure]
  rw [this]

/-- C13 (c): k+ reaches that never increase give non-negative frequencies. -/
theorem C13_nonneg_frequencies (imps ks : List ℚ) (sp : Option (List ℚ)) (us : Option ℚ)
    (r : ReachPoint) (hr : ReachPoint.new imps ks sp us = .ok r)
    (hmono : ks.Pairwise (· ≥ ·)) : ∀ f ∈ r.frequencies, 0 ≤ f := by
  unfold ReachPoint.new at hr
  split at hr
  · simp at hr
  · simp only [Except.ok.injEq] at hr
    subst hr
    simp only
    induction ks with
    | nil => simp [successiveDifferences]
    | cons a l ih =>
      cases l with
      | nil => simp [successiveDifferences]
      | cons b l =>
        rw [successiveDifferences_cons_cons]
        intro f hf
        rw [List.pairwise_cons] at hmono
        rcases List.mem_cons.1 hf with rfl | hf
        · have := hmono.1 b (by simp); linarith
        · exact ih hmono.2 f hf

/-- Conversely non-negative frequencies give non-increasing k+ reaches. -/
theorem C13_kplus_nonincreasing (fs : List ℚ) (h : ∀ f ∈ fs, 0 ≤ f) :
    (frequenciesToKplusReaches fs).Pairwise (· ≥ ·) := by
  unfold frequenciesToKplusReaches
  by_cases hne : fs = []
  · subst hne; simp [suffixLoop]
  rw [suffixLoop_eq _ hne]
  clear hne
  induction fs with
  | nil => simp [suffixSums]
  | cons a l ih =>
    have hcons : suffixSums (a :: l) = (a + l.sum) :: suffixSums l := by
      simp [suffixSums, List.range_succ_eq_map, Function.comp_def]
    rw [hcons, List.pairwise_cons]
    refine ⟨?_, ih (fun f hf => h f (by simp [hf]))⟩
    intro b hb
    have ha := h a (by simp)
    obtain ⟨i, _, rfl⟩ := List.mem_map.1 hb
    have h1 : (l.take i).sum + (l.drop i).sum = l.sum := by
      rw [← List.sum_append, List.take_append_drop]
    have h2 : 0 ≤ (l.take i).sum :=
      List.sum_nonneg (fun x hx => h x (by simp [List.mem_of_mem_take hx]))
    show (l.drop i).sum ≤ a + l.sum
    linarith

example : ∃ r, ReachPoint.new [10] [9, 5, 2] = .ok r ∧
    r.frequenciesWithKplusBucket = .ok [4, 3, 2] ∧ ([9, 5, 2] : List ℚ).Pairwise (· ≥ ·) :=
  ⟨_, rfl, by decide +kernel, by decide +kernel⟩

/-! ## C14: user counts -/

/-- C14, full claim: for every map of users to counts and every `F ≥ 1`, entry `i` of the k+
reaches is the number of users with at least `i + 1` exposures. -/
def C14_full : Prop :=
  ∀ (counts : Dict Int Int) (F : Nat), 1 ≤ F → (∀ kv ∈ counts, 0 ≤ kv.2) →
    ∃ h, userCountsToKplusReaches counts F = .ok h ∧ h.length = F ∧
      ∀ i < F, h[i]? = some ((counts.countP (fun kv => (i : Int) + 1 ≤ kv.2) : Nat) : Int)

/-- C14 is false of the code: a user with zero exposures has bucket index `-1`, which Python
reads as the last bucket, so the user is counted as reached `F` times. -/
theorem C14_full_is_false : ¬ C14_full := by
  intro h
  obtain ⟨l, h1, _, h2⟩ := h [(5, 0)] 2 (by omega) (by simp)
  have e : userCountsToKplusReaches ([(5, 0)] : Dict Int Int) (2 : Nat) = .ok [1, 1] := by
    decide +kernel
  rw [e] at h1
  simp only [Except.ok.injEq] at h1
  subst h1
  have := h2 0 (by omega)
  simp at this

/-- C14 for maps in which every count is positive (missing: zero counts, where it is false):
the conversion succeeds, bucket `i` holds the users with exactly `i + 1` exposures, the last one
those with at least `F`. -/
theorem C14_frequencies_partial (counts : Dict Int Int) (F : Nat) (hF : 1 ≤ F)
    (hpos : ∀ kv ∈ counts, 1 ≤ kv.2) :
    ∃ h, userCountsToFrequencies counts F = .ok h ∧ h.length = F ∧
      (∀ i, i + 1 < F → h[i]? = some ((counts.countP (fun kv => kv.2 = (i : Int) + 1) : Nat) : Int)) ∧
      h[F - 1]? = some ((counts.countP (fun kv => (F : Int) ≤ kv.2) : Nat) : Int) := by
  have hp : ∀ c ∈ counts.map (·.2), 1 ≤ c := by
    intro c hc
    obtain ⟨kv, hkv, rfl⟩ := List.mem_map.1 hc
    exact hpos kv hkv
  obtain ⟨h, h1, h2, h3, _⟩ := histogram_ok F hF (counts.map (·.2)) hp
  refine ⟨h, h1, h2, ?_, ?_⟩
  · intro i hi
    rw [h3 i (by omega), List.countP_map]
    congr 2
    apply List.countP_congr
    intro kv _
    simp only [Function.comp, decide_eq_true_eq]
    omega
  · rw [h3 (F-1) (by omega), List.countP_map]
    congr 2
    apply List.countP_congr
    intro kv _
    simp only [Function.comp, decide_eq_true_eq]
    omega

/-- C14 for k+ reaches, for maps in which every count is positive. -/
theorem C14_kplus_partial (counts : Dict Int Int) (F : Nat) (hF : 1 ≤ F)
    (hpos : ∀ kv ∈ counts, 1 ≤ kv.2) :
    ∃ h, userCountsToKplusReaches counts F = .ok h ∧ h.length = F ∧
      ∀ i < F, h[i]? = some ((counts.countP (fun kv => (i : Int) + 1 ≤ kv.2) : Nat) : Int) := by
  have hp : ∀ c ∈ counts.map (·.2), 1 ≤ c := by
    intro c hc
    obtain ⟨kv, hkv, rfl⟩ := List.mem_map.1 hc
    exact hpos kv hkv
  obtain ⟨h, h1, h2, _, h4⟩ := histogram_ok F hF (counts.map (·.2)) hp
  have hne : h ≠ [] := by rintro rfl; simp at h2; omega
  have hF' : ((F : Int) - 1).toNat = h.length - 1 := by omega
  refine ⟨suffixSums h, ?_, ?_, ?_⟩
  · simp only [userCountsToKplusReaches, userCountsToFrequencies, h1, hF']
    simp only [bind, Except.bind, pure, Except.pure]
    rw [suffixLoop_eq h hne]
  · rw [suffixSums_length, h2]
  · intro i hi
    rw [suffixSums_getElem? h i (by omega), h4 i hi, List.countP_map]
    rfl

example : userCountsToKplusReaches ([(1, 1), (2, 3), (3, 7)] : Dict Int Int) 3 = .ok [3, 2, 2] ∧
    (∀ kv ∈ ([(1, 1), (2, 3), (3, 7)] : Dict Int Int), 1 ≤ kv.2) := by
  constructor
  · decide +kernel
  · simp

end Verif
