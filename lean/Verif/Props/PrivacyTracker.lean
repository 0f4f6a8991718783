import Verif.Lemmas.PrivacyTracker
import Mathlib.Tactic.NormNum
import Mathlib.Data.Rat.Floor
import Mathlib.Data.List.Pairwise

/-!
# C16–C17: the privacy tracker

`PrivacyTracker.run es` is the tracker after appending the noising events `es` in order.
-/

namespace Verif

open Verif.Spec

variable {K : Type} [Field K] [LinearOrder K] [IsStrictOrderedRing K] [FloorRing K]

/-- C16: after any history of well-formed events, the reported epsilon (delta) is the greatest
epsilon (delta) loss of any user, at whatever position of the circle. -/
theorem C16_worst_case_user (es : List (NoisingEvent K)) (hv : ∀ e ∈ es, ValidEvent e) :
    IsGreatest (losses (·.budget.epsilon) es) (PrivacyTracker.run es).privacyConsumption.epsilon ∧
    IsGreatest (losses (·.budget.delta) es) (PrivacyTracker.run es).privacyConsumption.delta := by
  obtain ⟨h1, h2⟩ := run_eq es
  obtain ⟨e1, e2⟩ := privacyConsumption_split (PrivacyTracker.run es)
  rw [e1, e2]
  constructor
  · exact fold_starts_greatest _ es hv (fun e he => (hv e he).2.2.2.2.1) _ h2 _
      (fun x => (consumptionForBucket_eq es x _ h1).1)
  · exact fold_starts_greatest _ es hv (fun e he => (hv e he).2.2.2.2.2) _ h2 _
      (fun x => (consumptionForBucket_eq es x _ h1).2)

/-- C16 (b): the per-position report is the loss of the user at that position. -/
theorem C16_per_bucket (es : List (NoisingEvent K)) (hv : ∀ e ∈ es, ValidEvent e) (x : K)
    (h0 : 0 ≤ x) (h1 : x < 1) :
    ((PrivacyTracker.run es).consumptionForBucket x).epsilon = userLoss (·.budget.epsilon) es x ∧
    ((PrivacyTracker.run es).consumptionForBucket x).delta = userLoss (·.budget.delta) es x := by
  obtain ⟨hr, _⟩ := run_eq es
  rw [userLoss_eq _ es hv x h0 h1, userLoss_eq _ es hv x h0 h1]
  exact consumptionForBucket_eq es x _ hr

/-- Three events on the circle: `[1/2, 1)`, `[3/4, 5/4)` (wrapping) and everything. -/
def exEvents : List (NoisingEvent ℚ) :=
  [ ⟨⟨1, 1/10⟩, "Laplace", ⟨1/2, 1/2⟩⟩, ⟨⟨2, 1/5⟩, "Gaussian", ⟨3/4, 1/2⟩⟩,
    ⟨⟨1/4, 0⟩, "Laplace", ⟨0, 1⟩⟩ ]

example : (∀ e ∈ exEvents, ValidEvent e) ∧
    (PrivacyTracker.run exEvents).privacyConsumption = ⟨13/4, 3/10⟩ := by
  refine ⟨?_, by decide +kernel⟩
  simp only [exEvents, List.mem_cons, List.not_mem_nil, or_false, ValidEvent]
  rintro e (rfl | rfl | rfl) <;> norm_num

/-! ## C17 -/

/-- C17 (a): recording one more event never lowers the report. -/
theorem C17_append_monotone (es : List (NoisingEvent K)) (e : NoisingEvent K)
    (hv : ∀ e' ∈ es ++ [e], ValidEvent e') :
    (PrivacyTracker.run es).privacyConsumption.epsilon
      ≤ ((PrivacyTracker.run es).append e).privacyConsumption.epsilon ∧
    (PrivacyTracker.run es).privacyConsumption.delta
      ≤ ((PrivacyTracker.run es).append e).privacyConsumption.delta := by
  have hrun : (PrivacyTracker.run es).append e = PrivacyTracker.run (es ++ [e]) := by
    simp [PrivacyTracker.run, List.foldl_append]
  rw [hrun]
  obtain ⟨⟨⟨x, hx0, hx1, hx⟩, _⟩, ⟨⟨y, hy0, hy1, hy⟩, _⟩⟩ :=
    C16_worst_case_user es (fun e' he' => hv e' (by simp [he']))
  obtain ⟨⟨_, g1⟩, ⟨_, g2⟩⟩ := C16_worst_case_user (es ++ [e]) hv
  have he := hv e (by simp)
  have key : ∀ (c : NoisingEvent K → K) (x : K), 0 ≤ c e →
      userLoss c es x ≤ userLoss c (es ++ [e]) x := by
    intro c x hce
    classical
    unfold userLoss
    rw [List.filter_append, List.map_append, List.sum_append]
    have : 0 ≤ ((List.filter (fun e => decide (Touches e x)) [e]).map c).sum := by
      apply List.sum_nonneg
      intro y hy
      obtain ⟨e', he', rfl⟩ := List.mem_map.1 hy
      have := (List.mem_filter.1 he').1
      simp only [List.mem_singleton] at this
      rw [this]; exact hce
    linarith
  constructor
  · rw [hx]
    exact le_trans (key _ x he.2.2.2.2.1) (g1 ⟨x, hx0, hx1, rfl⟩)
  · rw [hy]
    exact le_trans (key _ y he.2.2.2.2.2) (g2 ⟨y, hy0, hy1, rfl⟩)

/-- C17 (b): the order in which events were recorded does not matter. -/
theorem C17_order_free (es es' : List (NoisingEvent K)) (hp : es.Perm es')
    (hv : ∀ e ∈ es, ValidEvent e) :
    (PrivacyTracker.run es).privacyConsumption = (PrivacyTracker.run es').privacyConsumption := by
  obtain ⟨g1, g2⟩ := C16_worst_case_user es hv
  obtain ⟨g1', g2'⟩ := C16_worst_case_user es' (fun e he => hv e (hp.mem_iff.2 he))
  have key : ∀ c : NoisingEvent K → K, losses c es = losses c es' := by
    intro c
    unfold losses
    have : ∀ x, userLoss c es x = userLoss c es' x := by
      intro x
      unfold userLoss
      exact ((hp.filter _).map _).sum_eq
    simp only [this]
  rw [key] at g1 g2
  have h1 := g1.unique g1'
  have h2 := g2.unique g2'
  cases hA : (PrivacyTracker.run es).privacyConsumption
  cases hB : (PrivacyTracker.run es').privacyConsumption
  rw [hA, hB] at h1 h2
  simp only at h1 h2
  rw [h1, h2]

/-- C17 (c): the report never exceeds the plain sum of all budgets. -/
theorem C17_at_most_sum (es : List (NoisingEvent K)) (hv : ∀ e ∈ es, ValidEvent e) :
    (PrivacyTracker.run es).privacyConsumption.epsilon ≤ (es.map (·.budget.epsilon)).sum ∧
    (PrivacyTracker.run es).privacyConsumption.delta ≤ (es.map (·.budget.delta)).sum := by
  obtain ⟨⟨⟨x, _, _, hx⟩, _⟩, ⟨⟨y, _, _, hy⟩, _⟩⟩ := C16_worst_case_user es hv
  rw [hx, hy]
  classical
  have key : ∀ (c : NoisingEvent K → K) (x : K), (∀ e ∈ es, 0 ≤ c e) →
      userLoss c es x ≤ (es.map c).sum := by
    intro c x hc
    unfold userLoss
    have := sum_filter_le c es hc (fun e => decide (Touches e x)) (fun _ => true) (by simp)
    simpa using this
  exact ⟨key _ x (fun e he => (hv e he).2.2.2.2.1), key _ y (fun e he => (hv e he).2.2.2.2.2)⟩

theorem touches_full (e : NoisingEvent K) (he : ValidEvent e)
    (hw : e.samplingBuckets.samplingRate = 1) (x : K) (h0 : 0 ≤ x) (h1 : x < 1) : Touches e x := by
  rw [← contains_iff_touches e he x h0 h1]
  unfold SamplingBucketIndices.contains
  rw [hw]
  have := he.1
  have := he.2.1
  by_cases h : e.samplingBuckets.smallestIndex ≤ x
  · rw [if_pos h]; simp only [decide_eq_true_eq]; linarith
  · rw [if_neg h]; simp only [decide_eq_true_eq]; linarith

/-- C17 (d), sequential composition: an event on the whole universe adds exactly its budget. -/
theorem C17_full_event_adds (es : List (NoisingEvent K)) (e : NoisingEvent K)
    (hv : ∀ e' ∈ es ++ [e], ValidEvent e') (hw : e.samplingBuckets.samplingRate = 1) :
    ((PrivacyTracker.run es).append e).privacyConsumption =
      ⟨(PrivacyTracker.run es).privacyConsumption.epsilon + e.budget.epsilon,
       (PrivacyTracker.run es).privacyConsumption.delta + e.budget.delta⟩ := by
  have hrun : (PrivacyTracker.run es).append e = PrivacyTracker.run (es ++ [e]) := by
    simp [PrivacyTracker.run, List.foldl_append]
  rw [hrun]
  obtain ⟨g1, g2⟩ := C16_worst_case_user es (fun e' he' => hv e' (by simp [he']))
  obtain ⟨g1', g2'⟩ := C16_worst_case_user (es ++ [e]) hv
  have he := hv e (by simp)
  have key : ∀ (c : NoisingEvent K → K) (x : K), 0 ≤ x → x < 1 →
      userLoss c (es ++ [e]) x = userLoss c es x + c e := by
    intro c x h0 h1
    classical
    unfold userLoss
    rw [List.filter_append, List.map_append, List.sum_append,
      List.filter_cons_of_pos (by simpa using touches_full e he hw x h0 h1)]
    simp
  have shift : ∀ (c : NoisingEvent K → K) (m m' : K), IsGreatest (losses c es) m →
      IsGreatest (losses c (es ++ [e])) m' → m' = m + c e := by
    rintro c m m' ⟨⟨x, h0, h1, hm⟩, hub⟩ ⟨⟨x', h0', h1', hm'⟩, hub'⟩
    apply le_antisymm
    · rw [hm', key c x' h0' h1']
      have := hub ⟨x', h0', h1', rfl⟩
      linarith
    · have := hub' ⟨x, h0, h1, rfl⟩
      rw [key c x h0 h1] at this
      rw [hm]; linarith
  have h1 := shift _ _ _ g1 g1'
  have h2 := shift _ _ _ g2 g2'
  cases hA : (PrivacyTracker.run (es ++ [e])).privacyConsumption
  rw [hA] at h1 h2
  simp only at h1 h2
  rw [h1, h2]

/-- C17 (e), parallel composition: if no user is touched by two of the events, the report is the
largest single budget of the events touching anybody. -/
theorem C17_disjoint_events (es : List (NoisingEvent K)) (hv : ∀ e ∈ es, ValidEvent e)
    (hpos : ∀ e ∈ es, 0 < e.samplingBuckets.samplingRate) (hne : es ≠ [])
    (hdis : es.Pairwise (fun e e' => ∀ x, ¬ (Touches e x ∧ Touches e' x))) :
    IsGreatest {y | ∃ e ∈ es, y = e.budget.epsilon}
      (PrivacyTracker.run es).privacyConsumption.epsilon ∧
    IsGreatest {y | ∃ e ∈ es, y = e.budget.delta}
      (PrivacyTracker.run es).privacyConsumption.delta := by
  classical
  have key : ∀ (c : NoisingEvent K → K), (∀ e ∈ es, 0 ≤ c e) → ∀ m,
      IsGreatest (losses c es) m → IsGreatest {y | ∃ e ∈ es, y = c e} m := by
    intro c hc m hm
    -- loss at a position touched by e is c e
    have loss_touch : ∀ (l : List (NoisingEvent K)),
        l.Pairwise (fun e e' => ∀ x, ¬ (Touches e x ∧ Touches e' x)) →
        ∀ x, userLoss c l x = 0 ∧ (∀ e ∈ l, ¬ Touches e x) ∨
          ∃ e ∈ l, Touches e x ∧ userLoss c l x = c e := by
      intro l hl x
      induction l with
      | nil => left; simp [userLoss]
      | cons a l ih =>
        rw [List.pairwise_cons] at hl
        by_cases ha : Touches a x
        · right
          refine ⟨a, by simp, ha, ?_⟩
          have hnone : ∀ e ∈ l, ¬ Touches e x := fun e he h => hl.1 e he x ⟨ha, h⟩
          unfold userLoss
          rw [List.filter_cons_of_pos (by simpa using ha),
            List.filter_eq_nil_iff.2 (by simpa using hnone)]
          simp
        · have hstep : userLoss c (a :: l) x = userLoss c l x := by
            unfold userLoss
            rw [List.filter_cons_of_neg (by simpa using ha)]
          rw [hstep]
          rcases ih hl.2 with ⟨h1, h2⟩ | ⟨e, he, h1, h2⟩
          · left
            refine ⟨h1, ?_⟩
            intro e he
            rcases List.mem_cons.1 he with rfl | he
            · exact ha
            · exact h2 e he
          · right; exact ⟨e, by simp [he], h1, h2⟩
    have htouch : ∀ e ∈ es, Touches e e.samplingBuckets.smallestIndex := by
      intro e he
      refine ⟨0, le_rfl, hpos e he, ?_⟩
      rw [add_zero]
      exact Int.fract_eq_self.2 ⟨(hv e he).1, (hv e he).2.1⟩
    have attained : ∀ e ∈ es, c e ∈ losses c es := by
      intro e he
      refine ⟨e.samplingBuckets.smallestIndex, (hv e he).1, (hv e he).2.1, ?_⟩
      rcases loss_touch es hdis e.samplingBuckets.smallestIndex with ⟨_, h⟩ | ⟨e', he', h1, h2⟩
      · exact absurd (htouch e he) (h e he)
      · rw [h2]
        by_contra hne'
        have : Std.Symm (fun e e' : NoisingEvent K => ∀ x, ¬ (Touches e x ∧ Touches e' x)) :=
          ⟨fun _ _ h x hx => h x ⟨hx.2, hx.1⟩⟩
        exact hdis.forall he he' (fun h => hne' (by rw [h])) _ ⟨htouch e he, h1⟩
    constructor
    · obtain ⟨x, h0, h1, hmx⟩ := hm.1
      rcases loss_touch es hdis x with ⟨hz, _⟩ | ⟨e, he, _, h2⟩
      · obtain ⟨e, he⟩ := List.exists_mem_of_ne_nil es hne
        have h3 := hm.2 (attained e he)
        refine ⟨e, he, ?_⟩
        rw [hmx, hz] at h3 ⊢
        exact le_antisymm (hc e he) h3
      · exact ⟨e, he, by rw [hmx, h2]⟩
    · rintro y ⟨e, he, rfl⟩
      exact hm.2 (attained e he)
  obtain ⟨g1, g2⟩ := C16_worst_case_user es hv
  exact ⟨key _ (fun e he => (hv e he).2.2.2.2.1) _ g1, key _ (fun e he => (hv e he).2.2.2.2.2) _ g2⟩

/-- C17 (f): `mechanisms` is the history of mechanisms in order. -/
theorem C17_mechanisms (es : List (NoisingEvent K)) :
    (PrivacyTracker.run es).mechanisms = es.map (·.mechanism) := by
  unfold PrivacyTracker.mechanisms
  rw [(run_eq es).1]

example : (PrivacyTracker.run exEvents).mechanisms = ["Laplace", "Gaussian", "Laplace"] ∧
    (PrivacyTracker.run exEvents.reverse).privacyConsumption = ⟨13/4, 3/10⟩ := by
  constructor <;> decide +kernel

/-- Two events on disjoint halves of the circle meet the hypotheses of the parallel law. -/
example : let es : List (NoisingEvent ℚ) :=
      [⟨⟨1, 1/10⟩, "Laplace", ⟨0, 1/2⟩⟩, ⟨⟨2, 1/5⟩, "Gaussian", ⟨1/2, 1/2⟩⟩]
    (∀ e ∈ es, ValidEvent e) ∧ (∀ e ∈ es, 0 < e.samplingBuckets.samplingRate) ∧
    es.Pairwise (fun e e' => ∀ x, ¬ (Touches e x ∧ Touches e' x)) ∧
    (PrivacyTracker.run es).privacyConsumption = ⟨2, 1/5⟩ := by
  refine ⟨?_, ?_, ?_, by decide +kernel⟩
  · simp only [List.mem_cons, List.not_mem_nil, or_false, ValidEvent]
    rintro e (rfl | rfl) <;> norm_num
  · simp
  · rw [List.pairwise_cons]
    refine ⟨?_, by simp⟩
    intro e he x
    simp only [List.mem_singleton] at he
    subst he
    rintro ⟨⟨t, h0, h1, h2⟩, ⟨t', h0', h1', h2'⟩⟩
    simp only at h1 h1' h2 h2'
    rw [zero_add, Int.fract_eq_self.2 ⟨h0, by linarith⟩] at h2
    rw [Int.fract_eq_self.2 ⟨by linarith, by linarith⟩] at h2'
    linarith

end Verif
