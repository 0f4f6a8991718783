import Verif.Lemmas.Float64
import Verif.Props.Strategy

/-!
# C16–C18 and C24 with floats

What remains of the accounting theorems when every operation rounds to binary64.
-/

namespace Verif

open Verif.Spec

variable {S Curve Surface : Type}

/-! ## C16 -/

/-- C16 in floats: after any history of well-formed events the reported epsilon (delta) is the
greatest loss of any user, where membership in the buckets and the sums are those of binary64. -/
theorem C16_float_worst_case (es : List (NoisingEvent ℚ)) (hv : ∀ e ∈ es, ValidEvent e) :
    IsGreatest (lossesFl (·.budget.epsilon) es)
      ((PrivacyTracker.run es).privacyConsumptionFl round64).epsilon ∧
    IsGreatest (lossesFl (·.budget.delta) es)
      ((PrivacyTracker.run es).privacyConsumptionFl round64).delta := by
  obtain ⟨h1, h2⟩ := run_eq es
  obtain ⟨e1, e2⟩ := privacyConsumptionFl_eq round64 (PrivacyTracker.run es)
  rw [e1, e2]
  constructor
  · exact fold_starts_greatest_fl _ es hv (fun e he => (hv e he).2.2.2.2.1) _ h2 _
      (fun x => by rw [(consumptionForBucketFl_eq round64 _ x).1, h1])
  · exact fold_starts_greatest_fl _ es hv (fun e he => (hv e he).2.2.2.2.2) _ h2 _
      (fun x => by rw [(consumptionForBucketFl_eq round64 _ x).2, h1])

/-- `(0.1, 0.1 + 0.2)` and the bucket from `0.3` overlap in binary64, and `0.1 + 0.2` is reported
as `0.30000000000000004`. -/
example : let a : ℚ := round64 (1 / 10)
    let b : ℚ := round64 (2 / 10)
    let c : ℚ := round64 (3 / 10)
    let es : List (NoisingEvent ℚ) := [⟨⟨a, 0⟩, "Laplace", ⟨a, b⟩⟩, ⟨⟨b, 0⟩, "Laplace", ⟨c, b⟩⟩]
    (∀ e ∈ es, ValidEvent e) ∧ a + b < round64 (a + b) ∧ c < round64 (a + b) ∧
    ((PrivacyTracker.run es).privacyConsumptionFl round64).epsilon = round64 (a + b) := by
  intro a b c es
  refine ⟨?_, by decide +kernel, by decide +kernel, by decide +kernel⟩
  have ha : (0 < a ∧ a < 1) ∧ (0 < b ∧ b < 1) ∧ 0 < c ∧ c < 1 := by
    refine ⟨⟨?_, ?_⟩, ⟨?_, ?_⟩, ?_, ?_⟩ <;> decide +kernel
  simp only [es, List.mem_cons, List.not_mem_nil, or_false, ValidEvent]
  rintro e (rfl | rfl)
  · exact ⟨ha.1.1.le, ha.1.2, ha.2.1.1.le, ha.2.1.2.le, ha.1.1.le, le_rfl⟩
  · exact ⟨ha.2.2.1.le, ha.2.2.2, ha.2.1.1.le, ha.2.1.2.le, ha.2.1.1.le, le_rfl⟩

/-- The ends of the bucket are computed without rounding. -/
def ExactEnds (e : NoisingEvent ℚ) : Prop :=
  round64 (e.samplingBuckets.smallestIndex + e.samplingBuckets.samplingRate)
    = e.samplingBuckets.smallestIndex + e.samplingBuckets.samplingRate ∧
  round64 (e.samplingBuckets.smallestIndex + e.samplingBuckets.samplingRate - 1)
    = e.samplingBuckets.smallestIndex + e.samplingBuckets.samplingRate - 1

/-- Zero, or not so small that binary64 loses digits. -/
def NormalOrZero (x : ℚ) : Prop := x = 0 ∨ 2 ^ (-1022 : ℤ) ≤ x

theorem containsFl_exact (e : NoisingEvent ℚ) (h : ExactEnds e) (x : ℚ) :
    e.samplingBuckets.containsFl round64 x = e.samplingBuckets.contains x := by
  unfold SamplingBucketIndices.containsFl SamplingBucketIndices.contains
  rw [h.1, h.2]

/-- Adding up at most `n` numbers in floats gives the exact sum up to `n * 2^-52` of it. -/
theorem flSum64_error (l : List ℚ) (hl : ∀ e ∈ l, NormalOrZero e) (n : ℕ) (hn : l.length ≤ n)
    (hn2 : n ≤ 2 ^ 52) : |flSum round64 l - l.sum| ≤ n * 2 ^ (-52 : ℤ) * l.sum := by
  obtain ⟨h1, h2⟩ := flSum_bounds relRounding64 l hl
  have hS : 0 ≤ l.sum := List.sum_nonneg (fun e he => by
    rcases hl e he with h | h
    · exact h.ge
    · exact (two_zpow_pos _).le.trans h)
  have hu : (2 : ℚ) ^ (-52 : ℤ) = 2 * 2 ^ (-53 : ℤ) := by norm_num
  set u : ℚ := 2 ^ (-53 : ℤ) with hud
  have hu0 : 0 < u := two_zpow_pos _
  have hlu : (l.length : ℚ) * u ≤ n * u :=
    mul_le_mul_of_nonneg_right (by exact_mod_cast hn) hu0.le
  have hnu : (n : ℚ) * u ≤ 1 / 2 := by
    have : (n : ℚ) ≤ 2 ^ 52 := by exact_mod_cast hn2
    calc (n : ℚ) * u ≤ 2 ^ 52 * u := mul_le_mul_of_nonneg_right this hu0.le
      _ = 1 / 2 := by rw [hud]; norm_num
  have b1 := one_sub_pow_ge u hu0.le relRounding64.ule l.length
  have b2 := one_add_pow_le u hu0.le l.length (hlu.trans hnu)
  rw [abs_le, hu]
  have c1 := mul_le_mul_of_nonneg_left b1 hS
  have c2 := mul_le_mul_of_nonneg_left b2 hS
  have c3 := mul_le_mul_of_nonneg_left hlu hS
  have c4 : 0 ≤ l.sum * (n * u) := by positivity
  constructor <;> nlinarith

theorem foldl_max_close (f g : ℚ → ℚ) (d : ℚ) (l : List ℚ) (hd : 0 ≤ d)
    (h : ∀ x ∈ l, |f x - g x| ≤ d * g x) (a b : ℚ) (hab : |a - b| ≤ d * b) :
    |l.foldl (fun acc x => max acc (f x)) a - l.foldl (fun acc x => max acc (g x)) b|
      ≤ d * l.foldl (fun acc x => max acc (g x)) b := by
  induction l generalizing a b with
  | nil => exact hab
  | cons x l ih =>
    rw [List.foldl_cons, List.foldl_cons]
    refine ih (fun y hy => h y (by simp [hy])) _ _ ?_
    have hx := h x (by simp)
    rw [abs_le] at hx hab ⊢
    have h1 := mul_le_mul_of_nonneg_left (le_max_left b (g x)) hd
    have h2 := mul_le_mul_of_nonneg_left (le_max_right b (g x)) hd
    constructor
    · rcases max_choice b (g x) with e | e <;> rw [e] at h1 h2 ⊢
      · linarith [le_max_left a (f x)]
      · linarith [le_max_right a (f x)]
    · have : max a (f x) ≤ max b (g x) + d * max b (g x) := by
        apply max_le
        · linarith [le_max_left b (g x)]
        · linarith [le_max_right b (g x)]
      linarith

/-- C16 in floats, error: if the ends of the buckets are computed without rounding (as for requests
on the whole universe), the report after `n` events is the exact one up to `n * 2^-52` of it. -/
theorem C16_float_error (es : List (NoisingEvent ℚ)) (hends : ∀ e ∈ es, ExactEnds e)
    (hb : ∀ e ∈ es, NormalOrZero e.budget.epsilon ∧ NormalOrZero e.budget.delta)
    (hn : es.length ≤ 2 ^ 52) :
    |((PrivacyTracker.run es).privacyConsumptionFl round64).epsilon
        - (PrivacyTracker.run es).privacyConsumption.epsilon|
      ≤ es.length * 2 ^ (-52 : ℤ) * (PrivacyTracker.run es).privacyConsumption.epsilon ∧
    |((PrivacyTracker.run es).privacyConsumptionFl round64).delta
        - (PrivacyTracker.run es).privacyConsumption.delta|
      ≤ es.length * 2 ^ (-52 : ℤ) * (PrivacyTracker.run es).privacyConsumption.delta := by
  obtain ⟨h1, h2⟩ := run_eq es
  obtain ⟨e1, e2⟩ := privacyConsumptionFl_eq round64 (PrivacyTracker.run es)
  obtain ⟨e3, e4⟩ := privacyConsumption_split (PrivacyTracker.run es)
  have hd : (0 : ℚ) ≤ es.length * 2 ^ (-52 : ℤ) :=
    mul_nonneg (Nat.cast_nonneg _) (two_zpow_pos _).le
  have hfil : ∀ x, es.filter (fun e => e.samplingBuckets.containsFl round64 x)
      = es.filter (fun e => e.samplingBuckets.contains x) := by
    intro x
    apply List.filter_congr
    intro e he
    exact containsFl_exact e (hends e he) x
  have key : ∀ (c : NoisingEvent ℚ → ℚ), (∀ e ∈ es, NormalOrZero (c e)) → ∀ x : ℚ,
      |flSum round64 ((es.filter (fun e => e.samplingBuckets.contains x)).map c)
        - ((es.filter (fun e => e.samplingBuckets.contains x)).map c).sum|
      ≤ es.length * 2 ^ (-52 : ℤ)
        * ((es.filter (fun e => e.samplingBuckets.contains x)).map c).sum := by
    intro c hc x
    refine flSum64_error _ ?_ _ ?_ hn
    · intro y hy
      obtain ⟨e, he, rfl⟩ := List.mem_map.1 hy
      exact hc e (List.mem_filter.1 he).1
    · rw [List.length_map]; exact List.length_filter_le _ _
  rw [e1, e2, e3, e4]
  constructor
  · refine foldl_max_close _ _ _ _ hd (fun x _ => ?_) 0 0 (by simp)
    rw [(consumptionForBucketFl_eq round64 _ x).1, (consumptionForBucket_eq es x _ h1).1, h1, hfil]
    exact key _ (fun e he => (hb e he).1) x
  · refine foldl_max_close _ _ _ _ hd (fun x _ => ?_) 0 0 (by simp)
    rw [(consumptionForBucketFl_eq round64 _ x).2, (consumptionForBucket_eq es x _ h1).2, h1, hfil]
    exact key _ (fun e he => (hb e he).2) x

example : let es : List (NoisingEvent ℚ) :=
      [⟨⟨round64 (1 / 10), 0⟩, "Laplace", ⟨3 / 4, 1 / 2⟩⟩,
        ⟨⟨round64 (2 / 10), 0⟩, "Laplace", ⟨0, 1⟩⟩]
    (∀ e ∈ es, ExactEnds e) ∧
    (∀ e ∈ es, NormalOrZero e.budget.epsilon ∧ NormalOrZero e.budget.delta) ∧
    ((PrivacyTracker.run es).privacyConsumptionFl round64).epsilon
      ≠ (PrivacyTracker.run es).privacyConsumption.epsilon := by
  intro es
  refine ⟨?_, ?_, by decide +kernel⟩
  · simp only [es, List.mem_cons, List.not_mem_nil, or_false]
    rintro e (rfl | rfl) <;> constructor <;> decide +kernel
  · simp only [es, List.mem_cons, List.not_mem_nil, or_false]
    rintro e (rfl | rfl)
    · exact ⟨Or.inr (by decide +kernel), Or.inl rfl⟩
    · exact ⟨Or.inr (by decide +kernel), Or.inl rfl⟩

/-- The claim that the report is never much below the exact one, whatever the buckets. -/
def C16_float_full : Prop :=
  ∀ es : List (NoisingEvent ℚ), (∀ e ∈ es, ValidEvent e) →
    (∀ e ∈ es, NormalOrZero e.budget.epsilon ∧ NormalOrZero e.budget.delta) →
    9 / 10 * (PrivacyTracker.run es).privacyConsumption.epsilon
      ≤ ((PrivacyTracker.run es).privacyConsumptionFl round64).epsilon

/-- The claim fails: an overlap narrower than the distance of two floats is not seen, here between
`[1/2, 3/4 + 2^-54)` and the bucket from `3/4`, and one of the two events is not counted. -/
theorem C16_float_full_is_false : ¬ C16_float_full := by
  intro h
  have := h [⟨⟨1, 0⟩, "Laplace", ⟨1 / 2, 1 / 4 + 1 / 2 ^ 54⟩⟩, ⟨⟨1, 0⟩, "Laplace", ⟨3 / 4, 1 / 8⟩⟩]
    ?_ ?_
  · revert this; decide +kernel
  · simp only [List.mem_cons, List.not_mem_nil, or_false, ValidEvent]
    rintro e (rfl | rfl) <;> norm_num
  · simp only [List.mem_cons, List.not_mem_nil, or_false]
    rintro e (rfl | rfl)
    · exact ⟨Or.inr (by decide +kernel), Or.inl rfl⟩
    · exact ⟨Or.inr (by decide +kernel), Or.inl rfl⟩

/-! ## C17 -/

/-- C17 (a) in floats: recording one more event never lowers the report. -/
theorem C17_float_append_monotone (es : List (NoisingEvent ℚ)) (e : NoisingEvent ℚ)
    (hv : ∀ e' ∈ es ++ [e], ValidEvent e') :
    ((PrivacyTracker.run es).privacyConsumptionFl round64).epsilon
      ≤ (((PrivacyTracker.run es).append e).privacyConsumptionFl round64).epsilon ∧
    ((PrivacyTracker.run es).privacyConsumptionFl round64).delta
      ≤ (((PrivacyTracker.run es).append e).privacyConsumptionFl round64).delta := by
  have hrun : (PrivacyTracker.run es).append e = PrivacyTracker.run (es ++ [e]) := by
    simp [PrivacyTracker.run, List.foldl_append]
  rw [hrun]
  obtain ⟨⟨⟨x, hx0, hx1, hx⟩, _⟩, ⟨⟨y, hy0, hy1, hy⟩, _⟩⟩ :=
    C16_float_worst_case es (fun e' he' => hv e' (by simp [he']))
  obtain ⟨⟨_, g1⟩, ⟨_, g2⟩⟩ := C16_float_worst_case (es ++ [e]) hv
  have key : ∀ (c : NoisingEvent ℚ → ℚ) (x : ℚ), (∀ e' ∈ es ++ [e], 0 ≤ c e') →
      userLossFl c es x ≤ userLossFl c (es ++ [e]) x := by
    intro c x hc
    classical
    unfold userLossFl
    apply flSum_sublist rounding64
    · exact ((List.sublist_append_left es [e]).filter _).map _
    · intro z hz
      obtain ⟨e', he', rfl⟩ := List.mem_map.1 hz
      exact hc e' (List.mem_filter.1 he').1
  constructor
  · rw [hx]
    exact le_trans (key _ x (fun e' he' => (hv e' he').2.2.2.2.1)) (g1 ⟨x, hx0, hx1, rfl⟩)
  · rw [hy]
    exact le_trans (key _ y (fun e' he' => (hv e' he').2.2.2.2.2)) (g2 ⟨y, hy0, hy1, rfl⟩)

/-- C17 (c) in floats: the report never exceeds the float sum of all budgets. -/
theorem C17_float_at_most_sum (es : List (NoisingEvent ℚ)) (hv : ∀ e ∈ es, ValidEvent e) :
    ((PrivacyTracker.run es).privacyConsumptionFl round64).epsilon
      ≤ flSum round64 (es.map (·.budget.epsilon)) ∧
    ((PrivacyTracker.run es).privacyConsumptionFl round64).delta
      ≤ flSum round64 (es.map (·.budget.delta)) := by
  obtain ⟨⟨⟨x, _, _, hx⟩, _⟩, ⟨⟨y, _, _, hy⟩, _⟩⟩ := C16_float_worst_case es hv
  rw [hx, hy]
  classical
  have key : ∀ (c : NoisingEvent ℚ → ℚ) (x : ℚ), (∀ e ∈ es, 0 ≤ c e) →
      userLossFl c es x ≤ flSum round64 (es.map c) := by
    intro c x hc
    unfold userLossFl
    apply flSum_sublist rounding64
    · exact List.filter_sublist.map _
    · intro z hz
      obtain ⟨e', he', rfl⟩ := List.mem_map.1 hz
      exact hc e' he'
  exact ⟨key _ x (fun e he => (hv e he).2.2.2.2.1), key _ y (fun e he => (hv e he).2.2.2.2.2)⟩

example : (∀ e ∈ exEvents, ValidEvent e) ∧
    ((PrivacyTracker.run exEvents).privacyConsumptionFl round64).epsilon = 13 / 4 ∧
    (((PrivacyTracker.run exEvents).append ⟨⟨round64 (1 / 10), 0⟩, "Laplace", ⟨0, 1⟩⟩
      ).privacyConsumptionFl round64).epsilon = round64 (13 / 4 + round64 (1 / 10)) := by
  refine ⟨?_, by decide +kernel, by decide +kernel⟩
  simp only [exEvents, List.mem_cons, List.not_mem_nil, or_false, ValidEvent]
  rintro e (rfl | rfl | rfl) <;> norm_num

/-- C17 (b) in floats: the claim that the order of the events does not matter. -/
def C17_float_order_full : Prop :=
  ∀ es es' : List (NoisingEvent ℚ), es.Perm es' → (∀ e ∈ es, ValidEvent e) →
    (PrivacyTracker.run es).privacyConsumptionFl round64
      = (PrivacyTracker.run es').privacyConsumptionFl round64

/-- In floats it does, in the last digit: one and then twice `2^-53` is one, the other way round it
is more. -/
theorem C17_float_order_full_is_false : ¬ C17_float_order_full := by
  intro h
  have := h [⟨⟨1, 0⟩, "Laplace", ⟨0, 1⟩⟩, ⟨⟨1 / 2 ^ 53, 0⟩, "Laplace", ⟨0, 1⟩⟩,
      ⟨⟨1 / 2 ^ 53, 0⟩, "Laplace", ⟨0, 1⟩⟩]
    [⟨⟨1 / 2 ^ 53, 0⟩, "Laplace", ⟨0, 1⟩⟩, ⟨⟨1 / 2 ^ 53, 0⟩, "Laplace", ⟨0, 1⟩⟩,
      ⟨⟨1, 0⟩, "Laplace", ⟨0, 1⟩⟩] ?_ ?_
  · revert this; decide +kernel
  · exact (List.reverse_perm _).symm
  · simp only [List.mem_cons, List.not_mem_nil, or_false, ValidEvent]
    rintro e (rfl | rfl | rfl) <;> norm_num

/-! ## Requests on the whole universe -/

theorem starts_requests (bs : List (PrivacyBudget ℚ)) :
    (PrivacyTracker.run (bs.map requestEvent)).starts = [0] := by
  have : ∀ t : PrivacyTracker ℚ, t.starts = [0] →
      ((bs.map requestEvent).foldl PrivacyTracker.append t).starts = [0] := by
    induction bs with
    | nil => intro t h; exact h
    | cons b bs ih =>
      intro t h
      rw [List.map_cons, List.foldl_cons]
      apply ih
      simp [PrivacyTracker.append, requestEvent, h]
  exact this _ rfl

/-- Events on the whole universe are simply added up. -/
theorem report_requests (bs : List (PrivacyBudget ℚ))
    (hb : ∀ b ∈ bs, 0 ≤ b.epsilon ∧ 0 ≤ b.delta) :
    (PrivacyTracker.run (bs.map requestEvent)).privacyConsumptionFl round64
      = ⟨flSum round64 (bs.map (·.epsilon)), flSum round64 (bs.map (·.delta))⟩ := by
  have hone : round64 1 = 1 := by decide +kernel
  have hf : (bs.map requestEvent).filter (fun e => e.samplingBuckets.containsFl round64 0)
      = bs.map requestEvent := by
    apply List.filter_eq_self.2
    intro e he
    obtain ⟨b, _, rfl⟩ := List.mem_map.1 he
    simp [requestEvent, SamplingBucketIndices.containsFl, hone]
  have e1 : ∀ c : PrivacyBudget ℚ → ℚ, (bs.map requestEvent).map (fun e => c e.budget) = bs.map c := by
    intro c
    rw [List.map_map]
    rfl
  obtain ⟨h1, h2⟩ := privacyConsumptionFl_eq round64 (PrivacyTracker.run (bs.map requestEvent))
  obtain ⟨h3, h4⟩ := consumptionForBucketFl_eq round64 (PrivacyTracker.run (bs.map requestEvent)) 0
  rw [(run_eq _).1, hf] at h3 h4
  rw [starts_requests] at h1 h2
  simp only [List.foldl_cons, List.foldl_nil] at h1 h2
  rw [h3, e1 (·.epsilon), max_eq_right (flSum_nonneg rounding64 _ (by
    intro x hx
    obtain ⟨b, hb', rfl⟩ := List.mem_map.1 hx
    exact (hb b hb').1))] at h1
  rw [h4, e1 (·.delta), max_eq_right (flSum_nonneg rounding64 _ (by
    intro x hx
    obtain ⟨b, hb', rfl⟩ := List.mem_map.1 hx
    exact (hb b hb').2))] at h2
  rw [← h1, ← h2]

/-! ## C24 -/

/-- C24 in floats: a request with the default split costs, in floats too, exactly the budget it was
given: the two halves are computed without rounding, and so is their sum. -/
theorem C24_float_half (b : PrivacyBudget ℚ) (he : round64 b.epsilon = b.epsilon)
    (hd : round64 b.delta = b.delta) (he2 : b.epsilon = 0 ∨ 2 ^ (-1021 : ℤ) ≤ b.epsilon)
    (hd2 : b.delta = 0 ∨ 2 ^ (-1021 : ℤ) ≤ b.delta) :
    splitBudgetFl round64 b (1 / 2)
      = [⟨b.epsilon / 2, b.delta / 2⟩, ⟨b.epsilon / 2, b.delta / 2⟩] ∧
    (PrivacyTracker.run ((splitBudgetFl round64 b (1 / 2)).map requestEvent)).privacyConsumptionFl
      round64 = b := by
  have hhalf : round64 (1 - 1 / 2) = 1 / 2 := by decide +kernel
  have key : ∀ x : ℚ, round64 x = x → (x = 0 ∨ 2 ^ (-1021 : ℤ) ≤ x) →
      round64 (x * (1 / 2)) = x / 2 := by
    intro x h1 h2
    rw [mul_one_div]
    rcases h2 with rfl | h2
    · rw [zero_div]; exact round64_zero
    · exact round64_half x h1 h2
  have hs : splitBudgetFl round64 b (1 / 2)
      = [⟨b.epsilon / 2, b.delta / 2⟩, ⟨b.epsilon / 2, b.delta / 2⟩] := by
    unfold splitBudgetFl
    rw [hhalf, key _ he he2, key _ hd hd2]
  refine ⟨hs, ?_⟩
  have hnn : ∀ x : ℚ, (x = 0 ∨ 2 ^ (-1021 : ℤ) ≤ x) → 0 ≤ x := by
    rintro x (h | h)
    · exact h.ge
    · exact (two_zpow_pos _).le.trans h
  have key2 : ∀ x : ℚ, round64 x = x → (x = 0 ∨ 2 ^ (-1021 : ℤ) ≤ x) →
      flSum round64 [x / 2, x / 2] = x := by
    intro x h1 h2
    have h3 := key x h1 h2
    rw [mul_one_div] at h3
    simp only [flSum, List.foldl_cons, List.foldl_nil]
    rw [zero_add, h3, add_halves, h1]
  rw [hs, report_requests]
  · simp only [List.map_cons, List.map_nil]
    rw [key2 _ he he2, key2 _ hd hd2]
  · intro x hx
    have : x = ⟨b.epsilon / 2, b.delta / 2⟩ := by simpa using hx
    rw [this]
    have h1 := hnn _ he2
    have h2 := hnn _ hd2
    constructor <;> simp only <;> linarith

example : let b : PrivacyBudget ℚ := ⟨round64 (1 / 10), round64 (1 / 10 ^ 9)⟩
    round64 b.epsilon = b.epsilon ∧ round64 b.delta = b.delta ∧ 2 ^ (-1021 : ℤ) ≤ b.epsilon ∧
      2 ^ (-1021 : ℤ) ≤ b.delta := by
  refine ⟨?_, ?_, ?_, ?_⟩ <;> decide +kernel

theorem split_algebra (u x s Q A B F : ℚ) (hu0 : 0 < u) (hu1 : u ≤ 1 / 1000) (hx : 0 < x)
    (hs : 0 ≤ s) (hr1 : (1 - u) * (1 - s) ≤ Q) (hr2 : Q ≤ (1 + u) * (1 - s))
    (ha1 : (1 - u) * (x * s) ≤ A) (ha2 : A ≤ (1 + u) * (x * s)) (hb1 : (1 - u) * (x * Q) ≤ B)
    (hb2 : B ≤ (1 + u) * (x * Q)) (hf1 : (A + B) * (1 - u) ^ 2 ≤ F)
    (hf2 : F ≤ (A + B) * (1 + u) ^ 2) :
    -(4 * (2 * u) * x) ≤ F - x ∧ F - x ≤ 4 * (2 * u) * x := by
  have hxs : 0 ≤ x * s := by positivity
  have hm : 0 ≤ 1 - u := by linarith
  have hB1 : (1 - u) ^ 2 * (x * (1 - s)) ≤ B := by
    refine le_trans (le_of_eq ?_) (le_trans (mul_le_mul_of_nonneg_left
      (mul_le_mul_of_nonneg_left hr1 hx.le) hm) hb1)
    ring
  have hB2 : B ≤ (1 + u) ^ 2 * (x * (1 - s)) := by
    refine le_trans hb2 (le_trans (mul_le_mul_of_nonneg_left
      (mul_le_mul_of_nonneg_left hr2 hx.le) (by linarith : 0 ≤ 1 + u)) (le_of_eq ?_))
    ring
  have hA1 : (1 - u) ^ 2 * (x * s) ≤ A := by
    refine le_trans (mul_le_mul_of_nonneg_right ?_ hxs) ha1
    nlinarith
  have hA2 : A ≤ (1 + u) ^ 2 * (x * s) := by
    refine le_trans ha2 (mul_le_mul_of_nonneg_right ?_ hxs)
    nlinarith
  have hS1 : (1 - u) ^ 2 * x ≤ A + B := by linarith
  have hS2 : A + B ≤ (1 + u) ^ 2 * x := by linarith
  have hp1 := one_sub_pow_ge u hu0.le (by linarith) 4
  have hp2 := one_add_pow_le u hu0.le 4 (by push_cast; linarith)
  push_cast at hp1 hp2
  have hF1 : (1 - u) ^ 4 * x ≤ F := by
    refine le_trans (le_of_eq ?_) (le_trans (mul_le_mul_of_nonneg_right hS1 (sq_nonneg (1 - u))) hf1)
    ring
  have hF2 : F ≤ (1 + u) ^ 4 * x := by
    refine le_trans hf2 (le_trans (mul_le_mul_of_nonneg_right hS2 (sq_nonneg (1 + u))) (le_of_eq ?_))
    ring
  have m1 := mul_le_mul_of_nonneg_right hp1 hx.le
  have m2 := mul_le_mul_of_nonneg_right hp2 hx.le
  constructor
  · nlinarith [mul_pos hu0 hx]
  · linarith

theorem split_error (x split : ℚ) (hx : 2 ^ (-500 : ℤ) ≤ x)
    (h0 : 2 ^ (-500 : ℤ) ≤ split) (h1 : 2 ^ (-500 : ℤ) ≤ 1 - split) :
    |flSum round64 [round64 (x * split), round64 (x * round64 (1 - split))] - x|
      ≤ 4 * 2 ^ (-52 : ℤ) * x := by
  have hm : (2 : ℚ) ^ (-500 : ℤ) * 2 ^ (-500 : ℤ) = 2 ^ (-1000 : ℤ) := by
    rw [← zpow_add₀ (by norm_num)]; norm_num
  have hxp : 0 < x := (two_zpow_pos _).trans_le hx
  have hle : (2 : ℚ) ^ (-1000 : ℤ) ≤ 2 ^ (-500 : ℤ) := by
    exact zpow_le_zpow_right₀ (by norm_num) (by norm_num)
  have hle2 : (2 : ℚ) ^ (-1022 : ℤ) ≤ 2 ^ (-1000 : ℤ) := by
    exact zpow_le_zpow_right₀ (by norm_num) (by norm_num)
  have hs1 : (2 : ℚ) ^ (-1022 : ℤ) ≤ x * split := by
    refine hle2.trans (hm ▸ ?_)
    exact mul_le_mul hx h0 (two_zpow_pos _).le hxp.le
  have hr1 := relRounding64.lo _ (hle2.trans (hle.trans h1))
  have hr2 := relRounding64.hi _ (hle2.trans (hle.trans h1))
  have hq : (2 : ℚ) ^ (-500 : ℤ) ≤ round64 (1 - split) := by
    have e : round64 (2 ^ (-500 : ℤ)) = 2 ^ (-500 : ℤ) := by decide +kernel
    rw [← e]; exact round64_mono _ _ (two_zpow_pos _).le h1
  have hs2 : (2 : ℚ) ^ (-1022 : ℤ) ≤ x * round64 (1 - split) := by
    refine hle2.trans (hm ▸ ?_)
    exact mul_le_mul hx hq (two_zpow_pos _).le hxp.le
  have ha1 := relRounding64.lo _ hs1
  have ha2 := relRounding64.hi _ hs1
  have hb1 := relRounding64.lo _ hs2
  have hb2 := relRounding64.hi _ hs2
  have ka := relRounding64.keep _ hs1
  have kb := relRounding64.keep _ hs2
  obtain ⟨hf1, hf2⟩ := flSum_bounds relRounding64
    [round64 (x * split), round64 (x * round64 (1 - split))] (by
      intro e he
      rcases List.mem_cons.1 he with rfl | he
      · exact Or.inr ka
      · rw [List.mem_singleton.1 he]; exact Or.inr kb)
  simp only [List.sum_cons, List.sum_nil, add_zero, List.length_cons, List.length_nil] at hf1 hf2
  have hu : (2 : ℚ) ^ (-52 : ℤ) = 2 * 2 ^ (-53 : ℤ) := by norm_num
  have hu1 : (2 : ℚ) ^ (-53 : ℤ) ≤ 1 / 1000 := by norm_num
  have hs0 : 0 < split := (two_zpow_pos _).trans_le h0
  rw [abs_le, hu]
  exact split_algebra _ x split _ _ _ _ (two_zpow_pos _) hu1 hxp hs0.le
    hr1 hr2 ha1 ha2 hb1 hb2
    (by simpa using hf1) (by simpa using hf2)

/-- C24 in floats, any split: the two parts of a request together cost the budget up to `2^-50`
of it. -/
theorem C24_float_error (b : PrivacyBudget ℚ) (split : ℚ) (he : 2 ^ (-500 : ℤ) ≤ b.epsilon)
    (hd : 2 ^ (-500 : ℤ) ≤ b.delta) (h0 : 2 ^ (-500 : ℤ) ≤ split)
    (h1 : 2 ^ (-500 : ℤ) ≤ 1 - split) :
    let r := (PrivacyTracker.run ((splitBudgetFl round64 b split).map
      requestEvent)).privacyConsumptionFl round64
    |r.epsilon - b.epsilon| ≤ 2 ^ (-50 : ℤ) * b.epsilon ∧
    |r.delta - b.delta| ≤ 2 ^ (-50 : ℤ) * b.delta := by
  have hp : ∀ x : ℚ, 2 ^ (-500 : ℤ) ≤ x → 0 ≤ x := fun x h => (two_zpow_pos _).le.trans h
  have hq := round64_nonneg _ (hp _ h1)
  have hc : (4 : ℚ) * 2 ^ (-52 : ℤ) = 2 ^ (-50 : ℤ) := by norm_num
  intro r
  have hr : r = _ := report_requests _ (by
    intro x hx
    simp only [splitBudgetFl, List.mem_cons, List.not_mem_nil, or_false] at hx
    rcases hx with rfl | rfl
    · exact ⟨round64_nonneg _ (mul_nonneg (hp _ he) (hp _ h0)),
        round64_nonneg _ (mul_nonneg (hp _ hd) (hp _ h0))⟩
    · exact ⟨round64_nonneg _ (mul_nonneg (hp _ he) hq),
        round64_nonneg _ (mul_nonneg (hp _ hd) hq)⟩)
  rw [hr, ← hc]
  exact ⟨split_error _ _ he h0 h1, split_error _ _ hd h0 h1⟩

example : (2 : ℚ) ^ (-500 : ℤ) ≤ round64 (2 / 10) ∧ (2 : ℚ) ^ (-500 : ℤ) ≤ 1 - round64 (2 / 10) ∧
    ((PrivacyTracker.run ((splitBudgetFl round64 ⟨round64 (1 / 10), 1⟩ (round64 (2 / 10))).map
      requestEvent)).privacyConsumptionFl round64).epsilon ≠ round64 (1 / 10) := by
  refine ⟨?_, ?_, ?_⟩ <;> decide +kernel

/-! ## C18 -/

/-- `m` records `2 * n` copies of `ev` (a smaller even number if it raises). -/
def Records {α : Type} (ev : NoisingEvent ℚ) (n : Nat) (m : HaloM α) : Prop :=
  ∀ st, ∃ k, (m st).2.tracker = (List.replicate (2 * k) ev).foldl PrivacyTracker.append st.tracker ∧
    k ≤ n ∧ ∀ a, (m st).1 = .ok a → k = n

theorem Records.lift {α : Type} (ev : NoisingEvent ℚ) (e : Except PyErr α) :
    Records ev 0 (HaloM.lift e) := fun _ => ⟨0, rfl, le_rfl, fun _ _ => rfl⟩

theorem Records.pure {α : Type} (ev : NoisingEvent ℚ) (a : α) : Records ev 0 (pure a : HaloM α) :=
  Records.lift ev (.ok a)

theorem Records.cast {α : Type} {ev : NoisingEvent ℚ} {n k : Nat} {m : HaloM α}
    (h : Records ev n m) (e : n = k) : Records ev k m := e ▸ h

theorem Records.bind {α β : Type} {ev : NoisingEvent ℚ} {n k : Nat} {m : HaloM α} {f : α → HaloM β}
    (hm : Records ev n m) (hf : ∀ a, Records ev k (f a)) : Records ev (n + k) (m >>= f) := by
  intro st
  obtain ⟨j, h1, h2, h3⟩ := hm st
  rw [HaloM.bind_apply]
  rcases hr : m st with ⟨r, st'⟩
  rw [hr] at h1 h3
  simp only at h1 h3
  cases r with
  | error e => exact ⟨j, h1, by omega, by simp⟩
  | ok a =>
    obtain ⟨j', g1, g2, g3⟩ := hf a st'
    have hj := h3 a rfl
    refine ⟨j + j', ?_, by omega, ?_⟩
    · simp only [g1, h1]
      rw [← List.foldl_append, ← List.replicate_add]
      congr 2
      omega
    · intro x hx
      rw [hj, g3 x hx]

theorem Records.simulated (h : HaloSimulator S) (hlib : ReportsItsBudgets h.lib) (spends : List ℚ)
    (b : PrivacyBudget ℚ) (F : Int) :
    Records (requestEvent ⟨b.epsilon / 2, b.delta / 2⟩) 1
      (h.simulatedReachBySpend spends b (1 / 2) F) := by
  intro st
  rw [HaloSimulator.simulated_apply]
  rcases hsk : h.combinedSketch spends with e | sk
  · exact ⟨0, rfl, by omega, by simp⟩
  · refine ⟨1, ?_, le_rfl, fun _ _ => rfl⟩
    have : h.requestEvents b (1 / 2)
        = List.replicate (2 * 1) (requestEvent ⟨b.epsilon / 2, b.delta / 2⟩) := by
      unfold HaloSimulator.requestEvents
      rw [hlib]
      have e1 : ∀ x : ℚ, x * (1 / 2) = x / 2 := fun x => by ring
      have e2 : ∀ x : ℚ, x * (1 - 1 / 2) = x / 2 := fun x => by ring
      simp only [List.map_cons, List.map_nil, e1, e2]
      rfl
    rw [← this]

theorem Records.singleLoop (h : HaloSimulator S) (hlib : ReportsItsBudgets h.lib)
    (b : PrivacyBudget ℚ) (ids : List Nat) :
    Records (requestEvent ⟨b.epsilon / 2, b.delta / 2⟩) ids.length
      (Strategy.singleLoop h b ids) := by
  induction ids with
  | nil => exact Records.pure _ _
  | cons i ids ih =>
    unfold Strategy.singleLoop
    refine Records.cast (Records.bind (Records.lift _ _) (fun _ => Records.bind
      (Records.simulated h hlib _ b _) (fun _ => Records.bind (Records.lift _ _) (fun _ =>
        Records.bind ih (fun _ => Records.pure _ _))))) ?_
    simp only [List.length_cons]; omega

theorem Records.leaveOneOutLoop (h : HaloSimulator S) (hlib : ReportsItsBudgets h.lib)
    (b : PrivacyBudget ℚ) (ids : List Nat) :
    Records (requestEvent ⟨b.epsilon / 2, b.delta / 2⟩) ids.length
      (Strategy.leaveOneOutLoop h b ids) := by
  induction ids with
  | nil => exact Records.pure _ _
  | cons i ids ih =>
    unfold Strategy.leaveOneOutLoop
    refine Records.cast (Records.bind (Records.simulated h hlib _ b _) (fun _ =>
        Records.bind ih (fun _ => Records.pure _ _))) ?_
    simp only [List.length_cons]; omega

theorem Records.fitM3 (st : Strategy Curve Surface) (h : HaloSimulator S)
    (hlib : ReportsItsBudgets h.lib) (budget : PrivacyBudget ℚ) :
    Records (requestEvent ⟨budget.epsilon / (2 * h.publisherCount + 1) / 2,
        budget.delta / (2 * h.publisherCount + 1) / 2⟩)
      (m3Requests h.publisherCount) (st.fitM3 h budget) := by
  unfold Strategy.fitM3
  have hloo : Records (requestEvent ⟨budget.epsilon / (2 * h.publisherCount + 1) / 2,
        budget.delta / (2 * h.publisherCount + 1) / 2⟩)
      (if 2 < h.publisherCount then h.publisherCount else 0)
      (Strategy.leaveOneOutPoints h
        ⟨budget.epsilon / (2 * h.publisherCount + 1), budget.delta / (2 * h.publisherCount + 1)⟩
        h.publisherCount) := by
    unfold Strategy.leaveOneOutPoints
    split
    · exact (Records.leaveOneOutLoop h hlib _ _).cast (by simp)
    · exact Records.pure _ _
  refine Records.cast (Records.bind (Records.simulated h hlib _ _ _) (fun total =>
    Records.bind (Records.singleLoop h hlib _ _) (fun singles => Records.bind hloo (fun loo =>
      Records.bind (Records.lift _ _) (k := 0) (fun curves => ?_))))) ?_
  · split
    · exact Records.bind (Records.lift _ _) (fun _ => Records.pure _ _)
    · exact Records.bind (Records.lift _ _) (fun _ => Records.pure _ _)
  · simp only [List.length_range, m3Requests]; omega

theorem m3EventsFl_eq (rnd : ℚ → ℚ) (h : rnd (1 - 1 / 2) = 1 / 2) (b : PrivacyBudget ℚ) (p : Nat) :
    m3EventsFl rnd b p = (List.replicate (2 * m3Requests p)
      (⟨rnd (rnd (b.epsilon / (2 * p + 1)) / 2), rnd (rnd (b.delta / (2 * p + 1)) / 2)⟩ :
        PrivacyBudget ℚ)).map requestEvent := by
  unfold m3EventsFl splitBudgetFl m3ShareFl
  rw [h]
  simp only [mul_one_div]
  generalize (⟨rnd (rnd (b.epsilon / (2 * p + 1)) / 2), rnd (rnd (b.delta / (2 * p + 1)) / 2)⟩ :
    PrivacyBudget ℚ) = x
  generalize m3Requests p = n
  induction n with
  | zero => rfl
  | succ n ih =>
    rw [List.replicate_succ, List.flatten_cons, ih, show 2 * (n + 1) = 2 + 2 * n by omega,
      List.replicate_add, List.map_append]
    rfl

/-- C18, the events: a successful fit of the M3 strategy records exactly the events of `m3EventsFl`
(here without rounding), on top of what the tracker knew. -/
theorem C18_events (st : Strategy Curve Surface) (h : HaloSimulator S)
    (hlib : ReportsItsBudgets h.lib) (budget : PrivacyBudget ℚ) (hs : HaloState)
    (past : List (NoisingEvent ℚ)) (hrun : hs.tracker = PrivacyTracker.run past)
    (a : Fitted Curve Surface) (ha : (st.fitM3 h budget hs).1 = .ok a) :
    (st.fitM3 h budget hs).2.tracker
      = PrivacyTracker.run (past ++ m3EventsFl id budget h.publisherCount) := by
  obtain ⟨k, h1, -, h3⟩ := Records.fitM3 st h hlib budget hs
  rw [h1, h3 a ha, hrun, m3EventsFl_eq id (by norm_num), List.map_replicate]
  simp [PrivacyTracker.run, List.foldl_append]

example : (exStrategy.fitM3 (exHalo exLib) ⟨5, 1 / 2⟩ exState).2.tracker.noisingEvents
    = m3EventsFl id ⟨5, 1 / 2⟩ 2 ∧ ReportsItsBudgets (exHalo exLib).lib := by
  refine ⟨by decide +kernel, fun _ _ => rfl⟩

theorem pow_error (n : ℕ) (hn : n ≤ 2 ^ 52) (x F : ℚ) (hx : 0 ≤ x)
    (h1 : x * (1 - 2 ^ (-53 : ℤ)) ^ n ≤ F) (h2 : F ≤ x * (1 + 2 ^ (-53 : ℤ)) ^ n) :
    |F - x| ≤ n * 2 ^ (-52 : ℤ) * x := by
  have hu : (2 : ℚ) ^ (-52 : ℤ) = 2 * 2 ^ (-53 : ℤ) := by norm_num
  have hnu : (n : ℚ) * 2 ^ (-53 : ℤ) ≤ 1 / 2 := by
    have : (n : ℚ) ≤ 2 ^ 52 := by exact_mod_cast hn
    calc (n : ℚ) * 2 ^ (-53 : ℤ) ≤ 2 ^ 52 * 2 ^ (-53 : ℤ) :=
        mul_le_mul_of_nonneg_right this (two_zpow_pos _).le
      _ = 1 / 2 := by norm_num
  have b1 := one_sub_pow_ge _ (two_zpow_pos (-53)).le relRounding64.ule n
  have b2 := one_add_pow_le _ (two_zpow_pos (-53)).le n hnu
  have c1 := mul_le_mul_of_nonneg_left b1 hx
  have c2 := mul_le_mul_of_nonneg_left b2 hx
  have c4 : 0 ≤ x * (n * 2 ^ (-53 : ℤ)) :=
    mul_nonneg hx (mul_nonneg (Nat.cast_nonneg _) (two_zpow_pos _).le)
  rw [abs_le, hu]
  constructor <;> linarith

theorem m3_component (p : ℕ) (hp : p ≤ 2 ^ 49) (x : ℚ)
    (hx : x = 0 ∨ (2 * p + 1) * 2 ^ (-1020 : ℤ) ≤ x) :
    |flSum round64 (List.replicate (2 * m3Requests p) (round64 (round64 (x / (2 * p + 1)) / 2)))
        - m3Requests p / (2 * p + 1) * x|
      ≤ ((2 * m3Requests p + 1 : ℕ) : ℚ) * 2 ^ (-52 : ℤ) * (m3Requests p / (2 * p + 1) * x) := by
  have hden : (0 : ℚ) < 2 * p + 1 := by positivity
  have hreq : m3Requests p ≤ 2 * p + 1 := by unfold m3Requests; split <;> omega
  have hx0 : 0 ≤ x := by
    rcases hx with h | h
    · exact h.ge
    · exact le_trans (mul_nonneg hden.le (two_zpow_pos _).le) h
  -- the event
  obtain ⟨hev, hsh⟩ : round64 (round64 (x / (2 * p + 1)) / 2) = round64 (x / (2 * p + 1)) / 2 ∧
      (x = 0 ∨ 2 ^ (-1020 : ℤ) ≤ x / (2 * p + 1)) := by
    rcases hx with rfl | h
    · rw [zero_div, round64_zero, zero_div, round64_zero]; exact ⟨rfl, Or.inl rfl⟩
    · have hq : 2 ^ (-1020 : ℤ) ≤ x / (2 * p + 1) := by
        rw [le_div_iff₀ hden, mul_comm]; exact h
      have e : round64 (2 ^ (-1020 : ℤ)) = 2 ^ (-1020 : ℤ) := by decide +kernel
      have hr : 2 ^ (-1020 : ℤ) ≤ round64 (x / (2 * p + 1)) := by
        rw [← e]; exact round64_mono _ _ (two_zpow_pos _).le hq
      refine ⟨round64_half _ (round64_idem _ (by positivity)) (le_trans ?_ hr), Or.inr hq⟩
      exact zpow_le_zpow_right₀ (by norm_num) (by norm_num)
  rw [hev]
  have hs : (1 - 2 ^ (-53 : ℤ)) * (x / (2 * p + 1)) ≤ round64 (x / (2 * p + 1)) ∧
      round64 (x / (2 * p + 1)) ≤ (1 + 2 ^ (-53 : ℤ)) * (x / (2 * p + 1)) := by
    rcases hsh with rfl | h
    · rw [zero_div, round64_zero, mul_zero, mul_zero]; exact ⟨le_rfl, le_rfl⟩
    · have : (2 : ℚ) ^ (-1022 : ℤ) ≤ x / (2 * p + 1) :=
        le_trans (zpow_le_zpow_right₀ (by norm_num) (by norm_num)) h
      exact ⟨relRounding64.lo _ this, relRounding64.hi _ this⟩
  obtain ⟨h1, h2⟩ := flSum_bounds relRounding64
    (List.replicate (2 * m3Requests p) (round64 (x / (2 * p + 1)) / 2)) (by
      intro e he
      rw [(List.mem_replicate.1 he).2]
      rcases hsh with rfl | h
      · left; rw [zero_div, round64_zero, zero_div]
      · right
        have e : round64 (2 ^ (-1020 : ℤ)) = 2 ^ (-1020 : ℤ) := by decide +kernel
        have hr : 2 ^ (-1020 : ℤ) ≤ round64 (x / (2 * p + 1)) := by
          rw [← e]; exact round64_mono _ _ (two_zpow_pos _).le h
        have e2 : (2 : ℚ) ^ (-1022 : ℤ) ≤ 2 ^ (-1020 : ℤ) / 2 := by
          rw [show (-1020 : ℤ) = -1021 + 1 by norm_num, zpow_add_one₀ (by norm_num),
            mul_div_assoc, div_self (by norm_num), mul_one]
          exact zpow_le_zpow_right₀ (by norm_num) (by norm_num)
        linarith)
  rw [List.sum_replicate, List.length_replicate, nsmul_eq_mul] at h1 h2
  push_cast at h1 h2
  generalize flSum round64 _ = F at *
  generalize round64 (x / (2 * p + 1)) = s at *
  have hk : (0 : ℚ) ≤ m3Requests p := Nat.cast_nonneg _
  apply pow_error
  · omega
  · positivity
  · refine le_trans ?_ h1
    rw [pow_succ]
    have hpw : 0 ≤ (1 - (2 : ℚ) ^ (-53 : ℤ)) ^ (2 * m3Requests p) :=
      pow_nonneg (by linarith [relRounding64.ule]) _
    have := mul_le_mul_of_nonneg_right (mul_le_mul_of_nonneg_left hs.1 hk) hpw
    refine le_trans (le_of_eq ?_) (this.trans (le_of_eq ?_)) <;> ring
  · refine le_trans h2 ?_
    rw [pow_succ]
    have hpw : 0 ≤ (1 + (2 : ℚ) ^ (-53 : ℤ)) ^ (2 * m3Requests p) :=
      pow_nonneg (by linarith [relRounding64.unn]) _
    have := mul_le_mul_of_nonneg_right (mul_le_mul_of_nonneg_left hs.2 hk) hpw
    refine le_trans (le_of_eq ?_) (this.trans (le_of_eq ?_)) <;> ring

/-- C18 in floats: what the tracker reports after a successful fit is the budget up to
`(4 p + 3) * 2^-52` of it for `p ≥ 3` publishers, and `(p + 1) / (2 p + 1)` of the budget up to
`(2 p + 3) * 2^-52` of it for one or two. -/
theorem C18_float (p : ℕ) (hp : p ≤ 2 ^ 49) (b : PrivacyBudget ℚ)
    (he : b.epsilon = 0 ∨ (2 * p + 1) * 2 ^ (-1020 : ℤ) ≤ b.epsilon)
    (hd : b.delta = 0 ∨ (2 * p + 1) * 2 ^ (-1020 : ℤ) ≤ b.delta) :
    let r := (PrivacyTracker.run (m3EventsFl round64 b p)).privacyConsumptionFl round64
    (3 ≤ p → |r.epsilon - b.epsilon| ≤ (4 * p + 3) * 2 ^ (-52 : ℤ) * b.epsilon ∧
      |r.delta - b.delta| ≤ (4 * p + 3) * 2 ^ (-52 : ℤ) * b.delta) ∧
    (p ≤ 2 → |r.epsilon - (p + 1) / (2 * p + 1) * b.epsilon|
        ≤ (2 * p + 3) * 2 ^ (-52 : ℤ) * ((p + 1) / (2 * p + 1) * b.epsilon) ∧
      |r.delta - (p + 1) / (2 * p + 1) * b.delta|
        ≤ (2 * p + 3) * 2 ^ (-52 : ℤ) * ((p + 1) / (2 * p + 1) * b.delta)) := by
  have hden : (0 : ℚ) < 2 * p + 1 := by positivity
  have hnn : ∀ x : ℚ, (x = 0 ∨ (2 * p + 1) * 2 ^ (-1020 : ℤ) ≤ x) →
      0 ≤ round64 (round64 (x / (2 * p + 1)) / 2) := by
    intro x hx
    have hx0 : 0 ≤ x := by
      rcases hx with h | h
      · exact h.ge
      · exact le_trans (mul_nonneg hden.le (two_zpow_pos _).le) h
    have := round64_nonneg _ (div_nonneg hx0 hden.le)
    exact round64_nonneg _ (by positivity)
  intro r
  have hr := report_requests (List.replicate (2 * m3Requests p)
      (⟨round64 (round64 (b.epsilon / (2 * p + 1)) / 2),
        round64 (round64 (b.delta / (2 * p + 1)) / 2)⟩ : PrivacyBudget ℚ)) (by
      intro x hx
      rw [(List.mem_replicate.1 hx).2]
      exact ⟨hnn _ he, hnn _ hd⟩)
  rw [← m3EventsFl_eq round64 (by decide +kernel)] at hr
  change r = _ at hr
  rw [List.map_replicate, List.map_replicate] at hr
  have h1 := m3_component p hp b.epsilon he
  have h2 := m3_component p hp b.delta hd
  rw [hr]
  constructor
  · intro h3
    have e : m3Requests p = 2 * p + 1 := by unfold m3Requests; rw [if_pos (by omega)]; omega
    rw [e] at h1 h2 ⊢
    have e2 : ((2 * p + 1 : ℕ) : ℚ) / (2 * p + 1) = 1 := by push_cast; exact div_self hden.ne'
    have e3 : ((2 * (2 * p + 1) + 1 : ℕ) : ℚ) = 4 * p + 3 := by push_cast; ring
    rw [e2, one_mul, e3] at h1 h2
    exact ⟨h1, h2⟩
  · intro h3
    have e : m3Requests p = p + 1 := by unfold m3Requests; rw [if_neg (by omega)]; omega
    rw [e] at h1 h2 ⊢
    have e3 : ((2 * (p + 1) + 1 : ℕ) : ℚ) = 2 * p + 3 := by push_cast; ring
    rw [e3] at h1 h2
    push_cast at h1 h2
    exact ⟨h1, h2⟩

example : ((2 * (4 : ℕ) + 1 : ℚ) * 2 ^ (-1020 : ℤ) ≤ 1) ∧
    ((PrivacyTracker.run (m3EventsFl round64 ⟨1, 0⟩ 3)).privacyConsumptionFl round64).epsilon
      = 1 - 3 / 2 ^ 53 := by
  constructor <;> decide +kernel

/-- The claim that the report never exceeds the budget, in floats. -/
def C18_float_full : Prop :=
  ∀ (p : ℕ) (b : PrivacyBudget ℚ), round64 b.epsilon = b.epsilon → 1 / 10 ≤ b.epsilon → b.delta = 0 →
    ((PrivacyTracker.run (m3EventsFl round64 b p)).privacyConsumptionFl round64).epsilon ≤ b.epsilon

/-- In floats it does: with four publishers and a budget of one, the tracker reports
`1.0000000000000002`. -/
theorem C18_float_full_is_false : ¬ C18_float_full := by
  intro h
  have := h 4 ⟨1, 0⟩ (by decide +kernel) (by norm_num) rfl
  have e : ((PrivacyTracker.run (m3EventsFl round64 ⟨1, 0⟩ 4)).privacyConsumptionFl round64).epsilon
      = 1 + 1 / 2 ^ 52 := by decide +kernel
  rw [e] at this
  norm_num at this

end Verif
