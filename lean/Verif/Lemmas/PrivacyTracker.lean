import Verif.Spec.Privacy
import Mathlib.Algebra.BigOperators.Group.List.Basic
import Mathlib.Algebra.Order.BigOperators.Group.List
import Mathlib.Tactic.Linarith

/-! # Lemmas about the privacy tracker -/

set_option linter.unusedSectionVars false

namespace Verif

open Verif.Spec

variable {K : Type} [Field K] [LinearOrder K] [IsStrictOrderedRing K] [FloorRing K]

theorem run_eq (es : List (NoisingEvent K)) :
    (PrivacyTracker.run es).noisingEvents = es ∧
    (∀ s, s ∈ (PrivacyTracker.run es).starts ↔
      s = 0 ∨ ∃ e ∈ es, e.samplingBuckets.smallestIndex = s) := by
  have : ∀ (t : PrivacyTracker K),
      (es.foldl PrivacyTracker.append t).noisingEvents = t.noisingEvents ++ es ∧
      (∀ s, s ∈ (es.foldl PrivacyTracker.append t).starts ↔
        s ∈ t.starts ∨ ∃ e ∈ es, e.samplingBuckets.smallestIndex = s) := by
    induction es with
    | nil => intro t; simp
    | cons e es ih =>
      intro t
      obtain ⟨h1, h2⟩ := ih (t.append e)
      simp only [List.foldl_cons]
      refine ⟨by rw [h1]; simp [PrivacyTracker.append], ?_⟩
      intro s
      rw [h2]
      simp only [PrivacyTracker.append, List.mem_insert_iff, List.mem_cons]
      constructor
      · rintro ((h | h) | ⟨e', he', h⟩)
        · exact Or.inr ⟨e, Or.inl rfl, h.symm⟩
        · exact Or.inl h
        · exact Or.inr ⟨e', Or.inr he', h⟩
      · rintro (h | ⟨e', rfl | he', h⟩)
        · exact Or.inl (Or.inr h)
        · exact Or.inl (Or.inl h.symm)
        · exact Or.inr ⟨e', he', h⟩
  obtain ⟨h1, h2⟩ := this PrivacyTracker.new
  refine ⟨by simpa [PrivacyTracker.run, PrivacyTracker.new] using h1, ?_⟩
  intro s
  have := h2 s
  simpa [PrivacyTracker.run, PrivacyTracker.new] using this

theorem contains_iff_touches (e : NoisingEvent K) (he : ValidEvent e) (x : K) (h0 : 0 ≤ x)
    (h1 : x < 1) : e.samplingBuckets.contains x = true ↔ Touches e x := by
  obtain ⟨ha, ha', hw, hw', _, _⟩ := he
  unfold SamplingBucketIndices.contains Touches
  by_cases h : e.samplingBuckets.smallestIndex ≤ x
  · rw [if_pos h, decide_eq_true_eq]
    constructor
    · intro hx
      refine ⟨x - e.samplingBuckets.smallestIndex, by linarith, by linarith, ?_⟩
      rw [add_sub_cancel]
      exact Int.fract_eq_self.2 ⟨h0, h1⟩
    · rintro ⟨t, ht0, ht1, hf⟩
      rw [Int.fract_eq_iff] at hf
      obtain ⟨_, _, z, hz⟩ := hf
      -- a + t - x = z with a + t < 2 and x ≥ a
      have hz1 : (z : K) < 1 := by linarith
      have hz1' : z < 1 := by exact_mod_cast hz1
      have hz2 : (z : K) ≤ 0 := by
        have : z ≤ 0 := by omega
        exact_mod_cast this
      have hz3 : (-1 : K) < z := by linarith
      have hz3' : (-1 : ℤ) < z := by exact_mod_cast hz3
      have : z = 0 := by omega
      subst this
      simp at hz
      linarith
  · rw [if_neg h, decide_eq_true_eq]
    rw [not_le] at h
    constructor
    · intro hx
      refine ⟨x + 1 - e.samplingBuckets.smallestIndex, by linarith, by linarith, ?_⟩
      rw [add_sub_cancel, Int.fract_add_one]
      exact Int.fract_eq_self.2 ⟨h0, h1⟩
    · rintro ⟨t, ht0, ht1, hf⟩
      rw [Int.fract_eq_iff] at hf
      obtain ⟨_, _, z, hz⟩ := hf
      have hz1 : (0 : K) < z := by linarith
      have hz1' : 0 < z := by exact_mod_cast hz1
      have hz2 : (z : K) < 2 := by linarith
      have hz2' : z < 2 := by exact_mod_cast hz2
      have : z = 1 := by omega
      subst this
      simp at hz
      linarith

/-- The two costs tracked. -/
theorem consumptionForBucket_eq (es : List (NoisingEvent K)) (x : K) (t : PrivacyTracker K)
    (ht : t.noisingEvents = es) :
    (t.consumptionForBucket x).epsilon
      = ((es.filter (fun e => e.samplingBuckets.contains x)).map (·.budget.epsilon)).sum ∧
    (t.consumptionForBucket x).delta
      = ((es.filter (fun e => e.samplingBuckets.contains x)).map (·.budget.delta)).sum := by
  unfold PrivacyTracker.consumptionForBucket
  rw [ht]
  have : ∀ (acc : PrivacyBudget K),
      (es.foldl (fun acc e => if e.samplingBuckets.contains x then
        { epsilon := acc.epsilon + e.budget.epsilon, delta := acc.delta + e.budget.delta }
        else acc) acc) =
      { epsilon := acc.epsilon +
          ((es.filter (fun e => e.samplingBuckets.contains x)).map (·.budget.epsilon)).sum
        delta := acc.delta +
          ((es.filter (fun e => e.samplingBuckets.contains x)).map (·.budget.delta)).sum } := by
    induction es generalizing t with
    | nil => intro acc; simp
    | cons e es ih =>
      intro acc
      rw [List.foldl_cons]
      by_cases h : e.samplingBuckets.contains x = true
      · rw [if_pos h, ih { noisingEvents := es, starts := [] } rfl, List.filter_cons_of_pos
          (p := fun e : NoisingEvent K => e.samplingBuckets.contains x) h]
        simp [add_assoc]
      · rw [if_neg h, ih { noisingEvents := es, starts := [] } rfl, List.filter_cons_of_neg
          (p := fun e : NoisingEvent K => e.samplingBuckets.contains x) h]
  rw [this]
  simp

theorem userLoss_eq (c : NoisingEvent K → K) (es : List (NoisingEvent K))
    (hv : ∀ e ∈ es, ValidEvent e) (x : K) (h0 : 0 ≤ x) (h1 : x < 1) :
    userLoss c es x = ((es.filter (fun e => e.samplingBuckets.contains x)).map c).sum := by
  classical
  unfold userLoss
  congr 2
  apply List.filter_congr
  intro e he
  rw [Bool.eq_iff_iff, decide_eq_true_eq]
  exact (contains_iff_touches e (hv e he) x h0 h1).symm

theorem foldl_max_map_greatest (l : List K) (f : K → K) (hf : ∀ x ∈ l, 0 ≤ f x) (hne : l ≠ []) :
    IsGreatest {y | ∃ x ∈ l, y = f x} (l.foldl (fun acc x => max acc (f x)) 0) := by
  have key : ∀ (l : List K) (a : K),
      a ≤ l.foldl (fun acc x => max acc (f x)) a ∧
      (∀ x ∈ l, f x ≤ l.foldl (fun acc x => max acc (f x)) a) ∧
      (l.foldl (fun acc x => max acc (f x)) a = a ∨
        ∃ x ∈ l, l.foldl (fun acc x => max acc (f x)) a = f x) := by
    intro l
    induction l with
    | nil => intro a; simp
    | cons b l ih =>
      intro a
      obtain ⟨h1, h2, h3⟩ := ih (max a (f b))
      simp only [List.foldl_cons]
      refine ⟨le_trans (le_max_left _ _) h1, ?_, ?_⟩
      · intro x hx
        rcases List.mem_cons.1 hx with rfl | hx
        · exact le_trans (le_max_right _ _) h1
        · exact h2 x hx
      · rcases h3 with h3 | ⟨x, hx, h3⟩
        · rcases max_choice a (f b) with h | h
          · left; rw [h3, h]
          · right; exact ⟨b, by simp, by rw [h3, h]⟩
        · right; exact ⟨x, by simp [hx], h3⟩
  obtain ⟨h1, h2, h3⟩ := key l 0
  constructor
  · rcases h3 with h3 | h3
    · obtain ⟨x, hx⟩ := List.exists_mem_of_ne_nil l hne
      refine ⟨x, hx, ?_⟩
      have := h2 x hx
      rw [h3] at this ⊢
      exact le_antisymm (hf x hx) this
    · exact h3
  · rintro y ⟨x, hx, rfl⟩
    exact h2 x hx

/-- Moving a position back to the nearest bucket start never loses an event. -/
theorem exists_start_dominating (es : List (NoisingEvent K))
    (starts : List K) (hs : ∀ s, s ∈ starts ↔ s = 0 ∨ ∃ e ∈ es, e.samplingBuckets.smallestIndex = s)
    (x : K) (h0 : 0 ≤ x) :
    ∃ s ∈ starts, ∀ e ∈ es, e.samplingBuckets.contains x = true →
      e.samplingBuckets.contains s = true := by
  -- the largest start not beyond x
  have hex : ∃ s ∈ starts, s ≤ x ∧ ∀ s' ∈ starts, s' ≤ x → s' ≤ s := by
    have hne : (starts.filter (fun s => s ≤ x)) ≠ [] := by
      intro h
      have : (0 : K) ∈ starts.filter (fun s => s ≤ x) := by
        rw [List.mem_filter]; exact ⟨(hs 0).2 (Or.inl rfl), by simpa using h0⟩
      rw [h] at this; simp at this
    have key : ∀ (l : List K), l ≠ [] → ∃ s ∈ l, ∀ s' ∈ l, s' ≤ s := by
      intro l
      induction l with
      | nil => intro h; exact absurd rfl h
      | cons a l ih =>
        intro _
        by_cases hl : l = []
        · subst hl; exact ⟨a, by simp, by simp⟩
        · obtain ⟨s, hs1, hs2⟩ := ih hl
          rcases le_total a s with h | h
          · refine ⟨s, by simp [hs1], ?_⟩
            intro s' hs'
            rcases List.mem_cons.1 hs' with rfl | hs'
            · exact h
            · exact hs2 s' hs'
          · refine ⟨a, by simp, ?_⟩
            intro s' hs'
            rcases List.mem_cons.1 hs' with rfl | hs'
            · exact le_rfl
            · exact le_trans (hs2 s' hs') h
    obtain ⟨s, hs1, hs2⟩ := key _ hne
    rw [List.mem_filter] at hs1
    refine ⟨s, hs1.1, by simpa using hs1.2, ?_⟩
    intro s' hs' hle
    exact hs2 s' (List.mem_filter.2 ⟨hs', by simpa using hle⟩)
  obtain ⟨s, hs1, hs2, hs3⟩ := hex
  refine ⟨s, hs1, ?_⟩
  intro e he hc
  unfold SamplingBucketIndices.contains at hc ⊢
  by_cases ha : e.samplingBuckets.smallestIndex ≤ x
  · have : e.samplingBuckets.smallestIndex ≤ s := hs3 _ ((hs _).2 (Or.inr ⟨e, he, rfl⟩)) ha
    rw [if_pos ha, decide_eq_true_eq] at hc
    rw [if_pos this, decide_eq_true_eq]
    linarith
  · rw [if_neg ha, decide_eq_true_eq] at hc
    rw [if_neg (by intro h; exact ha (le_trans h hs2)), decide_eq_true_eq]
    linarith

theorem sum_filter_le (c : NoisingEvent K → K) (es : List (NoisingEvent K))
    (hc : ∀ e ∈ es, 0 ≤ c e) (p q : NoisingEvent K → Bool)
    (hpq : ∀ e ∈ es, p e = true → q e = true) :
    ((es.filter p).map c).sum ≤ ((es.filter q).map c).sum := by
  induction es with
  | nil => simp
  | cons e es ih =>
    have ih' := ih (fun e he => hc e (by simp [he])) (fun e he => hpq e (by simp [he]))
    have hce := hc e (by simp)
    by_cases hp : p e = true
    · have hq := hpq e (by simp) hp
      rw [List.filter_cons_of_pos hp, List.filter_cons_of_pos hq]
      simpa using ih'
    · rw [List.filter_cons_of_neg hp]
      by_cases hq : q e = true
      · rw [List.filter_cons_of_pos hq]
        simp only [List.map_cons, List.sum_cons]
        linarith
      · rw [List.filter_cons_of_neg hq]; exact ih'

/-- Core of C16: the fold over starts is the greatest user loss. -/
theorem fold_starts_greatest (c : NoisingEvent K → K) (es : List (NoisingEvent K))
    (hv : ∀ e ∈ es, ValidEvent e) (hc : ∀ e ∈ es, 0 ≤ c e) (starts : List K)
    (hs : ∀ s, s ∈ starts ↔ s = 0 ∨ ∃ e ∈ es, e.samplingBuckets.smallestIndex = s)
    (f : K → K)
    (hf : ∀ x, f x = ((es.filter (fun e => e.samplingBuckets.contains x)).map c).sum) :
    IsGreatest (losses c es) (starts.foldl (fun acc x => max acc (f x)) 0) := by
  have hnn : ∀ x, 0 ≤ f x := by
    intro x
    rw [hf]
    apply List.sum_nonneg
    intro y hy
    obtain ⟨e, he, rfl⟩ := List.mem_map.1 hy
    exact hc e (List.mem_filter.1 he).1
  have hne : starts ≠ [] := by
    intro h
    have : (0 : K) ∈ starts := (hs 0).2 (Or.inl rfl)
    rw [h] at this; simp at this
  obtain ⟨⟨s, hs1, hs2⟩, h2⟩ := foldl_max_map_greatest starts f (fun x _ => hnn x) hne
  have hrange : ∀ s ∈ starts, 0 ≤ s ∧ s < 1 := by
    intro s hs'
    rcases (hs s).1 hs' with rfl | ⟨e, he, rfl⟩
    · exact ⟨le_rfl, zero_lt_one⟩
    · exact ⟨(hv e he).1, (hv e he).2.1⟩
  constructor
  · refine ⟨s, (hrange s hs1).1, (hrange s hs1).2, ?_⟩
    rw [hs2, userLoss_eq c es hv s (hrange s hs1).1 (hrange s hs1).2, hf]
  · rintro y ⟨x, hx0, hx1, rfl⟩
    rw [userLoss_eq c es hv x hx0 hx1]
    obtain ⟨s', hs', hdom⟩ := exists_start_dominating es starts hs x hx0
    refine le_trans (sum_filter_le c es hc _ _ hdom) ?_
    rw [← hf]
    exact h2 ⟨s', hs', rfl⟩

theorem privacyConsumption_split (t : PrivacyTracker K) :
    t.privacyConsumption.epsilon
      = t.starts.foldl (fun acc x => max acc (t.consumptionForBucket x).epsilon) 0 ∧
    t.privacyConsumption.delta
      = t.starts.foldl (fun acc x => max acc (t.consumptionForBucket x).delta) 0 := by
  unfold PrivacyTracker.privacyConsumption
  have : ∀ (l : List K) (acc : PrivacyBudget K),
      l.foldl (fun acc x =>
        { epsilon := max acc.epsilon (t.consumptionForBucket x).epsilon
          delta := max acc.delta (t.consumptionForBucket x).delta }) acc =
      { epsilon := l.foldl (fun acc x => max acc (t.consumptionForBucket x).epsilon) acc.epsilon
        delta := l.foldl (fun acc x => max acc (t.consumptionForBucket x).delta) acc.delta } := by
    intro l
    induction l with
    | nil => intro acc; rfl
    | cons a l ih => intro acc; rw [List.foldl_cons, ih]; rfl
  rw [this]
  exact ⟨rfl, rfl⟩

end Verif
