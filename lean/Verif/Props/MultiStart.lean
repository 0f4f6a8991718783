import Verif.Model.MultiStart
import Mathlib.Algebra.Order.Ring.Rat
import Mathlib.Tactic.Linarith

/-!
# C36, C63: fitting from several starting points
-/

namespace Verif

/-- The finite losses of the first `n` runs, in ascending order. -/
def sortedLosses {α : Type} (runs : Nat → StartRun α) (n : Nat) : List ℚ :=
  ((List.range n).filterMap (fun i => (runs i).loss)).mergeSort

/-- The first `k` of the smallest losses are there and the largest of them is within the given
relative distance of the least loss of all. -/
def WithinDistance (d : ℚ) (k : Nat) (losses : List ℚ) : Prop :=
  k ≤ losses.length ∧ ∀ x ∈ losses.take k, ∀ y ∈ losses, x < (1 + d) * y

/-- `(fit, loss)` is the outcome of the first among the runs with the least loss. -/
def FirstBest {α : Type} (runs : Nat → StartRun α) (n : Nat) (fit : α) (loss : ℚ) : Prop :=
  ∃ i < n, (runs i).fit = fit ∧ (runs i).loss = some loss ∧
    (∀ j < n, ∀ x, (runs j).loss = some x → loss ≤ x) ∧
    (∀ j < i, ∀ x, (runs j).loss = some x → loss < x)

theorem take_orderedInsert (k : Nat) (x : ℚ) (l : List ℚ) :
    ((l.take k).orderedInsert (· ≤ ·) x).take k = (l.orderedInsert (· ≤ ·) x).take k := by
  induction l generalizing k with
  | nil => simp
  | cons a l ih =>
    cases k with
    | zero => simp
    | succ k =>
      simp only [List.take_succ_cons, List.orderedInsert]
      split
      · simp only [List.take_succ_cons]
        congr 1
        cases k with
        | zero => simp
        | succ k => simp [List.take_take]
      · simp only [List.take_succ_cons]
        rw [ih]

theorem sortedLosses_succ {α : Type} (runs : Nat → StartRun α) (n : Nat) :
    sortedLosses runs (n + 1) = match (runs n).loss with
      | none => sortedLosses runs n
      | some x => (sortedLosses runs n).orderedInsert (· ≤ ·) x := by
  unfold sortedLosses
  rw [List.range_succ, List.filterMap_append]
  cases h : (runs n).loss with
  | none => simp [h]
  | some x =>
    simp only [List.filterMap_cons, h, List.filterMap_nil]
    apply List.Perm.eq_of_pairwise' (r := (· ≤ ·))
    · exact List.pairwise_mergeSort' _ _
    · exact List.Pairwise.orderedInsert _ _ (List.pairwise_mergeSort' _ _)
    · refine (List.mergeSort_perm _ _).trans ?_
      refine List.Perm.trans ?_ (List.perm_orderedInsert _ _ _).symm
      refine List.Perm.trans (List.perm_append_singleton _ _) ?_
      exact List.Perm.cons _ (List.mergeSort_perm _ _).symm

theorem sortedLosses_pairwise {α : Type} (runs : Nat → StartRun α) (n : Nat) :
    (sortedLosses runs n).Pairwise (· ≤ ·) :=
  List.pairwise_mergeSort' _ _

theorem mem_sortedLosses {α : Type} (runs : Nat → StartRun α) (n : Nat) (x : ℚ) :
    x ∈ sortedLosses runs n ↔ ∃ i < n, (runs i).loss = some x := by
  unfold sortedLosses
  rw [List.mem_mergeSort]
  simp

/-- The state after `n` iterations. -/
def stateAfter {α : Type} (c : StartCriteria) (runs : Nat → StartRun α) : Nat → StartState α
  | 0 => ⟨0, [], none, none⟩
  | n + 1 => MultiStart.body c runs (stateAfter c runs n)

theorem stateAfter_numInit {α : Type} (c : StartCriteria) (runs : Nat → StartRun α) (n : Nat) :
    (stateAfter c runs n).numInit = n := by
  induction n with
  | zero => rfl
  | succ n ih => simp [stateAfter, MultiStart.body, ih]

theorem stateAfter_heap {α : Type} (c : StartCriteria) (runs : Nat → StartRun α) (n : Nat) :
    (stateAfter c runs n).heap = (sortedLosses runs n).take c.numNear := by
  induction n with
  | zero => simp [stateAfter, sortedLosses]
  | succ n ih =>
    rw [sortedLosses_succ]
    simp only [stateAfter, MultiStart.body, stateAfter_numInit, ih]
    cases (runs n).loss with
    | none => rfl
    | some x => exact take_orderedInsert _ _ _

theorem stateAfter_converge {α : Type} (c : StartCriteria) (runs : Nat → StartRun α) (n : Nat) :
    (stateAfter c runs (n + 1)).converge = some (runs n).converge := by
  simp [stateAfter, MultiStart.body, stateAfter_numInit]

theorem stateAfter_best {α : Type} (c : StartCriteria) (runs : Nat → StartRun α) (n : Nat) :
    match (stateAfter c runs n).best with
    | none => ∀ i < n, (runs i).loss = none
    | some b => FirstBest runs n b.1 b.2 := by
  induction n with
  | zero => simp [stateAfter]
  | succ n ih =>
    simp only [stateAfter, MultiStart.body, stateAfter_numInit, MultiStart.improve]
    cases hb : (stateAfter c runs n).best with
    | none =>
      rw [hb] at ih
      cases hl : (runs n).loss with
      | none =>
        simp only
        intro i hi
        rcases Nat.lt_succ_iff_lt_or_eq.1 hi with h | rfl
        · exact ih i h
        · exact hl
      | some x =>
        simp only
        refine ⟨n, by omega, rfl, hl, ?_, ?_⟩
        · intro j hj y hy
          rcases Nat.lt_succ_iff_lt_or_eq.1 hj with h | rfl
          · rw [ih j h] at hy; cases hy
          · rw [hl] at hy; exact le_of_eq (by simpa using hy)
        · intro j hj y hy
          rw [ih j hj] at hy; cases hy
    | some b =>
      rw [hb] at ih
      obtain ⟨i, hi, h1, h2, h3, h4⟩ := ih
      cases hl : (runs n).loss with
      | none =>
        simp only
        refine ⟨i, by omega, h1, h2, ?_, h4⟩
        intro j hj y hy
        rcases Nat.lt_succ_iff_lt_or_eq.1 hj with h | rfl
        · exact h3 j h y hy
        · rw [hl] at hy; cases hy
      | some x =>
        simp only
        split
        · rename_i b' heq
          split at heq
          · cases heq
          · cases heq
        · rename_i b' heq
          split at heq
          · rename_i hlt
            obtain rfl : ((runs n).fit, x) = b' := by simpa using heq
            refine ⟨n, by omega, rfl, hl, ?_, ?_⟩
            · intro j hj y hy
              rcases Nat.lt_succ_iff_lt_or_eq.1 hj with h | rfl
              · exact le_of_lt (lt_of_lt_of_le hlt (h3 j h y hy))
              · rw [hl] at hy; exact le_of_eq (by simpa using hy)
            · intro j hj y hy
              exact lt_of_lt_of_le hlt (h3 j hj y hy)
          · rename_i hlt
            obtain rfl : b = b' := by simpa using heq
            refine ⟨i, by omega, h1, h2, ?_, h4⟩
            intro j hj y hy
            rcases Nat.lt_succ_iff_lt_or_eq.1 hj with h | rfl
            · exact h3 j h y hy
            · rw [hl] at hy
              obtain rfl : x = y := by simpa using hy
              exact not_lt.1 hlt

/-- The test of the code is the specified test. -/
theorem closeEnough_iff {α : Type} (c : StartCriteria) (hk : 0 < c.numNear) (hd : 0 ≤ c.distance)
    (runs : Nat → StartRun α) (n : Nat) :
    ∃ b, MultiStart.closeEnough c (stateAfter c runs n).heap = .ok b ∧
      (b = true ↔ WithinDistance c.distance c.numNear (sortedLosses runs n)) := by
  rw [stateAfter_heap]
  unfold MultiStart.closeEnough
  rw [if_neg (by omega)]
  have hp := sortedLosses_pairwise runs n
  generalize sortedLosses runs n = l at hp
  split
  · rename_i h
    refine ⟨false, rfl, ?_⟩
    simp only [Bool.false_eq_true, false_iff]
    rintro ⟨h1, _⟩
    rw [List.length_take] at h
    omega
  · rename_i h
    rw [List.length_take] at h
    refine ⟨_, rfl, ?_⟩
    rw [decide_eq_true_iff]
    obtain ⟨a, l', rfl⟩ : ∃ a l', l = a :: l' := by
      cases l with
      | nil => simp at h; omega
      | cons a l' => exact ⟨a, l', rfl⟩
    obtain ⟨k, hk'⟩ : ∃ k, c.numNear = k + 1 := ⟨c.numNear - 1, by omega⟩
    rw [hk'] at h ⊢
    have hp' := hp
    rw [List.pairwise_cons] at hp
    have htake : ((a :: l').take (k + 1)).Pairwise (· ≤ ·) := List.Pairwise.take hp'
    constructor
    · intro hlt
      refine ⟨by omega, ?_⟩
      intro x hx y hy
      have hxl : x ≤ ((a :: l').take (k + 1)).getLastD 0 := by
        generalize (a :: l').take (k + 1) = t at hx htake
        rw [List.getLastD_eq_getLast?]
        cases hg : t.getLast? with
        | none => rw [List.getLast?_eq_none_iff] at hg; subst hg; simp at hx
        | some z =>
          obtain ⟨ys, rfl⟩ := List.getLast?_eq_some_iff.1 hg
          rw [List.pairwise_append] at htake
          rw [List.mem_append] at hx
          rcases hx with hx | hx
          · exact htake.2.2 x hx z (by simp)
          · simp at hx; subst hx; exact le_refl _
      have hy' : a ≤ y := by
        rcases List.mem_cons.1 hy with rfl | hy
        · exact le_refl _
        · exact hp.1 y hy
      calc x ≤ _ := hxl
        _ < (1 + c.distance) * a := by simpa using hlt
        _ ≤ (1 + c.distance) * y := mul_le_mul_of_nonneg_left hy' (by linarith)
    · rintro ⟨_, h2⟩
      apply h2
      · rw [List.getLastD_eq_getLast?]
        cases hg : ((a :: l').take (k + 1)).getLast? with
        | none => rw [List.getLast?_eq_none_iff] at hg; simp at hg
        | some z => exact List.mem_of_getLast? hg
      · simp

/-- What the loop does. -/
theorem loop_spec {α : Type} (c : StartCriteria) (hk : 0 < c.numNear) (hd : 0 ≤ c.distance)
    (runs : Nat → StartRun α) (left m : Nat) :
    ∃ n, MultiStart.loop c runs left (stateAfter c runs m) = .ok (stateAfter c runs n) ∧
      m ≤ n ∧ n ≤ m + left ∧
      (n < m + left → c.minInit ≤ n ∧ WithinDistance c.distance c.numNear (sortedLosses runs n)) ∧
      ∀ n', m ≤ n' → n' < n → n' < c.minInit ∨
        ¬ WithinDistance c.distance c.numNear (sortedLosses runs n') := by
  induction left generalizing m with
  | zero =>
    refine ⟨m, ?_, le_refl _, le_refl _, by omega, by omega⟩
    unfold MultiStart.loop
    obtain ⟨b, hb, _⟩ := closeEnough_iff c hk hd runs m
    rw [hb]
    split <;> rfl
  | succ left ih =>
    unfold MultiStart.loop
    rw [stateAfter_numInit]
    obtain ⟨n, h1, h2, h3, h4, h5⟩ := ih (m + 1)
    obtain ⟨b, hb, hb'⟩ := closeEnough_iff c hk hd runs m
    have go : (m < c.minInit ∨ ¬ WithinDistance c.distance c.numNear (sortedLosses runs m)) →
        ∃ n, MultiStart.loop c runs left (MultiStart.body c runs (stateAfter c runs m))
            = .ok (stateAfter c runs n) ∧ m ≤ n ∧ n ≤ m + (left + 1) ∧
          (n < m + (left + 1) → c.minInit ≤ n ∧
            WithinDistance c.distance c.numNear (sortedLosses runs n)) ∧
          ∀ n', m ≤ n' → n' < n → n' < c.minInit ∨
            ¬ WithinDistance c.distance c.numNear (sortedLosses runs n') := by
      intro hm
      refine ⟨n, h1, by omega, by omega, fun h => h4 (by omega), ?_⟩
      intro n' h6 h7
      rcases Nat.eq_or_lt_of_le h6 with rfl | h8
      · exact hm
      · exact h5 n' h8 h7
    split
    · exact go (Or.inl ‹_›)
    · rename_i hmin
      rw [hb]
      simp only [bind, Except.bind]
      cases b with
      | true =>
        refine ⟨m, rfl, le_refl _, by omega, fun _ => ⟨by omega, hb'.1 rfl⟩, by omega⟩
      | false =>
        simp only [Bool.false_eq_true, if_false]
        apply go
        right
        intro hw
        have := hb'.2 hw
        cases this

/-- C36: fitting from several starting points returns the outcome of the first run with the least
loss among all runs performed; the number of runs is between the configured minimum and maximum; the
search stops before the maximum exactly when the smallest losses are close together, and does so at
the first opportunity; and the reported smallest losses are the smallest losses of the runs. -/
theorem C36_multi_start {α : Type} (c : StartCriteria) (hk : 0 < c.numNear) (hd : 0 ≤ c.distance)
    (hmax : 0 < c.maxInit) (runs : Nat → StartRun α) :
    ∃ res, MultiStart.fit c runs = .ok res ∧
      0 < res.numInit ∧ res.numInit ≤ c.maxInit ∧
      (c.minInit ≤ c.maxInit → c.minInit ≤ res.numInit) ∧
      (res.numInit < c.maxInit →
        WithinDistance c.distance c.numNear (sortedLosses runs res.numInit)) ∧
      (∀ n, c.minInit ≤ n → n < res.numInit →
        ¬ WithinDistance c.distance c.numNear (sortedLosses runs n)) ∧
      res.kSmallest = (sortedLosses runs res.numInit).take c.numNear ∧
      (res.modelSuccess.2 = true ↔
        WithinDistance c.distance c.numNear (sortedLosses runs res.numInit)) ∧
      (∀ fit loss, res.best = some (fit, loss) → FirstBest runs res.numInit fit loss) ∧
      (res.best = none → ∀ i < res.numInit, (runs i).loss = none) := by
  obtain ⟨n, h1, _, h3, h4, h5⟩ := loop_spec c hk hd runs c.maxInit 0
  rw [Nat.zero_add] at h3 h4
  have hn : 0 < n := by
    rcases Nat.eq_zero_or_pos n with rfl | h
    · have := (h4 (by omega)).2.1
      simp [sortedLosses] at this
      omega
    · exact h
  obtain ⟨m, rfl⟩ : ∃ m, n = m + 1 := ⟨n - 1, by omega⟩
  obtain ⟨b, hb, hb'⟩ := closeEnough_iff c hk hd runs (m + 1)
  refine ⟨⟨(stateAfter c runs (m + 1)).best, ((runs m).converge, b),
    (stateAfter c runs (m + 1)).heap, m + 1⟩, ?_, hn, h3, ?_, fun h => (h4 h).2, ?_,
    stateAfter_heap c runs (m + 1), hb', ?_, ?_⟩
  · unfold MultiStart.fit
    have e : (⟨0, [], none, none⟩ : StartState α) = stateAfter c runs 0 := rfl
    rw [e, h1]
    simp only [bind, Except.bind, stateAfter_converge, hb, stateAfter_numInit, pure, Except.pure]
  · intro hle
    by_contra hcon
    simp only at hcon
    have := (h4 (by omega)).1
    omega
  · intro n' h6 h7
    rcases h5 n' (by omega) h7 with h | h
    · omega
    · exact h
  · intro fit loss hf
    have := stateAfter_best c runs (m + 1)
    simp only at hf
    rw [hf] at this
    exact this
  · intro hf
    have := stateAfter_best c runs (m + 1)
    simp only at hf
    rw [hf] at this
    exact this

/-- C36 for the default criteria of the mixture surface: the minimum of 30 exceeds the maximum of
10, so the search never stops early, and always performs ten runs. -/
theorem C36_mixture_always_ten {α : Type} (runs : Nat → StartRun α) :
    ∃ res, MultiStart.fit mixtureCriteria runs = .ok res ∧ res.numInit = 10 := by
  obtain ⟨n, h1, _, h3, h4, _⟩ := loop_spec mixtureCriteria (by decide)
    (by norm_num [mixtureCriteria]) runs mixtureCriteria.maxInit 0
  have hn : n = 10 := by
    by_contra hne
    have hm : mixtureCriteria.maxInit = 10 := rfl
    have hm' : mixtureCriteria.minInit = 30 := rfl
    have := (h4 (by omega)).1
    omega
  subst hn
  obtain ⟨b, hb, _⟩ := closeEnough_iff mixtureCriteria (by decide) (by norm_num [mixtureCriteria]) runs 10
  refine ⟨⟨(stateAfter mixtureCriteria runs 10).best, ((runs 9).converge, b),
    (stateAfter mixtureCriteria runs 10).heap, 10⟩, ?_, rfl⟩
  unfold MultiStart.fit
  have e : (⟨0, [], none, none⟩ : StartState α) = stateAfter mixtureCriteria runs 0 := rfl
  rw [e, h1]
  simp only [bind, Except.bind, stateAfter_converge, hb, stateAfter_numInit, pure, Except.pure]

/-- C36, a consequence: once a run fits perfectly (and losses are never negative) the search can not
stop early: it performs the maximum number of runs and reports failure. -/
theorem C36_perfect_fit_exhausts {α : Type} (c : StartCriteria) (hk : 0 < c.numNear)
    (hd : 0 ≤ c.distance) (hmax : 0 < c.maxInit) (runs : Nat → StartRun α)
    (hnn : ∀ i x, (runs i).loss = some x → 0 ≤ x) (h0 : (runs 0).loss = some 0) :
    ∃ res, MultiStart.fit c runs = .ok res ∧ res.numInit = c.maxInit ∧
      res.modelSuccess.2 = false := by
  obtain ⟨res, h1, h2, h3, _, h5, _, _, h8, _⟩ := C36_multi_start c hk hd hmax runs
  have hnot : ¬ WithinDistance c.distance c.numNear (sortedLosses runs res.numInit) := by
    rintro ⟨hlen, hw⟩
    have hm : (0 : ℚ) ∈ sortedLosses runs res.numInit :=
      (mem_sortedLosses runs _ _).2 ⟨0, h2, h0⟩
    obtain ⟨x, hx⟩ : ∃ x, x ∈ (sortedLosses runs res.numInit).take c.numNear := by
      apply List.exists_mem_of_length_pos
      rw [List.length_take]
      omega
    have := hw x hx 0 hm
    obtain ⟨i, _, hi⟩ := (mem_sortedLosses runs _ _).1 (List.mem_of_mem_take hx)
    have := hnn i x hi
    linarith
  refine ⟨res, h1, ?_, ?_⟩
  · by_contra hne
    exact hnot (h5 (by omega))
  · by_contra hne
    exact hnot (h8.1 (by simpa using hne))

/-- Five runs with losses 8, 5, nan, 5, 6. -/
def exRuns : Nat → StartRun Nat := fun i =>
  if i = 0 then ⟨10, some 8, true⟩ else if i = 1 then ⟨11, some 5, false⟩
  else if i = 2 then ⟨12, none, false⟩ else if i = 3 then ⟨13, some 5, true⟩ else ⟨14, some 6, true⟩

example : (MultiStart.fit ⟨1 / 100, 2, 3, 9⟩ exRuns).toOption.map (fun r => (r.best, r.numInit))
    = some (some (11, 5), 4) := by decide +kernel

example : (MultiStart.fit ⟨1 / 100, 2, 3, 9⟩ exRuns).toOption.map (fun r => (r.kSmallest, r.modelSuccess))
    = some ([5, 5], (true, true)) := by decide +kernel

/-! ## C63 -/

/-- C63: the reported success tells whether the run that produced the returned parameters
converged. -/
def C63_full : Prop :=
  ∀ (c : StartCriteria) (runs : Nat → StartRun Nat) (res : MultiStart.Result Nat) (fit : Nat)
    (loss : ℚ), MultiStart.fit c runs = .ok res → res.best = some (fit, loss) →
    ∃ i < res.numInit, (runs i).fit = fit ∧ (runs i).loss = some loss ∧
      (runs i).converge = res.modelSuccess.1

/-- False: it is the flag of the last run.  In the example the returned run 1 did not converge, but
success is reported. -/
theorem C63_full_is_false : ¬ C63_full := by
  intro h
  have hr : ∃ res, MultiStart.fit ⟨1 / 100, 2, 3, 9⟩ exRuns = .ok res ∧ res.best = some (11, 5) ∧
      res.modelSuccess.1 = true ∧ res.numInit = 4 :=
    ⟨⟨some (11, 5), (true, true), [5, 5], 4⟩, by
      have : (MultiStart.fit ⟨1 / 100, 2, 3, 9⟩ exRuns).toOption.map
        (fun r => (r.best, r.numInit, r.kSmallest, r.modelSuccess))
          = some (some (11, 5), 4, [5, 5], (true, true)) := by decide +kernel
      cases hf : MultiStart.fit ⟨1 / 100, 2, 3, 9⟩ exRuns with
      | error e => rw [hf] at this; simp [Except.toOption] at this
      | ok r =>
        rw [hf] at this
        simp only [Except.toOption, Option.map_some, Option.some.injEq, Prod.mk.injEq] at this
        obtain ⟨a, b, c, d⟩ := this
        cases r
        simp_all, rfl, rfl, rfl⟩
  obtain ⟨res, h1, h2, h3, h4⟩ := hr
  obtain ⟨i, hi, a1, a2, a3⟩ := h _ _ res 11 5 h1 h2
  rw [h3] at a3
  rw [h4] at hi
  have : i = 0 ∨ i = 1 ∨ i = 2 ∨ i = 3 := by omega
  rcases this with rfl | rfl | rfl | rfl <;> simp [exRuns] at a1 a3

/-- C63, partial: the first component of the reported success is the flag of the last run. -/
theorem C63_success_of_last_run_partial {α : Type} (c : StartCriteria) (runs : Nat → StartRun α)
    (hk : 0 < c.numNear) (hd : 0 ≤ c.distance) (res : MultiStart.Result α)
    (h : MultiStart.fit c runs = .ok res) :
    res.modelSuccess.1 = (runs (res.numInit - 1)).converge := by
  obtain ⟨n, h1, _⟩ := loop_spec c hk hd runs c.maxInit 0
  unfold MultiStart.fit at h
  have e : (⟨0, [], none, none⟩ : StartState α) = stateAfter c runs 0 := rfl
  rw [e, h1] at h
  obtain ⟨b, hb, _⟩ := closeEnough_iff c hk hd runs n
  simp only [bind, Except.bind, hb] at h
  cases n with
  | zero => simp [stateAfter] at h
  | succ m =>
    simp only [stateAfter_converge, pure, Except.pure, Except.ok.injEq] at h
    rw [← h]
    simp [stateAfter_numInit]

/-- **C36 for the default criteria of the restricted surface**: between 30 and 1000 runs are performed,
and if fewer than 1000 are, each of the ten smallest losses is less than one percent above any other. -/
theorem C36_restricted_defaults {α : Type} (runs : Nat → StartRun α) :
    ∃ res, MultiStart.fit restrictedCriteria runs = .ok res ∧
      30 ≤ res.numInit ∧ res.numInit ≤ 1000 ∧
      (res.numInit < 1000 ↔ ∃ n, 30 ≤ n ∧ n < 1000 ∧ 10 ≤ (sortedLosses runs n).length ∧
        ∀ x ∈ (sortedLosses runs n).take 10, ∀ y ∈ sortedLosses runs n, x < 101 / 100 * y) := by
  obtain ⟨res, h1, -, h3, h4, h5, h6, -⟩ := C36_multi_start restrictedCriteria (by decide)
    (by norm_num [restrictedCriteria]) (by decide) runs
  have hd : (1 + restrictedCriteria.distance) = 101 / 100 := by norm_num [restrictedCriteria]
  have hlo : 30 ≤ res.numInit := h4 (by decide)
  refine ⟨res, h1, hlo, h3, ?_, ?_⟩
  · intro h
    have := h5 h
    unfold WithinDistance at this
    rw [hd] at this
    exact ⟨_, hlo, h, this⟩
  · rintro ⟨n, hn, hn', hl, hw⟩
    by_contra hc
    refine h6 n hn (by omega) ⟨hl, ?_⟩
    rw [hd]
    exact hw

end Verif
