import Verif.Lemmas.Stats
import Verif.Props.ReachPoint

/-!
# C47 and C68: aggregation of the test points
-/

namespace Verif

/-- The reach point was constructed with k+ reaches `ks`. -/
def MadeFrom (ks : List ℚ) (p : ReachPoint) : Prop :=
  ∃ imps sp us, ReachPoint.new imps ks sp us = .ok p

/-- Share of people reached exactly `i + 1` times, from the k+ reaches. -/
def freqAt (ks : List ℚ) (i : Nat) : ℚ := ks.getD i 0 - ks.getD (i + 1) 0

/-- People reached one to five times. -/
def firstFive (ks : List ℚ) : ℚ := ((List.range 5).map (freqAt ks)).sum

theorem MadeFrom.kplus {ks : List ℚ} {p : ReachPoint} (h : MadeFrom ks p) :
    p.kplusReaches = ks := by
  obtain ⟨imps, sp, us, h⟩ := h
  unfold ReachPoint.new at h
  split at h
  · cases h
  · cases h; rfl

theorem MadeFrom.maxFrequency {ks : List ℚ} {p : ReachPoint} (h : MadeFrom ks p) :
    p.maxFrequency = ks.length := by
  unfold ReachPoint.maxFrequency; rw [h.kplus]

theorem MadeFrom.reach {ks : List ℚ} {p : ReachPoint} (h : MadeFrom ks p) (k : Nat)
    (h1 : 1 ≤ k) (h2 : k ≤ ks.length) : p.reach k = .ok (ks.getD (k - 1) 0) := by
  obtain ⟨imps, sp, us, h⟩ := h
  obtain ⟨v, hv, hv'⟩ := (C15_reach_accessor imps ks sp us p h k).1 ⟨by omega, by omega⟩
  have : ((k : Int) - 1).toNat = k - 1 := by omega
  rw [this] at hv'
  rw [hv, List.getD_eq_getElem?_getD, hv']; rfl

theorem MadeFrom.frequency {ks : List ℚ} {p : ReachPoint} (h : MadeFrom ks p) (i : Nat)
    (h2 : i + 1 < ks.length) : p.frequency ((i : Int) + 1) = .ok (freqAt ks i) := by
  have ha := h.reach (i + 1) (by omega) (by omega)
  have hb := h.reach (i + 1 + 1) (by omega) (by omega)
  obtain ⟨imps, sp, us, h⟩ := h
  obtain ⟨v, w, hv, hw, hf⟩ :=
    (C15_frequency_accessor imps ks sp us p h ((i : Int) + 1)).1 ⟨by omega, by omega⟩
  push_cast at ha hb
  rw [ha] at hv
  rw [hb] at hw
  cases hv
  cases hw
  rw [hf]
  unfold freqAt
  simp

theorem mapM_range_ok {β : Type} (f : Nat → Except PyErr β) (g : Nat → β) (n : Nat)
    (h : ∀ i < n, f i = .ok (g i)) : (List.range n).mapM f = .ok ((List.range n).map g) := by
  rw [mapM_ok_iff, List.forall₂_map_right_iff, List.forall₂_same]
  intro i hi
  exact h i (List.mem_range.1 hi)

/-- C47: what the shuffle distance computes: half the sum of absolute differences of the two
normalised histograms over one to five impressions.  It is 1 if either point has at most five
frequencies and 1/2 if either histogram is zero on those. -/
theorem C47_shuffle_value (ks ls : List ℚ) (x y : ReachPoint) (hx : MadeFrom ks x)
    (hy : MadeFrom ls y) :
    shuffleDistance x y = .ok (
      if ks.length ≤ 5 ∨ ls.length ≤ 5 then 1
      else if firstFive ks = 0 ∨ firstFive ls = 0 then 1 / 2
      else (|freqAt ks 0 / firstFive ks - freqAt ls 0 / firstFive ls|
        + |freqAt ks 1 / firstFive ks - freqAt ls 1 / firstFive ls|
        + |freqAt ks 2 / firstFive ks - freqAt ls 2 / firstFive ls|
        + |freqAt ks 3 / firstFive ks - freqAt ls 3 / firstFive ls|
        + |freqAt ks 4 / firstFive ks - freqAt ls 4 / firstFive ls|) / 2) := by
  unfold shuffleDistance
  rw [hx.maxFrequency, hy.maxFrequency]
  by_cases h : ks.length ≤ 5 ∨ ls.length ≤ 5
  · have h' : (ks.length : Int) ≤ 5 ∨ (ls.length : Int) ≤ 5 := by omega
    rw [if_pos h, if_pos h']
  · have h' : ¬ ((ks.length : Int) ≤ 5 ∨ (ls.length : Int) ≤ 5) := by omega
    rw [if_neg h, if_neg h']
    have e1 := mapM_range_ok (fun i : Nat => x.frequency ((i : Int) + 1)) (freqAt ks) 5
      (fun i hi => hx.frequency i (by omega))
    have e2 := mapM_range_ok (fun i : Nat => y.frequency ((i : Int) + 1)) (freqAt ls) 5
      (fun i hi => hy.frequency i (by omega))
    have e5 : (5 : Int).toNat = 5 := rfl
    simp only [e5, e1, e2, bind, Except.bind]
    change (if firstFive ks = 0 ∨ firstFive ls = 0 then _ else _) = _
    by_cases hz : firstFive ks = 0 ∨ firstFive ls = 0
    · rw [if_pos hz, if_pos hz]
    · rw [if_neg hz, if_neg hz]
      have : List.range 5 = [0, 1, 2, 3, 4] := rfl
      congr 1
      change 1 / 2 * (List.zipWith (fun a b => |a / firstFive ks - b / firstFive ls|) _ _).sum = _
      rw [this]
      simp only [List.map_cons, List.map_nil, List.zipWith_cons_cons, List.zipWith_nil_right,
        List.sum_cons, List.sum_nil]
      ring

/-- The histogram has no negative entries. -/
def NonnegHist (ks : List ℚ) : Prop := ∀ i, i + 1 < ks.length → 0 ≤ freqAt ks i

theorem firstFive_eq (ks : List ℚ) : firstFive ks
    = freqAt ks 0 + freqAt ks 1 + freqAt ks 2 + freqAt ks 3 + freqAt ks 4 := by
  have : List.range 5 = [0, 1, 2, 3, 4] := rfl
  unfold firstFive
  rw [this]
  simp only [List.map_cons, List.map_nil, List.sum_cons, List.sum_nil]
  ring

/-- C47: the shuffle distance is always defined and lies between zero and one. -/
theorem C47_shuffle_range (ks ls : List ℚ) (x y : ReachPoint) (hx : MadeFrom ks x)
    (hy : MadeFrom ls y) (hks : NonnegHist ks) (hls : NonnegHist ls) :
    ∃ d, shuffleDistance x y = .ok d ∧ 0 ≤ d ∧ d ≤ 1 := by
  refine ⟨_, C47_shuffle_value ks ls x y hx hy, ?_, ?_⟩
  · split
    · norm_num
    · split
      · norm_num
      · positivity
  · split
    · norm_num
    · rename_i h
      split
      · norm_num
      · rename_i hz
        have hk : ∀ i, i < 5 → 0 ≤ freqAt ks i := fun i hi => hks i (by omega)
        have hl : ∀ i, i < 5 → 0 ≤ freqAt ls i := fun i hi => hls i (by omega)
        have sk := firstFive_eq ks
        have sl := firstFive_eq ls
        have k0 := hk 0 (by omega)
        have k1 := hk 1 (by omega)
        have k2 := hk 2 (by omega)
        have k3 := hk 3 (by omega)
        have k4 := hk 4 (by omega)
        have l0 := hl 0 (by omega)
        have l1 := hl 1 (by omega)
        have l2 := hl 2 (by omega)
        have l3 := hl 3 (by omega)
        have l4 := hl 4 (by omega)
        have pk : 0 < firstFive ks :=
          lt_of_le_of_ne (by rw [sk]; positivity) (fun e => hz (Or.inl e.symm))
        have pl : 0 < firstFive ls :=
          lt_of_le_of_ne (by rw [sl]; positivity) (fun e => hz (Or.inr e.symm))
        have tri : ∀ a b : ℚ, 0 ≤ a → 0 ≤ b →
            |a / firstFive ks - b / firstFive ls| ≤ a / firstFive ks + b / firstFive ls := by
          intro a b ha hb
          have h1 : 0 ≤ a / firstFive ks := by positivity
          have h2 : 0 ≤ b / firstFive ls := by positivity
          rw [abs_le]; constructor <;> linarith
        have ek : freqAt ks 0 / firstFive ks + freqAt ks 1 / firstFive ks
            + freqAt ks 2 / firstFive ks + freqAt ks 3 / firstFive ks
            + freqAt ks 4 / firstFive ks = 1 := by
          rw [← add_div, ← add_div, ← add_div, ← add_div, ← sk, div_self (ne_of_gt pk)]
        have el : freqAt ls 0 / firstFive ls + freqAt ls 1 / firstFive ls
            + freqAt ls 2 / firstFive ls + freqAt ls 3 / firstFive ls
            + freqAt ls 4 / firstFive ls = 1 := by
          rw [← add_div, ← add_div, ← add_div, ← add_div, ← sl, div_self (ne_of_gt pl)]
        have t0 := tri _ _ k0 l0
        have t1 := tri _ _ k1 l1
        have t2 := tri _ _ k2 l2
        have t3 := tri _ _ k3 l3
        have t4 := tri _ _ k4 l4
        linarith

/-- C47: the shuffle distance is symmetric. -/
theorem C47_shuffle_symmetric (ks ls : List ℚ) (x y : ReachPoint) (hx : MadeFrom ks x)
    (hy : MadeFrom ls y) : shuffleDistance x y = shuffleDistance y x := by
  rw [C47_shuffle_value ks ls x y hx hy, C47_shuffle_value ls ks y x hy hx]
  congr 1
  by_cases h : ks.length ≤ 5 ∨ ls.length ≤ 5
  · rw [if_pos h, if_pos h.symm]
  · have h2 : ¬ (ls.length ≤ 5 ∨ ks.length ≤ 5) := fun h' => h h'.symm
    rw [if_neg h, if_neg h2]
    by_cases hz : firstFive ks = 0 ∨ firstFive ls = 0
    · rw [if_pos hz, if_pos hz.symm]
    · have hz2 : ¬ (firstFive ls = 0 ∨ firstFive ks = 0) := fun h' => hz h'.symm
      rw [if_neg hz, if_neg hz2]
      rw [abs_sub_comm (freqAt ks 0 / _), abs_sub_comm (freqAt ks 1 / _),
        abs_sub_comm (freqAt ks 2 / _), abs_sub_comm (freqAt ks 3 / _),
        abs_sub_comm (freqAt ks 4 / _)]

/-- C47: the shuffle distance of two long enough, non-zero histograms is zero exactly if the
normalised histograms agree. -/
theorem C47_shuffle_zero_iff (ks ls : List ℚ) (x y : ReachPoint) (hx : MadeFrom ks x)
    (hy : MadeFrom ls y) (hk : 5 < ks.length) (hl : 5 < ls.length) (hk0 : firstFive ks ≠ 0)
    (hl0 : firstFive ls ≠ 0) :
    shuffleDistance x y = .ok 0 ↔
      ∀ i < 5, freqAt ks i / firstFive ks = freqAt ls i / firstFive ls := by
  rw [C47_shuffle_value ks ls x y hx hy, if_neg (by omega), if_neg (by tauto)]
  simp only [Except.ok.injEq]
  constructor
  · intro h i hi
    have a0 := abs_nonneg (freqAt ks 0 / firstFive ks - freqAt ls 0 / firstFive ls)
    have a1 := abs_nonneg (freqAt ks 1 / firstFive ks - freqAt ls 1 / firstFive ls)
    have a2 := abs_nonneg (freqAt ks 2 / firstFive ks - freqAt ls 2 / firstFive ls)
    have a3 := abs_nonneg (freqAt ks 3 / firstFive ks - freqAt ls 3 / firstFive ls)
    have a4 := abs_nonneg (freqAt ks 4 / firstFive ks - freqAt ls 4 / firstFive ls)
    have key : |freqAt ks i / firstFive ks - freqAt ls i / firstFive ls| = 0 := by
      have : i = 0 ∨ i = 1 ∨ i = 2 ∨ i = 3 ∨ i = 4 := by omega
      rcases this with rfl | rfl | rfl | rfl | rfl <;> linarith
    rw [abs_eq_zero] at key
    linarith
  · intro h
    rw [h 0 (by omega), h 1 (by omega), h 2 (by omega), h 3 (by omega), h 4 (by omega)]
    simp

/-- C47 as worded: the shuffle distance of a histogram to itself is zero. -/
def C47_full : Prop :=
  ∀ (ks : List ℚ) (x : ReachPoint), MadeFrom ks x → NonnegHist ks → shuffleDistance x x = .ok 0

/-- C47: equal histograms have distance zero if they have more than five entries and are not zero on
the first five.  Missing: the two remaining cases, where the distance of a histogram to itself is 1
and 1/2. -/
theorem C47_shuffle_equal_partial (ks : List ℚ) (x : ReachPoint) (hx : MadeFrom ks x)
    (hk : 5 < ks.length) (hk0 : firstFive ks ≠ 0) : shuffleDistance x x = .ok 0 :=
  (C47_shuffle_zero_iff ks ks x x hx hx hk hk hk0 hk0).2 (fun _ _ => rfl)

/-- C47: the two exceptional cases: a histogram of at most five entries is at the largest possible
distance from itself, and a zero one at distance one half. -/
theorem C47_shuffle_degenerate (ks : List ℚ) (x : ReachPoint) (hx : MadeFrom ks x) :
    (ks.length ≤ 5 → shuffleDistance x x = .ok 1) ∧
    (5 < ks.length → firstFive ks = 0 → shuffleDistance x x = .ok (1 / 2)) := by
  constructor
  · intro h
    rw [C47_shuffle_value ks ks x x hx hx, if_pos (Or.inl h)]
  · intro h h0
    rw [C47_shuffle_value ks ks x x hx hx, if_neg (by omega), if_pos (Or.inl h0)]

/-- C47 as worded is false. -/
theorem C47_full_is_false : ¬ C47_full := by
  intro h
  have hx : MadeFrom [3, 2, 1] ⟨[5], [3, 2, 1], [1, 1], none, none⟩ :=
    ⟨[5], none, none, by decide +kernel⟩
  have h1 := h _ _ hx (by
    intro i hi
    have : i = 0 ∨ i = 1 := by simp at hi; omega
    rcases this with rfl | rfl <;> decide +kernel)
  rw [(C47_shuffle_degenerate _ _ hx).1 (by decide)] at h1
  exact absurd h1 (by decide +kernel)

/-! ## Columns -/

/-- The columns of a result row. -/
def resultColumns : List String :=
  ["model_succeeded", "model_exception", "npoints", "mean_error", "mean_abs_error",
   "mean_squared_error", "mean_abs_relative_error", "mare_freq_at_least_2", "mare_freq_at_least_3",
   "mare_freq_at_least_4", "mare_freq_at_least_5", "mare_freq_at_least_6", "mare_freq_at_least_7",
   "mare_freq_at_least_8", "mare_freq_at_least_9", "mean_squared_relative_error", "var_error",
   "var_relative_error", "relative_error_q10", "relative_error_q20", "relative_error_q30",
   "relative_error_q40", "relative_error_q50", "relative_error_q60", "relative_error_q70",
   "relative_error_q80", "relative_error_q90", "mean_shuffle_distance",
   "mean_squared_shuffle_distance", "var_shuffle_distance"]

theorem aggregateStats_forall₂ (x y : List ReachPoint) (stats : Row)
    (h : aggregateStats x y = .ok stats) :
    List.Forall₂ (fun a (r : String × Cell) => r.1 = a.1 ∧ a.2 x y = .ok r.2) aggregators stats := by
  unfold aggregateStats at h
  rw [mapM_ok_iff] at h
  refine h.imp ?_
  intro a r har
  rcases hc : a.2 x y with e | c
  · rw [hc] at har; cases har
  · rw [hc] at har; cases har; exact ⟨rfl, rfl⟩

theorem map_fst_of_forall₂ (l : List (String × (List ReachPoint → List ReachPoint →
    Except PyErr Cell))) (r : Row) (x y : List ReachPoint)
    (h : List.Forall₂ (fun a (r : String × Cell) => r.1 = a.1 ∧ a.2 x y = .ok r.2) l r) :
    r.map (·.1) = l.map (·.1) := by
  induction h with
  | nil => rfl
  | cons h _ ih => simp [h.1, ih]

/-- C47: success and failure give the same thirty, pairwise different columns in the same order; the
first one tells which it was and the second holds the message. -/
theorem C47_columns :
    resultColumns.Nodup ∧
    (∀ x y row, aggregate x y = .ok row → row.map (·.1) = resultColumns ∧
      ("model_succeeded", Cell.int 1) ∈ row ∧ ("model_exception", Cell.text "None") ∈ row) ∧
    (∀ msg, (aggregateOnException msg).map (·.1) = resultColumns ∧
      ("model_succeeded", Cell.int 0) ∈ aggregateOnException msg ∧
      ("model_exception", Cell.text msg) ∈ aggregateOnException msg ∧
      ∀ c ∈ resultColumns.drop 2, (c, Cell.float none) ∈ aggregateOnException msg) := by
  have hcols : resultColumns
      = "model_succeeded" :: "model_exception" :: aggregators.map (·.1) := rfl
  refine ⟨by decide +kernel, ?_, ?_⟩
  · intro x y row h
    unfold aggregate at h
    rcases hs : aggregateStats x y with e | stats
    · rw [hs] at h; cases h
    · rw [hs] at h; cases h
      refine ⟨?_, by simp, by simp⟩
      rw [hcols, List.map_cons, List.map_cons,
        map_fst_of_forall₂ _ _ x y (aggregateStats_forall₂ x y stats hs)]
  · intro msg
    refine ⟨?_, by simp [aggregateOnException], by simp [aggregateOnException], ?_⟩
    · rw [hcols]
      simp [aggregateOnException]
    · intro c hc
      rw [hcols] at hc
      simp only [List.drop_succ_cons, List.drop_zero, List.mem_map] at hc
      obtain ⟨a, ha, rfl⟩ := hc
      unfold aggregateOnException
      exact List.mem_cons_of_mem _ (List.mem_cons_of_mem _ (List.mem_map.2 ⟨a, ha, rfl⟩))

/-! ## C68: values of the statistics -/

theorem mem_row_of_aggregator (x y : List ReachPoint) (row : Row) (h : aggregate x y = .ok row)
    (name : String) (f : List ReachPoint → List ReachPoint → Except PyErr Cell)
    (hf : (name, f) ∈ aggregators) : ∃ c, f x y = .ok c ∧ (name, c) ∈ row := by
  unfold aggregate at h
  rcases hs : aggregateStats x y with e | stats
  · rw [hs] at h; cases h
  · rw [hs] at h; cases h
    have h2 := aggregateStats_forall₂ x y stats hs
    obtain ⟨i, hi, he⟩ := List.mem_iff_getElem.1 hf
    have hi' : i < stats.length := by rw [← h2.length_eq]; exact hi
    have := h2.get (i := i) hi hi'
    simp only [List.get_eq_getElem, he] at this
    refine ⟨stats[i].2, this.2, ?_⟩
    have : (name, stats[i].2) = stats[i] := Prod.ext this.1.symm rfl
    rw [this]
    exact List.mem_cons_of_mem _ (List.mem_cons_of_mem _ (List.getElem_mem hi'))

/-- A column has only one value. -/
theorem row_value_unique (x y : List ReachPoint) (row : Row) (h : aggregate x y = .ok row)
    (name : String) (c c' : Cell) (h1 : (name, c) ∈ row) (h2 : (name, c') ∈ row) : c = c' := by
  have hn : (row.map (·.1)).Nodup := by rw [(C47_columns.2.1 x y row h).1]; exact C47_columns.1
  have := List.inj_on_of_nodup_map hn h1 h2 rfl
  simpa using this

theorem row_value_iff (x y : List ReachPoint) (row : Row) (h : aggregate x y = .ok row)
    (name : String) (f : List ReachPoint → List ReachPoint → Except PyErr Cell)
    (hf : (name, f) ∈ aggregators) (c : Cell) : (name, c) ∈ row ↔ f x y = .ok c := by
  obtain ⟨c', h1, h2⟩ := mem_row_of_aggregator x y row h name f hf
  constructor
  · intro hc
    rw [row_value_unique x y row h name c c' hc h2]; exact h1
  · intro hc
    rw [h1] at hc; cases hc; exact h2

/-- The points have these (1+) reaches. -/
def Reaches (points : List ReachPoint) (rs : List ℚ) : Prop :=
  List.Forall₂ (fun (p : ReachPoint) r => p.reach 1 = .ok r) points rs

theorem reachArray_of_reaches (points : List ReachPoint) (rs : List ℚ) (h : Reaches points rs) :
    reachArray points = .ok (rs.map some) := by
  unfold reachArray
  rw [mapM_ok_iff, List.forall₂_map_right_iff]
  refine h.imp ?_
  intro p r hr
  rw [hr]; rfl

theorem errors_of_reaches (x y : List ReachPoint) (a b : List ℚ) (ha : Reaches x a)
    (hb : Reaches y b) (hl : x.length = y.length) :
    errors x y = .ok ((List.zipWith (· - ·) a b).map some) := by
  unfold errors
  rw [reachArray_of_reaches x a ha, reachArray_of_reaches y b hb]
  exact npSub_some a b (by rw [← ha.length_eq, ← hb.length_eq, hl])

/-- Errors `true - modelled` of the points. -/
def errs (a b : List ℚ) : List ℚ := List.zipWith (· - ·) a b

/-- Absolute relative errors of the points. -/
def relErrs (a b : List ℚ) : List ℚ := List.zipWith (fun t m => |t - m| / t) a b

/-- C68: number of points, mean error, mean absolute error, mean squared error and variance of the
error are what their names say. -/
theorem C68_errors (x y : List ReachPoint) (a b : List ℚ) (ha : Reaches x a) (hb : Reaches y b)
    (hl : x.length = y.length) (hne : x ≠ []) (row : Row) (h : aggregate x y = .ok row) :
    let n : ℚ := x.length
    let mean : ℚ := (errs a b).sum / n
    ("npoints", Cell.int x.length) ∈ row ∧
    ("mean_error", Cell.float (some mean)) ∈ row ∧
    ("mean_abs_error", Cell.float (some (((errs a b).map (fun e => |e|)).sum / n))) ∈ row ∧
    ("mean_squared_error", Cell.float (some (((errs a b).map (fun e => e * e)).sum / n))) ∈ row ∧
    ("var_error", Cell.float (some (((errs a b).map
      (fun e => (e - mean) * (e - mean))).sum / n))) ∈ row := by
  intro n mean
  have he := errors_of_reaches x y a b ha hb hl
  have hlen : (errs a b).length = x.length := by
    simp only [errs, List.length_zipWith, ← ha.length_eq, ← hb.length_eq, hl, min_self]
  have hne' : errs a b ≠ [] := by
    intro e; rw [e] at hlen; exact hne (List.length_eq_zero_iff.1 hlen.symm)
  change errors x y = .ok ((errs a b).map some) at he
  have hmean : meanOf (errs a b) = mean := by unfold meanOf; rw [hlen]
  refine ⟨?_, ?_, ?_, ?_, ?_⟩
  · rw [row_value_iff x y row h _ (fun x _ => .ok (.int x.length)) (by simp [aggregators])]
  · rw [row_value_iff x y row h _ (fun x y => do return .float (npMean (← errors x y)))
      (by simp [aggregators])]
    simp only [he, bind, Except.bind, pure, Except.pure, npMean_some _ hne', hmean]
  · rw [row_value_iff x y row h _ (fun x y => do return .float (npMean (npAbs (← errors x y))))
      (by simp [aggregators])]
    simp only [he, bind, Except.bind, pure, Except.pure, npAbs_some]
    rw [npMean_some _ (by simpa using hne')]
    simp only [meanOf, List.length_map, hlen, n]
  · rw [row_value_iff x y row h _ (fun x y => do return .float (npMean (npSq (← errors x y))))
      (by simp [aggregators])]
    simp only [he, bind, Except.bind, pure, Except.pure, npSq_some]
    rw [npMean_some _ (by simpa using hne')]
    simp only [meanOf, List.length_map, hlen, n]
  · rw [row_value_iff x y row h _ (fun x y => do return .float (npVar (← errors x y)))
      (by simp [aggregators])]
    simp only [he, bind, Except.bind, pure, Except.pure]
    rw [npVar_some _ hne', hmean]
    simp only [meanOf, List.length_map, hlen, n]

/-- C68: the error columns fit together: the absolute mean error is at most the mean absolute error,
whose square is at most the mean squared error, and the variance is the mean squared error less the
squared mean error. -/
theorem C68_consistent (x y : List ReachPoint) (a b : List ℚ) (ha : Reaches x a)
    (hb : Reaches y b) (hl : x.length = y.length) (hne : x ≠ []) (row : Row)
    (h : aggregate x y = .ok row) (me mae mse ve : ℚ)
    (h1 : ("mean_error", Cell.float (some me)) ∈ row)
    (h2 : ("mean_abs_error", Cell.float (some mae)) ∈ row)
    (h3 : ("mean_squared_error", Cell.float (some mse)) ∈ row)
    (h4 : ("var_error", Cell.float (some ve)) ∈ row) :
    |me| ≤ mae ∧ mae * mae ≤ mse ∧ ve = mse - me * me ∧ 0 ≤ ve := by
  obtain ⟨-, g1, g2, g3, g4⟩ := C68_errors x y a b ha hb hl hne row h
  have e1 := row_value_unique x y row h _ _ _ h1 g1
  have e2 := row_value_unique x y row h _ _ _ h2 g2
  have e3 := row_value_unique x y row h _ _ _ h3 g3
  have e4 := row_value_unique x y row h _ _ _ h4 g4
  simp only [Cell.float.injEq, Option.some.injEq] at e1 e2 e3 e4
  have hlen : (errs a b).length = x.length := by
    simp only [errs, List.length_zipWith, ← ha.length_eq, ← hb.length_eq, hl, min_self]
  have hne' : errs a b ≠ [] := by
    intro e; rw [e] at hlen; exact hne (List.length_eq_zero_iff.1 hlen.symm)
  have m1 : me = meanOf (errs a b) := by rw [e1, meanOf, hlen]
  have m2 : mae = meanOf ((errs a b).map (fun e => |e|)) := by
    rw [e2, meanOf, List.length_map, hlen]
  have m3 : mse = meanOf ((errs a b).map (fun e => e * e)) := by
    rw [e3, meanOf, List.length_map, hlen]
  have m4 : ve = meanOf ((errs a b).map
      (fun e => (e - meanOf (errs a b)) * (e - meanOf (errs a b)))) := by
    rw [e4, meanOf, List.length_map, hlen, ← m1, e1]
  refine ⟨?_, ?_, ?_, ?_⟩
  · rw [m1, m2]; exact abs_meanOf_le _
  · rw [m2, m3]
    have := sq_meanOf_le ((errs a b).map (fun e => |e|)) (by simpa using hne')
    rw [List.map_map] at this
    have e : ((fun x : ℚ => x * x) ∘ fun e : ℚ => |e|) = fun e : ℚ => e * e := by
      funext z; simp
    rwa [e] at this
  · rw [m4, m3, m1]; exact meanOf_sq_dev _ hne'
  · rw [m4]
    apply meanOf_nonneg
    intro z hz
    obtain ⟨w, -, rfl⟩ := List.mem_map.1 hz
    exact mul_self_nonneg _

theorem zipWith_length_of_reaches {x y : List ReachPoint} {a b : List ℚ} (ha : Reaches x a)
    (hb : Reaches y b) (hl : x.length = y.length) : a.length = x.length ∧ b.length = x.length :=
  ⟨ha.length_eq.symm, by rw [← hb.length_eq, hl]⟩

theorem absRelativeErrors_eq (x y : List ReachPoint) (a b : List ℚ) (ha : Reaches x a)
    (hb : Reaches y b) (hl : x.length = y.length) (hnz : ∀ t ∈ a, t ≠ 0) :
    absRelativeErrors x y = .ok ((relErrs a b).map some) := by
  obtain ⟨l1, l2⟩ := zipWith_length_of_reaches ha hb hl
  unfold absRelativeErrors
  simp only [errors_of_reaches x y a b ha hb hl, reachArray_of_reaches x a ha, bind, Except.bind,
    npAbs_some]
  rw [npDiv_some _ _ (by simp [l1, l2]) hnz]
  congr 2
  unfold relErrs
  clear ha hb hnz
  have : a.length = b.length := by omega
  clear l1 l2
  induction a generalizing b with
  | nil => simp
  | cons t a ih =>
    rcases b with _ | ⟨m, b⟩
    · simp at this
    · simp only [List.zipWith_cons_cons, List.map_cons, List.cons.injEq, true_and]
      exact ih b (by simpa using this)

/-- The quantile columns. -/
def quantileColumns : List (String × ℚ) :=
  [("relative_error_q10", 1 / 10), ("relative_error_q20", 1 / 5), ("relative_error_q30", 3 / 10),
   ("relative_error_q40", 2 / 5), ("relative_error_q50", 1 / 2), ("relative_error_q60", 3 / 5),
   ("relative_error_q70", 7 / 10), ("relative_error_q80", 4 / 5), ("relative_error_q90", 9 / 10)]

theorem quantile_value (x y : List ReachPoint) (a b : List ℚ) (ha : Reaches x a)
    (hb : Reaches y b) (hl : x.length = y.length) (hne : x ≠ []) (hnz : ∀ t ∈ a, t ≠ 0)
    (row : Row) (h : aggregate x y = .ok row) (name : String) (q : ℚ)
    (hq : (name, q) ∈ quantileColumns) :
    (name, Cell.float (some (quantileOf (relErrs a b) q))) ∈ row ∧ 0 ≤ q ∧ q ≤ 1 := by
  have hr := absRelativeErrors_eq x y a b ha hb hl hnz
  obtain ⟨l1, l2⟩ := zipWith_length_of_reaches ha hb hl
  have hne' : relErrs a b ≠ [] := by
    intro e
    have : (relErrs a b).length = x.length := by simp [relErrs, l1, l2]
    rw [e] at this
    exact hne (List.length_eq_zero_iff.1 this.symm)
  have key : ∀ q', (name, relativeErrorQuantile q') ∈ aggregators → q' = q →
      (name, Cell.float (some (quantileOf (relErrs a b) q))) ∈ row := by
    rintro q' hm rfl
    rw [row_value_iff x y row h name _ hm]
    unfold relativeErrorQuantile
    simp only [hr, bind, Except.bind, pure, Except.pure, npQuantile_some _ hne']
  simp only [quantileColumns, List.mem_cons, Prod.mk.injEq, List.not_mem_nil, or_false] at hq
  rcases hq with ⟨rfl, rfl⟩ | ⟨rfl, rfl⟩ | ⟨rfl, rfl⟩ | ⟨rfl, rfl⟩ | ⟨rfl, rfl⟩ | ⟨rfl, rfl⟩ |
    ⟨rfl, rfl⟩ | ⟨rfl, rfl⟩ | ⟨rfl, rfl⟩
  · exact ⟨key (1 / 10) (by simp [aggregators]) (by norm_num), by norm_num, by norm_num⟩
  · exact ⟨key (2 / 10) (by simp [aggregators]) (by norm_num), by norm_num, by norm_num⟩
  · exact ⟨key (3 / 10) (by simp [aggregators]) (by norm_num), by norm_num, by norm_num⟩
  · exact ⟨key (4 / 10) (by simp [aggregators]) (by norm_num), by norm_num, by norm_num⟩
  · exact ⟨key (5 / 10) (by simp [aggregators]) (by norm_num), by norm_num, by norm_num⟩
  · exact ⟨key (6 / 10) (by simp [aggregators]) (by norm_num), by norm_num, by norm_num⟩
  · exact ⟨key (7 / 10) (by simp [aggregators]) (by norm_num), by norm_num, by norm_num⟩
  · exact ⟨key (8 / 10) (by simp [aggregators]) (by norm_num), by norm_num, by norm_num⟩
  · exact ⟨key (9 / 10) (by simp [aggregators]) (by norm_num), by norm_num, by norm_num⟩

/-- C68: the quantile columns are quantiles of the absolute relative errors: more than a share `q`
of the (other) points have at most that error, and more than a share `1 - q` have at least it; and
the columns increase with `q`.  The value is interpolated linearly between the two neighbouring
errors. -/
theorem C68_quantiles (x y : List ReachPoint) (a b : List ℚ) (ha : Reaches x a)
    (hb : Reaches y b) (hl : x.length = y.length) (hne : x ≠ []) (hnz : ∀ t ∈ a, t ≠ 0)
    (row : Row) (h : aggregate x y = .ok row) (name : String) (q : ℚ)
    (hq : (name, q) ∈ quantileColumns) :
    ∃ v, (name, Cell.float (some v)) ∈ row ∧
      q * ((x.length : ℚ) - 1) < (relErrs a b).countP (fun r => r ≤ v) ∧
      (1 - q) * ((x.length : ℚ) - 1) < (relErrs a b).countP (fun r => v ≤ r) ∧
      (∃ (s : List ℚ) (i : Nat) (lo : ℚ), s.Perm (relErrs a b) ∧ s.Pairwise (· ≤ ·) ∧
        (i : ℚ) ≤ q * ((x.length : ℚ) - 1) ∧ q * ((x.length : ℚ) - 1) < (i : ℚ) + 1 ∧
        s[i]? = some lo ∧
        ((q * ((x.length : ℚ) - 1) = i ∧ v = lo) ∨
          ∃ hi, s[i + 1]? = some hi ∧ v = lo + (q * ((x.length : ℚ) - 1) - i) * (hi - lo))) ∧
      ∀ name' q' v', (name', q') ∈ quantileColumns → q ≤ q' →
        (name', Cell.float (some v')) ∈ row → v ≤ v' := by
  obtain ⟨hv, q0, q1⟩ := quantile_value x y a b ha hb hl hne hnz row h name q hq
  obtain ⟨l1, l2⟩ := zipWith_length_of_reaches ha hb hl
  have hlen : (relErrs a b).length = x.length := by simp [relErrs, l1, l2]
  have hne' : relErrs a b ≠ [] := by
    intro e
    rw [e] at hlen
    exact hne (List.length_eq_zero_iff.1 hlen.symm)
  have hranks := quantileOf_ranks (relErrs a b) hne' q q0 q1
  have hinterp := quantileOf_interpolates (relErrs a b) hne' q q0 q1
  rw [hlen] at hranks hinterp
  refine ⟨_, hv, hranks.1, hranks.2, hinterp, ?_⟩
  intro name' q' v' hq' hle hv'
  obtain ⟨g, -, q1'⟩ := quantile_value x y a b ha hb hl hne hnz row h name' q' hq'
  have e := row_value_unique x y row h _ _ _ hv' g
  simp only [Cell.float.injEq, Option.some.injEq] at e
  rw [e]
  exact quantileOf_mono _ hne' q q' q0 hle q1'

theorem npDiv_zero (u v : List ℚ) (h : u.length = v.length) (hz : (0 : ℚ) ∈ v) :
    ∃ c, npDiv (u.map some) (v.map some) = .ok c ∧ allFinite c = none := by
  unfold npDiv npZip
  simp only [List.length_map, h, if_true]
  refine ⟨_, rfl, ?_⟩
  rw [List.zipWith_map]
  induction u generalizing v with
  | nil => simp at h; rw [List.eq_nil_of_length_eq_zero h.symm] at hz; simp at hz
  | cons s u ih =>
    rcases v with _ | ⟨t, v⟩
    · simp at h
    · simp only [List.zipWith_cons_cons]
      by_cases ht : t = 0
      · simp [ht, allFinite]
      · have hz' : (0 : ℚ) ∈ v := by
          rcases List.mem_cons.1 hz with e | e
          · exact absurd e.symm ht
          · exact e
        have := ih v (by simpa using h) hz'
        simp only [Option.bind_some] at this
        simp [ht, allFinite, this]

/-- The columns with relative errors in reach. -/
def relativeColumns : List String :=
  ["mean_abs_relative_error", "mean_squared_relative_error", "var_relative_error"] ++
    quantileColumns.map (·.1)

theorem reach_one_max (p : ReachPoint) (r : ℚ) (h : p.reach 1 = .ok r) : 1 ≤ p.maxFrequency := by
  unfold ReachPoint.reach at h
  split at h
  · rename_i hc
    unfold ReachPoint.maxFrequency; omega
  · cases h

theorem meanAbsRelativeError_one (x y : List ReachPoint) (a b : List ℚ) (ha : Reaches x a)
    (hb : Reaches y b) : meanAbsRelativeError x y = do
      return npMean (← absRelativeErrors x y) := by
  have hx : x.any (fun p => (1 : Int) > p.maxFrequency) = false := by
    rw [List.any_eq_false]
    intro p hp
    obtain ⟨i, hi, rfl⟩ := List.mem_iff_getElem.1 hp
    have := reach_one_max _ _ (ha.get (i := i) hi (by rw [← ha.length_eq]; exact hi))
    simp only [List.get_eq_getElem] at this
    simp only [decide_eq_true_eq]; omega
  have hy : y.any (fun p => (1 : Int) > p.maxFrequency) = false := by
    rw [List.any_eq_false]
    intro p hp
    obtain ⟨i, hi, rfl⟩ := List.mem_iff_getElem.1 hp
    have := reach_one_max _ _ (hb.get (i := i) hi (by rw [← hb.length_eq]; exact hi))
    simp only [List.get_eq_getElem] at this
    simp only [decide_eq_true_eq]; omega
  unfold meanAbsRelativeError
  rw [hx, hy]
  unfold absRelativeErrors errors
  rw [reachArray_of_reaches x a ha, reachArray_of_reaches y b hb]
  simp only [bind, Except.bind, pure, Except.pure, Bool.false_eq_true, if_false]
  rcases npSub (a.map some) (b.map some) with e | v <;> rfl

/-- C68: a single test point of true reach zero makes all columns of relative errors undefined, even
if the prediction is perfect. -/
theorem C68_zero_reach (x y : List ReachPoint) (a b : List ℚ) (ha : Reaches x a)
    (hb : Reaches y b) (hl : x.length = y.length) (hz : (0 : ℚ) ∈ a)
    (row : Row) (h : aggregate x y = .ok row) (name : String) (hn : name ∈ relativeColumns) :
    (name, Cell.float none) ∈ row := by
  obtain ⟨l1, l2⟩ := zipWith_length_of_reaches ha hb hl
  have lz : (List.zipWith (fun x1 x2 : ℚ => x1 - x2) a b).length = a.length := by
    simp [l1, l2]
  obtain ⟨c1, h1, f1⟩ := npDiv_zero ((List.zipWith (· - ·) a b).map (fun e => |e|)) a
    (by simp [l1, l2]) hz
  obtain ⟨c2, h2, f2⟩ := npDiv_zero (List.zipWith (· - ·) a b) a lz hz
  have hz2 : (0 : ℚ) ∈ a.map (fun t => t * t) := List.mem_map.2 ⟨0, hz, by ring⟩
  obtain ⟨c3, h3, f3⟩ := npDiv_zero ((List.zipWith (· - ·) a b).map (fun e => e * e))
    (a.map (fun t => t * t)) (by simp [l1, l2]) hz2
  have hab : absRelativeErrors x y = .ok c1 := by
    unfold absRelativeErrors
    simp only [errors_of_reaches x y a b ha hb hl, reachArray_of_reaches x a ha, bind, Except.bind,
      npAbs_some, h1]
  have hq : ∀ q, (name, relativeErrorQuantile q) ∈ aggregators → (name, Cell.float none) ∈ row := by
    intro q hm
    rw [row_value_iff x y row h name _ hm]
    unfold relativeErrorQuantile
    simp only [hab, bind, Except.bind, pure, Except.pure, npQuantile, f1, Option.bind_none]
  simp only [relativeColumns, quantileColumns, List.map_cons, List.map_nil, List.cons_append,
    List.nil_append, List.mem_cons, List.not_mem_nil, or_false] at hn
  rcases hn with rfl | rfl | rfl | rfl | rfl | rfl | rfl | rfl | rfl | rfl | rfl | rfl
  · rw [row_value_iff x y row h _ (fun x y => do return .float (← meanAbsRelativeError x y))
      (by simp [aggregators])]
    simp only [meanAbsRelativeError_one x y a b ha hb, hab, bind, Except.bind, pure, Except.pure,
      npMean, f1, Option.bind_none]
  · rw [row_value_iff x y row h _ (fun x y => do
      return .float (npMean (← npDiv (npSq (← errors x y)) (npSq (← reachArray x)))))
      (by simp [aggregators])]
    simp only [errors_of_reaches x y a b ha hb hl, reachArray_of_reaches x a ha, bind, Except.bind,
      pure, Except.pure, npSq_some, h3, npMean, f3, Option.bind_none]
  · rw [row_value_iff x y row h _ (fun x y => do return .float (npVar (← relativeErrors x y)))
      (by simp [aggregators])]
    unfold relativeErrors
    simp only [errors_of_reaches x y a b ha hb hl, reachArray_of_reaches x a ha, bind, Except.bind,
      pure, Except.pure, h2, npVar, f2, Option.bind_none]
  · exact hq (1 / 10) (by simp [aggregators])
  · exact hq (2 / 10) (by simp [aggregators])
  · exact hq (3 / 10) (by simp [aggregators])
  · exact hq (4 / 10) (by simp [aggregators])
  · exact hq (5 / 10) (by simp [aggregators])
  · exact hq (6 / 10) (by simp [aggregators])
  · exact hq (7 / 10) (by simp [aggregators])
  · exact hq (8 / 10) (by simp [aggregators])
  · exact hq (9 / 10) (by simp [aggregators])

/-- C68: the remaining columns of relative errors in reach are what their names say. -/
theorem C68_relative (x y : List ReachPoint) (a b : List ℚ) (ha : Reaches x a)
    (hb : Reaches y b) (hl : x.length = y.length) (hne : x ≠ []) (hnz : ∀ t ∈ a, t ≠ 0)
    (row : Row) (h : aggregate x y = .ok row) :
    let n : ℚ := x.length
    let rel := List.zipWith (fun t m => (t - m) / t) a b
    let mean := rel.sum / n
    ("mean_abs_relative_error", Cell.float (some ((relErrs a b).sum / n))) ∈ row ∧
    ("mean_squared_relative_error", Cell.float (some ((rel.map (fun r => r * r)).sum / n))) ∈ row ∧
    ("var_relative_error",
      Cell.float (some ((rel.map (fun r => (r - mean) * (r - mean))).sum / n))) ∈ row := by
  intro n rel mean
  obtain ⟨l1, l2⟩ := zipWith_length_of_reaches ha hb hl
  have hlen : rel.length = x.length := by simp [rel, l1, l2]
  have hlen' : (relErrs a b).length = x.length := by simp [relErrs, l1, l2]
  have hne1 : rel ≠ [] := by
    intro e; rw [e] at hlen; exact hne (List.length_eq_zero_iff.1 hlen.symm)
  have hne2 : relErrs a b ≠ [] := by
    intro e; rw [e] at hlen'; exact hne (List.length_eq_zero_iff.1 hlen'.symm)
  have hmean : meanOf rel = mean := by unfold meanOf; rw [hlen]
  have hab : a.length = b.length := by omega
  have e1 : List.zipWith (· / ·) (List.zipWith (· - ·) a b) a = rel := by
    apply List.ext_getElem
    · simp [rel, l1, l2]
    · intro i h1 h2
      simp [rel]
  have e2 : List.zipWith (· / ·) ((List.zipWith (· - ·) a b).map (fun x => x * x))
      (a.map (fun x => x * x)) = rel.map (fun r => r * r) := by
    apply List.ext_getElem
    · simp [rel, l1, l2]
    · intro i h1 h2
      simp only [List.getElem_zipWith, List.getElem_map, rel]
      rw [div_mul_div_comm]
  refine ⟨?_, ?_, ?_⟩
  · rw [row_value_iff x y row h _ (fun x y => do return .float (← meanAbsRelativeError x y))
      (by simp [aggregators])]
    simp only [meanAbsRelativeError_one x y a b ha hb, absRelativeErrors_eq x y a b ha hb hl hnz,
      bind, Except.bind, pure, Except.pure, npMean_some _ hne2, meanOf, hlen', n]
  · rw [row_value_iff x y row h _ (fun x y => do
      return .float (npMean (← npDiv (npSq (← errors x y)) (npSq (← reachArray x)))))
      (by simp [aggregators])]
    simp only [errors_of_reaches x y a b ha hb hl, reachArray_of_reaches x a ha, bind, Except.bind,
      pure, Except.pure, npSq_some]
    rw [npDiv_some _ _ (by simp [l1, l2]) (by
      intro t ht
      obtain ⟨u, hu, rfl⟩ := List.mem_map.1 ht
      exact mul_self_ne_zero.2 (hnz u hu)), e2]
    simp only []
    rw [npMean_some _ (by simpa using hne1)]
    simp only [meanOf, List.length_map, hlen, n]
  · rw [row_value_iff x y row h _ (fun x y => do return .float (npVar (← relativeErrors x y)))
      (by simp [aggregators])]
    unfold relativeErrors
    simp only [errors_of_reaches x y a b ha hb hl, reachArray_of_reaches x a ha, bind, Except.bind,
      pure, Except.pure]
    rw [npDiv_some _ _ (by simp [l1, l2]) hnz, e1]
    simp only []
    rw [npVar_some _ hne1, hmean]
    simp only [meanOf, List.length_map, hlen, n]

/-- The columns of relative errors at higher frequencies. -/
def mareColumns : List (String × Nat) :=
  [("mare_freq_at_least_2", 2), ("mare_freq_at_least_3", 3), ("mare_freq_at_least_4", 4),
   ("mare_freq_at_least_5", 5), ("mare_freq_at_least_6", 6), ("mare_freq_at_least_7", 7),
   ("mare_freq_at_least_8", 8), ("mare_freq_at_least_9", 9)]

theorem mare_iff (x y : List ReachPoint) (row : Row) (h : aggregate x y = .ok row)
    (name : String) (k : Nat) (hk : (name, k) ∈ mareColumns) (v : Option ℚ) :
    ((name, Cell.float v) ∈ row ↔ meanAbsRelativeError x y k = .ok v) ∧ 2 ≤ k := by
  have key : ∀ k' : Int, (name, fun x y => do return Cell.float (← meanAbsRelativeError x y k'))
      ∈ aggregators → k' = k →
      ((name, Cell.float v) ∈ row ↔ meanAbsRelativeError x y k = .ok v) := by
    rintro k' hm rfl
    rw [row_value_iff x y row h name _ hm]
    rcases meanAbsRelativeError x y (k : Int) with e | w
    · simp [bind, Except.bind]
    · simp [bind, Except.bind, pure, Except.pure]
  simp only [mareColumns, List.mem_cons, Prod.mk.injEq, List.not_mem_nil, or_false] at hk
  rcases hk with ⟨rfl, rfl⟩ | ⟨rfl, rfl⟩ | ⟨rfl, rfl⟩ | ⟨rfl, rfl⟩ | ⟨rfl, rfl⟩ | ⟨rfl, rfl⟩ |
    ⟨rfl, rfl⟩ | ⟨rfl, rfl⟩
  · exact ⟨key 2 (by simp [aggregators]) rfl, by norm_num⟩
  · exact ⟨key 3 (by simp [aggregators]) rfl, by norm_num⟩
  · exact ⟨key 4 (by simp [aggregators]) rfl, by norm_num⟩
  · exact ⟨key 5 (by simp [aggregators]) rfl, by norm_num⟩
  · exact ⟨key 6 (by simp [aggregators]) rfl, by norm_num⟩
  · exact ⟨key 7 (by simp [aggregators]) rfl, by norm_num⟩
  · exact ⟨key 8 (by simp [aggregators]) rfl, by norm_num⟩
  · exact ⟨key 9 (by simp [aggregators]) rfl, by norm_num⟩

/-- The points were constructed with these lists of k+ reaches. -/
def Made (points : List ReachPoint) (kss : List (List ℚ)) : Prop :=
  List.Forall₂ (fun (p : ReachPoint) ks => MadeFrom ks p) points kss

theorem Made.reachArray {points : List ReachPoint} {kss : List (List ℚ)} (h : Made points kss)
    (k : Nat) (hk : 1 ≤ k) (hlen : ∀ ks ∈ kss, k ≤ ks.length) :
    reachArray points k = .ok ((kss.map (fun ks => ks.getD (k - 1) 0)).map some) := by
  unfold Verif.reachArray
  rw [mapM_ok_iff, List.map_map, List.forall₂_map_right_iff]
  induction h with
  | nil => exact .nil
  | @cons p ks ps kss h _ ih =>
    refine .cons ?_ (ih (fun l hl => hlen l (by simp [hl])))
    rw [h.reach k hk (hlen ks (by simp))]
    rfl

theorem Made.reaches {points : List ReachPoint} {kss : List (List ℚ)} (h : Made points kss)
    (hlen : ∀ ks ∈ kss, ks ≠ []) :
    Reaches points (kss.map (fun ks => ks.getD 0 0)) := by
  unfold Reaches
  rw [List.forall₂_map_right_iff]
  induction h with
  | nil => exact .nil
  | @cons p ks ps kss h _ ih =>
    refine .cons ?_ (ih (fun l hl => hlen l (by simp [hl])))
    have := h.reach 1 le_rfl (List.length_pos_iff.2 (hlen ks (by simp)))
    simpa using this

theorem Made.any {points : List ReachPoint} {kss : List (List ℚ)} (h : Made points kss)
    (k : Nat) : points.any (fun p => (k : Int) > p.maxFrequency)
      = kss.any (fun ks => ks.length < k) := by
  induction h with
  | nil => rfl
  | @cons p ks ps kss h _ ih =>
    rw [List.any_cons, List.any_cons, ih, h.maxFrequency]
    congr 1
    simp

/-- C68: the error columns for frequency `k` hold the mean absolute relative error of the k+ reach,
or no number if some point does not have `k` frequencies. -/
theorem C68_mare (x y : List ReachPoint) (kss lss : List (List ℚ)) (hx : Made x kss)
    (hy : Made y lss) (hl : x.length = y.length) (hne : x ≠ []) (row : Row)
    (h : aggregate x y = .ok row) (name : String) (k : Nat) (hk : (name, k) ∈ mareColumns) :
    ((∃ ks ∈ kss ++ lss, ks.length < k) → (name, Cell.float none) ∈ row) ∧
    ((∀ ks ∈ kss ++ lss, k ≤ ks.length) → (∀ ks ∈ kss, ks.getD (k - 1) 0 ≠ 0) →
      (name, Cell.float (some ((List.zipWith
        (fun ks ls => |ks.getD (k - 1) 0 - ls.getD (k - 1) 0| / ks.getD (k - 1) 0)
        kss lss).sum / x.length))) ∈ row) := by
  have h2 : 2 ≤ k := (mare_iff x y row h name k hk none).2
  have l1 : kss.length = x.length := hx.length_eq.symm
  have l2 : lss.length = x.length := by rw [← hy.length_eq, hl]
  constructor
  · rintro ⟨ks, hks, hlt⟩
    rw [(mare_iff x y row h name k hk none).1]
    unfold meanAbsRelativeError
    rw [hx.any, hy.any]
    by_cases c1 : kss.any (fun ks => ks.length < k) = true
    · rw [if_pos c1]
    · rw [if_neg c1]
      have c2 : lss.any (fun ks => ks.length < k) = true := by
        rw [List.any_eq_true]
        rcases List.mem_append.1 hks with hm | hm
        · exact absurd (List.any_eq_true.2 ⟨ks, hm, by simpa using hlt⟩) c1
        · exact ⟨ks, hm, by simpa using hlt⟩
      rw [if_pos c2]
  · intro hlen hnz
    rw [(mare_iff x y row h name k hk _).1]
    unfold meanAbsRelativeError
    rw [hx.any, hy.any]
    have c1 : kss.any (fun ks => ks.length < k) = false := by
      rw [List.any_eq_false]
      intro ks hks
      have := hlen ks (List.mem_append_left _ hks)
      simpa using this
    have c2 : lss.any (fun ks => ks.length < k) = false := by
      rw [List.any_eq_false]
      intro ks hks
      have := hlen ks (List.mem_append_right _ hks)
      simpa using this
    rw [c1, c2]
    simp only [Bool.false_eq_true, if_false,
      hx.reachArray k (by omega) (fun ks hks => hlen ks (List.mem_append_left _ hks)),
      hy.reachArray k (by omega) (fun ks hks => hlen ks (List.mem_append_right _ hks)),
      bind, Except.bind, pure, Except.pure]
    rw [npSub_some _ _ (by simp [l1, l2])]
    simp only [npAbs_some]
    rw [npDiv_some _ _ (by simp [l1, l2]) (by
      intro t ht
      obtain ⟨ks, hks, rfl⟩ := List.mem_map.1 ht
      exact hnz ks hks)]
    simp only []
    have e : List.zipWith (· / ·)
        ((List.zipWith (· - ·) (kss.map (fun ks => ks.getD (k - 1) 0))
          (lss.map (fun ks => ks.getD (k - 1) 0))).map (fun x => |x|))
        (kss.map (fun ks => ks.getD (k - 1) 0))
        = List.zipWith (fun ks ls => |ks.getD (k - 1) 0 - ls.getD (k - 1) 0| / ks.getD (k - 1) 0)
            kss lss := by
      apply List.ext_getElem
      · simp [l1, l2]
      · intro i h1 h2
        simp
    rw [e, npMean_some]
    · simp only [meanOf, List.length_zipWith, l1, l2, min_self]
    · intro e0
      have := congrArg List.length e0
      simp only [List.length_zipWith, l1, l2, min_self, List.length_nil] at this
      exact hne (List.length_eq_zero_iff.1 this)

/-- C68: perfect predictions have all errors zero, unless a true reach is zero. -/
theorem C68_perfect (x : List ReachPoint) (a : List ℚ) (ha : Reaches x a) (hne : x ≠ [])
    (row : Row) (h : aggregate x x = .ok row) :
    (∀ c ∈ ["mean_error", "mean_abs_error", "mean_squared_error", "var_error"],
      (c, Cell.float (some 0)) ∈ row) ∧
    ((∀ t ∈ a, t ≠ 0) → ∀ c ∈ relativeColumns, (c, Cell.float (some 0)) ∈ row) := by
  have hzero : errs a a = List.replicate a.length 0 := by
    apply List.ext_getElem
    · simp [errs]
    · intro i h1 h2; simp [errs]
  have hrel : ∀ f : ℚ → ℚ → ℚ, (∀ t, f t t = 0) →
      List.zipWith f a a = List.replicate a.length 0 := by
    intro f hf
    apply List.ext_getElem
    · simp
    · intro i h1 h2; simp [hf]
  constructor
  · obtain ⟨-, g1, g2, g3, g4⟩ := C68_errors x x a a ha ha rfl hne row h
    simp only [hzero, List.map_replicate, List.sum_replicate, nsmul_zero, zero_div, abs_zero,
      mul_zero, sub_zero] at g1 g2 g3 g4
    intro c hc
    simp only [List.mem_cons, List.not_mem_nil, or_false] at hc
    rcases hc with rfl | rfl | rfl | rfl
    · exact g1
    · exact g2
    · exact g3
    · exact g4
  · intro hnz c hc
    obtain ⟨g1, g2, g3⟩ := C68_relative x x a a ha ha rfl hne hnz row h
    have r1 : relErrs a a = List.replicate a.length 0 := hrel _ (by simp)
    have r2 : List.zipWith (fun t m : ℚ => (t - m) / t) a a = List.replicate a.length 0 :=
      hrel _ (by simp)
    simp only [r1, r2, List.map_replicate, List.sum_replicate, nsmul_zero, zero_div,
      mul_zero, sub_zero] at g1 g2 g3
    simp only [relativeColumns, List.mem_append, List.mem_cons, List.not_mem_nil, or_false] at hc
    rcases hc with (rfl | rfl | rfl) | hc
    · exact g1
    · exact g2
    · exact g3
    · obtain ⟨⟨nm, q⟩, hq, rfl⟩ := List.mem_map.1 hc
      obtain ⟨v, hv, hlo, hhi, -, -⟩ := C68_quantiles x x a a ha ha rfl hne hnz row h nm q hq
      have q01 := (quantile_value x x a a ha ha rfl hne hnz row h nm q hq).2
      have hn : (1 : ℚ) ≤ x.length := by exact_mod_cast (List.length_pos_iff.2 hne)
      have p1 : 0 < (relErrs a a).countP (fun r => r ≤ v) := by
        have : (0 : ℚ) < (relErrs a a).countP (fun r => r ≤ v) :=
          lt_of_le_of_lt (mul_nonneg q01.1 (by linarith)) hlo
        exact_mod_cast this
      have p2 : 0 < (relErrs a a).countP (fun r => v ≤ r) := by
        have : (0 : ℚ) < (relErrs a a).countP (fun r => v ≤ r) :=
          lt_of_le_of_lt (mul_nonneg (by linarith [q01.2]) (by linarith)) hhi
        exact_mod_cast this
      rw [List.countP_pos_iff] at p1 p2
      obtain ⟨r, hr, hr'⟩ := p1
      obtain ⟨r', hs, hs'⟩ := p2
      rw [r1] at hr hs
      rw [List.eq_of_mem_replicate hr] at hr'
      rw [List.eq_of_mem_replicate hs] at hs'
      simp only [decide_eq_true_eq] at hr' hs'
      have : v = 0 := le_antisymm hs' hr'
      rw [← this]; exact hv

theorem shuffleDistances_eq (x y : List ReachPoint) (ds : List ℚ) (hl : x.length = y.length)
    (h : List.Forall₂ (fun (xy : ReachPoint × ReachPoint) d => shuffleDistance xy.1 xy.2 = .ok d)
      (x.zip y) ds) : shuffleDistances x y = .ok ds := by
  unfold shuffleDistances
  rw [mapM_ok_iff, List.forall₂_iff_get]
  have hlen := h.length_eq
  rw [List.length_zip, ← hl, min_self] at hlen
  refine ⟨by simp [hlen], ?_⟩
  intro i h1 h2
  rw [List.length_range] at h1
  have e := h.get (i := i) (by simp [← hl, h1]) h2
  simp only [List.get_eq_getElem, List.getElem_zip] at e
  have e1 : pyIndex x (i : Int) = .ok x[i] := by
    rw [pyIndex_ok_iff]; exact List.getElem?_eq_getElem h1
  have e2 : pyIndex y (i : Int) = .ok (y[i]'(by omega)) := by
    rw [pyIndex_ok_iff]; exact List.getElem?_eq_getElem (by omega)
  simp only [List.get_eq_getElem, List.getElem_range, e1, e2, bind, Except.bind]
  exact e

theorem Made.shuffle {x y : List ReachPoint} {kss lss : List (List ℚ)} (hx : Made x kss)
    (hy : Made y lss) (hl : x.length = y.length) :
    ∃ ds, List.Forall₂
      (fun (xy : ReachPoint × ReachPoint) d => shuffleDistance xy.1 xy.2 = .ok d) (x.zip y) ds ∧
      ((∀ ks ∈ kss ++ lss, NonnegHist ks) → ∀ d ∈ ds, 0 ≤ d ∧ d ≤ 1) := by
  induction hx generalizing y lss with
  | nil => exact ⟨[], .nil, by simp⟩
  | @cons p ks ps kss h _ ih =>
    rcases y with _ | ⟨q, qs⟩
    · simp at hl
    · obtain ⟨ls, lss', hq, hqs, rfl⟩ := List.forall₂_cons_left_iff.1 hy
      obtain ⟨ds, h1, h2⟩ := ih hqs (by simpa using hl)
      refine ⟨_ :: ds, .cons (C47_shuffle_value ks ls p q h hq) h1, ?_⟩
      intro hn d hd
      rcases List.mem_cons.1 hd with rfl | hd
      · obtain ⟨d', e, h3⟩ := C47_shuffle_range ks ls p q h hq (hn ks (by simp)) (hn ls (by simp))
        rw [C47_shuffle_value ks ls p q h hq] at e
        cases e
        exact h3
      · refine h2 (fun l hl => hn l ?_) d hd
        simp only [List.cons_append, List.mem_cons, List.mem_append] at hl ⊢
        tauto

/-- C68: the shuffle columns are mean, mean square and variance of the shuffle distances of the
points, hence all between zero and one. -/
theorem C68_shuffle (x y : List ReachPoint) (kss lss : List (List ℚ)) (hx : Made x kss)
    (hy : Made y lss) (hl : x.length = y.length) (hne : x ≠ [])
    (hn : ∀ ks ∈ kss ++ lss, NonnegHist ks) (row : Row) (h : aggregate x y = .ok row) :
    ∃ ds : List ℚ,
      List.Forall₂ (fun (xy : ReachPoint × ReachPoint) d => shuffleDistance xy.1 xy.2 = .ok d)
        (x.zip y) ds ∧
      ("mean_shuffle_distance", Cell.float (some (ds.sum / x.length))) ∈ row ∧
      ("mean_squared_shuffle_distance",
        Cell.float (some ((ds.map (fun d => d * d)).sum / x.length))) ∈ row ∧
      ∃ m m2 v, ("mean_shuffle_distance", Cell.float (some m)) ∈ row ∧
        ("mean_squared_shuffle_distance", Cell.float (some m2)) ∈ row ∧
        ("var_shuffle_distance", Cell.float (some v)) ∈ row ∧
        v = m2 - m * m ∧ 0 ≤ v ∧ 0 ≤ m2 ∧ m2 ≤ m ∧ m ≤ 1 := by
  obtain ⟨ds, h1, h2⟩ := hx.shuffle hy hl
  have hds := shuffleDistances_eq x y ds hl h1
  have h01 := h2 hn
  have hlen : ds.length = x.length := by
    rw [← h1.length_eq, List.length_zip, ← hl, min_self]
  have hne' : ds ≠ [] := by
    intro e; rw [e] at hlen; exact hne (List.length_eq_zero_iff.1 hlen.symm)
  have g1 : ("mean_shuffle_distance", Cell.float (some (meanOf ds))) ∈ row := by
    rw [row_value_iff x y row h _ (fun x y => do
      return .float (npMean ((← shuffleDistances x y).map some))) (by simp [aggregators])]
    simp only [hds, bind, Except.bind, pure, Except.pure, npMean_some _ hne']
  have g2 : ("mean_squared_shuffle_distance",
      Cell.float (some (meanOf (ds.map (fun d => d * d))))) ∈ row := by
    rw [row_value_iff x y row h _ (fun x y => do
      return .float (npMean (npSq ((← shuffleDistances x y).map some)))) (by simp [aggregators])]
    simp only [hds, bind, Except.bind, pure, Except.pure, npSq_some]
    rw [npMean_some _ (by simpa using hne')]
  have g3 : ("var_shuffle_distance", Cell.float (some (meanOf (ds.map
      (fun d => (d - meanOf ds) * (d - meanOf ds)))))) ∈ row := by
    rw [row_value_iff x y row h _ (fun x y => do
      return .float (npVar ((← shuffleDistances x y).map some))) (by simp [aggregators])]
    simp only [hds, bind, Except.bind, pure, Except.pure, npVar_some _ hne']
  refine ⟨ds, h1, ?_, ?_, _, _, _, g1, g2, g3, meanOf_sq_dev ds hne', ?_, ?_, ?_, ?_⟩
  · simpa only [meanOf, hlen] using g1
  · simpa only [meanOf, List.length_map, hlen] using g2
  · apply meanOf_nonneg
    intro z hz
    obtain ⟨w, -, rfl⟩ := List.mem_map.1 hz
    exact mul_self_nonneg _
  · apply meanOf_nonneg
    intro z hz
    obtain ⟨w, -, rfl⟩ := List.mem_map.1 hz
    exact mul_self_nonneg _
  · unfold meanOf
    rw [List.length_map]
    apply div_le_div_of_nonneg_right _ (Nat.cast_nonneg _)
    have : (ds.map (fun d => d * d)).sum ≤ (ds.map (fun d => d)).sum := by
      apply List.sum_le_sum
      intro d hd
      obtain ⟨a, b⟩ := h01 d hd
      nlinarith
    simpa using this
  · exact meanOf_le ds hne' 1 (fun d hd => (h01 d hd).2)

/-- C47: aggregation succeeds for every two lists of points of the same length that have at least
one frequency each. -/
theorem C47_succeeds (x y : List ReachPoint) (kss lss : List (List ℚ)) (hx : Made x kss)
    (hy : Made y lss) (hl : x.length = y.length) (hne : ∀ ks ∈ kss ++ lss, ks ≠ []) :
    ∃ row, aggregate x y = .ok row := by
  have ha := hx.reaches (fun ks hks => hne ks (List.mem_append_left _ hks))
  have hb := hy.reaches (fun ks hks => hne ks (List.mem_append_right _ hks))
  have l1 : kss.length = x.length := hx.length_eq.symm
  have l2 : lss.length = x.length := by rw [← hy.length_eq, hl]
  have hra := reachArray_of_reaches x _ ha
  have he := errors_of_reaches x y _ _ ha hb hl
  have hdiv : ∀ u v : NpArray, u.length = v.length → ∃ c, npDiv u v = .ok c := by
    intro u v huv
    unfold npDiv npZip
    rw [if_pos huv]
    exact ⟨_, rfl⟩
  obtain ⟨r1, hr1⟩ : ∃ c, relativeErrors x y = .ok c := by
    unfold relativeErrors
    simp only [he, hra, bind, Except.bind]
    exact hdiv _ _ (by simp [l1, l2])
  obtain ⟨r2, hr2⟩ : ∃ c, absRelativeErrors x y = .ok c := by
    unfold absRelativeErrors
    simp only [he, hra, bind, Except.bind]
    exact hdiv _ _ (by simp [l1, l2, npAbs])
  obtain ⟨ds, hds, -⟩ := hx.shuffle hy hl
  have hsd := shuffleDistances_eq x y ds hl hds
  have hm : ∀ k : Nat, 1 ≤ k → ∃ c, meanAbsRelativeError x y k = .ok c := by
    intro k hk
    unfold meanAbsRelativeError
    rw [hx.any, hy.any]
    by_cases c1 : kss.any (fun ks => ks.length < k) = true
    · rw [if_pos c1]; exact ⟨_, rfl⟩
    · rw [if_neg c1]
      by_cases c2 : lss.any (fun ks => ks.length < k) = true
      · rw [if_pos c2]; exact ⟨_, rfl⟩
      · rw [if_neg c2]
        have d1 : ∀ ks ∈ kss, k ≤ ks.length := by
          intro ks hks
          by_contra hc
          exact c1 (List.any_eq_true.2 ⟨ks, hks, by simpa using hc⟩)
        have d2 : ∀ ks ∈ lss, k ≤ ks.length := by
          intro ks hks
          by_contra hc
          exact c2 (List.any_eq_true.2 ⟨ks, hks, by simpa using hc⟩)
        simp only [hx.reachArray k hk d1, hy.reachArray k hk d2, bind, Except.bind, pure,
          Except.pure]
        rw [npSub_some _ _ (by simp [l1, l2])]
        obtain ⟨c, hc⟩ := hdiv (npAbs ((List.zipWith (· - ·)
          (kss.map (fun ks => ks.getD (k - 1) 0)) (lss.map (fun ks => ks.getD (k - 1) 0))).map some))
          ((kss.map (fun ks => ks.getD (k - 1) 0)).map some) (by simp [npAbs, l1, l2])
        simp only [hc]
        exact ⟨_, rfl⟩
  obtain ⟨r3, hr3⟩ := hdiv (npSq ((List.zipWith (· - ·) (kss.map (fun ks => ks.getD 0 0))
    (lss.map (fun ks => ks.getD 0 0))).map some))
    (npSq ((kss.map (fun ks => ks.getD 0 0)).map some)) (by simp [npSq, l1, l2])
  obtain ⟨m1, hm1⟩ := hm 1 (by norm_num)
  obtain ⟨m2, hm2⟩ := hm 2 (by norm_num)
  obtain ⟨m3, hm3⟩ := hm 3 (by norm_num)
  obtain ⟨m4, hm4⟩ := hm 4 (by norm_num)
  obtain ⟨m5, hm5⟩ := hm 5 (by norm_num)
  obtain ⟨m6, hm6⟩ := hm 6 (by norm_num)
  obtain ⟨m7, hm7⟩ := hm 7 (by norm_num)
  obtain ⟨m8, hm8⟩ := hm 8 (by norm_num)
  obtain ⟨m9, hm9⟩ := hm 9 (by norm_num)
  push_cast at hm1 hm2 hm3 hm4 hm5 hm6 hm7 hm8 hm9
  unfold aggregate aggregateStats aggregators relativeErrorQuantile
  simp only [List.mapM_cons, List.mapM_nil, he, hra, hr1, hr2, hr3, hsd, hm1, hm2, hm3, hm4, hm5,
    hm6, hm7, hm8, hm9, bind, Except.bind, pure, Except.pure]
  exact ⟨_, rfl⟩

/-- C47: lists of different lengths are refused, with two exceptions that numpy broadcasts: a single
true point is compared with every modelled point, and no true points at all with a single modelled
one. -/
theorem C47_lengths (x y : List ReachPoint) (row : Row) (h : aggregate x y = .ok row) :
    x.length = y.length ∨ (x.length = 1 ∧ 1 ≤ y.length) ∨ (x.length = 0 ∧ y.length = 1) := by
  by_cases hxy : x.length = y.length
  · exact Or.inl hxy
  right
  obtain ⟨c, hc, -⟩ := mem_row_of_aggregator x y row h "mean_error"
    (fun x y => do return .float (npMean (← errors x y))) (by simp [aggregators])
  obtain ⟨d, hd, -⟩ := mem_row_of_aggregator x y row h "mean_shuffle_distance"
    (fun x y => do return .float (npMean ((← shuffleDistances x y).map some)))
    (by simp [aggregators])
  have hle : x.length ≤ y.length := by
    rcases hs : shuffleDistances x y with e | ds
    · rw [hs] at hd; cases hd
    · unfold shuffleDistances at hs
      rw [mapM_ok_iff] at hs
      by_contra hlt
      have hi : y.length < (List.range x.length).length := by
        rw [List.length_range]; omega
      have := hs.get (i := y.length) hi (by rw [← hs.length_eq]; exact hi)
      simp only [List.get_eq_getElem, List.getElem_range] at this
      rcases ha : pyIndex x (y.length : Int) with e | a
      · rw [ha] at this; cases this
      · have hb : pyIndex y (y.length : Int) = .error .indexError := by
          unfold pyIndex
          have : ¬ ((y.length : Int) < 0) := by omega
          simp [this]
        rw [ha, hb] at this
        cases this
  have hlen : ∀ (ps : List ReachPoint) (v : NpArray), reachArray ps = .ok v →
      v.length = ps.length := by
    intro ps v hv
    unfold reachArray at hv
    rw [mapM_ok_iff] at hv
    exact hv.length_eq.symm
  rcases hu : reachArray x with e | u
  · simp [errors, hu, bind, Except.bind] at hc
  · rcases hv : reachArray y with e | v
    · simp [errors, hu, hv, bind, Except.bind] at hc
    · have lu := hlen x u hu
      have lv := hlen y v hv
      rcases hz : npSub u v with e | w
      · simp [errors, hu, hv, hz, bind, Except.bind] at hc
      · unfold npSub npZip at hz
        have : u.length ≠ v.length := by omega
        simp only [this, if_false] at hz
        split at hz
        · simp at lu; left; omega
        · simp at lv; omega
        · cases hz

/-! ## Examples -/

/-- Two test points with six frequencies. -/
def exTrue : List (List ℚ) := [[10, 6, 4, 3, 2, 1], [20, 12, 8, 4, 2, 0]]

/-- Predictions for them. -/
def exModelled : List (List ℚ) := [[11, 6, 4, 3, 2, 1], [16, 12, 8, 4, 2, 0]]

/-- A point with these k+ reaches. -/
def exPoint (ks : List ℚ) : ReachPoint := ⟨[5], ks, ReachPoint.successiveDifferences ks, none, none⟩

theorem exPoint_made (ks : List ℚ) : MadeFrom ks (exPoint ks) := ⟨[5], none, none, rfl⟩

theorem exMade (kss : List (List ℚ)) : Made (kss.map exPoint) kss := by
  unfold Made
  rw [List.forall₂_map_left_iff, List.forall₂_same]
  exact fun ks _ => exPoint_made ks

/-- The histograms of the example are non-negative, long enough and not zero. -/
example : (∀ ks ∈ exTrue ++ exModelled, ∀ i, i + 1 < 6 → 0 ≤ freqAt ks i) ∧
    (∀ ks ∈ exTrue ++ exModelled, ks.length = 6 ∧ firstFive ks ≠ 0) := by
  constructor
  · intro ks hks i hi
    have : i = 0 ∨ i = 1 ∨ i = 2 ∨ i = 3 ∨ i = 4 := by omega
    simp only [exTrue, exModelled, List.cons_append, List.nil_append, List.mem_cons,
      List.not_mem_nil, or_false] at hks
    rcases hks with rfl | rfl | rfl | rfl <;> rcases this with rfl | rfl | rfl | rfl | rfl <;>
      decide +kernel
  · decide +kernel

/-- Aggregating the example: errors -1 and 4. -/
example : ∃ row, aggregate (exTrue.map exPoint) (exModelled.map exPoint) = .ok row ∧
    ("mean_error", Cell.float (some (3 / 2))) ∈ row ∧
    ("mean_abs_error", Cell.float (some (5 / 2))) ∈ row ∧
    ("mean_squared_error", Cell.float (some (17 / 2))) ∈ row ∧
    ("var_error", Cell.float (some (25 / 4))) ∈ row := by
  obtain ⟨row, h⟩ := C47_succeeds _ _ exTrue exModelled (exMade _) (exMade _) (by decide)
    (by decide +kernel)
  have hr := C68_errors _ _ _ _ ((exMade exTrue).reaches (by decide +kernel))
    ((exMade exModelled).reaches (by decide +kernel)) (by decide) (by decide) row h
  refine ⟨row, h, ?_, ?_, ?_, ?_⟩
  · exact (by decide +kernel : (List.sum (errs (exTrue.map (fun ks => ks.getD 0 0))
      (exModelled.map (fun ks => ks.getD 0 0))) / ((exTrue.map exPoint).length : ℚ)) = 3 / 2)
      ▸ hr.2.1
  · exact (by decide +kernel : (((errs (exTrue.map (fun ks => ks.getD 0 0))
      (exModelled.map (fun ks => ks.getD 0 0))).map (fun e => |e|)).sum /
        ((exTrue.map exPoint).length : ℚ)) = 5 / 2) ▸ hr.2.2.1
  · exact (by decide +kernel : (((errs (exTrue.map (fun ks => ks.getD 0 0))
      (exModelled.map (fun ks => ks.getD 0 0))).map (fun e => e * e)).sum /
        ((exTrue.map exPoint).length : ℚ)) = 17 / 2) ▸ hr.2.2.2.1
  · exact (by decide +kernel : (((errs (exTrue.map (fun ks => ks.getD 0 0))
      (exModelled.map (fun ks => ks.getD 0 0))).map
        (fun e => (e - (errs (exTrue.map (fun ks => ks.getD 0 0))
      (exModelled.map (fun ks => ks.getD 0 0))).sum / ((exTrue.map exPoint).length : ℚ)) *
        (e - (errs (exTrue.map (fun ks => ks.getD 0 0))
      (exModelled.map (fun ks => ks.getD 0 0))).sum / ((exTrue.map exPoint).length : ℚ)))).sum /
        ((exTrue.map exPoint).length : ℚ)) = 25 / 4) ▸ hr.2.2.2.2

/-- One true point against two modelled ones is accepted and reported as a single point. -/
example : ∃ row, aggregate [exPoint [10, 5]] [exPoint [10, 5], exPoint [20, 5]] = .ok row ∧
    ("npoints", Cell.int 1) ∈ row ∧ ("mean_error", Cell.float (some (-5))) ∈ row := by
  have h : (match aggregate [exPoint [10, 5]] [exPoint [10, 5], exPoint [20, 5]] with
    | .ok row => decide (("npoints", Cell.int 1) ∈ row) &&
        decide (("mean_error", Cell.float (some (-5))) ∈ row)
    | .error _ => false) = true := by decide +kernel
  split at h
  · rename_i row e
    simp only [Bool.and_eq_true, decide_eq_true_eq] at h
    exact ⟨row, e, h⟩
  · cases h

/-- A point of true reach zero, predicted exactly, makes the mean relative error undefined. -/
example : ∃ row, aggregate [exPoint [10, 5], exPoint [0, 0]] [exPoint [10, 5], exPoint [0, 0]]
      = .ok row ∧ ("mean_abs_relative_error", Cell.float none) ∈ row := by
  obtain ⟨row, h⟩ := C47_succeeds _ _ [[10, 5], [0, 0]] [[10, 5], [0, 0]] (exMade _) (exMade _) rfl
    (by decide)
  refine ⟨row, h, C68_zero_reach _ _ [10, 0] [10, 0] ?_ ?_ rfl (by decide) row h _ (by decide)⟩
  · exact (exMade [[10, 5], [0, 0]]).reaches (by decide)
  · exact (exMade [[10, 5], [0, 0]]).reaches (by decide)

/-- **C68 (different numbers of points).** Lists of different lengths, neither of which is a single
point, are refused with a `ValueError`. -/
theorem C68_mismatch (x y : List ReachPoint) (a b : List ℚ) (ha : Reaches x a) (hb : Reaches y b)
    (hl : x.length ≠ y.length) (hx : x.length ≠ 1) (hy : y.length ≠ 1) :
    aggregate x y = .error .valueError := by
  have l1 : a.length = x.length := ha.length_eq.symm
  have l2 : b.length = y.length := hb.length_eq.symm
  have he : errors x y = .error .valueError := by
    unfold errors
    rw [reachArray_of_reaches x a ha, reachArray_of_reaches y b hb]
    simp only [bind, Except.bind, npSub, npZip]
    rw [if_neg (by simpa [l1, l2] using hl)]
    split
    · rename_i h
      have := congrArg List.length h
      simp at this; omega
    · rename_i h _
      have := congrArg List.length h
      simp at this; omega
    · rfl
  unfold aggregate aggregateStats aggregators
  simp only [List.mapM_cons, he, bind, Except.bind, pure, Except.pure]

example : ∃ x y : List ReachPoint, Reaches x [3, 2] ∧ Reaches y [] ∧ x.length ≠ y.length ∧
    x.length ≠ 1 ∧ y.length ≠ 1 :=
  ⟨[⟨[4], [3], [], none, none⟩, ⟨[4], [2], [], none, none⟩], [],
    by unfold Reaches; simp [ReachPoint.reach, pyIndex], List.Forall₂.nil, by decide, by decide,
    by decide⟩

end Verif
