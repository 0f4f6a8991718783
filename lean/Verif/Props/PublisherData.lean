import Verif.Lemmas.PublisherData
import Mathlib.Tactic.NormNum

/-!
# C01–C04: publisher logs

`PublisherData.new log name rnd = .ok p` says: `p` is the object built from the impression log
`log` (any order).
-/

namespace Verif

open Verif.Spec

/-! ## C01 -/

/-- C01, full claim: the spend lookup counts the affordable log entries, for logs in any order. -/
def C01_full : Prop :=
  ∀ (log : Log) (name rnd : String) (p : PublisherData) (s : ℚ),
    PublisherData.new log name rnd = .ok p → p.impressionsBySpend s = affordable log s

/-- C01 is false of the code: with the log `[(1, 3), (2, 1)]` a spend of `1` is reported to buy
two impressions, because the lookup bisects the *unsorted* spends. -/
theorem C01_full_is_false : ¬ C01_full := by
  intro h
  have := h [(1, 3), (2, 1)] "p" "" _ 1 rfl
  have e1 : affordable [((1 : Int), (3 : ℚ)), (2, 1)] 1 = 1 := by decide
  rw [e1] at this
  simp [PublisherData.impressionsBySpend, bisectRight] at this
  rw [bisectRightLoop] at this
  norm_num at this
  rw [bisectRightLoop] at this
  norm_num at this

/-- C01 for logs that are given in order of spend. Missing for the full claim: unordered logs,
where it is false. -/
theorem C01_impressions_by_spend_partial (log : Log) (name rnd : String) (p : PublisherData)
    (s : ℚ) (hp : PublisherData.new log name rnd = .ok p)
    (hsorted : log.Pairwise (fun a b => a.2 ≤ b.2)) :
    p.impressionsBySpend s = affordable log s := by
  obtain ⟨m, _, rfl⟩ := (new_ok_iff _ _ _ _).1 hp
  simp only [PublisherData.impressionsBySpend]
  rw [bisectRight_eq_countP _ _ (map_snd_pairwise log hsorted), List.countP_map]
  rfl

example : ∃ p, PublisherData.new [(7, 1), (8, 2), (7, 2), (9, 5)] "pub" "" = .ok p ∧
    ([(7, 1), (8, 2), (7, 2), (9, 5)] : Log).Pairwise (fun a b => a.2 ≤ b.2) ∧
    affordable [(7, 1), (8, 2), (7, 2), (9, 5)] 2 = 3 := ⟨_, rfl, by decide, by decide⟩

/-! ## C02 -/

/-- C02 (a): `spend_by_impressions` succeeds for every non-negative number of impressions, and
for an ordered log the spend it reports buys at least that many impressions (or all there are). -/
theorem C02_spend_buys_impressions (log : Log) (name rnd : String) (p : PublisherData)
    (hp : PublisherData.new log name rnd = .ok p)
    (hsorted : log.Pairwise (fun a b => a.2 ≤ b.2)) (n : Nat) :
    ∃ sp, p.spendByImpressions n = .ok sp ∧ min n log.length ≤ p.impressionsBySpend sp := by
  have h1 := fun s => C01_impressions_by_spend_partial log name rnd p s hp hsorted
  obtain ⟨m, hm, rfl⟩ := (new_ok_iff _ _ _ _).1 hp
  have hne : log ≠ [] := by rintro rfl; simp [pyMax] at hm
  have hlen : 0 < log.length := List.length_pos_iff.2 hne
  by_cases hn : n = 0
  · exact ⟨0, by simp [PublisherData.spendByImpressions, hn], by simp [hn]⟩
  · simp only [h1]
    have hsort := sortBySpend_of_sorted log hsorted
    have hidx : (min (log.length : Int) (n : Int) - 1) = ((min log.length n - 1 : Nat) : Int) := by
      omega
    have hlt : min log.length n - 1 < log.length := by omega
    refine ⟨log[min log.length n - 1].2, ?_, ?_⟩
    · simp only [PublisherData.spendByImpressions, hsort, hidx]
      rw [if_neg (by omega), pyIndex_nat _ _ hlt]
      rfl
    · unfold affordable
      have htake : (log.take (min log.length n)).countP
          (fun e => decide (e.2 ≤ log[min log.length n - 1].2)) = min log.length n := by
        have : (log.take (min log.length n)).length = min log.length n := by simp
        conv_rhs => rw [← this]
        rw [List.countP_eq_length]
        intro e he
        obtain ⟨i, hi, rfl⟩ := List.getElem_of_mem he
        simp only [List.getElem_take, decide_eq_true_eq]
        rw [List.pairwise_iff_getElem] at hsorted
        have hi' : i < min log.length n := by simpa using hi
        by_cases heq : i = min log.length n - 1
        · subst heq; exact le_rfl
        · exact hsorted i _ (by omega) hlt (by omega)
      have hsub := (List.take_sublist (min log.length n) log).countP_le
        (p := fun e => decide (e.2 ≤ log[min log.length n - 1].2))
      rw [htake] at hsub
      omega

/-- C02 (b): for an ordered log, the spend of the impressions bought for `s` is at most `s`. -/
theorem C02_spend_of_bought_impressions (log : Log) (name rnd : String) (p : PublisherData)
    (hp : PublisherData.new log name rnd = .ok p)
    (hsorted : log.Pairwise (fun a b => a.2 ≤ b.2)) (s : ℚ)
    (hpos : 0 < p.impressionsBySpend s) :
    ∃ sp, p.spendByImpressions (p.impressionsBySpend s) = .ok sp ∧ sp ≤ s := by
  have h1 := fun s => C01_impressions_by_spend_partial log name rnd p s hp hsorted
  rw [h1] at hpos ⊢
  obtain ⟨m, hm, rfl⟩ := (new_ok_iff _ _ _ _).1 hp
  have hle : affordable log s ≤ log.length := List.countP_le_length
  have hidx : (min (log.length : Int) (affordable log s : Int) - 1)
      = ((affordable log s - 1 : Nat) : Int) := by omega
  have hlt : affordable log s - 1 < log.length := by omega
  refine ⟨log[affordable log s - 1].2, ?_, ?_⟩
  · simp only [PublisherData.spendByImpressions, sortBySpend_of_sorted log hsorted, hidx]
    rw [if_neg (by omega), pyIndex_nat _ _ hlt]
    rfl
  · have hpre := filter_le_eq_take log hsorted s
    have hmem : log[affordable log s - 1] ∈ log.filter (fun e => decide (e.2 ≤ s)) := by
      rw [hpre]
      have hget : (log.take (affordable log s))[affordable log s - 1]'(by simp; omega)
          = log[affordable log s - 1] := by simp
      rw [← hget]
      exact List.getElem_mem _
    simpa using (List.mem_filter.1 hmem).2

/-- C02 (c): for an ordered log, anything less than `spend_by_impressions n` buys fewer than `n`
impressions. -/
theorem C02_less_buys_fewer (log : Log) (name rnd : String) (p : PublisherData)
    (hp : PublisherData.new log name rnd = .ok p)
    (hsorted : log.Pairwise (fun a b => a.2 ≤ b.2)) (n : Nat) (hn : 0 < n)
    (hn' : n ≤ log.length) (sp s : ℚ) (hsp : p.spendByImpressions n = .ok sp) (hs : s < sp) :
    p.impressionsBySpend s < n := by
  have h1 := fun s => C01_impressions_by_spend_partial log name rnd p s hp hsorted
  by_contra hcon
  have hge : n ≤ affordable log s := by rw [← h1]; omega
  obtain ⟨m, hm, rfl⟩ := (new_ok_iff _ _ _ _).1 hp
  have hidx : (min (log.length : Int) (n : Int) - 1) = ((n - 1 : Nat) : Int) := by omega
  have hlt : n - 1 < log.length := by omega
  simp only [PublisherData.spendByImpressions, sortBySpend_of_sorted log hsorted, hidx] at hsp
  rw [if_neg (by omega), pyIndex_nat _ _ hlt] at hsp
  simp only [bind, Except.bind, pure, Except.pure, Except.ok.injEq] at hsp
  have hpre := filter_le_eq_take log hsorted s
  have hmem : log[n - 1] ∈ log.filter (fun e => decide (e.2 ≤ s)) := by
    rw [hpre]
    have hget : (log.take (affordable log s))[n - 1]'(by simp; omega) = log[n - 1] := by simp
    rw [← hget]
    exact List.getElem_mem _
  have := (List.mem_filter.1 hmem).2
  simp only [decide_eq_true_eq, hsp] at this
  exact absurd hs (not_lt.2 this)

example : ∃ p, PublisherData.new [(7, 1), (8, 2), (7, 2), (9, 5)] "pub" "" = .ok p ∧
    p.spendByImpressions 2 = .ok 2 ∧ (1 : ℚ) < 2 ∧
    0 < affordable [(7, 1), (8, 2), (7, 2), (9, 5)] 2 :=
  ⟨_, rfl, by decide +kernel, by decide, by decide⟩

/-! ## C03 -/

/-- C03 (a): `user_counts_by_spend` reports for every user the number of that user's affordable
log entries, and lists exactly the users having one; for logs in any order. -/
theorem C03_user_counts_by_spend (log : Log) (name rnd : String) (p : PublisherData)
    (hp : PublisherData.new log name rnd = .ok p) (s : ℚ) :
    (∀ u, dictGet (p.userCountsBySpend s) u = exposuresAtSpend log s u) ∧
    (∀ u, u ∈ dictKeys (p.userCountsBySpend s) ↔ 0 < exposuresAtSpend log s u) ∧
    (dictKeys (p.userCountsBySpend s)).Nodup := by
  obtain ⟨m, hm, rfl⟩ := (new_ok_iff _ _ _ _).1 hp
  have hget : ∀ u, dictGet (counter (((sortBySpend log).filter (fun e => e.2 ≤ s)).map (·.1))) u
      = exposuresAtSpend log s u := by
    intro u
    rw [dictGet_counter, filter_count_eq]
    unfold exposuresAtSpend
    rw [(sortBySpend_perm log).countP_eq]
  have hnd := nodup_counter (((sortBySpend log).filter (fun e => e.2 ≤ s)).map (·.1))
  refine ⟨hget, ?_, hnd⟩
  intro u
  simp only [PublisherData.userCountsBySpend]
  constructor
  · intro hu
    obtain ⟨kv, hkv, rfl⟩ := List.mem_map.1 hu
    have h1 := dictGet_of_mem _ hnd kv hkv
    have h2 := pos_counter _ kv hkv
    have := hget kv.1
    omega
  · intro hu
    by_contra hn
    have h1 := dictGet_eq_zero_of_notMem _ u hn
    have := hget u
    omega

/-- C03 (b): `user_counts_by_impressions n` reports for every user how many of the `n` cheapest
impressions (ties in log order) were shown to that user, and distributes exactly
`min n (log size)` impressions. -/
theorem C03_user_counts_by_impressions (log : Log) (name rnd : String) (p : PublisherData)
    (hp : PublisherData.new log name rnd = .ok p) (n : Nat) :
    (∀ u, dictGet (p.userCountsByImpressions n) u = exposuresAtImpressions log n u) ∧
    ((p.userCountsByImpressions n).map (·.2)).sum = min n log.length ∧
    (∀ u, u ∈ dictKeys (p.userCountsByImpressions n) ↔ 0 < exposuresAtImpressions log n u) := by
  obtain ⟨m, hm, rfl⟩ := (new_ok_iff _ _ _ _).1 hp
  simp only [PublisherData.userCountsByImpressions, pySliceTo_nat]
  have hget : ∀ u, dictGet (counter (((sortBySpend log).take n).map (·.1))) u
      = exposuresAtImpressions log n u := by
    intro u; rw [dictGet_counter, take_sort_count]
  have hnd := nodup_counter (((sortBySpend log).take n).map (·.1))
  refine ⟨hget, ?_, ?_⟩
  · rw [sum_values_counter]
    simp [(sortBySpend_perm log).length_eq]
  · intro u
    constructor
    · intro hu
      obtain ⟨kv, hkv, rfl⟩ := List.mem_map.1 hu
      have h1 := dictGet_of_mem _ hnd kv hkv
      have h2 := pos_counter _ kv hkv
      have := hget kv.1
      omega
    · intro hu
      by_contra hn
      have h1 := dictGet_eq_zero_of_notMem _ u hn
      have := hget u
      omega

/-- C03 (c): the two lookups agree: the counts for spend `s` are the counts for as many
impressions as are affordable with `s` — the same dictionary, for logs in any order. -/
theorem C03_spend_and_impressions_agree (log : Log) (name rnd : String) (p : PublisherData)
    (hp : PublisherData.new log name rnd = .ok p) (s : ℚ) :
    p.userCountsBySpend s = p.userCountsByImpressions (affordable log s) := by
  obtain ⟨m, hm, rfl⟩ := (new_ok_iff _ _ _ _).1 hp
  simp only [PublisherData.userCountsByImpressions, pySliceTo_nat,
    PublisherData.userCountsBySpend]
  rw [filter_le_eq_take _ (sortBySpend_pairwise log), (sortBySpend_perm log).countP_eq]
  rfl

example : ∃ p, PublisherData.new [(9, 5), (7, 1), (8, 2), (7, 2)] "pub" "" = .ok p ∧
    p.userCountsBySpend 2 = [(7, 2), (8, 1)] ∧
    exposuresAtSpend [(9, 5), (7, 1), (8, 2), (7, 2)] 2 7 = 2 ∧
    exposuresAtImpressions [(9, 5), (7, 1), (8, 2), (7, 2)] 2 7 = 1 :=
  ⟨_, rfl, by decide +kernel, by decide +kernel, by decide +kernel⟩

/-! ## C04 -/

/-- C04 (a): `max_reach` is the number of distinct users of the log and `max_spend` its largest
spend. -/
theorem C04_max_reach_and_spend (log : Log) (name rnd : String) (p : PublisherData)
    (hp : PublisherData.new log name rnd = .ok p) :
    p.maxReach = (users log).ncard ∧ (∀ e ∈ log, e.2 ≤ p.maxSpend) ∧
      (∃ e ∈ log, e.2 = p.maxSpend) := by
  obtain ⟨m, hm, rfl⟩ := (new_ok_iff _ _ _ _).1 hp
  obtain ⟨h1, h2⟩ := pyMax_spec _ _ hm
  refine ⟨?_, ?_, ?_⟩
  · simp only [lenSet_eq_ncard, users]
    congr 1
    ext u; simp
  · intro e he
    exact h1 e.2 (List.mem_map.2 ⟨e, he, rfl⟩)
  · obtain ⟨e, he, h⟩ := List.mem_map.1 h2
    exact ⟨e, he, h⟩

/-- Number of people a publisher reaches at a spend: size of the reported dictionary. -/
def reachAtSpend (p : PublisherData) (s : ℚ) : Nat := (p.userCountsBySpend s).length

/-- C04 (b): the reach at a spend is the number of users with an affordable entry. -/
theorem C04_reach_is_people (log : Log) (name rnd : String) (p : PublisherData)
    (hp : PublisherData.new log name rnd = .ok p) (s : ℚ) :
    reachAtSpend p s = {u | ∃ e ∈ log, e.1 = u ∧ e.2 ≤ s}.ncard := by
  obtain ⟨h1, _, h3⟩ := C03_user_counts_by_spend log name rnd p hp s
  have hpos : DictPos (p.userCountsBySpend s) := by
    simp only [PublisherData.userCountsBySpend]; exact pos_counter _
  unfold reachAtSpend
  rw [dict_length_eq_ncard _ h3 hpos]
  congr 1
  ext u
  simp only [Set.mem_ofPred_eq, h1]
  have : (1 : Int) ≤ (exposuresAtSpend log s u : Int) ↔ 0 < exposuresAtSpend log s u := by omega
  rw [this]
  unfold exposuresAtSpend
  rw [List.countP_pos_iff]
  simp

/-- C04 (c): reach never decreases with spend, never exceeds `max_reach`, and attains it at
`max_spend` and beyond. -/
theorem C04_reach_monotone_bounded (log : Log) (name rnd : String) (p : PublisherData)
    (hp : PublisherData.new log name rnd = .ok p) :
    (∀ s t, s ≤ t → reachAtSpend p s ≤ reachAtSpend p t) ∧
    (∀ s, reachAtSpend p s ≤ p.maxReach) ∧
    (∀ s, p.maxSpend ≤ s → reachAtSpend p s = p.maxReach) := by
  have hr := C04_reach_is_people log name rnd p hp
  obtain ⟨hm, hs, _⟩ := C04_max_reach_and_spend log name rnd p hp
  have hfin : (users log).Finite := by
    have : users log = (((log.map (·.1)).toFinset : Finset Int) : Set Int) := by
      ext u; simp [users]
    rw [this]; exact Finset.finite_toSet _
  have hsub : ∀ s, {u | ∃ e ∈ log, e.1 = u ∧ e.2 ≤ s} ⊆ users log := by
    rintro s u ⟨e, he, h, _⟩; exact ⟨e, he, h⟩
  refine ⟨?_, ?_, ?_⟩
  · intro s t hst
    rw [hr, hr]
    refine Set.ncard_le_ncard ?_ (hfin.subset (hsub t))
    rintro u ⟨e, he, h, h'⟩
    exact ⟨e, he, h, le_trans h' hst⟩
  · intro s
    rw [hr, hm]
    exact Set.ncard_le_ncard (hsub s) hfin
  · intro s hle
    rw [hr, hm]
    congr 1
    apply Set.Subset.antisymm (hsub s)
    rintro u ⟨e, he, h⟩
    exact ⟨e, he, h, le_trans (hs e he) hle⟩

/-- C04 (d): with at least as many impressions as the log holds, everybody is reached. -/
theorem C04_all_impressions_reach_everybody (log : Log) (name rnd : String) (p : PublisherData)
    (hp : PublisherData.new log name rnd = .ok p) (n : Nat) (hn : log.length ≤ n) :
    (p.userCountsByImpressions n).length = p.maxReach := by
  obtain ⟨hm, hs, e, he, hee⟩ := C04_max_reach_and_spend log name rnd p hp
  have h3 := (C04_reach_monotone_bounded log name rnd p hp).2.2 p.maxSpend le_rfl
  rw [← h3]
  unfold reachAtSpend
  rw [C03_spend_and_impressions_agree log name rnd p hp]
  have ha : affordable log p.maxSpend = log.length := by
    unfold affordable
    rw [List.countP_eq_length]
    intro e he; simpa using hs e he
  obtain ⟨m, hm, rfl⟩ := (new_ok_iff _ _ _ _).1 hp
  simp only [PublisherData.userCountsByImpressions, pySliceTo_nat] at ha ⊢
  rw [ha]
  have hl := (sortBySpend_perm log).length_eq
  rw [List.take_of_length_le (by omega), List.take_of_length_le (by omega)]

example : ∃ p, PublisherData.new [(9, 5), (7, 1), (8, 2), (7, 2)] "pub" "" = .ok p ∧
    reachAtSpend p 1 = 1 ∧ reachAtSpend p 2 = 2 ∧ p.maxReach = 3 ∧ p.maxSpend = 5 :=
  ⟨_, rfl, by decide +kernel, by decide +kernel, by decide +kernel, by decide +kernel⟩

/-- **C03 (size of the log).** The number of impressions of a publisher is the length of its log; no
query counts more, and a query for that many counts all. -/
theorem C03_max_impressions (log : Log) (name rnd : String) (p : PublisherData)
    (hp : PublisherData.new log name rnd = .ok p) :
    p.maxImpressions = log.length ∧
    ∀ n : Nat, ((p.userCountsByImpressions n).map (·.2)).sum = min n p.maxImpressions := by
  have hlen : p.maxImpressions = log.length := by
    obtain ⟨m, hm, rfl⟩ := (new_ok_iff _ _ _ _).1 hp
    simp only [PublisherData.maxImpressions]
    exact (sortBySpend_perm log).length_eq
  exact ⟨hlen, fun n => by rw [(C03_user_counts_by_impressions log name rnd p hp n).2.1, hlen]⟩

/-- **C03 (negative numbers).** A negative number of impressions is counted from the end of the log:
`-n` stands for all impressions but the last `n`. -/
theorem C03_negative_impressions (log : Log) (name rnd : String) (p : PublisherData)
    (hp : PublisherData.new log name rnd = .ok p) (n : Nat) (hn : 0 < n) :
    p.userCountsByImpressions (-(n : Int)) = p.userCountsByImpressions ((log.length - n : Nat) : Int) := by
  obtain ⟨m, hm, rfl⟩ := (new_ok_iff _ _ _ _).1 hp
  simp only [PublisherData.userCountsByImpressions, pySliceTo_nat]
  have hl : (sortBySpend log).length = log.length := (sortBySpend_perm log).length_eq
  unfold pySliceTo
  rw [if_pos (by omega), hl]
  congr 3
  omega

example : ∃ p, PublisherData.new [(9, 5), (7, 1), (8, 2), (7, 2)] "pub" "" = .ok p ∧
    p.maxImpressions = 4 ∧ p.userCountsByImpressions (-1) = [(7, 2), (8, 1)] :=
  ⟨_, rfl, by decide +kernel, by decide +kernel⟩

end Verif
