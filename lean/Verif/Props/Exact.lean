import Verif.Props.PublisherData
import Verif.Props.ReachPoint
import Verif.Props.ReachCurve

/-!
# Further results on C01, C14 and C42: what is computed where the claims fail

The claims as worded are false of the code for unordered logs (C01), counts of zero (C14) and free
impressions (C42). These theorems say exactly what is computed there.
-/

namespace Verif

open Verif.Spec

/-! ## C01 -/

theorem bisectRightLoop_bracket (a : List ℚ) (x : ℚ) (lo hi : Nat) (hle : lo ≤ hi)
    (hhi : hi ≤ a.length) (h1 : 0 < lo → a.getD (lo - 1) 0 ≤ x)
    (h2 : hi < a.length → x < a.getD hi 0) :
    bisectRightLoop a x lo hi ≤ a.length ∧
    (0 < bisectRightLoop a x lo hi → a.getD (bisectRightLoop a x lo hi - 1) 0 ≤ x) ∧
    (bisectRightLoop a x lo hi < a.length → x < a.getD (bisectRightLoop a x lo hi) 0) := by
  rw [bisectRightLoop]
  split_ifs with h
  · dsimp only
    split_ifs with hx
    · exact bisectRightLoop_bracket a x lo _ (by omega) (by omega) h1 (fun _ => hx)
    · exact bisectRightLoop_bracket a x _ hi (by omega) hhi
        (fun _ => by rw [Nat.add_sub_cancel]; exact not_lt.1 hx) h2
  · have : lo = hi := by omega
    subst this
    exact ⟨hhi, h1, h2⟩
  termination_by hi - lo

/-- C01 for logs in any order: the number returned is at most the length of the log, the entry before
it is affordable and the entry at it is not. (In an unordered log there may be several such places,
and the number need not be the number of affordable entries.) -/
theorem C01_bracket (log : Log) (name rnd : String) (p : PublisherData) (s : ℚ)
    (hp : PublisherData.new log name rnd = .ok p) :
    p.impressionsBySpend s ≤ log.length ∧
    (∀ i (h : i < log.length), i + 1 = p.impressionsBySpend s → log[i].2 ≤ s) ∧
    (∀ i (h : i < log.length), i = p.impressionsBySpend s → s < log[i].2) := by
  obtain ⟨m, _, rfl⟩ := (new_ok_iff _ _ _ _).1 hp
  simp only [PublisherData.impressionsBySpend, bisectRight]
  obtain ⟨h1, h2, h3⟩ := bisectRightLoop_bracket (log.map (·.2)) s 0 (log.map (·.2)).length
    (Nat.zero_le _) le_rfl (fun h => absurd h (lt_irrefl _)) (fun h => absurd h (lt_irrefl _))
  refine ⟨by simpa using h1, ?_, ?_⟩
  · intro i h hi
    rw [← hi, Nat.add_sub_cancel] at h2
    have := h2 (Nat.succ_pos _)
    simpa [List.getD, h] using this
  · intro i h hi
    rw [← hi] at h3
    have := h3 (by simpa using h)
    simpa [List.getD, h] using this

/-- In a strictly ascending list of numbers, `k + 1` of them are at most the one at `k`. -/
theorem countP_sorted_nodup (b : List ℚ) (hb : b.Pairwise (· < ·)) (k : Nat) (hk : k < b.length) :
    b.countP (fun y => y ≤ b[k]) = k + 1 := by
  rw [List.pairwise_iff_getElem] at hb
  have e0 : b.countP (fun y => decide (y ≤ b[k]))
      = (b.take (k + 1) ++ b.drop (k + 1)).countP (fun y => decide (y ≤ b[k])) := by
    rw [List.take_append_drop]
  rw [e0, List.countP_append]
  have e1 : (b.take (k + 1)).countP (fun y => decide (y ≤ b[k])) = k + 1 := by
    have hl : (b.take (k + 1)).length = k + 1 := by simp; omega
    conv_rhs => rw [← hl]
    rw [List.countP_eq_length]
    intro y hy
    obtain ⟨i, hi, rfl⟩ := List.getElem_of_mem hy
    rw [List.getElem_take, decide_eq_true_eq]
    rcases Nat.lt_or_ge i k with h | h
    · exact (hb i k (by omega) hk h).le
    · have : i = k := by omega
      subst this
      exact le_rfl
  have e2 : (b.drop (k + 1)).countP (fun y => decide (y ≤ b[k])) = 0 := by
    rw [List.countP_eq_zero]
    intro y hy
    obtain ⟨i, hi, rfl⟩ := List.getElem_of_mem hy
    rw [List.getElem_drop, decide_eq_true_eq, not_le]
    exact hb _ _ _ _ (by omega)
  rw [e1, e2]

/-- For distinct numbers there is a bound that exactly `m` of them meet. -/
theorem exists_countP_eq (a : List ℚ) (ha : a.Nodup) (m : Nat) (h0 : 0 < m) (hm : m ≤ a.length) :
    ∃ s, a.countP (fun y => y ≤ s) = m := by
  have hperm := List.mergeSort_perm a (fun x y => decide (x ≤ y))
  have hsort : (a.mergeSort (fun x y => decide (x ≤ y))).Pairwise (· < ·) := by
    have h1 : (a.mergeSort (fun x y => decide (x ≤ y))).Pairwise (fun x y => decide (x ≤ y) = true) :=
      List.pairwise_mergeSort (by intro a b c; simp only [decide_eq_true_eq]; exact le_trans)
        (by intro a b; simp only [Bool.or_eq_true, decide_eq_true_eq]; exact le_total a b) a
    have h2 : (a.mergeSort (fun x y => decide (x ≤ y))).Nodup := hperm.nodup_iff.2 ha
    refine (h1.and h2).imp ?_
    rintro x y ⟨h, hne⟩
    exact lt_of_le_of_ne (of_decide_eq_true h) hne
  have hk : m - 1 < (a.mergeSort (fun x y => decide (x ≤ y))).length := by
    rw [hperm.length_eq]; omega
  refine ⟨(a.mergeSort (fun x y => decide (x ≤ y)))[m - 1], ?_⟩
  rw [← hperm.countP_eq, countP_sorted_nodup _ hsort _ hk]
  omega

/-- **C01, exactly**: for logs whose impressions all have different spends the lookup is right for every
spend if and only if the log is in order of spend. (With equal spends order suffices, see
`C01_impressions_by_spend_partial`.) -/
theorem C01_right_iff_sorted (log : Log) (name rnd : String) (p : PublisherData)
    (hp : PublisherData.new log name rnd = .ok p) (hnodup : (log.map (·.2)).Nodup) :
    (∀ s, p.impressionsBySpend s = affordable log s) ↔ log.Pairwise (fun a b => a.2 ≤ b.2) := by
  refine ⟨fun h => ?_, fun h s => C01_impressions_by_spend_partial log name rnd p s hp h⟩
  have hc : ∀ s, affordable log s = (log.map (·.2)).countP (fun y => y ≤ s) := by
    intro s
    rw [List.countP_map]
    rfl
  have hbr := fun s => C01_bracket log name rnd p s hp
  -- the entry at position `i` has rank `i + 1`
  have hrank : ∀ i (hi : i < log.length), affordable log log[i].2 = i + 1 := by
    intro i hi
    have hmono : ∀ s t : ℚ, s ≤ t → affordable log s ≤ affordable log t := by
      intro s t hst
      unfold affordable
      refine List.countP_mono_left (fun e _ he => ?_)
      rw [decide_eq_true_eq] at he ⊢
      exact he.trans hst
    have hmono' : ∀ s (j : Nat) (hj : j < log.length), s < log[j].2 →
        affordable log s < affordable log log[j].2 := by
      intro s j hj hst
      rw [hc, hc]
      refine lt_of_le_of_ne (by rw [← hc, ← hc]; exact hmono _ _ hst.le) ?_
      intro heq
      have hsub := List.countP_eq_length_filter (p := fun y => decide (y ≤ s)) (l := log.map (·.2))
      have hsub' := List.countP_eq_length_filter (p := fun y => decide (y ≤ log[j].2))
        (l := log.map (·.2))
      have hsl : (log.map (·.2)).filter (fun y => decide (y ≤ s))
          |>.Sublist ((log.map (·.2)).filter (fun y => decide (y ≤ log[j].2))) :=
        List.monotone_filter_right _ (fun y hy => by
          rw [decide_eq_true_eq] at hy ⊢
          exact hy.trans hst.le)
      have heq' := hsl.eq_of_length (by rw [← hsub, ← hsub', heq])
      have hmem : log[j].2 ∈ (log.map (·.2)).filter (fun y => decide (y ≤ log[j].2)) :=
        List.mem_filter.2 ⟨List.mem_map_of_mem (List.getElem_mem hj), by simp⟩
      rw [← heq', List.mem_filter, decide_eq_true_eq] at hmem
      exact absurd hmem.2 (not_le.2 hst)
    apply le_antisymm
    · obtain ⟨s, hs⟩ := exists_countP_eq _ hnodup (i + 1) (Nat.succ_pos _) (by simpa using hi)
      rw [← hc] at hs
      rw [← hs]
      exact hmono _ _ ((hbr s).2.1 i hi (by rw [h s, hs]))
    · rcases Nat.eq_zero_or_pos i with rfl | h0
      · unfold affordable
        rw [Nat.zero_add, Nat.one_le_iff_ne_zero, Nat.ne_zero_iff_zero_lt, List.countP_pos_iff]
        exact ⟨_, List.getElem_mem hi, by simp⟩
      · obtain ⟨s, hs⟩ := exists_countP_eq _ hnodup i h0 (by simp; omega)
        rw [← hc] at hs
        have := hmono' s i hi ((hbr s).2.2 i hi (by rw [h s, hs]))
        omega
  rw [List.pairwise_iff_getElem]
  intro i j hi hj hij
  by_contra hlt
  have : affordable log log[j].2 ≤ affordable log log[i].2 := by
    unfold affordable
    refine List.countP_mono_left (fun e _ he => ?_)
    rw [decide_eq_true_eq] at he ⊢
    exact he.trans (not_le.1 hlt).le
  rw [hrank i hi, hrank j hj] at this
  omega

/-- The unordered log of `C01_full_is_false` has different spends. -/
example : ∃ p, PublisherData.new [(1, 3), (2, 1)] "p" "" = .ok p ∧
    ¬ ∀ s, p.impressionsBySpend s = affordable [(1, 3), (2, 1)] s := by
  refine ⟨_, rfl, fun h => ?_⟩
  exact absurd ((C01_right_iff_sorted [(1, 3), (2, 1)] "p" "" _ rfl (by decide +kernel)).1 h)
    (by decide +kernel)

/-! ## C14 -/

/-- A count of zero is entered in the bucket of the largest frequency. -/
theorem histogram_zero_as_max (F : Nat) (hF : 1 ≤ F) (l : List Int) (hl : ∀ c ∈ l, 0 ≤ c) :
    ∀ fc : List Int, fc.length = F →
    l.foldlM (fun fc c => pyModify fc (min c (F : Int) - 1) (· + 1)) fc
      = (l.map (fun c => if c = 0 then (F : Int) else c)).foldlM
        (fun fc c => pyModify fc (min c (F : Int) - 1) (· + 1)) fc := by
  induction l with
  | nil => intro fc _; rfl
  | cons c l ih =>
    intro fc hfc
    rw [List.map_cons, List.foldlM_cons, List.foldlM_cons]
    have hc := hl c (List.mem_cons_self ..)
    have e : pyModify fc (min c (F : Int) - 1) (· + 1)
        = pyModify fc (min (if c = 0 then (F : Int) else c) (F : Int) - 1) (· + 1) := by
      split_ifs with h0
      · subst h0
        have e1 : min (0 : Int) F - 1 = -1 := by omega
        have e2 : min (F : Int) F - 1 = F - 1 := by omega
        rw [e1, e2]
        unfold pyModify
        dsimp only
        rw [if_pos (show (-1 : Int) < 0 by decide), if_neg (show ¬ (F : Int) - 1 < 0 by omega), hfc]
        have : (-1 : Int) + F = F - 1 := by omega
        rw [this]
      · rfl
    rw [e]
    rcases h : pyModify fc (min (if c = 0 then (F : Int) else c) (F : Int) - 1) (· + 1) with err | fc'
    · rfl
    · have hlen : fc'.length = F := by
        unfold pyModify at h
        dsimp only at h
        generalize min (if c = 0 then (F : Int) else c) (F : Int) - 1 = x at h
        split_ifs at h
        all_goals
          simp only [Except.ok.injEq] at h
          rw [← h, List.length_modify, hfc]
      exact ih (fun c hc => hl c (List.mem_cons_of_mem _ hc)) fc' hlen

theorem frequencies_zero_as_max (counts : Dict Int Int) (F : Nat) (hF : 1 ≤ F)
    (hpos : ∀ kv ∈ counts, 0 ≤ kv.2) :
    ReachPoint.userCountsToFrequencies counts F = ReachPoint.userCountsToFrequencies
      (counts.map (fun kv => (kv.1, if kv.2 = 0 then (F : Int) else kv.2))) F := by
  unfold ReachPoint.userCountsToFrequencies
  rw [histogram_zero_as_max F hF (counts.map (·.2)) (by
    intro c hc
    obtain ⟨kv, hkv, rfl⟩ := List.mem_map.1 hc
    exact hpos kv hkv) _ (by simp [pyRepeat])]
  rw [List.map_map, List.map_map]
  rfl

theorem countP_zero_as_max (counts : Dict Int Int) (F : Nat) (i : Int) (hi : 0 ≤ i) (hiF : i < F) :
    (counts.map (fun kv => (kv.1, if kv.2 = 0 then (F : Int) else kv.2))).countP
        (fun kv => decide (i + 1 ≤ kv.2))
      = counts.countP (fun kv => decide (i + 1 ≤ kv.2)) + counts.countP (fun kv => decide (kv.2 = 0)) := by
  induction counts with
  | nil => rfl
  | cons kv counts ih =>
    rw [List.map_cons, List.countP_cons, List.countP_cons, List.countP_cons, ih]
    by_cases h0 : kv.2 = 0
    · rw [h0]
      simp only [if_true, decide_true, decide_eq_true_eq]
      rw [if_pos (show i + 1 ≤ (F : Int) by omega), if_neg (show ¬ i + 1 ≤ 0 by omega)]
      omega
    · simp only [if_neg h0, decide_eq_true_eq]
      omega

/-- **C14, exactly**: for all maps of non-negative counts, users with a count of zero are reported as
users of the largest frequency: they are in the last bucket of the histogram and in every k+ reach.
Everybody else is counted as claimed. -/
theorem C14_zero_counts (counts : Dict Int Int) (F : Nat) (hF : 1 ≤ F)
    (hpos : ∀ kv ∈ counts, 0 ≤ kv.2) :
    (∃ h, ReachPoint.userCountsToFrequencies counts F = .ok h ∧ h.length = F ∧
      (∀ i, i + 1 < F → h[i]? = some ((counts.countP (fun kv => kv.2 = (i : Int) + 1) : Nat) : Int)) ∧
      h[F - 1]? = some ((counts.countP (fun kv => (F : Int) ≤ kv.2) : Nat)
        + (counts.countP (fun kv => kv.2 = 0) : Nat) : Int)) ∧
    (∃ h, ReachPoint.userCountsToKplusReaches counts F = .ok h ∧ h.length = F ∧
      ∀ i < F, h[i]? = some ((counts.countP (fun kv => (i : Int) + 1 ≤ kv.2) : Nat)
        + (counts.countP (fun kv => kv.2 = 0) : Nat) : Int)) := by
  have hpos' : ∀ kv ∈ counts.map (fun kv : Int × Int => (kv.1, if kv.2 = 0 then (F : Int) else kv.2)),
      1 ≤ kv.2 := by
    intro kv hkv
    obtain ⟨e, he, rfl⟩ := List.mem_map.1 hkv
    have := hpos e he
    simp only
    split_ifs <;> omega
  have heq := frequencies_zero_as_max counts F hF hpos
  constructor
  · obtain ⟨h, h1, h2, h3, h4⟩ := C14_frequencies_partial _ F hF hpos'
    refine ⟨h, heq.trans h1, h2, ?_, ?_⟩
    · intro i hi
      rw [h3 i hi, List.countP_map]
      congr 2
      apply List.countP_congr
      intro kv _
      simp only [Function.comp, decide_eq_true_eq]
      split_ifs <;> omega
    · rw [h4]
      have := countP_zero_as_max counts F ((F : Int) - 1) (by omega) (by omega)
      rw [Int.sub_add_cancel] at this
      rw [this]
      push_cast
      rfl
  · obtain ⟨h, h1, h2, h3⟩ := C14_kplus_partial _ F hF hpos'
    refine ⟨h, ?_, h2, ?_⟩
    · unfold ReachPoint.userCountsToKplusReaches at h1 ⊢
      rw [heq]
      exact h1
    · intro i hi
      rw [h3 i hi, countP_zero_as_max counts F i (by omega) (by omega)]
      push_cast
      rfl

example : ReachPoint.userCountsToKplusReaches ([(1, 1), (2, 0), (3, 7)] : Dict Int Int) 3
    = .ok [3, 2, 2] := by decide +kernel

/-! ## C42 -/

theorem sum_modified (g : Log → ℚ → Nat) (s : ℚ) (i : Nat) : ∀ (logs : List Log), i < logs.length →
    ((logs.zip ((List.replicate logs.length 0).modify i (fun _ => s))).map
      (fun ls => g ls.1 ls.2)).sum
      = ∑ j ∈ Finset.range logs.length, g (logs.getD j []) (if j = i then s else 0) := by
  intro logs hi
  have e : (logs.zip ((List.replicate logs.length 0).modify i (fun _ => s))).map
      (fun ls => g ls.1 ls.2)
      = (List.range logs.length).map (fun j => g (logs.getD j []) (if j = i then s else 0)) := by
    refine List.ext_getElem (by simp) ?_
    intro j h1 h2
    have hj : j < logs.length := by simpa using h2
    rw [List.getElem_map, List.getElem_zip, List.getElem_map, List.getElem_range,
      show logs.getD j [] = logs[j] by simp [List.getD, hj], List.getElem_modify]
    by_cases h : i = j
    · subst h; simp
    · rw [if_neg h, if_neg (Ne.symm h), List.getElem_replicate]
  rw [e]
  generalize logs.length = n
  induction n with
  | zero => rfl
  | succ n ih => rw [List.range_succ, List.map_append, List.sum_append, Finset.sum_range_succ, ih]; simp

/-- **C42, by spend, exactly**: at spend `s` the ground truth curve of publisher `i` counts the
affordable impressions of that publisher together with the free impressions of all others. -/
theorem C42_by_spend_exact (ds : DataSet) (logs : List Log)
    (hb : List.Forall₂ Built logs ds.data) (i : Nat) (hi : i < logs.length)
    (s : ℚ) (F : Nat) (hF : 1 ≤ F) :
    ∃ m r, GroundTruthCurve.new ds i = .ok m ∧ m.bySpend [s] F = .ok r ∧ r.maxFrequency = F ∧
      ∀ k : Nat, 1 ≤ k → k ≤ F →
        r.reach k = .ok (kPlusReach (fun u => ∑ j ∈ Finset.range logs.length,
          exposuresAtSpend (logs.getD j []) (if j = i then s else 0) u) k : ℚ) := by
  obtain ⟨m, hm, hds, hidx, hmax⟩ := groundTruth_new hb i hi
  have hlen := hb.length_eq
  obtain ⟨r, h1, _, _, h2, h3, _⟩ := C08_reach_by_spend ds logs hb
    ((List.replicate logs.length 0).modify i (fun _ => s)) (by simp) F hF
  refine ⟨m, r, hm, ?_, h2, ?_⟩
  · unfold GroundTruthCurve.bySpend
    simp only [hds, hidx]
    rw [pyModify_replicate _ _ (by unfold DataSet.publisherCount; omega)]
    unfold DataSet.publisherCount
    rw [← hlen]
    exact h1
  · intro k hk1 hk2
    rw [h3 k hk1 hk2]
    congr 3
    funext u
    exact sum_modified (fun l s => exposuresAtSpend l s u) s i logs hi

/-- The data set of `C42_by_spend_full_is_false`. -/
example : ∃ m r, GroundTruthCurve.new exFreeDataSet 0 = .ok m ∧ m.bySpend [1] 1 = .ok r ∧
    r.maxFrequency = 1 := by
  obtain ⟨m, r, h1, h2, h3, -⟩ := C42_by_spend_exact exFreeDataSet exFreeLogs
    (List.Forall₂.cons ⟨"a", "", by decide +kernel⟩
      (List.Forall₂.cons ⟨"b", "", by decide +kernel⟩ List.Forall₂.nil)) 0 (by decide) 1 1 le_rfl
  exact ⟨m, r, h1, h2, h3⟩

end Verif
