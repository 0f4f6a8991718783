import Verif.Lemmas.DataSet
import Verif.Props.ReachPoint
import Mathlib.Algebra.BigOperators.Ring.Finset

/-!
# C07–C11: reach over several publishers

`hb : List.Forall₂ Built logs ds.data` says that publisher `i` of the data set was built from the
impression log `logs[i]`.
-/

namespace Verif

open Verif.Spec

/-! ## C07 -/

/-- C07: at an impression vector of matching length the reported k+ reach is the number of
distinct users with at least `k` exposures in total over all publishers. The reported spends are
those of the individual publishers. -/
theorem C07_reach_by_impressions (ds : DataSet) (logs : List Log)
    (hb : List.Forall₂ Built logs ds.data) (v : List Nat) (hv : v.length = logs.length)
    (F : Nat) (hF : 1 ≤ F) :
    ∃ r, ds.reachByImpressions (v.map (fun n : Nat => (n : Int))) F = .ok r ∧
      r.impressions = v.map (fun n : Nat => (n : ℚ)) ∧ r.maxFrequency = F ∧
      (∀ k : Nat, 1 ≤ k → k ≤ F → r.reach k = .ok (kPlusReach (totalAtImpressions logs v) k : ℚ)) ∧
      r.universeSize? = some (ds.universeSize : ℚ) ∧
      List.Forall₂ (fun (pn : PublisherData × Nat) x => pn.1.spendByImpressions pn.2 = .ok x)
          (ds.data.zip v) (r.spends.getD []) := by
  obtain ⟨c, s, e1, e2, e3, e4, s', e7, e6⟩ := impressionsLoop_spec hb v hv [] []
    (by simp [dictKeys]) (by intro kv h; simp at h)
  rw [e7, List.nil_append] at e1
  have e4' : ∀ u, dictGet c u = totalAtImpressions logs v u := by
    intro u; rw [e4]; simp [dictGet]
  have e5 := countsToHistogram_spec c e2 e3 _ e4' F hF
  have hlen : ds.data.length = logs.length := hb.length_eq.symm
  have hs' : s'.length = v.length := by
    have := e6.length_eq
    simp only [List.length_zip] at this
    omega
  have hnew : ∃ r, ReachPoint.new (v.map (fun n : Nat => (n : ℚ)))
      (((List.range F).map (fun i => (kPlusReach (totalAtImpressions logs v) (i + 1) : Int))).map
        (fun n : Int => (n : ℚ))) (some s') (some (ds.universeSize : ℚ)) = .ok r ∧
        r.spends.getD [] = s' ∧ r.universeSize? = some (ds.universeSize : ℚ) := by
    unfold ReachPoint.new
    simp only [Option.getD_some, List.length_map, hs', ne_eq, not_true_eq_false, and_false, if_false]
    refine ⟨_, rfl, ?_, rfl⟩
    cases s' <;> simp [ReachPoint.truthySpends]
  obtain ⟨r, hr, hsp, hus⟩ := hnew
  have hr' := hr
  unfold ReachPoint.new at hr'
  split at hr'
  · simp at hr'
  simp only [Except.ok.injEq] at hr'
  refine ⟨r, ?_, ?_, ?_, ?_, hus, ?_⟩
  · unfold DataSet.reachByImpressions DataSet.publisherCount
    rw [if_neg (by simp [hlen, hv]), e1]
    simp only [bind, Except.bind]
    rw [e5]
    simp only [List.map_map, Function.comp_def, Int.cast_natCast] at hr ⊢
    exact hr
  · rw [← hr']
  · rw [← hr']; simp [ReachPoint.maxFrequency]
  · intro k hk1 hk2
    obtain ⟨w, hw, hw'⟩ := (C15_reach_accessor _ _ _ _ r hr (k : Int)).1
      ⟨by omega, by simp; omega⟩
    rw [hw]
    have : ((k : Int) - 1).toNat = k - 1 := by omega
    rw [this] at hw'
    simp only [List.map_map, List.getElem?_map, List.getElem?_range (show k - 1 < F by omega),
      Option.map_some, Option.some.injEq, Function.comp] at hw'
    rw [← hw', show k - 1 + 1 = k by omega]
    simp
  · rw [hsp]; exact e6

/-! ## C08 -/

/-- C08 (a): `reach_by_spend` reports the deduplicated k+ reaches of the users with affordable
entries; its impressions are the numbers of affordable entries, its spends the given ones. -/
theorem C08_reach_by_spend (ds : DataSet) (logs : List Log)
    (hb : List.Forall₂ Built logs ds.data) (s : List ℚ) (hs : s.length = logs.length)
    (F : Nat) (hF : 1 ≤ F) :
    ∃ r, ds.reachBySpend s F = .ok r ∧
      r.impressions = (logs.zip s).map (fun ls => (affordable ls.1 ls.2 : ℚ)) ∧
      r.spends.getD [] = s ∧ r.maxFrequency = F ∧
      (∀ k : Nat, 1 ≤ k → k ≤ F → r.reach k = .ok (kPlusReach (totalAtSpend logs s) k : ℚ)) ∧
      r.universeSize? = some (ds.universeSize : ℚ) := by
  obtain ⟨c, e1, e2, e3, e4⟩ := spendLoop_spec hb s hs [] []
    (by simp [dictKeys]) (by intro kv h; simp at h)
  have e4' : ∀ u, dictGet c u = totalAtSpend logs s u := by
    intro u; rw [e4]; simp [dictGet]
  have e5 := countsToHistogram_spec c e2 e3 _ e4' F hF
  have hlen : ds.data.length = logs.length := hb.length_eq.symm
  have hnew : ∃ r, ReachPoint.new
      (((logs.zip s).map (fun ls => (affordable ls.1 ls.2 : Int))).map (fun n : Int => (n : ℚ)))
      (((List.range F).map (fun i => (kPlusReach (totalAtSpend logs s) (i + 1) : Int))).map
        (fun n : Int => (n : ℚ))) (some s) (some (ds.universeSize : ℚ)) = .ok r ∧
        r.spends.getD [] = s ∧ r.universeSize? = some (ds.universeSize : ℚ) := by
    unfold ReachPoint.new
    simp only [Option.getD_some, List.length_map, List.length_zip, hs, min_self, ne_eq,
      not_true_eq_false, and_false, if_false]
    refine ⟨_, rfl, ?_, rfl⟩
    cases s <;> simp [ReachPoint.truthySpends]
  obtain ⟨r, hr, hsp, hus⟩ := hnew
  have hr' := hr
  unfold ReachPoint.new at hr'
  split at hr'
  · simp at hr'
  simp only [Except.ok.injEq] at hr'
  refine ⟨r, ?_, ?_, hsp, ?_, ?_, hus⟩
  · unfold DataSet.reachBySpend DataSet.publisherCount
    rw [if_neg (by simp [hlen, hs]), e1]
    simp only [List.nil_append, e5, bind, Except.bind]
    exact hr
  · rw [← hr']; simp [Function.comp_def]
  · rw [← hr']; simp [ReachPoint.maxFrequency]
  · intro k hk1 hk2
    obtain ⟨w, hw, hw'⟩ := (C15_reach_accessor _ _ _ _ r hr (k : Int)).1
      ⟨by omega, by simp; omega⟩
    rw [hw]
    have : ((k : Int) - 1).toNat = k - 1 := by omega
    rw [this] at hw'
    simp only [List.map_map, List.getElem?_map, List.getElem?_range (show k - 1 < F by omega),
      Option.map_some, Option.some.injEq, Function.comp] at hw'
    rw [← hw', show k - 1 + 1 = k by omega]
    simp

theorem exposures_agree (log : Log) (hne : log ≠ []) (s : ℚ) (u : Int) :
    exposuresAtImpressions log (affordable log s) u = exposuresAtSpend log s u := by
  obtain ⟨m, hm⟩ := pyMax_ok_of_ne_nil (log.map (·.2)) (by simpa using hne)
  have hp : PublisherData.new log "x" "" = .ok _ := (new_ok_iff _ _ _ _).2 ⟨m, hm, rfl⟩
  have h1 := (C03_user_counts_by_spend log _ _ _ hp s).1 u
  have h2 := (C03_user_counts_by_impressions log _ _ _ hp (affordable log s)).1 u
  rw [C03_spend_and_impressions_agree log _ _ _ hp s] at h1
  omega

theorem totals_agree {logs : List Log} {pubs : List PublisherData}
    (hb : List.Forall₂ Built logs pubs) (s : List ℚ) (u : Int) :
    totalAtImpressions logs ((logs.zip s).map (fun ls => affordable ls.1 ls.2)) u
      = totalAtSpend logs s u := by
  unfold totalAtSpend totalAtImpressions
  congr 1
  induction hb generalizing s with
  | nil => simp
  | @cons log p logs pubs hbl _ ih =>
    cases s with
    | nil => simp
    | cons a s =>
      simp only [List.zip_cons_cons, List.map_cons]
      rw [exposures_agree log hbl.ne_nil a u]
      congr 1
      exact ih s

/-- C08 (b): the spend path and the impression path agree: asking for the affordable numbers of
impressions gives the same k+ reaches. -/
theorem C08_spend_and_impressions_agree (ds : DataSet) (logs : List Log)
    (hb : List.Forall₂ Built logs ds.data) (s : List ℚ) (hs : s.length = logs.length)
    (F : Nat) (hF : 1 ≤ F) :
    ∃ r r', ds.reachBySpend s F = .ok r ∧
      ds.reachByImpressions ((logs.zip s).map (fun ls => (affordable ls.1 ls.2 : Int))) F = .ok r' ∧
      r.impressions = r'.impressions ∧
      (∀ k : Nat, 1 ≤ k → k ≤ F → r.reach k = r'.reach k ∧ ∃ x, r.reach k = .ok x) := by
  obtain ⟨r, h1, h2, _, _, h3, _⟩ := C08_reach_by_spend ds logs hb s hs F hF
  obtain ⟨r', h1', h2', _, h3', _⟩ := C07_reach_by_impressions ds logs hb
    ((logs.zip s).map (fun ls => affordable ls.1 ls.2)) (by simp [hs]) F hF
  rw [List.map_map] at h1'
  refine ⟨r, r', h1, h1', ?_, ?_⟩
  · rw [h2, h2']; simp [Function.comp_def]
  · intro k hk1 hk2
    rw [h3 k hk1 hk2, h3' k hk1 hk2]
    refine ⟨?_, _, rfl⟩
    congr 3
    funext u
    exact (totals_agree hb s u).symm

/-! Concrete data set used in the examples: two publishers, one shared user, unordered log. -/
def exLogs : List Log := [[(9, 5), (7, 1), (8, 2), (7, 2)], [(7, 1), (3, 1)]]

/-- The publishers built from `exLogs`. -/
def exPubs : List PublisherData :=
  [ { data := [(7, 1), (8, 2), (7, 2), (9, 5)], spends := [5, 1, 2, 2], maxSpend := 5,
      maxReach := 3, name := "a" },
    { data := [(7, 1), (3, 1)], spends := [1, 1], maxSpend := 1, maxReach := 2, name := "b" } ]

def exDataSet : DataSet :=
  { data := exPubs, maximumReach := 4, name := "ex", universeSize := 8 }

theorem exBuilt : List.Forall₂ Built exLogs exDataSet.data := by
  refine List.Forall₂.cons ⟨"a", "", by decide +kernel⟩
    (List.Forall₂.cons ⟨"b", "", by decide +kernel⟩ List.Forall₂.nil)

example : DataSet.new exPubs "ex" = .ok exDataSet := by decide +kernel

example : (exDataSet.reachByImpressions [2, 1] 3).toOption.map (·.kplusReaches) = some [2, 1, 0] ∧
    ([2, 1] : List Nat).length = exLogs.length := by
  constructor
  · decide +kernel
  · rfl

example : (exDataSet.reachBySpend [2, 1] 3).toOption.map (fun r => (r.kplusReaches, r.impressions))
    = some ([3, 1, 1], [3, 2]) := by decide +kernel

/-! ## C09 -/

/-- C09 (a): k+ reach never decreases when impressions increase at any publishers. -/
theorem C09_monotone_impressions (ds : DataSet) (logs : List Log)
    (hb : List.Forall₂ Built logs ds.data) (v v' : List Nat) (hv : v.length = logs.length)
    (hle : List.Forall₂ (· ≤ ·) v v') (F : Nat) (hF : 1 ≤ F) (k : Nat) (hk : 1 ≤ k) (hkF : k ≤ F) :
    ∃ r r' x x', ds.reachByImpressions (v.map (fun n : Nat => (n : Int))) F = .ok r ∧
      ds.reachByImpressions (v'.map (fun n : Nat => (n : Int))) F = .ok r' ∧
      r.reach k = .ok x ∧ r'.reach k = .ok x' ∧ x ≤ x' := by
  have hv' : v'.length = logs.length := by rw [← hle.length_eq]; exact hv
  obtain ⟨r, h1, _, _, h3, _⟩ := C07_reach_by_impressions ds logs hb v hv F hF
  obtain ⟨r', h1', _, _, h3', _⟩ := C07_reach_by_impressions ds logs hb v' hv' F hF
  refine ⟨r, r', _, _, h1, h1', h3 k hk hkF, h3' k hk hkF, ?_⟩
  have := kPlusReach_mono_total (totalAtImpressions logs v) (totalAtImpressions logs v')
    _ (allUsers_finite logs) (totalAtImpressions_mem logs v')
    (fun u => sum_zip_mono (· ≤ ·) _ (fun a b b' h => exposuresAtImpressions_mono a h u)
      logs v v' hle) k hk
  exact_mod_cast this

/-- C09 (b): the same for spends. -/
theorem C09_monotone_spend (ds : DataSet) (logs : List Log)
    (hb : List.Forall₂ Built logs ds.data) (s s' : List ℚ) (hs : s.length = logs.length)
    (hle : List.Forall₂ (· ≤ ·) s s') (F : Nat) (hF : 1 ≤ F) (k : Nat) (hk : 1 ≤ k) (hkF : k ≤ F) :
    ∃ r r' x x', ds.reachBySpend s F = .ok r ∧ ds.reachBySpend s' F = .ok r' ∧
      r.reach k = .ok x ∧ r'.reach k = .ok x' ∧ x ≤ x' := by
  have hs' : s'.length = logs.length := by rw [← hle.length_eq]; exact hs
  obtain ⟨r, h1, _, _, _, h3, _⟩ := C08_reach_by_spend ds logs hb s hs F hF
  obtain ⟨r', h1', _, _, _, h3', _⟩ := C08_reach_by_spend ds logs hb s' hs' F hF
  refine ⟨r, r', _, _, h1, h1', h3 k hk hkF, h3' k hk hkF, ?_⟩
  have := kPlusReach_mono_total (totalAtSpend logs s) (totalAtSpend logs s')
    _ (allUsers_finite logs) (totalAtSpend_mem logs s')
    (fun u => sum_zip_mono (· ≤ ·) _ (fun a b b' h => exposuresAtSpend_mono a h u)
      logs s s' hle) k hk
  exact_mod_cast this

/-- C09 (c): k+ reach is non-increasing in `k` and bounded by `maximum_reach`, which is the
number of distinct users of the data set. -/
theorem C09_bounded_and_decreasing (pubs : List PublisherData) (nm : String) (us : Option Int)
    (ds : DataSet) (hds : DataSet.new pubs nm us = .ok ds) (logs : List Log)
    (hb : List.Forall₂ Built logs ds.data) (v : List Nat) (hv : v.length = logs.length)
    (F : Nat) (hF : 1 ≤ F) :
    ds.maximumReach = (allUsers logs).ncard ∧
    ∃ r, ds.reachByImpressions (v.map (fun n : Nat => (n : Int))) F = .ok r ∧
      (∀ k k' : Nat, 1 ≤ k → k ≤ k' → k' ≤ F →
        ∃ x x', r.reach k = .ok x ∧ r.reach k' = .ok x' ∧ x' ≤ x ∧ x ≤ ds.maximumReach ∧ 0 ≤ x') := by
  have hmax : ds.maximumReach = (allUsers logs).ncard := by
    unfold DataSet.new at hds
    split at hds
    · simp at hds
    simp only [Except.ok.injEq] at hds
    rw [← hds] at hb ⊢
    simp only at hb ⊢
    unfold DataSet.totalAudience
    rw [lenSet_eq_ncard]
    congr 1
    ext u
    simp only [List.mem_flatMap, Set.mem_ofPred_eq, allUsers, users]
    constructor
    · rintro ⟨p, hp, hu⟩
      obtain ⟨i, hi, rfl⟩ := List.getElem_of_mem hp
      have hlen := hb.length_eq
      have hbi := (List.forall₂_iff_get.1 hb).2 i (by omega) hi
      simp only [List.get_eq_getElem] at hbi
      rw [hbi.data_eq] at hu
      obtain ⟨e, he, rfl⟩ := List.mem_map.1 hu
      exact ⟨logs[i], List.getElem_mem _, e, (sortBySpend_perm _).mem_iff.1 he, rfl⟩
    · rintro ⟨log, hlog, e, he, rfl⟩
      obtain ⟨i, hi, rfl⟩ := List.getElem_of_mem hlog
      have hlen := hb.length_eq
      have hbi := (List.forall₂_iff_get.1 hb).2 i hi (by omega)
      simp only [List.get_eq_getElem] at hbi
      refine ⟨pubs[i], List.getElem_mem _, ?_⟩
      rw [hbi.data_eq]
      exact List.mem_map.2 ⟨e, (sortBySpend_perm _).mem_iff.2 he, rfl⟩
  refine ⟨hmax, ?_⟩
  obtain ⟨r, h1, _, _, h3, _⟩ := C07_reach_by_impressions ds logs hb v hv F hF
  refine ⟨r, h1, ?_⟩
  intro k k' hk hkk hkF
  refine ⟨_, _, h3 k hk (by omega), h3 k' (by omega) hkF, ?_, ?_, ?_⟩
  · have := kPlusReach_anti_k _ _ (allUsers_finite logs) (totalAtImpressions_mem logs v) k k' hk hkk
    exact_mod_cast this
  · have := kPlusReach_le_card _ _ (allUsers_finite logs) (totalAtImpressions_mem logs v) k hk
    rw [hmax]; exact_mod_cast this
  · positivity

/-- C09 (d): the deduplicated reach lies between every publisher's own reach and the sum of the
publishers' own reaches. -/
theorem C09_union_bounds (ds : DataSet) (logs : List Log)
    (hb : List.Forall₂ Built logs ds.data) (v : List Nat) (hv : v.length = logs.length)
    (F : Nat) (hF : 1 ≤ F) :
    ∃ r x, ds.reachByImpressions (v.map (fun n : Nat => (n : Int))) F = .ok r ∧ r.reach 1 = .ok x ∧
      (∀ pn ∈ ds.data.zip v, (((pn.1.userCountsByImpressions pn.2).length : Nat) : ℚ) ≤ x) ∧
      x ≤ ((ds.data.zip v).map
            (fun pn => (((pn.1.userCountsByImpressions pn.2).length : Nat) : ℚ))).sum := by
  obtain ⟨r, h1, _, _, h3, _⟩ := C07_reach_by_impressions ds logs hb v hv F hF
  refine ⟨r, _, h1, h3 1 le_rfl hF, ?_, ?_⟩
  · intro pn hpn
    obtain ⟨i, hi, rfl⟩ := List.getElem_of_mem hpn
    have hlen := hb.length_eq
    have hi' : i < ds.data.length ∧ i < v.length := by
      simp only [List.length_zip] at hi; omega
    have hbi := (List.forall₂_iff_get.1 hb).2 i (by omega) hi'.1
    simp only [List.get_eq_getElem] at hbi
    simp only [List.getElem_zip]
    obtain ⟨c1, c2, c3⟩ := hbi.counts_impressions v[i]
    rw [dict_length_eq_ncard _ c1 c2]
    have : Set.ncard {u | 1 ≤ dictGet (ds.data[i].userCountsByImpressions v[i]) u}
        ≤ kPlusReach (totalAtImpressions logs v) 1 := by
      unfold kPlusReach
      refine Set.ncard_le_ncard ?_ (kPlusReach_finite _ _ (allUsers_finite logs)
        (totalAtImpressions_mem logs v) 1 le_rfl)
      intro u hu
      simp only [Set.mem_ofPred_eq, c3] at hu ⊢
      have hmem : (logs[i]'(by omega), v[i]) ∈ logs.zip v := by
        have : (logs.zip v)[i]'(by simp; omega) = (logs[i]'(by omega), v[i]) := by simp
        rw [← this]; exact List.getElem_mem _
      have hle := List.single_le_sum (l := (logs.zip v).map
        (fun lv => exposuresAtImpressions lv.1 lv.2 u)) (fun _ _ => Nat.zero_le _) _
        (List.mem_map.2 ⟨_, hmem, rfl⟩)
      simp only at hle
      exact le_trans (by omega) hle
    exact_mod_cast this
  · have hsum := kPlusReach_one_le_sum (logs.zip v)
      (fun lv u => exposuresAtImpressions lv.1 lv.2 u) (allUsers logs) (allUsers_finite logs)
      (fun lv hlv u hu => ⟨lv.1, (List.of_mem_zip hlv).1, exposuresAtImpressions_mem _ _ _ hu⟩)
    have heq : ∀ (logs : List Log) (pubs : List PublisherData) (hb : List.Forall₂ Built logs pubs)
        (v : List Nat),
        ((logs.zip v).map (fun lv => kPlusReach (exposuresAtImpressions lv.1 lv.2) 1)) =
        ((pubs.zip v).map (fun pn => (pn.1.userCountsByImpressions pn.2).length)) := by
      intro logs pubs hb
      induction hb with
      | nil => simp
      | @cons log p logs pubs hbl _ ih =>
        intro v
        cases v with
        | nil => simp
        | cons n v =>
          simp only [List.zip_cons_cons, List.map_cons]
          rw [ih v]
          congr 1
          obtain ⟨c1, c2, c3⟩ := hbl.counts_impressions n
          rw [dict_length_eq_ncard _ c1 c2]
          unfold kPlusReach
          congr 1
          ext u
          simp only [Set.mem_ofPred_eq, c3]
          omega
    have h' : kPlusReach (totalAtImpressions logs v) 1
        ≤ ((ds.data.zip v).map (fun pn => (pn.1.userCountsByImpressions pn.2).length)).sum := by
      rw [← heq logs ds.data hb v]
      exact hsum
    have hcast : ((ds.data.zip v).map
            (fun pn => (((pn.1.userCountsByImpressions pn.2).length : Nat) : ℚ))).sum
        = (((ds.data.zip v).map (fun pn => (pn.1.userCountsByImpressions pn.2).length)).sum : Nat) := by
      rw [Nat.cast_list_sum, List.map_map]; rfl
    rw [hcast]
    exact_mod_cast h'

example : List.Forall₂ (· ≤ ·) [1, 2] [2, 2] ∧
    (exDataSet.reachByImpressions [1, 2] 2).toOption.map (·.kplusReaches) = some [2, 1] ∧
    (exDataSet.reachByImpressions [2, 2] 2).toOption.map (·.kplusReaches) = some [3, 1] ∧
    exDataSet.maximumReach = 4 := by
  refine ⟨by simp, by decide +kernel, by decide +kernel, rfl⟩

/-! ## C10 -/

/-- C10 (a): a vector of the wrong length is refused with `ValueError`, one of the right length
never is. -/
theorem C10_length_check_impressions (ds : DataSet) (logs : List Log)
    (hb : List.Forall₂ Built logs ds.data) (v : List Nat) (F : Nat) (hF : 1 ≤ F) :
    (v.length ≠ ds.publisherCount →
      ds.reachByImpressions (v.map (fun n : Nat => (n : Int))) F = .error .valueError) ∧
    (v.length = ds.publisherCount →
      ∃ r, ds.reachByImpressions (v.map (fun n : Nat => (n : Int))) F = .ok r) := by
  constructor
  · intro h
    unfold DataSet.reachByImpressions
    rw [if_pos (by simpa using h)]
  · intro h
    obtain ⟨r, hr, _⟩ := C07_reach_by_impressions ds logs hb v
      (by rw [h, hb.length_eq]; rfl) F hF
    exact ⟨r, hr⟩

/-- C10 (b): the same for spend vectors. -/
theorem C10_length_check_spend (ds : DataSet) (logs : List Log)
    (hb : List.Forall₂ Built logs ds.data) (s : List ℚ) (F : Nat) (hF : 1 ≤ F) :
    (s.length ≠ ds.publisherCount → ds.reachBySpend s F = .error .valueError) ∧
    (s.length = ds.publisherCount → ∃ r, ds.reachBySpend s F = .ok r) := by
  constructor
  · intro h
    unfold DataSet.reachBySpend
    rw [if_pos h]
  · intro h
    obtain ⟨r, hr, _⟩ := C08_reach_by_spend ds logs hb s
      (by rw [h, hb.length_eq]; rfl) F hF
    exact ⟨r, hr⟩

example : exDataSet.reachByImpressions [1, 2, 3] 2 = .error .valueError ∧
    exDataSet.reachBySpend [1] 2 = .error .valueError := by
  constructor <;> decide +kernel

/-! ## C11 -/

/-- C11 (a): listing the publishers in another order, together with their impressions, changes
no k+ reach. -/
theorem C11_publisher_order (ds ds' : DataSet) (logs logs' : List Log)
    (hb : List.Forall₂ Built logs ds.data) (hb' : List.Forall₂ Built logs' ds'.data)
    (v v' : List Nat) (hv : v.length = logs.length) (hv' : v'.length = logs'.length)
    (hperm : (logs.zip v).Perm (logs'.zip v')) (F : Nat) (hF : 1 ≤ F) :
    ∃ r r', ds.reachByImpressions (v.map (fun n : Nat => (n : Int))) F = .ok r ∧
      ds'.reachByImpressions (v'.map (fun n : Nat => (n : Int))) F = .ok r' ∧
      ∀ k : Nat, 1 ≤ k → k ≤ F → r.reach k = r'.reach k ∧ ∃ x, r.reach k = .ok x := by
  obtain ⟨r, h1, _, _, h3, _⟩ := C07_reach_by_impressions ds logs hb v hv F hF
  obtain ⟨r', h1', _, _, h3', _⟩ := C07_reach_by_impressions ds' logs' hb' v' hv' F hF
  refine ⟨r, r', h1, h1', ?_⟩
  intro k hk hkF
  rw [h3 k hk hkF, h3' k hk hkF]
  refine ⟨?_, _, rfl⟩
  congr 3
  funext u
  exact (hperm.map _).sum_eq

theorem exposuresAtImpressions_zero (log : RawLog) (u : Int) :
    exposuresAtImpressions log 0 u = 0 := by
  unfold exposuresAtImpressions
  rw [List.countP_eq_zero]
  simp

/-- C11 (b): a publisher that delivers no impressions may as well be absent. -/
theorem C11_zero_publisher (ds ds' : DataSet) (logs : List Log) (log : Log)
    (hb : List.Forall₂ Built logs ds.data) (hb' : List.Forall₂ Built (log :: logs) ds'.data)
    (v : List Nat) (hv : v.length = logs.length) (F : Nat) (hF : 1 ≤ F) :
    ∃ r r', ds.reachByImpressions (v.map (fun n : Nat => (n : Int))) F = .ok r ∧
      ds'.reachByImpressions ((0 :: v).map (fun n : Nat => (n : Int))) F = .ok r' ∧
      ∀ k : Nat, 1 ≤ k → k ≤ F → r.reach k = r'.reach k ∧ ∃ x, r.reach k = .ok x := by
  obtain ⟨r, h1, _, _, h3, _⟩ := C07_reach_by_impressions ds logs hb v hv F hF
  obtain ⟨r', h1', _, _, h3', _⟩ := C07_reach_by_impressions ds' (log :: logs) hb' (0 :: v)
    (by simp [hv]) F hF
  refine ⟨r, r', h1, h1', ?_⟩
  intro k hk hkF
  rw [h3 k hk hkF, h3' k hk hkF]
  refine ⟨?_, _, rfl⟩
  congr 3
  funext u
  simp [totalAtImpressions, exposuresAtImpressions_zero]

example : (exLogs.zip [2, 1]).Perm (exLogs.reverse.zip [1, 2]) ∧
    List.Forall₂ Built exLogs.reverse exPubs.reverse := by
  refine ⟨?_, ?_⟩
  · simp only [exLogs, List.reverse_cons, List.reverse_nil, List.nil_append, List.cons_append,
      List.zip_cons_cons, List.zip_nil_right]
    exact List.Perm.swap _ _ _
  · refine List.Forall₂.cons ⟨"b", "", by decide +kernel⟩
      (List.Forall₂.cons ⟨"a", "", by decide +kernel⟩ List.Forall₂.nil)

end Verif
