import Verif.Props.PublisherData
import Verif.Lemmas.ReachPoint
import Verif.Model.DataSet

/-! # Lemmas about the `DataSet` model -/

namespace Verif

open Verif.Spec

/-- `p` is a publisher object constructed from the log. -/
def Built (log : Log) (p : PublisherData) : Prop :=
  ∃ name rnd, PublisherData.new log name rnd = .ok p

theorem Built.ne_nil {log : Log} {p : PublisherData} (h : Built log p) : log ≠ [] := by
  obtain ⟨n, r, h⟩ := h
  obtain ⟨m, hm, _⟩ := (new_ok_iff _ _ _ _).1 h
  rintro rfl
  simp [pyMax] at hm

theorem Built.data_eq {log : Log} {p : PublisherData} (h : Built log p) :
    p.data = sortBySpend log := by
  obtain ⟨n, r, h⟩ := h
  obtain ⟨m, hm, rfl⟩ := (new_ok_iff _ _ _ _).1 h
  rfl

theorem Built.spend_ok {log : Log} {p : PublisherData} (h : Built log p) (n : Nat) :
    ∃ s, p.spendByImpressions n = .ok s := by
  have hd := h.data_eq
  have hne := h.ne_nil
  have hlen : 0 < log.length := List.length_pos_iff.2 hne
  have hl := (sortBySpend_perm log).length_eq
  unfold PublisherData.spendByImpressions
  by_cases hn : (n : Int) = 0
  · exact ⟨0, by simp [hn]⟩
  · rw [if_neg hn, hd]
    have hidx : (min ((sortBySpend log).length : Int) (n : Int) - 1)
        = ((min (sortBySpend log).length n - 1 : Nat) : Int) := by omega
    rw [hidx, pyIndex_nat _ _ (by omega)]
    exact ⟨_, rfl⟩

theorem Built.counts_impressions {log : Log} {p : PublisherData} (h : Built log p) (n : Nat) :
    (dictKeys (p.userCountsByImpressions n)).Nodup ∧ DictPos (p.userCountsByImpressions n) ∧
    (∀ u, dictGet (p.userCountsByImpressions n) u = exposuresAtImpressions log n u) := by
  obtain ⟨nm, r, h⟩ := h
  refine ⟨nodup_counter _, pos_counter _, (C03_user_counts_by_impressions log nm r p h n).1⟩

theorem Built.counts_spend {log : Log} {p : PublisherData} (h : Built log p) (s : ℚ) :
    (dictKeys (p.userCountsBySpend s)).Nodup ∧ DictPos (p.userCountsBySpend s) ∧
    (∀ u, dictGet (p.userCountsBySpend s) u = exposuresAtSpend log s u) ∧
    ((p.userCountsBySpend s).map (·.2)).sum = affordable log s := by
  have hb := h
  obtain ⟨nm, r, h⟩ := h
  refine ⟨nodup_counter _, pos_counter _, (C03_user_counts_by_spend log nm r p h s).1, ?_⟩
  rw [C03_spend_and_impressions_agree log nm r p h s,
    (C03_user_counts_by_impressions log nm r p h _).2.1]
  have : affordable log s ≤ log.length := List.countP_le_length
  omega

theorem impressionsLoop_spec {logs : List Log} {pubs : List PublisherData}
    (hb : List.Forall₂ Built logs pubs) (v : List Nat) (hv : v.length = logs.length)
    (counts : Dict Int Int) (spends : List ℚ)
    (hn : (dictKeys counts).Nodup) (hp : DictPos counts) :
    ∃ c s, DataSet.impressionsLoop (pubs.zip (v.map (fun n : Nat => (n : Int)))) counts spends
        = .ok (c, s) ∧ (dictKeys c).Nodup ∧ DictPos c ∧
      (∀ u, dictGet c u = dictGet counts u + totalAtImpressions logs v u) ∧
      ∃ s', s = spends ++ s' ∧
        List.Forall₂ (fun (pn : PublisherData × Nat) x => pn.1.spendByImpressions pn.2 = .ok x)
          (pubs.zip v) s' := by
  induction hb generalizing v counts spends with
  | nil =>
    refine ⟨counts, spends, by simp [DataSet.impressionsLoop], hn, hp, ?_, [], by simp, by simp⟩
    intro u; simp [totalAtImpressions]
  | @cons log p logs pubs h _ ih =>
    cases v with
    | nil => simp at hv
    | cons n v =>
      obtain ⟨s, hs⟩ := h.spend_ok n
      obtain ⟨h1, h2, h3⟩ := h.counts_impressions n
      obtain ⟨c, sp, e1, e2, e3, e4, s', e5, e6⟩ := ih v (by simpa using hv)
        (dictAddAll counts (p.userCountsByImpressions n)) (spends ++ [s])
        (nodup_addAll _ _ hn) (pos_addAll _ _ hp h2)
      refine ⟨c, sp, ?_, e2, e3, ?_, s :: s', by simp [e5], ?_⟩
      · simp only [List.map_cons, List.zip_cons_cons, DataSet.impressionsLoop, hs]
        exact e1
      · intro u
        rw [e4, dictGet_addAll _ _ h1, h3]
        simp only [totalAtImpressions, List.zip_cons_cons, List.map_cons, List.sum_cons]
        push_cast; omega
      · rw [List.zip_cons_cons]
        exact List.Forall₂.cons hs e6

theorem spendLoop_spec {logs : List Log} {pubs : List PublisherData}
    (hb : List.Forall₂ Built logs pubs) (v : List ℚ) (hv : v.length = logs.length)
    (counts : Dict Int Int) (imps : List Int)
    (hn : (dictKeys counts).Nodup) (hp : DictPos counts) :
    ∃ c, DataSet.spendLoop (pubs.zip v) counts imps
        = (c, imps ++ (logs.zip v).map (fun ls => (affordable ls.1 ls.2 : Int))) ∧
      (dictKeys c).Nodup ∧ DictPos c ∧
      (∀ u, dictGet c u = dictGet counts u + totalAtSpend logs v u) := by
  induction hb generalizing v counts imps with
  | nil =>
    refine ⟨counts, by simp [DataSet.spendLoop], hn, hp, ?_⟩
    intro u; simp [totalAtSpend]
  | @cons log p logs pubs h _ ih =>
    cases v with
    | nil => simp at hv
    | cons n v =>
      obtain ⟨h1, h2, h3, h4⟩ := h.counts_spend n
      obtain ⟨c, e1, e2, e3, e4⟩ := ih v (by simpa using hv)
        (dictAddAll counts (p.userCountsBySpend n))
        (imps ++ [((p.userCountsBySpend n).map (·.2)).sum])
        (nodup_addAll _ _ hn) (pos_addAll _ _ hp h2)
      refine ⟨c, ?_, e2, e3, ?_⟩
      · simp only [List.zip_cons_cons, DataSet.spendLoop]
        rw [e1, h4]
        simp
      · intro u
        rw [e4, dictGet_addAll _ _ h1, h3]
        simp only [totalAtSpend, List.zip_cons_cons, List.map_cons, List.sum_cons]
        push_cast; ring

/-- k+ reaches produced from a count dictionary. -/
theorem countsToHistogram_spec (c : Dict Int Int) (hn : (dictKeys c).Nodup) (hp : DictPos c)
    (total : Int → Nat) (ht : ∀ u, dictGet c u = total u) (F : Nat) (hF : 1 ≤ F) :
    DataSet.countsToHistogram c F
      = .ok ((List.range F).map (fun i => (kPlusReach total (i + 1) : Int))) := by
  have hp' : ∀ x ∈ c.map (·.2), 1 ≤ x := by
    intro x hx
    obtain ⟨kv, hkv, rfl⟩ := List.mem_map.1 hx
    exact hp kv hkv
  obtain ⟨h, h1, h2, _, h4⟩ := histogram_ok F hF (c.map (·.2)) hp'
  have hne : h ≠ [] := by rintro rfl; simp at h2; omega
  have hF' : ((F : Int) - 1).toNat = h.length - 1 := by omega
  simp only [DataSet.countsToHistogram, h1, hF']
  simp only [bind, Except.bind, pure, Except.pure, suffixLoop_eq h hne]
  congr 1
  apply List.ext_getElem?
  intro i
  by_cases hi : i < F
  · rw [suffixSums_getElem? h i (by omega), h4 i hi, List.countP_map]
    simp only [List.getElem?_map, List.getElem?_range hi, Option.map_some]
    congr 2
    have := countP_values_eq_ncard c hn ((i : Int) + 1) (by omega)
    simp only [Function.comp_def]
    rw [this]
    unfold kPlusReach
    congr 1
    ext u
    simp only [Set.mem_ofPred_eq, ht]
    omega
  · rw [List.getElem?_eq_none (by rw [suffixSums_length]; omega),
      List.getElem?_eq_none (by simp; omega)]

/-! ## Spec-level facts -/

theorem exposuresAtImpressions_mono (log : RawLog) {m n : Nat} (h : m ≤ n) (u : Int) :
    exposuresAtImpressions log m u ≤ exposuresAtImpressions log n u := by
  unfold exposuresAtImpressions
  apply List.countP_mono_left
  intro j _ hj
  simp only [decide_eq_true_eq] at hj ⊢
  exact ⟨by omega, hj.2⟩

theorem exposuresAtSpend_mono (log : RawLog) {s t : ℚ} (h : s ≤ t) (u : Int) :
    exposuresAtSpend log s u ≤ exposuresAtSpend log t u := by
  unfold exposuresAtSpend
  apply List.countP_mono_left
  intro e _ he
  simp only [decide_eq_true_eq] at he ⊢
  exact ⟨he.1, le_trans he.2 h⟩

theorem exposuresAtImpressions_mem (log : RawLog) (n : Nat) (u : Int)
    (h : 1 ≤ exposuresAtImpressions log n u) : u ∈ users log := by
  have := (List.countP_pos_iff (p := fun j => decide (rank log j < n ∧
      (log[j]?).map (·.1) = some u)) (l := List.range log.length)).1 h
  obtain ⟨j, _, hj⟩ := this
  simp only [decide_eq_true_eq] at hj
  cases he : log[j]? with
  | none => rw [he] at hj; simp at hj
  | some e =>
    rw [he] at hj
    exact ⟨e, List.mem_of_getElem? he, by simpa using hj.2⟩

theorem exposuresAtSpend_mem (log : RawLog) (s : ℚ) (u : Int)
    (h : 1 ≤ exposuresAtSpend log s u) : u ∈ users log := by
  obtain ⟨e, he, h'⟩ := List.countP_pos_iff.1 h
  simp only [decide_eq_true_eq] at h'
  exact ⟨e, he, h'.1⟩

theorem allUsers_finite (logs : List RawLog) : (allUsers logs).Finite := by
  have : allUsers logs = (((logs.flatMap (fun l => l.map (·.1))).toFinset : Finset Int) : Set Int) := by
    ext u
    simp [allUsers, users]
  rw [this]; exact Finset.finite_toSet _

/-- A sum over a zipped list is positive only if some summand is. -/
theorem exists_pos_of_sum {α : Type} (l : List α) (f : α → Nat) (h : 1 ≤ (l.map f).sum) :
    ∃ a ∈ l, 1 ≤ f a := by
  by_contra hn
  have : (l.map f).sum = 0 := by
    rw [List.sum_eq_zero]
    intro x hx
    obtain ⟨a, ha, rfl⟩ := List.mem_map.1 hx
    by_contra h0
    exact hn ⟨a, ha, by omega⟩
  omega

theorem totalAtImpressions_mem (logs : List RawLog) (v : List Nat) (u : Int)
    (h : 1 ≤ totalAtImpressions logs v u) : u ∈ allUsers logs := by
  obtain ⟨lv, hm, hp⟩ := exists_pos_of_sum _ _ h
  exact ⟨lv.1, (List.of_mem_zip hm).1, exposuresAtImpressions_mem _ _ _ hp⟩

theorem totalAtSpend_mem (logs : List RawLog) (s : List ℚ) (u : Int)
    (h : 1 ≤ totalAtSpend logs s u) : u ∈ allUsers logs := by
  obtain ⟨lv, hm, hp⟩ := exists_pos_of_sum _ _ h
  exact ⟨lv.1, (List.of_mem_zip hm).1, exposuresAtSpend_mem _ _ _ hp⟩

theorem kPlusReach_finite (total : Int → Nat) (U : Set Int) (hU : U.Finite)
    (h : ∀ u, 1 ≤ total u → u ∈ U) (k : Nat) (hk : 1 ≤ k) : {u | k ≤ total u}.Finite :=
  hU.subset (fun u hu => h u (le_trans hk hu))

theorem kPlusReach_mono_total (t t' : Int → Nat) (U : Set Int) (hU : U.Finite)
    (h : ∀ u, 1 ≤ t' u → u ∈ U) (hle : ∀ u, t u ≤ t' u) (k : Nat) (hk : 1 ≤ k) :
    kPlusReach t k ≤ kPlusReach t' k :=
  Set.ncard_le_ncard (fun u hu => le_trans hu (hle u)) (kPlusReach_finite t' U hU h k hk)

theorem kPlusReach_anti_k (t : Int → Nat) (U : Set Int) (hU : U.Finite)
    (h : ∀ u, 1 ≤ t u → u ∈ U) (k k' : Nat) (hk : 1 ≤ k) (hkk : k ≤ k') :
    kPlusReach t k' ≤ kPlusReach t k :=
  Set.ncard_le_ncard (fun _ hu => le_trans hkk hu) (kPlusReach_finite t U hU h k hk)

theorem kPlusReach_le_card (t : Int → Nat) (U : Set Int) (hU : U.Finite)
    (h : ∀ u, 1 ≤ t u → u ∈ U) (k : Nat) (hk : 1 ≤ k) : kPlusReach t k ≤ U.ncard :=
  Set.ncard_le_ncard (fun u hu => h u (le_trans hk hu)) hU

theorem sum_zip_mono {α β : Type} (r : β → β → Prop) (f : α × β → Nat)
    (hf : ∀ a b b', r b b' → f (a, b) ≤ f (a, b')) (as : List α) (bs bs' : List β)
    (h : List.Forall₂ r bs bs') : ((as.zip bs).map f).sum ≤ ((as.zip bs').map f).sum := by
  induction h generalizing as with
  | nil => simp
  | cons hb _ ih =>
    cases as with
    | nil => simp
    | cons a as =>
      simp only [List.zip_cons_cons, List.map_cons, List.sum_cons]
      exact Nat.add_le_add (hf _ _ _ hb) (ih as)

/-- Union bound for a sum of exposure functions. -/
theorem kPlusReach_one_le_sum {α : Type} (l : List α) (f : α → Int → Nat) (U : Set Int)
    (hU : U.Finite) (h : ∀ a ∈ l, ∀ u, 1 ≤ f a u → u ∈ U) :
    kPlusReach (fun u => (l.map (fun a => f a u)).sum) 1 ≤ (l.map (fun a => kPlusReach (f a) 1)).sum := by
  induction l with
  | nil => simp [kPlusReach]
  | cons a l ih =>
    have ih' := ih (fun b hb => h b (by simp [hb]))
    simp only [List.map_cons, List.sum_cons]
    refine le_trans ?_ (Nat.add_le_add_left ih' _)
    unfold kPlusReach
    refine le_trans (Set.ncard_le_ncard ?_ ?_) (Set.ncard_union_le _ _)
    · intro u hu
      simp only [Set.mem_ofPred_eq, Set.mem_union] at hu ⊢
      omega
    · refine hU.subset ?_
      rintro u (hu | hu)
      · exact h a (by simp) u hu
      · obtain ⟨b, hb, hp⟩ := exists_pos_of_sum l (fun a => f a u) hu
        exact h b (by simp [hb]) u hp

end Verif
