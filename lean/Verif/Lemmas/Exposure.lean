import Verif.Spec.Exposure
import Verif.Model.PublisherData
import Verif.Lemmas.Dict
import Mathlib.Tactic.Linarith

/-! # Sorting, prefixes and ranks -/

namespace Verif

open Verif.Spec

theorem countP_lt_of_witness {α : Type} (p q : α → Bool) (l : List α)
    (hpq : ∀ x ∈ l, p x = true → q x = true) (x : α) (hx : x ∈ l) (hq : q x = true)
    (hp : p x = false) : l.countP p < l.countP q := by
  induction l with
  | nil => simp at hx
  | cons a l ih =>
    have hmono : l.countP p ≤ l.countP q :=
      List.countP_mono_left (fun y hy h => hpq y (by simp [hy]) h)
    rcases List.mem_cons.1 hx with rfl | hx'
    · rw [List.countP_cons_of_neg (by simp [hp]), List.countP_cons_of_pos hq]; omega
    · have := ih (fun y hy h => hpq y (by simp [hy]) h) hx'
      rw [List.countP_cons, List.countP_cons]
      have h1 := hpq a (by simp)
      by_cases hpa : p a = true
      · simp [hpa, h1 hpa]; omega
      · by_cases hqa : q a = true <;> simp [hpa, hqa] <;> omega

/-- Counting over positions is counting over elements. -/
theorem countP_range_getElem? {α : Type} (l : List α) (p : Nat → α → Bool) (q : α → Bool)
    (h : ∀ i a, l[i]? = some a → p i a = q a) :
    (List.range l.length).countP (fun i => match l[i]? with | some a => p i a | none => false)
      = l.countP q := by
  induction l generalizing p with
  | nil => rfl
  | cons a l ih =>
    rw [List.length_cons, List.range_succ_eq_map, List.countP_cons, List.countP_map,
      List.countP_cons]
    have h0 : p 0 a = q a := h 0 a (by simp)
    have := ih (fun i => p (i+1)) (fun i b hb => h (i+1) b (by simpa using hb))
    simp only [List.getElem?_cons_zero, h0]
    rw [← this]
    congr 1

theorem before_cons_zero_zero (a : Int × ℚ) (l : RawLog) : before (a :: l) 0 0 = false := by
  simp [before]

theorem rank_cons_zero (a : Int × ℚ) (l : RawLog) :
    rank (a :: l) 0 = l.countP (fun e => e.2 < a.2) := by
  unfold rank
  rw [List.length_cons, List.range_succ_eq_map, List.countP_cons, List.countP_map]
  simp only [before_cons_zero_zero, Bool.false_eq_true, if_false, Nat.add_zero]
  rw [← countP_range_getElem? l (fun _ e => decide (e.2 < a.2)) _ (by simp)]
  apply List.countP_congr
  intro i hi
  simp only [Function.comp, before, List.getElem?_cons_succ, List.getElem?_cons_zero]
  cases l[i]? <;> simp

theorem rank_cons_succ (a b : Int × ℚ) (l : RawLog) (j : Nat) (hb : l[j]? = some b) :
    rank (a :: l) (j + 1) = rank l j + (if a.2 ≤ b.2 then 1 else 0) := by
  unfold rank
  rw [List.length_cons, List.range_succ_eq_map, List.countP_cons, List.countP_map]
  congr 1
  · apply List.countP_congr
    intro i hi
    simp only [Function.comp, before, List.getElem?_cons_succ]
    cases l[i]? <;> cases l[j]? <;> simp
  · simp only [before, List.getElem?_cons_succ, List.getElem?_cons_zero, hb]
    have : (a.2 < b.2 ∨ a.2 = b.2 ∧ 0 < j + 1) ↔ a.2 ≤ b.2 := by
      rw [le_iff_lt_or_eq]; simp
    simp only [this, decide_eq_true_eq]

/-- The entries cheaper than `c` occupy exactly the first ranks. -/
theorem rank_lt_iff (l : RawLog) (j : Nat) (b : Int × ℚ) (hb : l[j]? = some b) (c : ℚ) :
    rank l j < l.countP (fun e => e.2 < c) ↔ b.2 < c := by
  have hj : j < l.length := by
    by_contra h
    rw [List.getElem?_eq_none (by omega)] at hb
    simp at hb
  rw [← countP_range_getElem? l (fun _ e => decide (e.2 < c)) _ (by simp)]
  unfold rank
  constructor
  · intro h
    by_contra hc
    refine absurd h (not_lt.2 (List.countP_mono_left ?_))
    intro i hi
    cases hl : l[i]? with
    | none => simp
    | some e =>
      simp only [before, hl, hb, decide_eq_true_eq]
      intro h'
      left; linarith
  · intro h
    apply countP_lt_of_witness _ _ _ _ j (List.mem_range.2 hj)
    · simp [hb, h]
    · simp [before, hb]
    · intro i hi
      simp only [before, hb]
      cases hl : l[i]? with
      | none => simp
      | some e =>
        simp only [decide_eq_true_eq]
        rintro (h1 | h1)
        · linarith
        · rw [h1.1]; exact h

instance : Std.Total (fun a b : Int × ℚ => a.2 ≤ b.2) := ⟨fun a b => le_total a.2 b.2⟩
instance : IsTrans (Int × ℚ) (fun a b : Int × ℚ => a.2 ≤ b.2) :=
  ⟨fun _ _ _ h1 h2 => le_trans h1 h2⟩

theorem sortBySpend_perm (l : Log) : (sortBySpend l).Perm l :=
  List.perm_insertionSort (fun a b : Int × ℚ => a.2 ≤ b.2) l

theorem sortBySpend_pairwise (l : Log) :
    (sortBySpend l).Pairwise (fun a b => a.2 ≤ b.2) :=
  List.pairwise_insertionSort (fun a b : Int × ℚ => a.2 ≤ b.2) l

theorem sortBySpend_of_sorted (l : Log) (h : l.Pairwise (fun a b => a.2 ≤ b.2)) :
    sortBySpend l = l := List.Pairwise.insertionSort_eq h

/-- In a list sorted by spend, inserting `a` puts it right after all strictly cheaper ones. -/
theorem orderedInsert_take (a : Int × ℚ) (s : Log) (hs : s.Pairwise (fun a b => a.2 ≤ b.2))
    (n : Nat) (p : Int × ℚ → Bool) :
    ((s.orderedInsert (fun a b => a.2 ≤ b.2) a).take n).countP p
      = if n ≤ s.countP (fun e => e.2 < a.2) then (s.take n).countP p
        else (s.take (n-1)).countP p + (if p a then 1 else 0) := by
  induction s generalizing n with
  | nil =>
    cases n with
    | zero => simp
    | succ n => simp [List.countP_cons]
  | cons b s ih =>
    rw [List.pairwise_cons] at hs
    by_cases hab : a.2 ≤ b.2
    · have h0 : (b :: s).countP (fun e => decide (e.2 < a.2)) = 0 := by
        rw [List.countP_eq_zero]
        intro e he
        rcases List.mem_cons.1 he with rfl | he
        · simp [hab]
        · have := hs.1 e he
          simp only [decide_eq_true_eq, not_lt]; linarith
      rw [List.orderedInsert_cons, if_pos hab, h0]
      cases n with
      | zero => simp
      | succ n => simp [List.countP_cons]
    · have hba : b.2 < a.2 := not_le.1 hab
      rw [List.orderedInsert_cons, if_neg hab]
      rw [List.countP_cons_of_pos (by simpa using hba)]
      cases n with
      | zero => simp
      | succ n =>
        simp only [List.take_succ_cons, List.countP_cons, Nat.add_le_add_iff_right, ih hs.2]
        by_cases hn : n ≤ s.countP (fun e => decide (e.2 < a.2))
        · simp [hn]
        · simp only [hn, if_false]
          obtain ⟨m, rfl⟩ : ∃ m, n = m + 1 := ⟨n - 1, by omega⟩
          simp [List.countP_cons]; omega

/-- Taking the first `n` entries of the sorted log selects exactly the entries of rank `< n`. -/
theorem take_sort_countP (log : Log) (n : Nat) (p : Int × ℚ → Bool) :
    ((sortBySpend log).take n).countP p
      = (List.range log.length).countP
          (fun j => match log[j]? with | some e => decide (rank log j < n) && p e | none => false) := by
  induction log generalizing n with
  | nil => simp [sortBySpend]
  | cons a l ih =>
    have hsort : sortBySpend (a :: l) =
        (sortBySpend l).orderedInsert (fun a b => a.2 ≤ b.2) a := by
      simp [sortBySpend]
    rw [hsort, orderedInsert_take a _ (sortBySpend_pairwise l),
      (sortBySpend_perm l).countP_eq]
    rw [List.length_cons, List.range_succ_eq_map, List.countP_cons, List.countP_map]
    simp only [List.getElem?_cons_zero, rank_cons_zero]
    by_cases hn : n ≤ l.countP (fun e => decide (e.2 < a.2))
    · rw [if_pos hn, ih n]
      have : ¬ l.countP (fun e => decide (e.2 < a.2)) < n := by omega
      simp only [this, decide_false, Bool.false_and, Bool.false_eq_true, if_false, Nat.add_zero]
      apply List.countP_congr
      intro j hj
      simp only [Function.comp, List.getElem?_cons_succ]
      cases hb : l[j]? with
      | none => simp
      | some b =>
        simp only [rank_cons_succ a b l j hb]
        by_cases hab : a.2 ≤ b.2
        · have := (rank_lt_iff l j b hb a.2).not.2 (not_lt.2 hab)
          have h1 : ¬ rank l j < n := by omega
          have h2 : ¬ rank l j + 1 < n := by omega
          simp [hab, h1, h2]
        · simp [hab]
    · rw [if_neg hn, ih (n-1)]
      have hlt : l.countP (fun e => decide (e.2 < a.2)) < n := by omega
      simp only [hlt, decide_true, Bool.true_and]
      congr 1
      apply List.countP_congr
      intro j hj
      simp only [Function.comp, List.getElem?_cons_succ]
      cases hb : l[j]? with
      | none => simp
      | some b =>
        simp only [rank_cons_succ a b l j hb]
        by_cases hab : a.2 ≤ b.2
        · have : rank l j < n - 1 ↔ rank l j + 1 < n := by omega
          simp [hab, this]
        · have := (rank_lt_iff l j b hb a.2).2 (not_le.1 hab)
          have h1 : rank l j < n - 1 := by omega
          have h2 : rank l j < n := by omega
          simp [hab, h1, h2]

theorem take_sort_count (log : Log) (n : Nat) (u : Int) :
    (((sortBySpend log).take n).map (·.1)).count u = exposuresAtImpressions log n u := by
  rw [List.count_eq_countP, List.countP_map, take_sort_countP]
  unfold exposuresAtImpressions
  apply List.countP_congr
  intro j hj
  cases hb : log[j]? with
  | none => simp
  | some b => simp [Function.comp]

/-- In a sorted log the affordable entries form a prefix. -/
theorem filter_le_eq_take (s : Log) (hs : s.Pairwise (fun a b => a.2 ≤ b.2)) (c : ℚ) :
    s.filter (fun e => e.2 ≤ c) = s.take (s.countP (fun e => e.2 ≤ c)) := by
  induction s with
  | nil => rfl
  | cons b s ih =>
    rw [List.pairwise_cons] at hs
    by_cases h : b.2 ≤ c
    · rw [List.filter_cons_of_pos (by simpa using h), List.countP_cons_of_pos (by simpa using h),
        List.take_succ_cons, ih hs.2]
    · have h0 : (b :: s).countP (fun e => decide (e.2 ≤ c)) = 0 := by
        rw [List.countP_eq_zero]
        intro e he
        rcases List.mem_cons.1 he with rfl | he
        · simpa using h
        · have := hs.1 e he
          have hc := not_le.1 h
          simp only [decide_eq_true_eq, not_le]; linarith
      rw [h0, List.take_zero, List.filter_eq_nil_iff]
      exact List.countP_eq_zero.1 h0

/-! ## bisect -/

theorem bisectRightLoop_spec (a : List ℚ) (x : ℚ) (ha : a.Pairwise (· ≤ ·)) (lo hi : Nat)
    (hlh : lo ≤ hi) (hhi : hi ≤ a.length)
    (hlo : ∀ i, (h : i < a.length) → i < lo → a[i] ≤ x)
    (hup : ∀ i, (h : i < a.length) → hi ≤ i → x < a[i]) :
    bisectRightLoop a x lo hi ≤ a.length ∧
    (∀ i, (h : i < a.length) → i < bisectRightLoop a x lo hi → a[i] ≤ x) ∧
    (∀ i, (h : i < a.length) → bisectRightLoop a x lo hi ≤ i → x < a[i]) := by
  rw [bisectRightLoop]
  by_cases h : lo < hi
  · simp only [h, dite_true]
    have hmid : (lo + hi) / 2 < a.length := by omega
    have hget : a.getD ((lo + hi) / 2) 0 = a[(lo + hi) / 2] := by
      simp [List.getD, hmid]
    rw [hget]
    rw [List.pairwise_iff_getElem] at ha
    by_cases hx : x < a[(lo + hi) / 2]
    · rw [if_pos hx]
      refine bisectRightLoop_spec a x (List.pairwise_iff_getElem.2 ha) lo _ (by omega) (by omega)
        hlo ?_
      intro i hi' hge
      rcases Nat.eq_or_lt_of_le hge with heq | hlt
      · subst heq; exact hx
      · have := ha _ i hmid hi' hlt; linarith
    · rw [if_neg hx]
      refine bisectRightLoop_spec a x (List.pairwise_iff_getElem.2 ha) _ hi (by omega) hhi ?_ hup
      intro i hi' hlt
      have hx' := not_lt.1 hx
      by_cases heq : i = (lo + hi) / 2
      · subst heq; exact hx'
      · have := ha i _ hi' hmid (by omega); linarith
  · simp only [h, dite_false]
    have : lo = hi := by omega
    subst this
    exact ⟨hhi, hlo, hup⟩
  termination_by hi - lo
  decreasing_by all_goals omega

theorem countP_eq_of_split (a : List ℚ) (x : ℚ) (r : Nat) (hr : r ≤ a.length)
    (h1 : ∀ i, (h : i < a.length) → i < r → a[i] ≤ x)
    (h2 : ∀ i, (h : i < a.length) → r ≤ i → x < a[i]) :
    a.countP (fun y => y ≤ x) = r := by
  induction a generalizing r with
  | nil => simp at hr ⊢; omega
  | cons b a ih =>
    cases r with
    | zero =>
      rw [List.countP_eq_zero]
      intro e he
      obtain ⟨i, hi, rfl⟩ := List.getElem_of_mem he
      have := h2 i hi (by omega)
      simpa using this
    | succ r =>
      have hb : b ≤ x := h1 0 (by simp) (by omega)
      rw [List.countP_cons_of_pos (by simpa using hb), ih r (by simpa using hr)]
      · intro i hi hlt
        have := h1 (i+1) (by simpa using hi) (by omega)
        simpa using this
      · intro i hi hlt
        have := h2 (i+1) (by simpa using hi) (by omega)
        simpa using this

theorem bisectRight_eq_countP (a : List ℚ) (x : ℚ) (ha : a.Pairwise (· ≤ ·)) :
    bisectRight a x = a.countP (fun y => y ≤ x) := by
  have := bisectRightLoop_spec a x ha 0 a.length (by omega) le_rfl
    (fun i _ h => by omega) (fun i h h' => by omega)
  exact (countP_eq_of_split a x _ this.1 this.2.1 this.2.2).symm

end Verif
