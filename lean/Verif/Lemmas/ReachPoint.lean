import Verif.Model.ReachPoint
import Mathlib.Algebra.BigOperators.Group.List.Basic
import Mathlib.Tactic.Ring
import Mathlib.Tactic.Linarith

/-! # Lemmas about histograms and k+ reaches -/

namespace Verif

/-- Suffix sums. -/
def suffixSums {ν : Type} [AddCommMonoid ν] (l : List ν) : List ν :=
  (List.range l.length).map (fun i => (l.drop i).sum)

theorem suffixLoop_inv {ν : Type} [AddCommMonoid ν] (o : List ν) (k : Nat) (l : List ν)
    (hk : k + 1 ≤ o.length) (hlen : l.length = o.length)
    (h : ∀ i, i < o.length → l[i]? = if k ≤ i then some (o.drop i).sum else o[i]?) :
    suffixLoop l k = suffixSums o := by
  induction k generalizing l with
  | zero =>
    unfold suffixLoop suffixSums
    apply List.ext_getElem?
    intro i
    by_cases hi : i < o.length
    · rw [h i hi]; simp [hi]
    · rw [List.getElem?_eq_none (by omega), List.getElem?_eq_none (by simp; omega)]
  | succ k ih =>
    rw [suffixLoop]
    apply ih
    · omega
    · simp [hlen]
    · intro i hi
      have hk1 : l.getD (k+1) 0 = (o.drop (k+1)).sum := by
        have := h (k+1) (by omega)
        simp only [le_refl, if_true] at this
        simp [List.getD, this]
      rw [List.getElem?_modify, hk1]
      by_cases hik : k = i
      · subst hik
        have := h k hi
        rw [if_neg (by omega)] at this
        rw [this]
        simp only [if_true, le_refl]
        rw [List.getElem?_eq_getElem hi]
        simp only [Option.map_eq_map, Option.map_some]
        congr 1
        rw [List.drop_eq_getElem_cons hi, List.sum_cons]
      · have := h i hi
        rw [this]
        by_cases hle : k + 1 ≤ i
        · simp [hle, show k ≤ i by omega, hik]
        · simp [hle, show ¬ k ≤ i by omega, hik]

theorem suffixLoop_eq {ν : Type} [AddCommMonoid ν] (o : List ν) (ho : o ≠ []) :
    suffixLoop o (o.length - 1) = suffixSums o := by
  have hl : 0 < o.length := List.length_pos_iff.2 ho
  apply suffixLoop_inv o _ o (by omega) rfl
  intro i hi
  by_cases hle : o.length - 1 ≤ i
  · have : i = o.length - 1 := by omega
    subst this
    rw [if_pos le_rfl, List.getElem?_eq_getElem hi, List.drop_eq_getElem_cons hi]
    rw [List.sum_cons, List.drop_eq_nil_of_le (by omega)]; simp
  · simp [hle]

theorem suffixLoop_zero_nil {ν : Type} [AddCommMonoid ν] :
    suffixLoop ([] : List ν) 0 = suffixSums [] := by
  simp [suffixLoop, suffixSums]

theorem suffixSums_length {ν : Type} [AddCommMonoid ν] (l : List ν) :
    (suffixSums l).length = l.length := by simp [suffixSums]

theorem suffixSums_getElem? {ν : Type} [AddCommMonoid ν] (l : List ν) (i : Nat)
    (h : i < l.length) : (suffixSums l)[i]? = some (l.drop i).sum := by
  simp [suffixSums, h]

theorem sum_drop_modify (l : List Int) (j i : Nat) (hj : j < l.length) :
    ((l.modify j (· + 1)).drop i).sum = (l.drop i).sum + (if i ≤ j then 1 else 0) := by
  induction l generalizing j i with
  | nil => simp at hj
  | cons a l ih =>
    cases j with
    | zero =>
      cases i with
      | zero => simp; ring
      | succ i => simp
    | succ j =>
      have hj' : j < l.length := by simpa using hj
      cases i with
      | zero =>
        have := ih j 0 hj'
        simp at this ⊢
        rw [this]; ring
      | succ i =>
        have := ih j i hj'
        simpa using this

/-- The histogram loop: never fails on positive counts; bucket contents and tail sums. -/
theorem histogram_loop (F : Nat) (hF : 1 ≤ F) (cs : List Int) (hcs : ∀ c ∈ cs, 1 ≤ c)
    (fc : List Int) (hlen : fc.length = F) :
    ∃ h, cs.foldlM (fun fc c => pyModify fc (min c (F : Int) - 1) (· + 1)) fc
        = (.ok h : Except PyErr (List Int)) ∧ h.length = F ∧
      (∀ i, i < F → h[i]? = some (fc.getD i 0 + cs.countP (fun c => min c (F : Int) = i + 1))) ∧
      (∀ i, i < F → (h.drop i).sum = (fc.drop i).sum + cs.countP (fun c => (i : Int) + 1 ≤ c)) := by
  induction cs generalizing fc with
  | nil =>
    refine ⟨fc, rfl, hlen, ?_, ?_⟩
    · intro i hi
      simp [List.getD, hlen, hi]
    · intro i hi; simp
  | cons c cs ih =>
    have hc : 1 ≤ c := hcs c (by simp)
    obtain ⟨j, hj⟩ : ∃ j : Nat, min c (F : Int) - 1 = j := ⟨(min c (F : Int) - 1).toNat, by omega⟩
    have hjF : j < F := by omega
    have hstep : pyModify fc (min c (F : Int) - 1) (· + 1) = .ok (fc.modify j (· + 1)) := by
      unfold pyModify
      rw [hj]
      have : ¬ ((j : Int) < 0) := by omega
      simp [this, hlen, hjF]
    obtain ⟨h, h1, h2, h3, h4⟩ := ih (fun c hc => hcs c (by simp [hc])) (fc.modify j (· + 1))
      (by simp [hlen])
    refine ⟨h, ?_, h2, ?_, ?_⟩
    · rw [List.foldlM_cons, hstep]
      exact h1
    · intro i hi
      rw [h3 i hi]
      congr 1
      rw [List.countP_cons]
      have hget : (fc.modify j (· + 1)).getD i 0 = fc.getD i 0 + (if j = i then 1 else 0) := by
        simp only [List.getD, List.getElem?_modify]
        rw [List.getElem?_eq_getElem (by omega)]
        by_cases hij : j = i <;> simp [hij]
      rw [hget]
      have : (min c (F : Int) = i + 1) ↔ j = i := by omega
      by_cases hji : j = i
      · simp [this, hji]; ring
      · simp [this, hji]
    · intro i hi
      rw [h4 i hi, sum_drop_modify _ _ _ (by omega), List.countP_cons]
      have : ((i : Int) + 1 ≤ c) ↔ i ≤ j := by omega
      by_cases hij : i ≤ j
      · simp [this, hij]; ring
      · simp [this, hij]

theorem histogram_ok (F : Nat) (hF : 1 ≤ F) (cs : List Int) (hcs : ∀ c ∈ cs, 1 ≤ c) :
    ∃ h, cs.foldlM (fun fc c => pyModify fc (min c (F : Int) - 1) (· + 1)) (pyRepeat 0 (F : Int))
        = (.ok h : Except PyErr (List Int)) ∧ h.length = F ∧
      (∀ i, i < F → h[i]? = some (cs.countP (fun c => min c (F : Int) = i + 1) : Int)) ∧
      (∀ i, i < F → (h.drop i).sum = cs.countP (fun c => (i : Int) + 1 ≤ c)) := by
  obtain ⟨h, h1, h2, h3, h4⟩ := histogram_loop F hF cs hcs (pyRepeat 0 (F : Int))
    (by simp [pyRepeat])
  refine ⟨h, h1, h2, ?_, ?_⟩
  · intro i hi
    rw [h3 i hi]
    simp [pyRepeat, List.getD, hi]
  · intro i hi
    rw [h4 i hi]
    simp [pyRepeat]

end Verif
