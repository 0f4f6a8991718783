import Verif.Model.Halo
import Mathlib.Data.List.Sublists
import Mathlib.Data.Nat.BitIndices

/-! # Subsets of publishers as bit masks -/

namespace Verif

theorem combinations_perm {α : Type} (n : Nat) (l : List α) :
    (combinations n l).Perm (List.sublistsLen n l) := by
  induction l generalizing n with
  | nil => cases n <;> simp [combinations]
  | cons a l ih =>
    cases n with
    | zero => simp [combinations]
    | succ n =>
      rw [combinations, List.sublistsLen_succ_cons]
      exact (List.perm_append_comm).trans (List.Perm.append (ih (n + 1)) ((ih n).map _))

theorem nonemptySubsets_perm {α : Type} (l : List α) :
    ([] :: nonemptySubsets l).Perm l.sublists' := by
  refine List.Perm.trans ?_ (List.range_bind_sublistsLen_perm l)
  rw [List.range_succ_eq_map, List.flatMap_cons, List.flatMap_map, List.sublistsLen_zero,
    List.singleton_append]
  refine List.Perm.cons _ ?_
  unfold nonemptySubsets
  exact List.Perm.flatMap_left _ (fun r _ => combinations_perm (r + 1) l)

theorem length_nonemptySubsets {α : Type} (l : List α) :
    (nonemptySubsets l).length = 2 ^ l.length - 1 := by
  have := (nonemptySubsets_perm l).length_eq
  rw [List.length_sublists', List.length_cons] at this
  omega

theorem nodup_nonemptySubsets {α : Type} (l : List α) (h : l.Nodup) : (nonemptySubsets l).Nodup :=
  (List.nodup_cons.1 ((nonemptySubsets_perm l).nodup_iff.2 (List.nodup_sublists'.2 h))).2

theorem mem_nonemptySubsets {α : Type} (l s : List α) (h : l.Nodup) :
    s ∈ nonemptySubsets l ↔ s.Sublist l ∧ s ≠ [] := by
  have hn := List.nodup_cons.1 ((nonemptySubsets_perm l).nodup_iff.2 (List.nodup_sublists'.2 h))
  have hm := (nonemptySubsets_perm l).mem_iff (a := s)
  rw [List.mem_sublists', List.mem_cons] at hm
  constructor
  · intro hs
    refine ⟨hm.1 (Or.inr hs), ?_⟩
    rintro rfl
    exact hn.1 hs
  · rintro ⟨hs, hne⟩
    rcases hm.2 hs with h | h
    · exact absurd h hne
    · exact h

theorem regionOf_eq (s : List Nat) :
    HaloSimulator.regionOf s = (s.map (fun i => 2 ^ i)).sum := by
  unfold HaloSimulator.regionOf
  congr 1
  apply List.map_congr_left
  intro i _
  rw [Nat.shiftLeft_eq, one_mul]

theorem testBit_regionOf (s : List Nat) (h : s.SortedLT) (i : Nat) :
    (HaloSimulator.regionOf s).testBit i = true ↔ i ∈ s := by
  rw [← Nat.mem_bitIndices, regionOf_eq, Nat.bitIndices_sum_map_two_pow h]

theorem regionOf_inj (s t : List Nat) (hs : s.SortedLT) (ht : t.SortedLT)
    (h : HaloSimulator.regionOf s = HaloSimulator.regionOf t) : s = t := by
  rw [← Nat.bitIndices_sum_map_two_pow hs, ← Nat.bitIndices_sum_map_two_pow ht, ← regionOf_eq,
    ← regionOf_eq, h]

theorem sublist_sortedLT {s l : List Nat} (h : s.Sublist l) (hl : l.SortedLT) : s.SortedLT :=
  (List.Pairwise.sublist h hl.pairwise).sortedLT

/-- The region masks of all subsets: distinct, and exactly the non-zero masks with bits in `l`. -/
theorem regions_spec (l : List Nat) (hl : l.SortedLT) :
    ((nonemptySubsets l).map HaloSimulator.regionOf).Nodup ∧
    ((nonemptySubsets l).map HaloSimulator.regionOf).length = 2 ^ l.length - 1 ∧
    ∀ m, m ∈ (nonemptySubsets l).map HaloSimulator.regionOf ↔
      m ≠ 0 ∧ ∀ i, m.testBit i = true → i ∈ l := by
  have hnd : l.Nodup := hl.pairwise.nodup
  refine ⟨?_, by simp [length_nonemptySubsets], ?_⟩
  · rw [List.nodup_map_iff_inj_on (nodup_nonemptySubsets l hnd)]
    intro s hs t ht h
    rw [mem_nonemptySubsets l _ hnd] at hs ht
    exact regionOf_inj s t (sublist_sortedLT hs.1 hl) (sublist_sortedLT ht.1 hl) h
  · intro m
    rw [List.mem_map]
    constructor
    · rintro ⟨s, hs, rfl⟩
      rw [mem_nonemptySubsets l _ hnd] at hs
      have hb := testBit_regionOf s (sublist_sortedLT hs.1 hl)
      refine ⟨?_, fun i hi => hs.1.subset ((hb i).1 hi)⟩
      intro h0
      obtain ⟨i, hi⟩ := List.exists_mem_of_ne_nil s hs.2
      have := (hb i).2 hi
      rw [h0] at this
      simp at this
    · rintro ⟨h0, hm⟩
      refine ⟨l.filter (fun i => m.testBit i), ?_, ?_⟩
      · rw [mem_nonemptySubsets l _ hnd]
        refine ⟨List.filter_sublist, ?_⟩
        intro he
        apply h0
        apply Nat.eq_of_testBit_eq
        intro i
        rw [Nat.zero_testBit]
        by_contra hi
        have hi : m.testBit i = true := by simpa using hi
        have : i ∈ l.filter (fun i => m.testBit i) := List.mem_filter.2 ⟨hm i hi, hi⟩
        rw [he] at this
        simp at this
      · apply Nat.eq_of_testBit_eq
        intro i
        have hb := testBit_regionOf (l.filter (fun i => m.testBit i))
          (sublist_sortedLT List.filter_sublist hl) i
        rw [Bool.eq_iff_iff, hb, List.mem_filter]
        exact ⟨fun h => h.2, fun h => ⟨hm i h, h⟩⟩

end Verif
