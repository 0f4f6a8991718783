import Verif.Lemmas.Exposure

/-! # Lemmas about the `PublisherData` model -/

namespace Verif

open Verif.Spec

theorem new_ok_iff (log : Log) (name rnd : String) (p : PublisherData) :
    PublisherData.new log name rnd = .ok p ↔
      ∃ m, pyMax (log.map (·.2)) = .ok m ∧ p =
        { data := sortBySpend log, spends := log.map (·.2), maxSpend := m,
          maxReach := lenSet (log.map (·.1)), name := if name = "" then rnd else name } := by
  unfold PublisherData.new
  cases pyMax (log.map (·.2)) with
  | error e => simp [bind, Except.bind]
  | ok m => simp [bind, Except.bind, pure, Except.pure, eq_comm]

theorem foldl_max_ge (l : List ℚ) (x : ℚ) :
    x ≤ l.foldl max x ∧ (∀ y ∈ l, y ≤ l.foldl max x) ∧
      (l.foldl max x = x ∨ l.foldl max x ∈ l) := by
  induction l generalizing x with
  | nil => simp
  | cons a l ih =>
    obtain ⟨h1, h2, h3⟩ := ih (max x a)
    simp only [List.foldl_cons]
    refine ⟨le_trans (le_max_left _ _) h1, ?_, ?_⟩
    · intro y hy
      rcases List.mem_cons.1 hy with rfl | hy
      · exact le_trans (le_max_right _ _) h1
      · exact h2 y hy
    · rcases h3 with h3 | h3
      · rw [h3]
        rcases max_choice x a with h | h
        · left; exact h
        · right; rw [h]; simp
      · right; simp [h3]

theorem pyMax_spec (l : List ℚ) (m : ℚ) (h : pyMax l = .ok m) :
    (∀ y ∈ l, y ≤ m) ∧ m ∈ l := by
  cases l with
  | nil => simp [pyMax] at h
  | cons x xs =>
    simp only [pyMax, Except.ok.injEq] at h
    obtain ⟨h1, h2, h3⟩ := foldl_max_ge xs x
    rw [h] at h1 h2 h3
    refine ⟨?_, ?_⟩
    · intro y hy
      rcases List.mem_cons.1 hy with rfl | hy
      · exact h1
      · exact h2 y hy
    · rcases h3 with h3 | h3
      · simp [h3]
      · simp [h3]

theorem pyMax_ok_of_ne_nil (l : List ℚ) (h : l ≠ []) : ∃ m, pyMax l = .ok m := by
  cases l with
  | nil => exact absurd rfl h
  | cons x xs => exact ⟨_, rfl⟩

theorem map_snd_pairwise (log : Log) (h : log.Pairwise (fun a b => a.2 ≤ b.2)) :
    (log.map (·.2)).Pairwise (· ≤ ·) := List.pairwise_map.2 h

theorem dict_length_eq_ncard (d : Dict Int Int) (hn : (dictKeys d).Nodup) (hp : DictPos d) :
    d.length = Set.ncard {u | 1 ≤ dictGet d u} := by
  rw [← countP_values_eq_ncard d hn 1 le_rfl, eq_comm, List.countP_eq_length]
  intro kv hkv
  simpa using hp kv hkv

theorem lenSet_eq_ncard (l : List Int) : lenSet l = Set.ncard {u | u ∈ l} := by
  have : {u | u ∈ l} = ((l.toFinset : Finset Int) : Set Int) := by ext; simp
  rw [this, Set.ncard_coe_finset, List.card_toFinset]
  rfl

theorem filter_count_eq (log : Log) (s : ℚ) (u : Int) :
    (((log.filter (fun e => e.2 ≤ s)).map (·.1)).count u) = exposuresAtSpend log s u := by
  rw [List.count_eq_countP, List.countP_map, List.countP_filter]
  unfold exposuresAtSpend
  apply List.countP_congr
  intro e _
  simp [Function.comp]

theorem pySliceTo_nat {α : Type} (l : List α) (n : Nat) : pySliceTo l (n : Int) = l.take n := by
  have : ¬ ((n : Int) < 0) := by omega
  simp [pySliceTo, this]

theorem pyIndex_nat {α : Type} (l : List α) (i : Nat) (h : i < l.length) :
    pyIndex l (i : Int) = .ok l[i] := by
  have : ¬ ((i : Int) < 0) := by omega
  simp [pyIndex, this, h]

end Verif
