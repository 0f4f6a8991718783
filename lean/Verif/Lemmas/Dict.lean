import Verif.Model.Py
import Mathlib.Data.Set.Card
import Mathlib.Data.List.Count

/-! # Lemmas about the dictionary model -/

namespace Verif

variable {κ : Type} [DecidableEq κ]

/-- Keys of a dictionary. -/
def dictKeys {ν : Type} (d : Dict κ ν) : List κ := d.map (·.1)

theorem dictGet_dictAdd (d : Dict κ Int) (k : κ) (v : Int) (u : κ) :
    dictGet (dictAdd d k v) u = dictGet d u + (if k = u then v else 0) := by
  induction d with
  | nil => simp [dictAdd, dictGet]
  | cons a d ih =>
    obtain ⟨k', v'⟩ := a
    unfold dictAdd
    by_cases h : k' = k
    · subst h
      by_cases hu : k' = u <;> simp [dictGet, hu]
    · simp only [h, if_false, dictGet]
      by_cases hu : k' = u
      · subst hu
        have : ¬ k = k' := fun h' => h h'.symm
        simp [this]
      · simp [hu, ih]

theorem mem_keys_dictAdd (d : Dict κ Int) (k : κ) (v : Int) (u : κ) :
    u ∈ dictKeys (dictAdd d k v) ↔ u ∈ dictKeys d ∨ u = k := by
  induction d with
  | nil => simp [dictAdd, dictKeys]
  | cons a d ih =>
    obtain ⟨k', v'⟩ := a
    unfold dictAdd
    by_cases h : k' = k
    · subst h; simp [dictKeys]; tauto
    · simp only [h, if_false]
      simp only [dictKeys, List.map_cons, List.mem_cons] at ih ⊢
      tauto

theorem nodup_dictAdd (d : Dict κ Int) (k : κ) (v : Int) (h : (dictKeys d).Nodup) :
    (dictKeys (dictAdd d k v)).Nodup := by
  induction d with
  | nil => simp [dictAdd, dictKeys]
  | cons a d ih =>
    obtain ⟨k', v'⟩ := a
    unfold dictAdd
    by_cases hk : k' = k
    · subst hk; simpa [dictKeys] using h
    · simp only [hk, if_false]
      simp only [dictKeys, List.map_cons, List.nodup_cons] at h ih ⊢
      refine ⟨?_, ih h.2⟩
      intro hm
      have := (mem_keys_dictAdd d k v k').1 hm
      rcases this with h1 | h1
      · exact h.1 h1
      · exact hk h1

/-- Every value is at least one. -/
def DictPos (d : Dict κ Int) : Prop := ∀ kv ∈ d, 1 ≤ kv.2

theorem pos_dictAdd (d : Dict κ Int) (k : κ) (v : Int) (hd : DictPos d) (hv : 1 ≤ v) :
    DictPos (dictAdd d k v) := by
  induction d with
  | nil => intro kv hkv; simp [dictAdd] at hkv; subst hkv; exact hv
  | cons a d ih =>
    obtain ⟨k', v'⟩ := a
    have h1 : 1 ≤ v' := hd (k', v') (by simp)
    have h2 : DictPos d := fun kv hkv => hd kv (by simp [hkv])
    unfold dictAdd
    by_cases hk : k' = k
    · simp only [hk, if_true]
      intro kv hkv
      rcases List.mem_cons.1 hkv with rfl | h
      · simp; omega
      · exact h2 kv h
    · simp only [hk, if_false]
      intro kv hkv
      rcases List.mem_cons.1 hkv with rfl | h
      · exact h1
      · exact ih h2 kv h

theorem dictGet_foldl_counter (l : List κ) (d : Dict κ Int) (u : κ) :
    dictGet (l.foldl (fun d k => dictAdd d k 1) d) u = dictGet d u + l.count u := by
  induction l generalizing d with
  | nil => simp
  | cons a l ih =>
    simp only [List.foldl_cons, ih, dictGet_dictAdd, List.count_cons]
    by_cases h : a = u
    · simp [h]; omega
    · simp [h]

theorem dictGet_counter (l : List κ) (u : κ) : dictGet (counter l) u = l.count u := by
  simp [counter, dictGet_foldl_counter, dictGet]

theorem nodup_foldl_counter (l : List κ) (d : Dict κ Int) (h : (dictKeys d).Nodup) :
    (dictKeys (l.foldl (fun d k => dictAdd d k 1) d)).Nodup := by
  induction l generalizing d with
  | nil => simpa
  | cons a l ih => exact ih _ (nodup_dictAdd d a 1 h)

theorem nodup_counter (l : List κ) : (dictKeys (counter l)).Nodup :=
  nodup_foldl_counter l [] (by simp [dictKeys])

theorem pos_foldl_counter (l : List κ) (d : Dict κ Int) (h : DictPos d) :
    DictPos (l.foldl (fun d k => dictAdd d k 1) d) := by
  induction l generalizing d with
  | nil => simpa
  | cons a l ih => exact ih _ (pos_dictAdd d a 1 h le_rfl)

theorem pos_counter (l : List κ) : DictPos (counter l) :=
  pos_foldl_counter l [] (by intro kv h; simp at h)

theorem dictGet_of_mem (d : Dict κ Int) (h : (dictKeys d).Nodup) (kv : κ × Int) (hm : kv ∈ d) :
    dictGet d kv.1 = kv.2 := by
  induction d with
  | nil => simp at hm
  | cons a d ih =>
    obtain ⟨k', v'⟩ := a
    simp only [dictKeys, List.map_cons, List.nodup_cons] at h
    rcases List.mem_cons.1 hm with rfl | hm2
    · simp [dictGet]
    · have : ¬ k' = kv.1 := by
        rintro rfl
        exact h.1 (List.mem_map.2 ⟨kv, hm2, rfl⟩)
      simp only [dictGet, this, if_false]
      exact ih h.2 hm2

theorem dictGet_eq_zero_of_notMem (d : Dict κ Int) (u : κ) (h : u ∉ dictKeys d) :
    dictGet d u = 0 := by
  induction d with
  | nil => rfl
  | cons a d ih =>
    obtain ⟨k', v'⟩ := a
    simp only [dictKeys, List.map_cons, List.mem_cons, not_or] at h
    have : ¬ k' = u := fun h' => h.1 h'.symm
    simp only [dictGet, this, if_false]
    exact ih h.2

theorem mem_dict_of_get (d : Dict κ Int) (u : κ) (h : dictGet d u ≠ 0) :
    (u, dictGet d u) ∈ d := by
  induction d with
  | nil => simp [dictGet] at h
  | cons a d ih =>
    obtain ⟨k', v'⟩ := a
    by_cases hu : k' = u
    · subst hu; simp [dictGet]
    · simp only [dictGet, hu, if_false] at h ⊢
      exact List.mem_cons_of_mem _ (ih h)

/-- In a well-formed dictionary with positive values the number of entries with value at least
`k` is the number of keys with at least `k`. -/
theorem countP_values_eq_ncard (d : Dict κ Int) (hn : (dictKeys d).Nodup)
    (k : Int) (hk : 1 ≤ k) :
    d.countP (fun kv => k ≤ kv.2) = Set.ncard {u | k ≤ dictGet d u} := by
  have hset : {u | k ≤ dictGet d u}
      = ((((d.filter (fun kv => k ≤ kv.2)).map (·.1)).toFinset : Finset κ) : Set κ) := by
    ext u
    simp only [Set.mem_ofPred_eq, List.coe_toFinset, List.mem_map, List.mem_filter,
      decide_eq_true_eq]
    constructor
    · intro h
      exact ⟨(u, dictGet d u), ⟨mem_dict_of_get d u (by omega), h⟩, rfl⟩
    · rintro ⟨kv, ⟨hm, hkv⟩, rfl⟩
      rw [dictGet_of_mem d hn kv hm]; exact hkv
  rw [hset, Set.ncard_coe_finset, List.toFinset_card_of_nodup, List.length_map,
    List.countP_eq_length_filter]
  exact (List.Sublist.map _ List.filter_sublist).nodup hn

/-- Sum of values of a counter is the number of elements counted. -/
theorem sum_values_dictAdd (d : Dict κ Int) (k : κ) (v : Int) :
    ((dictAdd d k v).map (·.2)).sum = (d.map (·.2)).sum + v := by
  induction d with
  | nil => simp [dictAdd]
  | cons a d ih =>
    obtain ⟨k', v'⟩ := a
    unfold dictAdd
    by_cases h : k' = k
    · simp [h]; omega
    · simp only [h, if_false, List.map_cons, List.sum_cons, ih]; omega

theorem sum_values_counter (l : List κ) : ((counter l).map (·.2)).sum = l.length := by
  have : ∀ (d : Dict κ Int), ((l.foldl (fun d k => dictAdd d k 1) d).map (·.2)).sum
      = (d.map (·.2)).sum + l.length := by
    induction l with
    | nil => simp
    | cons a l ih =>
      intro d
      simp only [List.foldl_cons, ih, sum_values_dictAdd, List.length_cons]
      push_cast; omega
  simpa [counter] using this []

theorem dictGet_addAll (e d : Dict κ Int) (he : (dictKeys e).Nodup) (u : κ) :
    dictGet (dictAddAll d e) u = dictGet d u + dictGet e u := by
  unfold dictAddAll
  induction e generalizing d with
  | nil => simp [dictGet]
  | cons a e ih =>
    obtain ⟨k', v'⟩ := a
    simp only [dictKeys, List.map_cons, List.nodup_cons] at he
    simp only [List.foldl_cons]
    rw [ih _ he.2, dictGet_dictAdd]
    by_cases h : k' = u
    · subst h
      simp [dictGet, dictGet_eq_zero_of_notMem e k' he.1]
    · simp [dictGet, h]

theorem nodup_addAll (e d : Dict κ Int) (hd : (dictKeys d).Nodup) :
    (dictKeys (dictAddAll d e)).Nodup := by
  unfold dictAddAll
  induction e generalizing d with
  | nil => simpa
  | cons a e ih => exact ih _ (nodup_dictAdd d a.1 a.2 hd)

theorem pos_addAll (e d : Dict κ Int) (hd : DictPos d) (he : DictPos e) :
    DictPos (dictAddAll d e) := by
  unfold dictAddAll
  induction e generalizing d with
  | nil => simpa
  | cons a e ih =>
    exact ih _ (pos_dictAdd d a.1 a.2 hd (he a (by simp))) (fun kv h => he kv (by simp [h]))

end Verif
