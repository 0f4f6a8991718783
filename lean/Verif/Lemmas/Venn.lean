import Verif.Lemmas.Subsets
import Verif.Lemmas.ListExcept
import Verif.Lemmas.DataSet

/-! # Lemmas about the Venn diagram loops -/

namespace Verif

/-! ## Dictionaries -/

section Find

variable {κ ν : Type} [DecidableEq κ]

/-- First value stored under a key. -/
def dictFind (d : Dict κ ν) (k : κ) : Option ν :=
  match d with
  | [] => none
  | (k', v) :: rest => if k' = k then some v else dictFind rest k

theorem dictFind_upd (d : Dict κ ν) (k u : κ) (f : Option ν → ν) :
    dictFind (dictUpd d k f) u = if k = u then some (f (dictFind d k)) else dictFind d u := by
  induction d with
  | nil => simp [dictUpd, dictFind]
  | cons a d ih =>
    obtain ⟨k', v⟩ := a
    unfold dictUpd
    by_cases h : k' = k
    · subst h
      by_cases hu : k' = u <;> simp [dictFind, hu]
    · simp only [h, if_false, dictFind]
      by_cases hu : k' = u
      · subst hu
        have : ¬ k = k' := fun h' => h h'.symm
        simp [this]
      · simp [hu, ih]

theorem mem_keys_upd (d : Dict κ ν) (k u : κ) (f : Option ν → ν) :
    u ∈ dictKeys (dictUpd d k f) ↔ u ∈ dictKeys d ∨ u = k := by
  induction d with
  | nil => simp [dictUpd, dictKeys]
  | cons a d ih =>
    obtain ⟨k', v'⟩ := a
    unfold dictUpd
    by_cases h : k' = k
    · subst h; simp [dictKeys]; tauto
    · simp only [h, if_false]
      simp only [dictKeys, List.map_cons, List.mem_cons] at ih ⊢
      tauto

theorem nodup_upd (d : Dict κ ν) (k : κ) (f : Option ν → ν) (h : (dictKeys d).Nodup) :
    (dictKeys (dictUpd d k f)).Nodup := by
  induction d with
  | nil => simp [dictUpd, dictKeys]
  | cons a d ih =>
    obtain ⟨k', v'⟩ := a
    unfold dictUpd
    by_cases hk : k' = k
    · subst hk; simpa [dictKeys] using h
    · simp only [hk, if_false]
      simp only [dictKeys, List.map_cons, List.nodup_cons] at h ih ⊢
      refine ⟨?_, ih h.2⟩
      intro hm
      rcases (mem_keys_upd d k k' f).1 hm with h1 | h1
      · exact h.1 h1
      · exact hk h1

theorem dictFind_of_mem (d : Dict κ ν) (h : (dictKeys d).Nodup) (kv : κ × ν) (hm : kv ∈ d) :
    dictFind d kv.1 = some kv.2 := by
  induction d with
  | nil => simp at hm
  | cons a d ih =>
    obtain ⟨k', v'⟩ := a
    simp only [dictKeys, List.map_cons, List.nodup_cons] at h
    rcases List.mem_cons.1 hm with rfl | hm2
    · simp [dictFind]
    · have : ¬ k' = kv.1 := by
        rintro rfl
        exact h.1 (List.mem_map.2 ⟨kv, hm2, rfl⟩)
      simp only [dictFind, this, if_false]
      exact ih h.2 hm2

theorem mem_of_dictFind (d : Dict κ ν) (k : κ) (v : ν) (h : dictFind d k = some v) : (k, v) ∈ d := by
  induction d with
  | nil => simp [dictFind] at h
  | cons a d ih =>
    obtain ⟨k', v'⟩ := a
    unfold dictFind at h
    split at h
    · rename_i hk
      cases h; subst hk; simp
    · exact List.mem_cons_of_mem _ (ih h)

theorem dictFind_none (d : Dict κ ν) (k : κ) : dictFind d k = none ↔ k ∉ dictKeys d := by
  induction d with
  | nil => simp [dictFind, dictKeys]
  | cons a d ih =>
    obtain ⟨k', v'⟩ := a
    simp only [dictFind, dictKeys, List.map_cons, List.mem_cons, not_or] at ih ⊢
    by_cases h : k' = k
    · simp [h]
    · rw [if_neg h, ih]
      exact ⟨fun hk => ⟨fun e => h e.symm, hk⟩, fun hk => hk.2⟩

theorem exists_dictFind (d : Dict κ ν) (k : κ) (h : k ∈ dictKeys d) :
    ∃ v, dictFind d k = some v := by
  cases hf : dictFind d k with
  | none => exact absurd h ((dictFind_none d k).1 hf)
  | some v => exact ⟨v, rfl⟩

end Find

theorem foldl_prod {α β γ : Type} (f : β → α → β) (g : γ → α → γ) (l : List α) (b : β) (c : γ) :
    l.foldl (fun acc a => (f acc.1 a, g acc.2 a)) (b, c) = (l.foldl f b, l.foldl g c) := by
  induction l generalizing b c with
  | nil => rfl
  | cons a l ih => exact ih _ _

namespace HaloSimulator

/-! ## Locating users -/

/-- The region part of `locateUsers`. -/
def regionLoop (counts : List (Nat × Dict Int Int)) : Dict Int Nat :=
  counts.foldl (fun R pc => pc.2.foldl
    (fun R kv => dictUpd R kv.1 (fun o => o.getD 0 ||| 1 <<< pc.1)) R) []

/-- The impressions part of `locateUsers`. -/
def totalLoop (counts : List (Nat × Dict Int Int)) : Dict Int Int :=
  counts.foldl (fun I pc => dictAddAll I pc.2) []

theorem locateUsers_eq (counts : List (Nat × Dict Int Int)) :
    locateUsers counts = (regionLoop counts, totalLoop counts) := by
  unfold locateUsers regionLoop totalLoop
  rw [← foldl_prod]
  congr 1
  funext acc pc
  obtain ⟨R, I⟩ := acc
  unfold dictAddAll
  rw [← foldl_prod]

/-- Bit `i` of the region of user `u`. -/
def regBit (R : Dict Int Nat) (u : Int) (i : Nat) : Bool := ((dictFind R u).getD 0).testBit i

theorem regBit_upd (R : Dict Int Nat) (w u : Int) (j i : Nat) :
    regBit (dictUpd R w (fun o => o.getD 0 ||| 1 <<< j)) u i = true ↔
      regBit R u i = true ∨ (w = u ∧ j = i) := by
  unfold regBit
  rw [dictFind_upd]
  by_cases h : w = u
  · subst h
    simp only [if_true, Option.getD_some, Nat.testBit_or, Bool.or_eq_true, true_and]
    rw [Nat.shiftLeft_eq, one_mul, Nat.testBit_two_pow]
    simp
  · simp [h]

theorem regionInner (c : Dict Int Int) (j : Nat) (R : Dict Int Nat) (hR : (dictKeys R).Nodup) :
    let R' := c.foldl (fun R kv => dictUpd R kv.1 (fun o => o.getD 0 ||| 1 <<< j)) R
    (dictKeys R').Nodup ∧ (∀ u, u ∈ dictKeys R' ↔ u ∈ dictKeys R ∨ u ∈ dictKeys c) ∧
    ∀ u i, regBit R' u i = true ↔ regBit R u i = true ∨ (u ∈ dictKeys c ∧ j = i) := by
  induction c generalizing R with
  | nil => simp [dictKeys] at hR ⊢; exact hR
  | cons kv c ih =>
    obtain ⟨h1, h2, h3⟩ := ih (dictUpd R kv.1 (fun o => o.getD 0 ||| 1 <<< j)) (nodup_upd _ _ _ hR)
    refine ⟨h1, ?_, ?_⟩
    · intro u
      simp only [List.foldl_cons]
      rw [h2 u, mem_keys_upd]
      simp only [dictKeys, List.map_cons, List.mem_cons]
      tauto
    · intro u i
      simp only [List.foldl_cons]
      rw [h3 u i, regBit_upd]
      simp only [dictKeys, List.map_cons, List.mem_cons]
      constructor
      · rintro ((h | ⟨h, h'⟩) | h)
        · exact Or.inl h
        · exact Or.inr ⟨Or.inl h.symm, h'⟩
        · exact Or.inr ⟨Or.inr h.1, h.2⟩
      · rintro (h | ⟨h | h, h'⟩)
        · exact Or.inl (Or.inl h)
        · exact Or.inl (Or.inr ⟨h.symm, h'⟩)
        · exact Or.inr ⟨h, h'⟩

/-- User `u` occurs in the counts of publisher `i`. -/
def Occurs (counts : List (Nat × Dict Int Int)) (i : Nat) (u : Int) : Prop :=
  ∃ pc ∈ counts, pc.1 = i ∧ u ∈ dictKeys pc.2

theorem regionLoop_spec (counts : List (Nat × Dict Int Int)) :
    (dictKeys (regionLoop counts)).Nodup ∧
    (∀ u, u ∈ dictKeys (regionLoop counts) ↔ ∃ i, Occurs counts i u) ∧
    ∀ u i, regBit (regionLoop counts) u i = true ↔ Occurs counts i u := by
  have gen : ∀ (R : Dict Int Nat), (dictKeys R).Nodup →
      let R' := counts.foldl (fun R pc => pc.2.foldl
        (fun R kv => dictUpd R kv.1 (fun o => o.getD 0 ||| 1 <<< pc.1)) R) R
      (dictKeys R').Nodup ∧ (∀ u, u ∈ dictKeys R' ↔ u ∈ dictKeys R ∨ ∃ i, Occurs counts i u) ∧
      ∀ u i, regBit R' u i = true ↔ regBit R u i = true ∨ Occurs counts i u := by
    induction counts with
    | nil => intro R hR; simp [Occurs, hR]
    | cons pc counts ih =>
      intro R hR
      obtain ⟨h1, h2, h3⟩ := regionInner pc.2 pc.1 R hR
      obtain ⟨g1, g2, g3⟩ := ih _ h1
      have hocc : ∀ i u, Occurs (pc :: counts) i u ↔
          (u ∈ dictKeys pc.2 ∧ pc.1 = i) ∨ Occurs counts i u := by
        intro i u
        simp only [Occurs, List.mem_cons, exists_eq_or_imp]
        tauto
      refine ⟨g1, ?_, ?_⟩
      · intro u
        simp only [List.foldl_cons]
        rw [g2 u, h2 u]
        simp only [hocc]
        constructor
        · rintro ((h | h) | ⟨i, h⟩)
          · exact Or.inl h
          · exact Or.inr ⟨_, Or.inl ⟨h, rfl⟩⟩
          · exact Or.inr ⟨i, Or.inr h⟩
        · rintro (h | ⟨i, h | h⟩)
          · exact Or.inl (Or.inl h)
          · exact Or.inl (Or.inr h.1)
          · exact Or.inr ⟨i, h⟩
      · intro u i
        simp only [List.foldl_cons]
        rw [g3 u i, h3 u i, hocc, or_assoc]
  obtain ⟨h1, h2, h3⟩ := gen [] (by simp [dictKeys])
  refine ⟨h1, ?_, ?_⟩
  · intro u
    rw [regionLoop, h2 u]; simp [dictKeys]
  · intro u i
    rw [regionLoop, h3 u i]; simp [regBit, dictFind]

theorem totalLoop_spec (counts : List (Nat × Dict Int Int))
    (hn : ∀ pc ∈ counts, (dictKeys pc.2).Nodup) (u : Int) :
    dictGet (totalLoop counts) u = (counts.map (fun pc => dictGet pc.2 u)).sum := by
  have gen : ∀ I : Dict Int Int, dictGet (counts.foldl (fun I pc => dictAddAll I pc.2) I) u
      = dictGet I u + (counts.map (fun pc => dictGet pc.2 u)).sum := by
    induction counts with
    | nil => simp
    | cons pc counts ih =>
      intro I
      rw [List.foldl_cons, ih (fun pc h => hn pc (by simp [h])), dictGet_addAll _ _ (hn pc (by simp))]
      simp only [List.map_cons, List.sum_cons]; ring
  rw [totalLoop, gen]; simp [dictGet]

/-! ## Counting into regions -/

theorem bump_ok (d : Dict Nat (List Int)) (r : Nat) (i F : Nat) (hi : i ≤ F)
    (hr : r ∈ dictKeys d) (hl : ∀ kv ∈ d, kv.2.length = F + 1) :
    ∃ d', bump d r (i : Int) = .ok d' ∧ dictKeys d' = dictKeys d ∧
      (∀ kv ∈ d', kv.2.length = F + 1) ∧
      ∀ m, dictFind d' m = if m = r then (dictFind d m).map (fun v => v.modify i (· + 1))
        else dictFind d m := by
  induction d with
  | nil => simp [dictKeys] at hr
  | cons a d ih =>
    obtain ⟨k, v⟩ := a
    have hv : v.length = F + 1 := hl (k, v) (by simp)
    unfold bump
    by_cases hk : k = r
    · subst hk
      have hpm : pyModify v (i : Int) (· + 1) = .ok (v.modify i (· + 1)) := by
        unfold pyModify
        have : ¬ ((i : Int) < 0) := by omega
        simp [this, show i < v.length by omega]
      refine ⟨(k, v.modify i (· + 1)) :: d, by simp [hpm, bind, Except.bind, pure, Except.pure],
        rfl, ?_, ?_⟩
      · intro kv hkv
        rcases List.mem_cons.1 hkv with rfl | h
        · simpa using hv
        · exact hl kv (by simp [h])
      · intro m
        by_cases hm : m = k
        · subst hm; simp [dictFind]
        · have : ¬ k = m := fun h => hm h.symm
          simp [dictFind, this, hm]
    · have hr' : r ∈ dictKeys d := by
        simp only [dictKeys, List.map_cons, List.mem_cons] at hr
        rcases hr with h | h
        · exact absurd h.symm hk
        · exact h
      obtain ⟨d', h1, h2, h3, h4⟩ := ih hr' (fun kv h => hl kv (by simp [h]))
      refine ⟨(k, v) :: d', by simp [hk, h1, bind, Except.bind, pure, Except.pure], ?_, ?_, ?_⟩
      · simp only [dictKeys, List.map_cons] at h2 ⊢; rw [h2]
      · intro kv hkv
        rcases List.mem_cons.1 hkv with rfl | h
        · exact hv
        · exact h3 kv h
      · intro m
        by_cases hm : m = r
        · subst hm
          have := h4 m
          simp only [if_true] at this
          simp [dictFind, hk, this]
        · have := h4 m
          rw [if_neg hm] at this
          simp [dictFind, hm, this]

theorem bumpLoop_spec (F : Nat) (idx : Int → Int) (L : List (Int × Nat)) (d : Dict Nat (List Int))
    (hL : ∀ ur ∈ L, ur.2 ∈ dictKeys d ∧ 0 ≤ idx ur.1 ∧ idx ur.1 ≤ F)
    (hl : ∀ kv ∈ d, kv.2.length = F + 1) :
    ∃ d', L.foldlM (fun d ur => bump d ur.2 (idx ur.1)) d = .ok d' ∧ dictKeys d' = dictKeys d ∧
      (∀ kv ∈ d', kv.2.length = F + 1) ∧
      ∀ m v', dictFind d' m = some v' → ∃ v, dictFind d m = some v ∧ ∀ j, j ≤ F →
        (v'.drop j).sum = (v.drop j).sum +
          L.countP (fun ur => ur.2 = m ∧ (j : Int) ≤ idx ur.1) := by
  induction L generalizing d with
  | nil => exact ⟨d, rfl, rfl, hl, fun m v' h => ⟨v', h, by simp⟩⟩
  | cons ur L ih =>
    obtain ⟨hk, h0, hF⟩ := hL ur (by simp)
    obtain ⟨i, hi⟩ : ∃ i : Nat, idx ur.1 = i := ⟨(idx ur.1).toNat, by omega⟩
    obtain ⟨d1, e1, e2, e3, e4⟩ := bump_ok d ur.2 i F (by omega) hk hl
    obtain ⟨d', g1, g2, g3, g4⟩ := ih d1 (fun x hx => by rw [e2]; exact hL x (by simp [hx])) e3
    refine ⟨d', ?_, by rw [g2, e2], g3, ?_⟩
    · rw [List.foldlM_cons, hi, e1]; exact g1
    · intro m v' hv'
      obtain ⟨v1, hv1, hs⟩ := g4 m v' hv'
      rw [e4] at hv1
      by_cases hm : m = ur.2
      · rw [if_pos hm] at hv1
        obtain ⟨v, hv, rfl⟩ := Option.map_eq_some_iff.1 hv1
        refine ⟨v, hv, ?_⟩
        intro j hj
        have hlen : v.length = F + 1 := hl _ (mem_of_dictFind d m v hv)
        rw [hs j hj, sum_drop_modify _ _ _ (by omega), List.countP_cons, hi]
        by_cases hji : j ≤ i
        · simp [hm, hji]; ring
        · simp [hji]
      · rw [if_neg hm] at hv1
        refine ⟨v1, hv1, ?_⟩
        intro j hj
        rw [hs j hj, List.countP_cons]
        have : ¬ ur.2 = m := fun h => hm h.symm
        simp [this]

/-! ## The region table -/

/-- Counting entries of a dictionary with distinct keys is counting keys. -/
theorem countP_dict_eq_ncard (R : Dict Int Nat) (hn : (dictKeys R).Nodup) (p : Int → Nat → Bool) :
    R.countP (fun ur => p ur.1 ur.2) = Set.ncard {u | u ∈ dictKeys R ∧
      p u ((dictFind R u).getD 0) = true} := by
  have hset : {u | u ∈ dictKeys R ∧ p u ((dictFind R u).getD 0) = true}
      = ((((R.filter (fun ur => p ur.1 ur.2)).map (·.1)).toFinset : Finset Int) : Set Int) := by
    ext u
    simp only [Set.mem_ofPred_eq, List.coe_toFinset, List.mem_map, List.mem_filter]
    constructor
    · rintro ⟨h1, h2⟩
      obtain ⟨v, hv⟩ := exists_dictFind R u h1
      rw [hv, Option.getD_some] at h2
      exact ⟨(u, v), ⟨mem_of_dictFind R u v hv, h2⟩, rfl⟩
    · rintro ⟨ur, ⟨hm, hp⟩, rfl⟩
      refine ⟨List.mem_map.2 ⟨ur, hm, rfl⟩, ?_⟩
      rw [dictFind_of_mem R hn ur hm]; exact hp
  rw [hset, Set.ncard_coe_finset, List.toFinset_card_of_nodup, List.length_map,
    List.countP_eq_length_filter]
  exact (List.Sublist.map _ List.filter_sublist).nodup hn

theorem sum_drop_pyRepeat (n : Int) (k : Nat) : ((pyRepeat (0 : Int) n).drop k).sum = 0 := by
  apply List.sum_eq_zero
  intro x hx
  exact (List.mem_replicate.1 (List.drop_subset _ _ hx)).2

/-- The table computed from the counts of the active publishers. -/
theorem table_spec (counts : List (Nat × Dict Int Int)) (hs : (counts.map (·.1)).SortedLT)
    (hn : ∀ pc ∈ counts, (dictKeys pc.2).Nodup) (hp : ∀ pc ∈ counts, DictPos pc.2)
    (F : Nat) (hF : 1 ≤ F) :
    ∃ freqs : Dict Nat (List Int),
      (regionLoop counts).foldlM
        (fun d ur => bump d ur.2 (min (F : Int) (dictGet (totalLoop counts) ur.1)))
        (((nonemptySubsets (counts.map (·.1))).map regionOf).map
          (fun r => (r, pyRepeat (0 : Int) ((F : Int) + 1)))) = .ok freqs ∧
      dictKeys freqs = (nonemptySubsets (counts.map (·.1))).map regionOf ∧
      ∀ rf ∈ freqs,
        (if rf.1 ∈ (regionLoop counts).map (·.2) then suffixLoop rf.2.tail (rf.2.tail.length - 1)
          else rf.2.tail) = (List.range F).map (fun k : Nat => ((Set.ncard {u : Int |
            (∀ i, rf.1.testBit i = true ↔ Occurs counts i u) ∧
            (k : Int) + 1 ≤ (counts.map (fun pc => dictGet pc.2 u)).sum} : Nat) : Int)) := by
  obtain ⟨hRn, hRk, hRb⟩ := regionLoop_spec counts
  obtain ⟨hreg1, hreg2, hreg3⟩ := regions_spec (counts.map (·.1)) hs
  set regions := (nonemptySubsets (counts.map (·.1))).map regionOf with hregions
  have htot := totalLoop_spec counts hn
  -- every located user has at least one impression
  have hpos : ∀ u i, Occurs counts i u → 1 ≤ (counts.map (fun pc => dictGet pc.2 u)).sum := by
    rintro u i ⟨pc, hpc, _, hu⟩
    have h1 : 1 ≤ dictGet pc.2 u := by
      obtain ⟨kv, hkv, rfl⟩ := List.mem_map.1 hu
      rw [dictGet_of_mem _ (hn pc hpc) kv hkv]
      exact hp pc hpc kv hkv
    have h0 : ∀ pc ∈ counts, 0 ≤ dictGet pc.2 u := by
      intro pc hpc
      by_cases hu : u ∈ dictKeys pc.2
      · obtain ⟨kv, hkv, rfl⟩ := List.mem_map.1 hu
        rw [dictGet_of_mem _ (hn pc hpc) kv hkv]
        have := hp pc hpc kv hkv
        omega
      · rw [dictGet_eq_zero_of_notMem _ _ hu]
    have : dictGet pc.2 u ≤ (counts.map (fun pc => dictGet pc.2 u)).sum := by
      apply List.single_le_sum
      · intro x hx
        obtain ⟨q, hq, rfl⟩ := List.mem_map.1 hx
        exact h0 q hq
      · exact List.mem_map.2 ⟨pc, hpc, rfl⟩
    omega
  have hinitk : dictKeys (regions.map (fun r => (r, pyRepeat (0 : Int) ((F : Int) + 1)))) = regions := by
    simp [dictKeys, Function.comp_def]
  have hfindR : ∀ ur ∈ regionLoop counts, ∀ i, ur.2.testBit i = true ↔ Occurs counts i ur.1 := by
    intro ur hur i
    rw [← hRb ur.1 i, regBit, dictFind_of_mem _ hRn ur hur, Option.getD_some]
  have hmemR : ∀ ur ∈ regionLoop counts, ∃ i, Occurs counts i ur.1 := by
    intro ur hur
    exact (hRk ur.1).1 (List.mem_map.2 ⟨ur, hur, rfl⟩)
  obtain ⟨freqs, e1, e2, e3, e4⟩ := bumpLoop_spec F
    (fun u => min (F : Int) (dictGet (totalLoop counts) u)) (regionLoop counts)
    (regions.map (fun r => (r, pyRepeat (0 : Int) ((F : Int) + 1))))
    (by
      intro ur hur
      obtain ⟨i, hi⟩ := hmemR ur hur
      refine ⟨?_, ?_, min_le_left _ _⟩
      · rw [hinitk, hreg3]
        constructor
        · intro h0
          have := (hfindR ur hur i).2 hi
          rw [h0] at this; simp at this
        · intro j hj
          obtain ⟨pc, hpc, rfl, _⟩ := (hfindR ur hur j).1 hj
          exact List.mem_map.2 ⟨pc, hpc, rfl⟩
      · have := hpos ur.1 i hi
        simp only [htot]
        omega)
    (by
      intro kv hkv
      obtain ⟨r, _, rfl⟩ := List.mem_map.1 hkv
      simp [pyRepeat])
  refine ⟨freqs, e1, by rw [e2, hinitk], ?_⟩
  intro rf hrf
  have hfn : (dictKeys freqs).Nodup := by rw [e2, hinitk]; exact hreg1
  obtain ⟨v, hv, hsum⟩ := e4 rf.1 rf.2 (dictFind_of_mem freqs hfn rf hrf)
  have hvz : v = pyRepeat (0 : Int) ((F : Int) + 1) := by
    have := mem_of_dictFind _ _ _ hv
    obtain ⟨r, _, hr⟩ := List.mem_map.1 this
    simp only [Prod.mk.injEq] at hr
    exact hr.2.symm
  have hlen := e3 rf hrf
  have htl : rf.2.tail.length = F := by simp [hlen]
  -- tail sums
  have htail : ∀ k, k < F → (rf.2.tail.drop k).sum = ((Set.ncard {u : Int |
            (∀ i, rf.1.testBit i = true ↔ Occurs counts i u) ∧
            (k : Int) + 1 ≤ (counts.map (fun pc => dictGet pc.2 u)).sum} : Nat) : Int) := by
    intro k hk
    rw [List.drop_tail, hsum (k + 1) (by omega), hvz]
    rw [sum_drop_pyRepeat, zero_add]
    have := countP_dict_eq_ncard (regionLoop counts) hRn
      (fun u m => m = rf.1 ∧ ((k + 1 : Nat) : Int) ≤ min (F : Int) (dictGet (totalLoop counts) u))
    rw [this]
    congr 2
    ext u
    simp only [Set.mem_ofPred_eq, decide_eq_true_eq, htot]
    constructor
    · rintro ⟨h1, h2, h3⟩
      refine ⟨?_, by push_cast at h3; omega⟩
      intro i
      rw [← hRb u i, regBit, h2]
    · rintro ⟨h1, h2⟩
      have hin : u ∈ dictKeys (regionLoop counts) := by
        rw [hRk]
        -- rf.1 is not zero
        have hr0 : rf.1 ∈ regions := by
          rw [← hinitk, ← e2]; exact List.mem_map.2 ⟨rf, hrf, rfl⟩
        have hne := ((hreg3 rf.1).1 hr0).1
        obtain ⟨i, hi⟩ := Nat.exists_testBit_of_ne_zero hne
        exact ⟨i, (h1 i).1 hi⟩
      refine ⟨hin, ?_, by push_cast; omega⟩
      apply Nat.eq_of_testBit_eq
      intro i
      rw [Bool.eq_iff_iff, h1 i, ← hRb u i, regBit]
  apply List.ext_getElem?
  intro k
  by_cases hk : k < F
  · rw [List.getElem?_map, List.getElem?_range hk, Option.map_some, ← htail k hk]
    split
    · have hne : rf.2.tail ≠ [] := by
        intro h; rw [h] at htl; simp at htl; omega
      rw [suffixLoop_eq _ hne, suffixSums_getElem? _ _ (by omega)]
    · rename_i hocc
      -- nobody is in this region
      have hz : ∀ j, j < F → (rf.2.tail.drop j).sum = 0 := by
        intro j hj
        rw [List.drop_tail, hsum (j + 1) (by omega), hvz]
        rw [sum_drop_pyRepeat, zero_add]
        rw [Int.natCast_eq_zero, List.countP_eq_zero]
        intro ur hur
        simp only [decide_eq_true_eq, not_and]
        intro h
        exact absurd (List.mem_map.2 ⟨ur, hur, h⟩) hocc
      have hk' : k < rf.2.tail.length := by omega
      have h1 := hz k hk
      have h1' := h1
      rw [List.drop_eq_getElem_cons hk', List.sum_cons] at h1'
      rw [List.getElem?_eq_getElem hk', h1]
      by_cases hk2 : k + 1 < F
      · rw [hz (k + 1) hk2] at h1'
        simpa using h1'
      · rw [List.drop_eq_nil_of_le (by omega)] at h1'
        simpa using h1'
  · split
    · have hne : rf.2.tail ≠ [] := by
        intro h; rw [h] at htl; simp at htl; omega
      rw [suffixLoop_eq _ hne, List.getElem?_eq_none (by rw [suffixSums_length]; omega),
        List.getElem?_eq_none (by simp; omega)]
    · rw [List.getElem?_eq_none (by omega), List.getElem?_eq_none (by simp; omega)]

/-- Summing disjoint regions. -/
theorem sum_ncard_fibres (g : Int → Nat) (U : Set Int) (hU : U.Finite) (ms : List Nat)
    (hms : ms.Nodup) :
    (ms.map (fun m => Set.ncard {u | u ∈ U ∧ g u = m})).sum
      = Set.ncard {u | u ∈ U ∧ g u ∈ ms} := by
  induction ms with
  | nil => simp
  | cons m ms ih =>
    rw [List.nodup_cons] at hms
    have f1 : {u | u ∈ U ∧ g u = m}.Finite := hU.subset (fun u hu => hu.1)
    have f2 : {u | u ∈ U ∧ g u ∈ ms}.Finite := hU.subset (fun u hu => hu.1)
    rw [List.map_cons, List.sum_cons, ih hms.2, ← Set.ncard_union_eq ?_ f1 f2]
    · congr 1
      ext u
      simp only [Set.mem_union, Set.mem_ofPred_eq, List.mem_cons]
      tauto
    · rw [Set.disjoint_left]
      rintro u ⟨_, h⟩ ⟨_, h'⟩
      exact hms.1 (h ▸ h')

end HaloSimulator

end Verif
