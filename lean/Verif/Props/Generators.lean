import Verif.Model.Generators
import Verif.Lemmas.DataSet
import Verif.Lemmas.ListExcept

/-!
# Properties of the data generators: C43 (overlap), C44 (impressions), C46 (sizes)
-/

namespace Verif

open Verif.Spec

/-! ## Lemmas -/

theorem extendLoop_eq (n : Int) (freq : Nat → Int) :
    extendLoop n freq
      = (List.range n.toNat).flatMap (fun i : Nat => List.replicate (freq i).toNat (i : Int)) := by
  have h : ∀ (l : List Nat) (acc : List Int),
      l.foldl (fun acc (i : Nat) => acc ++ pyRepeat (i : Int) (freq i)) acc
        = acc ++ l.flatMap (fun i : Nat => List.replicate (freq i).toNat (i : Int)) := by
    intro l
    induction l with
    | nil => intro acc; simp
    | cons a l ih =>
      intro acc
      rw [List.foldl_cons, ih, List.flatMap_cons, List.append_assoc]
      rfl
  unfold extendLoop
  rw [h]
  simp

theorem mem_extendLoop (n : Int) (freq : Nat → Int) (hf : ∀ i, 1 ≤ freq i) (u : Int) :
    u ∈ extendLoop n freq ↔ 0 ≤ u ∧ u < n := by
  rw [extendLoop_eq]
  simp only [List.mem_flatMap, List.mem_range, List.mem_replicate]
  constructor
  · rintro ⟨i, hi, -, rfl⟩
    omega
  · rintro ⟨h0, hn⟩
    refine ⟨u.toNat, by omega, ?_, by omega⟩
    have := hf u.toNat
    omega

theorem count_extendLoop (n : Int) (freq : Nat → Int) (i : Nat) (hi : (i : Int) < n) :
    (extendLoop n freq).count (i : Int) = (freq i).toNat := by
  rw [extendLoop_eq, List.count_flatMap]
  have h : (List.map (List.count (i : Int) ∘ fun j : Nat => List.replicate (freq j).toNat (j : Int))
      (List.range n.toNat)) = (List.range n.toNat).map
        (fun j => if j = i then (freq i).toNat else 0) := by
    apply List.map_congr_left
    intro j _
    simp only [Function.comp, List.count_replicate]
    by_cases hj : j = i
    · subst hj; simp
    · have : ¬ ((j : Int) = (i : Int)) := by omega
      simp [hj, this]
  rw [h]
  change ∑ j ∈ Finset.range n.toNat, (if j = i then (freq i).toNat else 0) = _
  rw [Finset.sum_ite_eq', if_pos (by rw [Finset.mem_range]; omega)]

/-! ## C44: generated impressions reach every user -/

/-- C44, homogeneous generator: exactly the users `0..n-1` occur, user `i` as often as drawn. -/
theorem C44_homogeneous (n : Int) (lam : ℚ) (poisson : ℚ → Nat → Int)
    (shuffle : List Int → List Int)
    (hp : ∀ i, 0 ≤ poisson lam i) (hs : ∀ l, (shuffle l).Perm l) :
    (∀ u, u ∈ homogeneousImpressions n lam poisson shuffle ↔ 0 ≤ u ∧ u < n) ∧
    (∀ i : Nat, (i : Int) < n →
      ((homogeneousImpressions n lam poisson shuffle).count (i : Int) : Int)
        = 1 + poisson lam i) := by
  unfold homogeneousImpressions
  refine ⟨fun u => ?_, fun i hi => ?_⟩
  · rw [(hs _).mem_iff, mem_extendLoop _ _ (fun i => by have := hp i; omega)]
  · rw [(hs _).count_eq, count_extendLoop _ _ _ hi]
    have := hp i
    omega

/-- C44, heterogeneous generator. -/
theorem C44_heterogeneous (n : Int) (shape scale : ℚ) (gamma : ℚ → ℚ → Nat → ℚ)
    (poisson : ℚ → Nat → Int) (shuffle : List Int → List Int)
    (hp : ∀ lam i, 0 ≤ poisson lam i) (hs : ∀ l, (shuffle l).Perm l) :
    (∀ u, u ∈ heterogeneousImpressions n shape scale gamma poisson shuffle ↔ 0 ≤ u ∧ u < n) ∧
    (∀ i : Nat, (i : Int) < n →
      ((heterogeneousImpressions n shape scale gamma poisson shuffle).count (i : Int) : Int)
        = 1 + poisson (gamma shape scale i) i) := by
  unfold heterogeneousImpressions
  refine ⟨fun u => ?_, fun i hi => ?_⟩
  · rw [(hs _).mem_iff, mem_extendLoop _ _ (fun i => by have := hp (gamma shape scale i) i; omega)]
  · rw [(hs _).count_eq, count_extendLoop _ _ _ hi]
    have := hp (gamma shape scale i) i
    omega

/-- C44, heavy tailed generator: draws of the zeta distribution are at least one.  A parameter of
at most one is refused. -/
theorem C44_heavy_tailed (n : Int) (zetaS : ℚ) (zipf : ℚ → Nat → Int)
    (shuffle : List Int → List Int)
    (hp : ∀ i, 1 ≤ zipf zetaS i) (hs : ∀ l, (shuffle l).Perm l) :
    (1 < zetaS → ∃ l, heavyTailedImpressions n zetaS zipf shuffle = .ok l ∧
      (∀ u, u ∈ l ↔ 0 ≤ u ∧ u < n) ∧
      (∀ i : Nat, (i : Int) < n → (l.count (i : Int) : Int) = zipf zetaS i)) ∧
    (zetaS ≤ 1 → heavyTailedImpressions n zetaS zipf shuffle = .error .assertionError) := by
  unfold heavyTailedImpressions
  refine ⟨fun h => ?_, fun h => ?_⟩
  · rw [if_pos h]
    refine ⟨_, rfl, fun u => ?_, fun i hi => ?_⟩
    · rw [(hs _).mem_iff, mem_extendLoop _ _ hp]
    · rw [(hs _).count_eq, count_extendLoop _ _ _ hi]
      have := hp i
      omega
  · rw [if_neg (not_lt.2 h)]

/-- Three users, frequencies 1, 3 and 2, a reversing shuffle. -/
example : homogeneousImpressions 3 2 (fun _ i => [0, 2, 1].getD i 0) List.reverse
    = [2, 2, 1, 1, 1, 0] := by decide +kernel

example : heavyTailedImpressions 2 (5 / 2) (fun _ i => [2, 1].getD i 1) List.reverse
    = .ok [1, 0, 0] := by decide +kernel

example : heterogeneousImpressions 2 1 2 (fun _ _ i => (i : ℚ)) (fun lam _ => lam.floor + 1)
    List.reverse = [1, 1, 1, 0, 0] := by decide +kernel

/-- C44, fixed prices: the ids are kept in order, the `i`-th impression costs `(i+1)` times the
price, and a positive price makes the spends strictly increasing. -/
theorem C44_fixed_price (cpi : ℚ) (imps : List Int) :
    (fixedPrice cpi imps).map (·.1) = imps ∧
    (∀ i (h : i < (fixedPrice cpi imps).length),
      ((fixedPrice cpi imps)[i]).2 = ((i : ℚ) + 1) * cpi) ∧
    (0 < cpi → (fixedPrice cpi imps).Pairwise (fun a b => a.2 < b.2)) := by
  refine ⟨?_, ?_, ?_⟩
  · simp only [fixedPrice, List.map_map]
    exact List.zipIdx_map_fst 0 imps
  · intro i h
    simp [fixedPrice]
  · intro hc
    rw [List.pairwise_iff_getElem]
    intro i j hi hj hij
    simp only [fixedPrice, List.getElem_map, List.getElem_zipIdx, Nat.zero_add]
    have : (i : ℚ) < (j : ℚ) := by exact_mod_cast hij
    nlinarith

theorem fixedPrice_length (cpi : ℚ) (imps : List Int) :
    (fixedPrice cpi imps).length = imps.length := by simp [fixedPrice]

theorem fixedPrice_sorted (cpi : ℚ) (imps : List Int) (hc : 0 < cpi) :
    (fixedPrice cpi imps).Pairwise (fun a b => a.2 ≤ b.2) :=
  ((C44_fixed_price cpi imps).2.2 hc).imp (fun h => le_of_lt h)

theorem lenSet_range (imps : List Int) (n : Int)
    (hm : ∀ u, u ∈ imps ↔ 0 ≤ u ∧ u < n) : (lenSet imps : Int) = max n 0 := by
  rw [lenSet_eq_ncard]
  have : {u | u ∈ imps} = ((Finset.Ico (0 : Int) n : Finset Int) : Set Int) := by
    ext u; simp [hm]
  rw [this, Set.ncard_coe_finset]
  simp

/-- C44, generated publisher: from a list reaching exactly the users `0..n-1` and a positive price,
the publisher has reach `n`, keeps the log in the order generated, and `m` impressions cost exactly
`m` times the price — and that budget buys exactly `m` impressions. -/
theorem C44_generated_publisher (imps : List Int) (n : Int) (cpi : ℚ) (name rnd : String)
    (hm : ∀ u, u ∈ imps ↔ 0 ≤ u ∧ u < n) (hn : 0 < n) (hc : 0 < cpi) :
    ∃ p, generatePublisherData imps (fixedPrice cpi) name rnd = .ok p ∧
      (p.maxReach : Int) = n ∧
      p.data.map (·.1) = imps ∧
      p.maxSpend = (imps.length : ℚ) * cpi ∧
      ∀ m : Nat, m ≤ imps.length →
        p.spendByImpressions m = .ok ((m : ℚ) * cpi) ∧
        p.impressionsBySpend ((m : ℚ) * cpi) = m := by
  have hne : imps ≠ [] := by
    rintro rfl
    have := (hm 0).2 ⟨le_rfl, hn⟩
    simp at this
  have hpos : 0 < imps.length := List.length_pos_iff.2 hne
  have hlen := fixedPrice_length cpi imps
  obtain ⟨hids, hspend, -⟩ := C44_fixed_price cpi imps
  obtain ⟨mx, hmx⟩ := pyMax_ok_of_ne_nil ((fixedPrice cpi imps).map (·.2))
    (by
      intro h
      have := congrArg List.length h
      rw [List.length_map, hlen] at this
      simp at this
      exact hne this)
  refine ⟨_, (new_ok_iff _ _ _ _).2 ⟨mx, hmx, rfl⟩, ?_, ?_, ?_, ?_⟩
  · simp only [hids]
    rw [lenSet_range imps n hm]
    omega
  · simp only [sortBySpend_of_sorted _ (fixedPrice_sorted cpi imps hc), hids]
  · obtain ⟨h1, h2⟩ := pyMax_spec _ _ hmx
    simp only
    apply le_antisymm
    · obtain ⟨e, he, rfl⟩ := List.mem_map.1 h2
      obtain ⟨i, hi, rfl⟩ := List.getElem_of_mem he
      rw [hspend i hi]
      have : (i : ℚ) + 1 ≤ (imps.length : ℚ) := by
        have : i + 1 ≤ imps.length := by omega
        exact_mod_cast this
      nlinarith
    · have hi : imps.length - 1 < (fixedPrice cpi imps).length := by omega
      have := h1 _ (List.mem_map.2 ⟨_, List.getElem_mem hi, rfl⟩)
      rw [hspend _ hi] at this
      have e : ((imps.length - 1 : Nat) : ℚ) + 1 = (imps.length : ℚ) := by
        have : imps.length - 1 + 1 = imps.length := by omega
        exact_mod_cast this
      rw [e] at this
      exact this
  · intro m hml
    constructor
    · unfold PublisherData.spendByImpressions
      rcases Nat.eq_zero_or_pos m with rfl | hm0
      · simp
      · rw [if_neg (by omega)]
        simp only [sortBySpend_of_sorted _ (fixedPrice_sorted cpi imps hc)]
        have hidx : (min ((fixedPrice cpi imps).length : Int) (m : Int) - 1)
            = ((m - 1 : Nat) : Int) := by omega
        rw [hidx, pyIndex_nat _ _ (by omega)]
        simp only [bind, Except.bind, pure, Except.pure, hspend]
        have e : ((m - 1 : Nat) : ℚ) + 1 = (m : ℚ) := by
          have : m - 1 + 1 = m := by omega
          exact_mod_cast this
        rw [e]
    · unfold PublisherData.impressionsBySpend
      rw [bisectRight_eq_countP _ _ (map_snd_pairwise _ (fixedPrice_sorted cpi imps hc))]
      rw [List.countP_map]
      have hiff : ∀ i (h : i < (fixedPrice cpi imps).length),
          ((fixedPrice cpi imps)[i]).2 ≤ (m : ℚ) * cpi ↔ i < m := by
        intro i h
        rw [hspend i h, mul_le_mul_iff_left₀ hc]
        constructor
        · intro h; have : i + 1 ≤ m := by exact_mod_cast h
          omega
        · intro h; exact_mod_cast h
      have hsplit := List.take_append_drop m (fixedPrice cpi imps)
      rw [← hsplit, List.countP_append]
      have h1 : List.countP ((fun y => decide (y ≤ (m : ℚ) * cpi)) ∘ fun e : Int × ℚ => e.2)
          (List.take m (fixedPrice cpi imps)) = (List.take m (fixedPrice cpi imps)).length := by
        rw [List.countP_eq_length]
        intro e he
        obtain ⟨i, hi, rfl⟩ := List.getElem_of_mem he
        rw [List.length_take] at hi
        simp only [Function.comp, decide_eq_true_eq, List.getElem_take]
        exact (hiff i (by omega)).2 (by omega)
      have h2 : List.countP ((fun y => decide (y ≤ (m : ℚ) * cpi)) ∘ fun e : Int × ℚ => e.2)
          (List.drop m (fixedPrice cpi imps)) = 0 := by
        rw [List.countP_eq_zero]
        intro e he
        obtain ⟨i, hi, rfl⟩ := List.getElem_of_mem he
        rw [List.length_drop] at hi
        simp only [Function.comp, decide_eq_true_eq, List.getElem_drop]
        rw [hiff (m + i) (by omega)]
        omega
      rw [h1, h2, List.length_take]
      omega

/-- C44: without users there are no impressions and constructing the publisher fails. -/
theorem C44_no_users (imps : List Int) (n : Int) (cpi : ℚ) (name rnd : String)
    (hm : ∀ u, u ∈ imps ↔ 0 ≤ u ∧ u < n) (hn : n ≤ 0) :
    generatePublisherData imps (fixedPrice cpi) name rnd = .error .valueError := by
  have : imps = [] := by
    rw [List.eq_nil_iff_forall_not_mem]
    intro u hu
    have := (hm u).1 hu
    omega
  subst this
  rfl

/-- The hypotheses of `C44_generated_publisher` hold for the list above. -/
example : ∃ p, generatePublisherData [2, 2, 1, 1, 1, 0] (fixedPrice (1 / 10)) "1" "" = .ok p ∧
    p.maxReach = 3 ∧ p.maxSpend = 6 / 10 ∧ p.impressionsBySpend (3 / 10) = 3 :=
  ⟨_, rfl, by decide +kernel, by decide +kernel, by decide +kernel⟩

/-! ## C43: overlap relabelling -/

/-- The two publishers answer every question about their own audience alike: how many impressions
they have, what they cost, how many people they reach, and how many people see how many impressions
at any budget or number of impressions (the values are listed person by person). -/
def SameBehaviour (p q : PublisherData) : Prop :=
  q.maxImpressions = p.maxImpressions ∧ q.maxSpend = p.maxSpend ∧ q.maxReach = p.maxReach ∧
  q.data.map (·.2) = p.data.map (·.2) ∧
  (∀ n, q.spendByImpressions n = p.spendByImpressions n) ∧
  (∀ s, (q.userCountsBySpend s).map (·.2) = (p.userCountsBySpend s).map (·.2)) ∧
  (∀ n, (q.userCountsByImpressions n).map (·.2) = (p.userCountsByImpressions n).map (·.2))

theorem dictLookup_zip (k v : List Int) (hl : k.length = v.length) (u : Int) (hu : u ∈ k) :
    dictLookup (k.zip v) u = .ok (v.getD (k.idxOf u) 0) := by
  induction k generalizing v with
  | nil => simp at hu
  | cons a k ih =>
    cases v with
    | nil => simp at hl
    | cons b v =>
      simp only [List.zip_cons_cons, dictLookup]
      by_cases h : a = u
      · simp [h]
      · rw [if_neg h, ih v (by simpa using hl) (by
          rcases List.mem_cons.1 hu with h' | h'
          · exact absurd h'.symm h
          · exact h')]
        rw [List.idxOf_cons_ne _ h]
        simp

theorem dictAdd_map (f : Int → Int) (d : Dict Int Int) (k v : Int)
    (hf : ∀ x ∈ k :: dictKeys d, ∀ y ∈ k :: dictKeys d, f x = f y → x = y) :
    dictAdd (d.map (fun e => (f e.1, e.2))) (f k) v
      = (dictAdd d k v).map (fun e => (f e.1, e.2)) := by
  induction d with
  | nil => rfl
  | cons e d ih =>
    obtain ⟨k', v'⟩ := e
    simp only [List.map_cons, dictAdd]
    by_cases h : k' = k
    · simp [h]
    · have : f k' ≠ f k := fun h' => h (hf _ (by simp [dictKeys]) _ (by simp) h')
      rw [if_neg h, if_neg this, List.map_cons, ih]
      intro x hx y hy
      apply hf
      · simp only [dictKeys, List.map_cons, List.mem_cons] at hx ⊢; tauto
      · simp only [dictKeys, List.map_cons, List.mem_cons] at hy ⊢; tauto

theorem counter_foldl_map (f : Int → Int) (l : List Int) (d : Dict Int Int)
    (hf : ∀ x ∈ l ++ dictKeys d, ∀ y ∈ l ++ dictKeys d, f x = f y → x = y) :
    (l.map f).foldl (fun d k => dictAdd d k 1) (d.map (fun e => (f e.1, e.2)))
      = (l.foldl (fun d k => dictAdd d k 1) d).map (fun e => (f e.1, e.2)) := by
  induction l generalizing d with
  | nil => rfl
  | cons a l ih =>
    simp only [List.map_cons, List.foldl_cons]
    rw [dictAdd_map f d a 1, ih]
    · intro x hx y hy
      have hsub : ∀ z, z ∈ l ++ dictKeys (dictAdd d a 1) → z ∈ a :: l ++ dictKeys d := by
        intro z hz
        rcases List.mem_append.1 hz with hz | hz
        · simp [hz]
        · rw [mem_keys_dictAdd] at hz
          rcases hz with hz | hz <;> simp [hz]
      exact hf x (hsub x hx) y (hsub y hy)
    · intro x hx y hy
      have hsub : ∀ z, z ∈ a :: dictKeys d → z ∈ a :: l ++ dictKeys d := by
        intro z hz
        rcases List.mem_cons.1 hz with hz | hz <;> simp [hz]
      exact hf x (hsub x hx) y (hsub y hy)

theorem counter_map_values (f : Int → Int) (l : List Int)
    (hf : ∀ x ∈ l, ∀ y ∈ l, f x = f y → x = y) :
    (counter (l.map f)).map (·.2) = (counter l).map (·.2) := by
  have := counter_foldl_map f l [] (by simpa [dictKeys] using hf)
  unfold counter
  rw [List.map_nil] at this
  rw [this, List.map_map]
  rfl

theorem lenSet_perm {l l' : List Int} (h : l.Perm l') : lenSet l = lenSet l' :=
  h.dedup.length_eq

theorem Built.maxReach_eq {log : Log} {p : PublisherData} (h : Built log p) :
    p.maxReach = lenSet (p.data.map (·.1)) := by
  rw [h.data_eq, lenSet_perm ((sortBySpend_perm log).map (·.1))]
  obtain ⟨n, r, h⟩ := h
  obtain ⟨m, hm, rfl⟩ := (new_ok_iff _ _ _ _).1 h
  rfl

theorem Built.maxSpend_ok {log : Log} {p : PublisherData} (h : Built log p) :
    (∀ y ∈ p.data.map (·.2), y ≤ p.maxSpend) ∧ p.maxSpend ∈ p.data.map (·.2) := by
  have hperm := (sortBySpend_perm log).map (·.2)
  rw [h.data_eq]
  obtain ⟨n, r, h⟩ := h
  obtain ⟨m, hm, rfl⟩ := (new_ok_iff _ _ _ _).1 h
  obtain ⟨h1, h2⟩ := pyMax_spec _ _ hm
  exact ⟨fun y hy => h1 y (hperm.mem_iff.1 hy), hperm.mem_iff.2 h2⟩

theorem filter_map_snd (f : Int → Int) (l : Log) (s : ℚ) :
    ((l.map (fun e => (f e.1, e.2))).filter (fun e => e.2 ≤ s)).map (·.1)
      = ((l.filter (fun e => e.2 ≤ s)).map (·.1)).map f := by
  induction l with
  | nil => rfl
  | cons a l ih =>
    simp only [List.map_cons, List.filter_cons]
    by_cases h : a.2 ≤ s
    · simp only [h, decide_true, if_true, List.map_cons, ih]
    · simp only [h, decide_false, Bool.false_eq_true, if_false, ih]

theorem pySliceTo_map {α β : Type} (f : α → β) (l : List α) (i : Int) :
    pySliceTo (l.map f) i = (pySliceTo l i).map f := by
  unfold pySliceTo
  by_cases h : i < 0
  · simp [h, List.map_take]
  · simp [h, List.map_take]

theorem pySliceTo_subset {α : Type} (l : List α) (i : Int) (x : α) (h : x ∈ pySliceTo l i) :
    x ∈ l := by
  unfold pySliceTo at h
  by_cases hi : i < 0
  · rw [if_pos hi] at h; exact List.mem_of_mem_take h
  · rw [if_neg hi] at h; exact List.mem_of_mem_take h

theorem pyIndex_map {α β : Type} (f : α → β) (l : List α) (i : Int) :
    pyIndex (l.map f) i = (pyIndex l i).map f := by
  unfold pyIndex
  simp only [List.length_map, List.getElem?_map]
  by_cases h : i < 0
  · simp only [h, if_true]
    by_cases h2 : i + (l.length : Int) < 0
    · simp [h2, Except.map]
    · simp only [h2, if_false]
      cases l[(i + (l.length : Int)).toNat]? <;> rfl
  · simp only [h, if_false]
    cases l[i.toNat]? <;> rfl

/-- What one round of the relabelling does: the new log is the old one under a map that is
one-to-one on the publisher's users. -/
theorem labelOne_spec (setOrder : List Int → List Int)
    (ho : ∀ l : List Int, (setOrder l).Perm l.dedup)
    (ids : List Int) (p : PublisherData) (log : Log) (hb : Built log p) (rnd : String)
    (hl : ids.length = p.maxReach) :
    ∃ (q : PublisherData) (f : Int → Int), labelOne setOrder ids p rnd = .ok q ∧
      q.data = p.data.map (fun e => (f e.1, e.2)) ∧
      Built (p.data.map (fun e => (f e.1, e.2))) q ∧
      q.name = (if p.name = "" then rnd else p.name) ∧
      (∀ u, u ∈ q.data.map (·.1) ↔ u ∈ ids) ∧
      (ids.Nodup → ∀ x ∈ p.data.map (·.1), ∀ y ∈ p.data.map (·.1), f x = f y → x = y) := by
  set order := setOrder (p.data.map (·.1)) with horder
  have hperm : order.Perm (p.data.map (·.1)).dedup := ho _
  have hlen : order.length = ids.length := by
    rw [hperm.length_eq, hl, hb.maxReach_eq]; rfl
  have hmem : ∀ u, u ∈ order ↔ u ∈ p.data.map (·.1) := by
    intro u; rw [hperm.mem_iff, List.mem_dedup]
  have hget : ∀ i (hi : i < ids.length), ids.getD i 0 = ids[i] := by
    intro i hi; simp [List.getD, hi]
  have hnd : order.Nodup := hperm.nodup_iff.2 (List.nodup_dedup _)
  set f : Int → Int := fun u => ids.getD (order.idxOf u) 0 with hf
  have hmap : p.data.mapM (fun e => do
      let u ← dictLookup (order.zip ids) e.1
      return (u, e.2)) = .ok (p.data.map (fun e => (f e.1, e.2))) := by
    rw [mapM_ok_iff, List.forall₂_map_right_iff, List.forall₂_same]
    intro e he
    rw [dictLookup_zip order ids hlen e.1 ((hmem _).2 (List.mem_map_of_mem he))]
    rfl
  have hne : p.data.map (fun e => (f e.1, e.2)) ≠ [] := by
    intro h
    rw [List.map_eq_nil_iff, hb.data_eq] at h
    exact hb.ne_nil (List.perm_nil.1 (h ▸ (sortBySpend_perm log).symm))
  obtain ⟨mx, hmx⟩ := pyMax_ok_of_ne_nil ((p.data.map (fun e => (f e.1, e.2))).map (·.2))
    (by simpa using hne)
  have hsorted : (p.data.map (fun e => (f e.1, e.2))).Pairwise (fun a b => a.2 ≤ b.2) := by
    rw [List.pairwise_map, hb.data_eq]
    exact sortBySpend_pairwise log
  have hnew := (new_ok_iff (p.data.map (fun e => (f e.1, e.2))) p.name rnd _).2 ⟨mx, hmx, rfl⟩
  refine ⟨_, f, ?_, ?_, ⟨_, _, hnew⟩, ?_, ?_, ?_⟩
  · unfold labelOne
    rw [if_neg (by simpa using hl)]
    change Except.bind (p.data.mapM (fun e => do
      let u ← dictLookup (order.zip ids) e.1
      return (u, e.2))) (fun newLog => PublisherData.new newLog p.name rnd) = _
    rw [hmap]
    exact hnew
  · simp only [sortBySpend_of_sorted _ hsorted]
  · rfl
  · intro u
    simp only [sortBySpend_of_sorted _ hsorted, List.map_map, List.mem_map, Function.comp]
    constructor
    · rintro ⟨e, he, rfl⟩
      have hi : order.idxOf e.1 < ids.length := by
        rw [← hlen]; exact List.idxOf_lt_length_iff.2 ((hmem _).2 (List.mem_map_of_mem he))
      simp only [hf, hget _ hi]
      exact List.getElem_mem _
    · intro hu
      obtain ⟨i, hi, rfl⟩ := List.getElem_of_mem hu
      have hi' : i < order.length := by omega
      obtain ⟨e, he, heq⟩ := List.mem_map.1 ((hmem _).1 (List.getElem_mem hi'))
      refine ⟨e, he, ?_⟩
      simp only [hf, heq, hnd.idxOf_getElem i hi', hget _ hi]
  · intro hids x hx y hy hxy
    have hix : order.idxOf x < ids.length := by
      rw [← hlen]; exact List.idxOf_lt_length_iff.2 ((hmem _).2 hx)
    have hiy : order.idxOf y < ids.length := by
      rw [← hlen]; exact List.idxOf_lt_length_iff.2 ((hmem _).2 hy)
    simp only [hf, hget _ hix, hget _ hiy] at hxy
    have := (hids.getElem_inj_iff).1 hxy
    exact (List.idxOf_inj ((hmem _).2 hx)).1 this

/-- C43, one publisher: a pattern of distinct ids, as many as the publisher's reach, changes nothing
but the ids, and the new users are exactly those of the pattern. -/
theorem C43_one_publisher (setOrder : List Int → List Int)
    (ho : ∀ l : List Int, (setOrder l).Perm l.dedup)
    (ids : List Int) (p : PublisherData) (log : Log) (hb : Built log p) (rnd : String)
    (hl : ids.length = p.maxReach) (hn : ids.Nodup) :
    ∃ q, labelOne setOrder ids p rnd = .ok q ∧ SameBehaviour p q ∧
      (∀ u, u ∈ q.data.map (·.1) ↔ u ∈ ids) ∧
      q.name = (if p.name = "" then rnd else p.name) := by
  obtain ⟨q, f, hq, hdata, hbq, hname, hu, hinj⟩ := labelOne_spec setOrder ho ids p log hb rnd hl
  refine ⟨q, hq, ⟨?_, ?_, ?_, ?_, ?_, ?_, ?_⟩, hu, hname⟩
  · simp [PublisherData.maxImpressions, hdata]
  · obtain ⟨a1, a2⟩ := hb.maxSpend_ok
    obtain ⟨b1, b2⟩ := hbq.maxSpend_ok
    have e : q.data.map (·.2) = p.data.map (·.2) := by rw [hdata, List.map_map]; rfl
    rw [e] at b1 b2
    exact le_antisymm (a1 _ b2) (b1 _ a2)
  · rw [hbq.maxReach_eq, lenSet_eq_ncard]
    have : {u | u ∈ q.data.map (·.1)} = {u | u ∈ ids} := by ext u; exact hu u
    rw [this, ← lenSet_eq_ncard, ← hl]
    unfold lenSet
    rw [hn.dedup]
  · rw [hdata, List.map_map]; rfl
  · intro n
    unfold PublisherData.spendByImpressions
    rw [hdata, List.length_map, pyIndex_map]
    by_cases h : n = 0
    · simp [h]
    · rw [if_neg h, if_neg h]
      cases pyIndex p.data (min (p.data.length : Int) n - 1) <;> rfl
  · intro s
    unfold PublisherData.userCountsBySpend
    rw [hdata, filter_map_snd]
    apply counter_map_values
    intro x hx y hy
    obtain ⟨e, he, rfl⟩ := List.mem_map.1 hx
    obtain ⟨e', he', rfl⟩ := List.mem_map.1 hy
    exact hinj hn _ (List.mem_map_of_mem (List.mem_of_mem_filter he)) _
      (List.mem_map_of_mem (List.mem_of_mem_filter he'))
  · intro n
    unfold PublisherData.userCountsByImpressions
    rw [hdata, pySliceTo_map, List.map_map]
    have : ((fun e : Int × ℚ => e.1) ∘ fun e : Int × ℚ => (f e.1, e.2))
        = f ∘ (fun e : Int × ℚ => e.1) := rfl
    rw [this, ← List.map_map]
    apply counter_map_values
    intro x hx y hy
    obtain ⟨e, he, rfl⟩ := List.mem_map.1 hx
    obtain ⟨e', he', rfl⟩ := List.mem_map.1 hy
    exact hinj hn _ (List.mem_map_of_mem (pySliceTo_subset _ _ _ he)) _
      (List.mem_map_of_mem (pySliceTo_subset _ _ _ he'))

/-- `lists` pairs up with `pubs`: each publisher was constructed from a log, and its list of ids has
no repetitions and as many ids as the publisher's reach. -/
inductive Fits : List (List Int) → List PublisherData → Prop
  | nil : Fits [] []
  | cons {ids : List Int} {lists : List (List Int)} {p : PublisherData}
      {pubs : List PublisherData} (log : Log) (hb : Built log p) (hn : ids.Nodup)
      (hl : ids.length = p.maxReach) (rest : Fits lists pubs) : Fits (ids :: lists) (p :: pubs)

/-- C43: relabelling a whole list of publishers.  Every publisher keeps its behaviour and its place,
and has exactly the users of its pattern, so the overlap between publishers is that of the
patterns. -/
theorem C43_preserves (setOrder : List Int → List Int)
    (ho : ∀ l : List Int, (setOrder l).Perm l.dedup)
    (lists : List (List Int)) (pubs : List PublisherData) (rnd : String) (h : Fits lists pubs) :
    ∃ qs, labelIds setOrder lists pubs rnd = .ok qs ∧
      List.Forall₂ SameBehaviour pubs qs ∧
      List.Forall₂ (fun ids q => ∀ u, u ∈ q.data.map (·.1) ↔ u ∈ ids) lists qs := by
  induction h with
  | nil => exact ⟨[], rfl, .nil, .nil⟩
  | @cons ids lists p pubs log hb hn hl rest ih =>
    obtain ⟨qs, hqs, h1, h2⟩ := ih
    obtain ⟨q, hq, h3, h4, -⟩ := C43_one_publisher setOrder ho ids p log hb rnd hl hn
    refine ⟨q :: qs, ?_, .cons h3 h1, .cons h4 h2⟩
    unfold labelIds at hqs ⊢
    rw [mapM_ok_iff] at hqs ⊢
    exact .cons hq hqs

/-- C43: the data set built from the pattern has all publishers, each behaving as before, and its
total audience is the union of the patterns. -/
theorem C43_data_set (setOrder : List Int → List Int)
    (ho : ∀ l : List Int, (setOrder l).Perm l.dedup)
    (overlap : List Nat → List (List Int)) (pubs : List PublisherData) (name rnd : String)
    (h : Fits (overlap (pubs.map (·.maxReach))) pubs) (hname : name ≠ "") :
    ∃ ds, overlapDataSet setOrder overlap pubs name rnd = .ok ds ∧ ds.name = name ∧
      List.Forall₂ SameBehaviour pubs ds.data ∧
      ds.maximumReach
        = Set.ncard {u | ∃ ids ∈ overlap (pubs.map (·.maxReach)), u ∈ ids} := by
  obtain ⟨qs, hqs, h1, h2⟩ := C43_preserves setOrder ho _ pubs rnd h
  unfold overlapDataSet
  simp only [hqs, bind, Except.bind, DataSet.new, if_neg hname]
  refine ⟨_, rfl, rfl, h1, ?_⟩
  simp only [DataSet.totalAudience]
  rw [lenSet_eq_ncard]
  congr 1
  ext u
  simp only [List.mem_flatMap, Set.mem_ofPred_eq]
  clear hqs h1 h
  generalize overlap (pubs.map (·.maxReach)) = lists at h2
  induction h2 with
  | nil => simp
  | cons h _ ih => simp only [List.mem_cons, exists_eq_or_imp, h u, ih]

/-- C43: a pattern of the wrong size is refused, whatever comes before or after it. -/
theorem C43_refused (setOrder : List Int → List Int)
    (ho : ∀ l : List Int, (setOrder l).Perm l.dedup)
    (lists : List (List Int)) (pubs : List PublisherData) (rnd : String)
    (hb : ∀ p ∈ pubs, ∃ log, Built log p)
    (hbad : ∃ sp ∈ lists.zip pubs, sp.1.length ≠ sp.2.maxReach) :
    labelIds setOrder lists pubs rnd = .error .assertionError := by
  unfold labelIds
  have hb' : ∀ sp ∈ lists.zip pubs, ∃ log, Built log sp.2 :=
    fun sp hsp => hb _ (List.of_mem_zip hsp).2
  clear hb
  generalize lists.zip pubs = l at hbad hb'
  induction l with
  | nil => simp at hbad
  | cons sp l ih =>
    rw [List.mapM_cons]
    by_cases hl : sp.1.length = sp.2.maxReach
    · obtain ⟨log, hlog⟩ := hb' sp (by simp)
      obtain ⟨q, f, hq, -⟩ := labelOne_spec setOrder ho sp.1 sp.2 log hlog rnd hl
      rw [hq]
      simp only [bind, Except.bind]
      rw [ih]
      · obtain ⟨x, hx, hxl⟩ := hbad
        rcases List.mem_cons.1 hx with rfl | hx
        · exact absurd hl hxl
        · exact ⟨x, hx, hxl⟩
      · exact fun x hx => hb' x (List.mem_cons_of_mem _ hx)
    · have : labelOne setOrder sp.1 sp.2 rnd = .error .assertionError := by
        unfold labelOne; rw [if_pos hl]
      rw [this]; rfl

/-- C43: if the generator yields fewer patterns than publishers, the remaining publishers are dropped
without an error: the result has as many publishers as the shorter list. -/
theorem C43_length (setOrder : List Int → List Int) (lists : List (List Int))
    (pubs qs : List PublisherData) (rnd : String)
    (h : labelIds setOrder lists pubs rnd = .ok qs) :
    qs.length = min lists.length pubs.length := by
  unfold labelIds at h
  rw [mapM_ok_iff] at h
  rw [← h.length_eq, List.length_zip]

/-- Two publishers with two users each; the pattern makes them share one user. -/
def exOverlapLogs : List Log :=
  [[(0, 1), (1, 2), (0, 3)], [(5, 2), (7, 1), (7, 4), (5, 5)]]

/-- The publishers of `exOverlapLogs`. -/
def exOverlapPubs : List PublisherData :=
  [⟨[(0, 1), (1, 2), (0, 3)], [1, 2, 3], 3, 2, "1"⟩,
   ⟨[(7, 1), (5, 2), (7, 4), (5, 5)], [2, 1, 4, 5], 5, 2, "2"⟩]

example : Fits [[10, 11], [11, 12]] exOverlapPubs :=
  .cons [(0, 1), (1, 2), (0, 3)] ⟨"1", "", by decide +kernel⟩ (by decide) (by decide)
    (.cons [(5, 2), (7, 1), (7, 4), (5, 5)] ⟨"2", "", by decide +kernel⟩ (by decide) (by decide)
      .nil)

example : (labelIds List.dedup [[10, 11], [11, 12]] exOverlapPubs "").map
    (fun qs => qs.map (fun q => q.data))
    = .ok [[(11, 1), (10, 2), (11, 3)], [(11, 1), (12, 2), (11, 4), (12, 5)]] := by
  decide +kernel

/-- A repeated id merges two users, which is why distinct ids are required. -/
example : (labelIds List.dedup [[10, 10], [11, 12]] exOverlapPubs "").map
    (fun qs => qs.map (fun q => q.maxReach)) = .ok [1, 2] := by decide +kernel

example : labelIds List.dedup [[10, 11], [11, 12, 13]] exOverlapPubs ""
    = .error .assertionError := by decide +kernel

example : (labelIds List.dedup [[10, 11]] exOverlapPubs "").map
    (fun qs => qs.length) = .ok 1 := by decide +kernel

/-! ## C46: publisher sizes -/

theorem sizesFrom_length (d : ℝ) (k : Nat) (s : Int) : (sizesFrom d k s).length = k := by
  induction k generalizing s with
  | zero => rfl
  | succ k ih => simp [sizesFrom, ih]

theorem sizesFrom_succ (d : ℝ) (k : Nat) (s : Int) (i : Nat) (hi : i + 1 < k) :
    (sizesFrom d k s)[i + 1]? = ((sizesFrom d k s)[i]?).map (fun t : Int => ⌊(t : ℝ) * d⌋) := by
  induction k generalizing s i with
  | zero => omega
  | succ k ih =>
    cases i with
    | zero =>
      cases k with
      | zero => omega
      | succ k => simp [sizesFrom]
    | succ i =>
      simp only [sizesFrom, List.getElem?_cons_succ]
      exact ih _ _ (by omega)

theorem decayRate_bounds (P : Int) (ratio : ℝ) (hP : 1 ≤ P) (h0 : 0 < ratio) (h1 : ratio ≤ 1) :
    0 < decayRate P ratio ∧ decayRate P ratio ≤ 1 := by
  unfold decayRate
  by_cases h : P = 1
  · simp [h]
  · rw [if_neg h]
    refine ⟨Real.rpow_pos_of_pos h0 _, Real.rpow_le_one h0.le h1 ?_⟩
    have : (1 : ℝ) ≤ (P : ℝ) := by exact_mod_cast hP
    apply div_nonneg <;> linarith

theorem decayRate_pow (P : Int) (ratio : ℝ) (hP : 2 ≤ P) (h0 : 0 < ratio) :
    decayRate P ratio ^ (P - 1).toNat = ratio := by
  unfold decayRate
  rw [if_neg (by omega)]
  have hn : (P - 1).toNat ≠ 0 := by omega
  have e : ((P : ℝ) - 1) = ((P - 1).toNat : ℝ) := by
    have : ((P - 1).toNat : Int) = P - 1 := by omega
    have h2 : (((P - 1).toNat : Int) : ℝ) = ((P - 1 : Int) : ℝ) := by rw [this]
    push_cast at h2
    linarith
  rw [e, one_div]
  exact Real.rpow_inv_natCast_pow h0.le hn

theorem sizesFrom_bounds (d : ℝ) (h0 : 0 < d) (h1 : d ≤ 1) (k : Nat) (s : Int)
    (i : Nat) (t : Int) (ht : (sizesFrom d k s)[i]? = some t) :
    (t : ℝ) ≤ s * d ^ i ∧ (s : ℝ) * d ^ i - i ≤ t ∧ (0 < i → (s : ℝ) * d ^ i - i < t) := by
  induction i generalizing t with
  | zero =>
    cases k with
    | zero => simp [sizesFrom] at ht
    | succ k =>
      simp only [sizesFrom, List.getElem?_cons_zero, Option.some.injEq] at ht
      subst ht; simp
  | succ i ih =>
    have hik : i + 1 < k := by
      have := (List.getElem?_eq_some_iff.1 ht).1
      rwa [sizesFrom_length] at this
    rw [sizesFrom_succ d k s i hik] at ht
    obtain ⟨t', ht', rfl⟩ := Option.map_eq_some_iff.1 ht
    obtain ⟨hu, hl, -⟩ := ih t' ht'
    have hstrict : (s : ℝ) * d ^ (i + 1) - ((i + 1 : Nat) : ℝ) < (⌊(t' : ℝ) * d⌋ : ℤ) := by
      have hf := Int.sub_one_lt_floor ((t' : ℝ) * d)
      have h2 : ((s : ℝ) * d ^ i - i) * d ≤ t' * d := mul_le_mul_of_nonneg_right hl h0.le
      have h3 : (i : ℝ) * d ≤ i := by
        have : (0 : ℝ) ≤ i := Nat.cast_nonneg i
        nlinarith
      push_cast
      rw [pow_succ]
      nlinarith
    refine ⟨?_, hstrict.le, fun _ => hstrict⟩
    calc ((⌊(t' : ℝ) * d⌋ : ℤ) : ℝ) ≤ t' * d := Int.floor_le _
      _ ≤ s * d ^ i * d := mul_le_mul_of_nonneg_right hu h0.le
      _ = s * d ^ (i + 1) := by rw [pow_succ]; ring

/-- The claim of C46 about the smallest publisher, in full: the last of at least two sizes is the
largest size times the ratio rounded down, and all sizes are positive if that is. -/
def C46_full : Prop :=
  ∀ (P N : Int) (ratio : ℝ), 2 ≤ P → 0 < N → 0 < ratio → ratio ≤ 1 →
    (publisherSizes P N ratio).getLast? = some ⌊(N : ℝ) * ratio⌋ ∧
    (1 ≤ (N : ℝ) * ratio → ∀ t ∈ publisherSizes P N ratio, 0 < t)

theorem decayRate_three_square (x : ℝ) (hx : 0 ≤ x) : decayRate 3 (x * x) = x := by
  unfold decayRate
  rw [if_neg (by decide)]
  have : (1 : ℝ) / (((3 : Int) : ℝ) - 1) = 1 / 2 := by norm_num
  rw [this, ← Real.sqrt_eq_rpow, Real.sqrt_mul_self hx]

/-- Three publishers, largest two users, ratio 0.81: the sizes are 2, 1 and 0 although
`2 * 0.81 = 1.62`. -/
theorem exSizes : publisherSizes 3 2 ((9 / 10) * (9 / 10)) = [2, 1, 0] := by
  unfold publisherSizes
  rw [decayRate_three_square _ (by norm_num)]
  have h1 : ⌊(((2 : Int) : ℝ)) * (9 / 10)⌋ = 1 := by
    rw [Int.floor_eq_iff]; norm_num
  have h2 : ⌊(((1 : Int) : ℝ)) * (9 / 10)⌋ = 0 := by
    rw [Int.floor_eq_iff]; norm_num
  have : (3 : Int).toNat = 3 := rfl
  rw [this]
  simp only [sizesFrom, h1, h2]

/-- C46 in full is false: the size is rounded down for every publisher, so the losses add up, and the
last publishers can be empty. -/
theorem C46_full_is_false : ¬ C46_full := by
  intro h
  have := (h 3 2 ((9 / 10) * (9 / 10)) (by decide) (by decide) (by norm_num) (by norm_num)).2
    (by norm_num) 0 (by rw [exSizes]; simp)
  exact absurd this (by decide)

/-- C46: as many sizes as publishers, the first is the largest, and they never increase and never
become negative. -/
theorem C46_decreasing (P N : Int) (ratio : ℝ) (hP : 1 ≤ P) (hN : 0 ≤ N)
    (h0 : 0 < ratio) (h1 : ratio ≤ 1) :
    ((publisherSizes P N ratio).length : Int) = P ∧
    (publisherSizes P N ratio).head? = some N ∧
    (publisherSizes P N ratio).Pairwise (fun a b => b ≤ a) ∧
    ∀ t ∈ publisherSizes P N ratio, 0 ≤ t := by
  obtain ⟨d0, d1⟩ := decayRate_bounds P ratio hP h0 h1
  unfold publisherSizes
  generalize decayRate P ratio = d at d0 d1
  have hnn : ∀ (k : Nat) (s : Int), 0 ≤ s →
      (∀ t ∈ sizesFrom d k s, 0 ≤ t ∧ t ≤ s) ∧ (sizesFrom d k s).Pairwise (fun a b => b ≤ a) := by
    intro k
    induction k with
    | zero => intro s _; simp [sizesFrom]
    | succ k ih =>
      intro s hs
      have hs' : (0 : ℝ) ≤ (s : ℝ) := by exact_mod_cast hs
      have hfl0 : 0 ≤ ⌊(s : ℝ) * d⌋ := Int.floor_nonneg.2 (mul_nonneg hs' d0.le)
      have hfl1 : ⌊(s : ℝ) * d⌋ ≤ s := by
        have h := Int.floor_le ((s : ℝ) * d)
        have h2 : ((⌊(s : ℝ) * d⌋ : ℤ) : ℝ) ≤ (s : ℝ) := le_trans h (by nlinarith)
        exact_mod_cast h2
      obtain ⟨i1, i2⟩ := ih _ hfl0
      refine ⟨?_, ?_⟩
      · intro t ht
        rcases List.mem_cons.1 ht with rfl | ht
        · exact ⟨hs, le_rfl⟩
        · have := i1 t ht
          omega
      · refine List.Pairwise.cons ?_ i2
        intro t ht
        have := i1 t ht
        omega
  refine ⟨?_, ?_, (hnn _ _ hN).2, fun t ht => ((hnn _ _ hN).1 t ht).1⟩
  · rw [sizesFrom_length]; omega
  · obtain ⟨k, hk⟩ : ∃ k, P.toNat = k + 1 := ⟨P.toNat - 1, by omega⟩
    rw [hk]; rfl

/-- C46, what holds of the smallest size: it is at most the largest size times the ratio rounded
down, and it misses the unrounded product by less than one per publisher after the first.  In
particular all publishers are non-empty if the product is at least the number of publishers less
one.  Missing: equality with the rounded product, which is false. -/
theorem C46_smallest_partial (P N : Int) (ratio : ℝ) (hP : 2 ≤ P) (hN : 0 ≤ N)
    (h0 : 0 < ratio) (h1 : ratio ≤ 1) :
    (∃ t, (publisherSizes P N ratio).getLast? = some t ∧ t ≤ ⌊(N : ℝ) * ratio⌋ ∧
      (N : ℝ) * ratio - ((P : ℝ) - 1) < t) ∧
    ((P : ℝ) - 1 ≤ N * ratio → ∀ t ∈ publisherSizes P N ratio, 0 < t) := by
  obtain ⟨d0, d1⟩ := decayRate_bounds P ratio (by omega) h0 h1
  have hpow := decayRate_pow P ratio hP h0
  have hlen : (publisherSizes P N ratio).length = P.toNat := sizesFrom_length _ _ _
  obtain ⟨t, ht⟩ : ∃ t, (publisherSizes P N ratio)[(P - 1).toNat]? = some t :=
    ⟨_, List.getElem?_eq_getElem (by omega)⟩
  have hcast : (((P - 1).toNat : Nat) : ℝ) = (P : ℝ) - 1 := by
    have : ((P - 1).toNat : Int) = P - 1 := by omega
    have h2 : (((P - 1).toNat : Int) : ℝ) = ((P - 1 : Int) : ℝ) := by rw [this]
    push_cast at h2
    linarith
  obtain ⟨b1, b2, b3⟩ := sizesFrom_bounds _ d0 d1 P.toNat N _ t ht
  rw [hpow] at b1 b3
  rw [hcast] at b3
  have hlast : (publisherSizes P N ratio).getLast? = some t := by
    rw [List.getLast?_eq_getElem?, hlen]
    have : P.toNat - 1 = (P - 1).toNat := by omega
    rw [this, ht]
  refine ⟨⟨t, hlast, Int.le_floor.2 b1, b3 (by omega)⟩, ?_⟩
  intro hbig u hu
  have hpos : 0 < t := by
    have := b3 (by omega)
    have h2 : (0 : ℝ) < t := by linarith
    exact_mod_cast h2
  have hpw := (C46_decreasing P N ratio (by omega) hN h0 h1).2.2.1
  obtain ⟨i, hi, rfl⟩ := List.getElem_of_mem hu
  rw [List.pairwise_iff_getElem] at hpw
  have htl := (List.getElem?_eq_some_iff.1 ht)
  obtain ⟨hj, rfl⟩ := htl
  rcases Nat.lt_or_ge i (P - 1).toNat with h | h
  · have := hpw i _ hi hj h
    omega
  · have : i = (P - 1).toNat := by omega
    subst this
    exact hpos

/-- C46 for two publishers holds exactly. -/
theorem C46_two_publishers (N : Int) (ratio : ℝ) (h0 : 0 < ratio) :
    publisherSizes 2 N ratio = [N, ⌊(N : ℝ) * ratio⌋] := by
  unfold publisherSizes
  have h := decayRate_pow 2 ratio le_rfl h0
  have e : ((2 : Int) - 1).toNat = 1 := rfl
  rw [e, pow_one] at h
  rw [h]
  rfl

/-- C46 for ratio one holds exactly: all publishers have the largest size. -/
theorem C46_equal_sizes (P N : Int) : publisherSizes P N 1 = List.replicate P.toNat N := by
  have hd : decayRate P 1 = 1 := by unfold decayRate; simp
  unfold publisherSizes
  rw [hd]
  induction P.toNat with
  | zero => rfl
  | succ k ih =>
    simp only [sizesFrom, mul_one, Int.floor_intCast, List.replicate_succ, ih]

/-- A single publisher has the largest size, whatever the ratio. -/
theorem C46_single_publisher (N : Int) (ratio : ℝ) : publisherSizes 1 N ratio = [N] := rfl

/-- The hypotheses of `C46_smallest_partial` with a product of at least `P - 1`. -/
example : (2 : Int) ≤ 5 ∧ (0 : Int) ≤ 100 ∧ (0 : ℝ) < 1 / 10 ∧ (1 / 10 : ℝ) ≤ 1 ∧
    (((5 : Int) : ℝ)) - 1 ≤ ((100 : Int) : ℝ) * (1 / 10) := by norm_num

/-- C46, C44: the generated data set.  If all sizes are positive, the publishers are named "1", "2",
…, and the `i`-th one reaches exactly as many people as its size says. -/
theorem C46_generated (P N : Int) (ratio : ℝ) (imps : Nat → Int → List Int) (cpi : ℚ) (rnd : String)
    (overlap : List PublisherData → Except PyErr DataSet)
    (hm : ∀ i n u, u ∈ imps i n ↔ 0 ≤ u ∧ u < n) (hc : 0 < cpi)
    (hpos : ∀ t ∈ publisherSizes P N ratio, 0 < t) :
    ∃ pubs, generateDataSet P N ratio imps (fixedPrice cpi) overlap rnd = overlap pubs ∧
      pubs.map (fun p => (p.maxReach : Int)) = publisherSizes P N ratio ∧
      (∀ p ∈ pubs, ∃ log, Built log p) ∧
      pubs.map (fun p => p.name)
        = (List.range (publisherSizes P N ratio).length).map
            (fun i : Nat => String.ofList (showInt ((i : Int) + 1))) := by
  have key : ∀ (l : List Int) (k : Nat), (∀ t ∈ l, 0 < t) →
      ∃ pubs, (l.zipIdx k).mapM (fun si => generatePublisherData (imps si.2 si.1) (fixedPrice cpi)
          (String.ofList (showInt ((si.2 : Int) + 1))) rnd) = .ok pubs ∧
        pubs.map (fun p => (p.maxReach : Int)) = l ∧
        (∀ p ∈ pubs, ∃ log, Built log p) ∧
        pubs.map (fun p => p.name)
          = (List.range' k l.length).map (fun i : Nat => String.ofList (showInt ((i : Int) + 1))) := by
    intro l
    induction l with
    | nil => intro k _; exact ⟨[], rfl, rfl, by simp, rfl⟩
    | cons s l ih =>
      intro k hl
      obtain ⟨pubs, h1, h2, h3, h4⟩ := ih (k + 1) (fun t ht => hl t (List.mem_cons_of_mem _ ht))
      obtain ⟨p, hp, hr, -⟩ := C44_generated_publisher (imps k s) s cpi
        (String.ofList (showInt ((k : Int) + 1))) rnd (hm k s) (hl s (by simp)) hc
      have hne : String.ofList (showInt ((k : Int) + 1)) ≠ "" := by
        intro h
        have := congrArg String.toList h
        rw [String.toList_ofList] at this
        unfold showInt at this
        rw [if_neg (by omega)] at this
        unfold showNat at this
        split at this <;> simp at this
      refine ⟨p :: pubs, ?_, by simp [hr, h2], ?_, ?_⟩
      · rw [mapM_ok_iff] at h1 ⊢
        exact .cons hp h1
      · intro q hq
        rcases List.mem_cons.1 hq with rfl | hq
        · exact ⟨_, _, _, hp⟩
        · exact h3 q hq
      · obtain ⟨m, -, rfl⟩ := (new_ok_iff _ _ _ _).1 hp
        simp [h4, hne, List.range'_succ]
  obtain ⟨pubs, h1, h2, h3, h4⟩ := key _ 0 hpos
  refine ⟨pubs, ?_, h2, h3, by rw [h4, List.range_eq_range']⟩
  unfold generateDataSet
  simp only [h1, bind, Except.bind]

/-- C46: a size of zero makes the whole generation fail with a `ValueError`. -/
theorem C46_empty_publisher (P N : Int) (ratio : ℝ) (imps : Nat → Int → List Int) (cpi : ℚ)
    (rnd : String) (overlap : List PublisherData → Except PyErr DataSet)
    (hm : ∀ i n u, u ∈ imps i n ↔ 0 ≤ u ∧ u < n) (hc : 0 < cpi)
    (hz : ∃ t ∈ publisherSizes P N ratio, t ≤ 0) :
    generateDataSet P N ratio imps (fixedPrice cpi) overlap rnd = .error .valueError := by
  have key : ∀ (l : List Int) (k : Nat), (∃ t ∈ l, t ≤ 0) →
      (l.zipIdx k).mapM (fun si => generatePublisherData (imps si.2 si.1) (fixedPrice cpi)
          (String.ofList (showInt ((si.2 : Int) + 1))) rnd) = .error .valueError := by
    intro l
    induction l with
    | nil => intro k h; simp at h
    | cons s l ih =>
      intro k h
      rw [List.zipIdx_cons, List.mapM_cons]
      rcases lt_or_ge 0 s with hs | hs
      · obtain ⟨p, hp, -⟩ := C44_generated_publisher (imps k s) s cpi
          (String.ofList (showInt ((k : Int) + 1))) rnd (hm k s) hs hc
        rw [hp]
        simp only [bind, Except.bind]
        rw [ih (k + 1)]
        obtain ⟨t, ht, ht0⟩ := h
        rcases List.mem_cons.1 ht with rfl | ht
        · omega
        · exact ⟨t, ht, ht0⟩
      · rw [C44_no_users (imps k s) s cpi _ rnd (hm k s) hs]
        rfl
  unfold generateDataSet
  simp only [key _ 0 hz, bind, Except.bind]

/-- The hypotheses of `C46_empty_publisher` hold for the sizes 2, 1, 0 of `exSizes` and the simplest
generator, one impression per user. -/
example : (∀ (_i : Nat) (n u : Int), u ∈ extendLoop n (fun _ => 1) ↔ 0 ≤ u ∧ u < n) ∧
    ∃ t ∈ publisherSizes 3 2 ((9 / 10) * (9 / 10)), t ≤ 0 :=
  ⟨fun _ n u => mem_extendLoop n _ (fun _ => le_rfl) u, 0, by rw [exSizes]; simp⟩

end Verif
