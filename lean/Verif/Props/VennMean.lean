import Verif.Lemmas.Mean
import Verif.Props.VennPrivacy

/-!
# C94: the reaches reported by a Venn diagram request are right on average
-/

namespace Verif

open Verif.Spec HaloSimulator Finset

variable {S : Type}

/-! ## The reach of a set of publishers in a table -/

/-- The region belongs to one of the publishers. -/
def hits (t : Finset Nat) (m : Nat) : Bool := decide (∃ i ∈ t, m.testBit i = true)

/-- Sum of the entries of some regions. -/
def sumOver (P : Nat → Bool) (tb : Dict Nat ℚ) : ℚ := ((tb.filter (fun rv => P rv.1)).map (·.2)).sum

theorem sumOver_all (tb : Dict Nat ℚ) : sumOver (fun _ => true) tb = (tb.map (·.2)).sum := by
  unfold sumOver
  rw [List.filter_eq_self.2 (by simp)]

theorem aggregateReach_eq (sub : List Nat) (hsub : sub.Nodup) (tb : Dict Nat ℚ) :
    aggregateReach sub tb = sumOver (hits sub.toFinset) tb := by
  unfold aggregateReach sumOver
  congr 2
  apply List.filter_congr
  intro rv _
  unfold hits
  congr 1
  rw [eq_iff_iff]
  constructor
  · intro h
    obtain ⟨i, hi⟩ := Nat.exists_testBit_of_ne_zero h
    rw [Nat.testBit_and, Bool.and_eq_true] at hi
    exact ⟨i, List.mem_toFinset.2 ((testBit_regionOf_nodup sub hsub i).1 hi.2), hi.1⟩
  · rintro ⟨i, hi, hb⟩ h0
    have : (rv.1 &&& regionOf sub).testBit i = true := by
      rw [Nat.testBit_and, hb, (testBit_regionOf_nodup sub hsub i).2 (List.mem_toFinset.1 hi)]
      rfl
    rw [h0] at this
    simp at this

theorem sumOver_scale (P : Nat → Bool) (tb : Dict Nat ℚ) (k : ℚ) :
    sumOver P (tb.map (fun rv => (rv.1, rv.2 * k))) = sumOver P tb * k := by
  unfold sumOver
  induction tb with
  | nil => simp
  | cons rv tb ih =>
    rw [List.map_cons, List.filter_cons, List.filter_cons]
    simp only
    split
    · rw [List.map_cons, List.sum_cons, ih, List.map_cons, List.sum_cons]; ring
    · exact ih

theorem onlySpends_inj (spends : List ℚ) (t t' : Finset Nat) (ht : ∀ i ∈ t, isActive spends i)
    (ht' : ∀ i ∈ t', isActive spends i) (h : onlySpends t spends = onlySpends t' spends) : t = t' := by
  have key : ∀ i, ((spends[i]?).map (fun x => if i ∈ t then x else 0))
      = ((spends[i]?).map (fun x => if i ∈ t' then x else 0)) := by
    intro i
    have e := congrArg (fun l : List ℚ => l[i]?) h
    have e1 : (onlySpends t spends)[i]? = _ := restrictTo_getElem? t spends i
    have e2 : (onlySpends t' spends)[i]? = _ := restrictTo_getElem? t' spends i
    rw [← e1, ← e2]
    exact e
  ext i
  constructor
  · intro hi
    obtain ⟨s, hs, h0⟩ := ht i hi
    have := key i
    rw [hs] at this
    simp only [Option.map_some, hi, if_true, Option.some.injEq] at this
    by_contra hn
    rw [if_neg hn] at this
    exact h0 this
  · intro hi
    obtain ⟨s, hs, h0⟩ := ht' i hi
    have := key i
    rw [hs] at this
    simp only [Option.map_some, hi, if_true, Option.some.injEq] at this
    by_contra hn
    rw [if_neg hn] at this
    exact h0 this.symm

/-- What is reported for a set of publishers. -/
theorem reported_eq (h : HaloSimulator S) (spends : List ℚ) (tb : Dict Nat ℚ)
    (hlen : h.dataSet.data.length = spends.length) (t : Finset Nat) (hne : t.Nonempty)
    (ht : ∀ i ∈ t, isActive spends i) (st : HaloState) :
    reportedReach spends t (h.generateReachPoints spends tb, st) = ((sumOver (hits t) tb : ℚ) : ℝ) := by
  obtain ⟨pts, sets, imps, h1, _, h3, h4, h5⟩ := C23_reach_points h spends tb hlen
  have hmem : t ∈ sets := (h4 t).2 ⟨hne, ht⟩
  unfold reportedReach
  rw [h1]
  simp only
  cases hf : pts.find? (fun pt => decide (pt.spends = some (onlySpends t spends))) with
  | none =>
    rw [List.find?_eq_none] at hf
    obtain ⟨pt, hpt, e1, _⟩ := forall₂_left_mem h5 hmem
    exact absurd (decide_eq_true e1) (hf pt hpt)
  | some pt =>
    simp only
    have hpt := List.mem_of_find?_eq_some hf
    have hsp : pt.spends = some (onlySpends t spends) := by simpa using List.find?_some hf
    obtain ⟨t', ht', e1, _, _, sub, e4, e5, e6⟩ := forall₂_right_mem h5 hpt
    rw [hsp] at e1
    have : t = t' := onlySpends_inj spends t t' ht ((h4 t').1 ht').2 (Option.some.inj e1)
    rw [e6, List.headD_cons, aggregateReach_eq sub e4, e5, this]

theorem sumOver_zip (P : Nat → Bool) (keys : List Nat) (s : List Int) (hl : s.length = keys.length) :
    sumOver P ((keys.zip s).map (fun rv => (rv.1, (rv.2 : ℚ))))
      = ∑ j ∈ range keys.length, if P (keys.getD j 0) then ((s.getD j 0 : Int) : ℚ) else 0 := by
  induction keys generalizing s with
  | nil => simp [sumOver]
  | cons k keys ih =>
    match s, hl with
    | x :: s, hl =>
      have := ih s (by simpa using hl)
      rw [List.length_cons, Finset.sum_range_succ']
      simp only [List.getD_cons_succ, List.getD_cons_zero]
      rw [← this]
      unfold sumOver
      rw [List.zip_cons_cons, List.map_cons, List.filter_cons]
      split
      · simp [add_comm]
      · simp

theorem sum_colours {n : Nat} (colour : Fin n → Nat) (L : Nat) (hL : ∀ i, colour i < L)
    (T : Finset (Fin n)) (P : Nat → Bool) :
    (∑ j ∈ range L, if P j then (((#{i ∈ T | colour i = j} : Nat) : Int) : ℚ) else 0)
      = ((#{i ∈ T | P (colour i) = true} : Nat) : ℚ) := by
  have h1 : ((#{i ∈ T | P (colour i) = true} : Nat) : ℚ)
      = ∑ j ∈ range L, ((#{i ∈ {i ∈ T | P (colour i) = true} | colour i = j} : Nat) : ℚ) := by
    rw [← Nat.cast_sum]
    congr 1
    exact Finset.card_eq_sum_card_fiberwise (fun i _ => by simpa using hL i)
  rw [h1]
  apply Finset.sum_congr rfl
  intro j _
  rw [Finset.filter_filter]
  split
  · next h =>
    rw [Int.cast_natCast]
    congr 2
    apply Finset.filter_congr
    intro i _
    constructor
    · intro e; exact ⟨by rw [e]; exact h, e⟩
    · exact fun e => e.2
  · next h =>
    symm
    rw [Nat.cast_eq_zero, Finset.card_eq_zero, Finset.filter_eq_empty_iff]
    rintro i _ ⟨h2, h3⟩
    rw [h3] at h2
    exact h h2

/-! ## The users alone in their registers, on average -/

section
variable {R : Type} [Fintype R] [DecidableEq R]

/-- Share of a user in the sample. -/
noncomputable def expectedShare {n : Nat} (a : Fin n → R) (i : Fin n) : ℝ :=
  if i ∈ single a then ((#(single a) : Nat) : ℝ)⁻¹ else 0

omit [Fintype R] in
theorem share_perm {n : Nat} (a : Fin n → R) (σ : Equiv.Perm (Fin n)) (i : Fin n) :
    expectedShare (a ∘ σ) i = expectedShare a (σ i) := by
  have h1 : i ∈ single (a ∘ σ) ↔ σ i ∈ single a := by
    rw [← single_perm a σ, mem_map_equiv]
    simp
  have h2 : #(single (a ∘ σ)) = #(single a) := by
    rw [← single_perm a σ, card_map]
  unfold expectedShare
  simp only [h1, h2]

theorem share_mean_eq (p : PMF R) {n : Nat} (i j : Fin n) :
    ∑ a, (registersLaw p n a).toReal * expectedShare a i = ∑ a, (registersLaw p n a).toReal * expectedShare a j := by
  set σ : Equiv.Perm (Fin n) := Equiv.swap i j
  have e : ∀ a : Fin n → R, Equiv.arrowCongr σ.symm (Equiv.refl R) a = a ∘ σ := by
    intro a; funext k; simp
  rw [← Equiv.sum_comp (Equiv.arrowCongr σ.symm (Equiv.refl R))]
  apply Finset.sum_congr rfl
  intro a _
  rw [e, share_perm]
  congr 1
  · rw [registersLaw_apply, registersLaw_apply]
    congr 1
    exact Equiv.prod_comp σ (fun k => p (a k))
  · simp [σ]

omit [Fintype R] in
theorem sum_share {n : Nat} (a : Fin n → R) (H : Finset (Fin n)) :
    ∑ i ∈ H, expectedShare a i = (#{i ∈ single a | i ∈ H} : ℝ) / (#(single a) : ℝ) := by
  unfold expectedShare
  rw [← Finset.sum_filter, Finset.sum_const, nsmul_eq_mul, div_eq_mul_inv]
  congr 3
  ext i
  simp [and_comm]

theorem share_mean (p : PMF R) {n : Nat} (H : Finset (Fin n)) :
    (n : ℝ) * ∑ a, (registersLaw p n a).toReal * ((#{i ∈ single a | i ∈ H} : ℝ) / (#(single a) : ℝ))
      = (#H : ℝ) * ∑ a, (registersLaw p n a).toReal * (if activeRegs a = 0 then 0 else 1) := by
  rcases Nat.eq_zero_or_pos n with rfl | hn
  · have : H = ∅ := Finset.eq_empty_of_isEmpty H
    subst this
    simp
  set w : ℝ := ∑ a, (registersLaw p n a).toReal * expectedShare a (⟨0, hn⟩ : Fin n) with hw
  have hsum : ∀ G : Finset (Fin n),
      ∑ a, (registersLaw p n a).toReal * ((#{i ∈ single a | i ∈ G} : ℝ) / (#(single a) : ℝ))
        = (#G : ℝ) * w := by
    intro G
    calc ∑ a, (registersLaw p n a).toReal * ((#{i ∈ single a | i ∈ G} : ℝ) / (#(single a) : ℝ))
        = ∑ a, ∑ i ∈ G, (registersLaw p n a).toReal * expectedShare a i := by
          apply Finset.sum_congr rfl
          intro a _
          rw [← sum_share, Finset.mul_sum]
      _ = ∑ i ∈ G, ∑ a, (registersLaw p n a).toReal * expectedShare a i := Finset.sum_comm
      _ = ∑ i ∈ G, w := Finset.sum_congr rfl (fun i _ => share_mean_eq p i _)
      _ = _ := by rw [Finset.sum_const, nsmul_eq_mul]
  have hall : ∑ a, (registersLaw p n a).toReal * (if activeRegs a = 0 then (0 : ℝ) else 1)
      = (n : ℝ) * w := by
    have := hsum univ
    rw [Finset.card_univ, Fintype.card_fin] at this
    rw [← this]
    apply Finset.sum_congr rfl
    intro a _
    congr 1
    have : ({i ∈ single a | i ∈ (univ : Finset (Fin n))} : Finset (Fin n)) = single a := by
      ext i; simp
    rw [this, ← card_single]
    split
    · next h => simp [h]
    · next h => rw [div_self]; exact_mod_cast h
  rw [hsum, hall]
  ring

theorem active_prob (p : PMF R) (n : Nat) :
    ∑ a, (registersLaw p n a).toReal * (if activeRegs a = 0 then (0 : ℝ) else 1)
      = 1 - ((registersLaw p n).toOuterMeasure {a | activeRegs a = 0}).toReal := by
  have h1 : ∑ a, (registersLaw p n a).toReal = 1 := by
    have := pmf_hasSum (registersLaw p n)
    exact (hasSum_fintype _).unique this
  have h2 : ((registersLaw p n).toOuterMeasure {a | activeRegs a = 0}).toReal
      = ∑ a, (registersLaw p n a).toReal * (if activeRegs a = 0 then 1 else 0) := by
    rw [PMF.toOuterMeasure_apply, tsum_fintype, ENNReal.toReal_sum]
    · apply Finset.sum_congr rfl
      intro a _
      by_cases h : activeRegs a = 0
      · rw [if_pos h, mul_one, Set.indicator_of_mem (by exact h)]
      · rw [if_neg h, mul_zero, Set.indicator_of_notMem (by exact h), ENNReal.toReal_zero]
    · intro a _
      by_cases h : activeRegs a = 0
      · rw [Set.indicator_of_mem (by exact h)]; exact PMF.apply_ne_top _ _
      · rw [Set.indicator_of_notMem (by exact h)]; exact ENNReal.zero_ne_top
  rw [h2, eq_sub_iff_add_eq, ← Finset.sum_add_distrib]
  refine Eq.trans (Finset.sum_congr rfl (fun a _ => ?_)) h1
  split <;> simp

/-! ## The cardinality estimate -/

omit [Fintype R] [DecidableEq R] in
/-- The mean of the noised estimate. -/
theorem cardinality_mean (l : Laws R) (n : Nat) (m k : ℝ)
    (he : HasMean (l.estimate n) (fun e => (e : ℝ)) m)
    (hy : HasMean l.cardinalityNoise (fun y => (y : ℝ)) k) :
    HasMean (cardinalityLaw l n) (fun c => (c : ℝ)) (m + k) := by
  refine HasMean.independent_sum (f := fun e : ℚ => (e : ℝ)) (g := fun y : ℤ => (y : ℝ))
    (φ := fun e y => e + ((y : ℤ) : ℚ)) (fun e y => ?_) he hy
  push_cast
  ring

/-! ## The request -/

theorem iid_pure {X : Type} (x : X) (n : Nat) : iid (PMF.pure x) n = PMF.pure (List.replicate n x) := by
  induction n with
  | zero => rfl
  | succ n ih => rw [iid, ih, PMF.pure_bind, PMF.pure_map, List.replicate_succ]

theorem tableLaw_zero (regions : Dict Nat Int) (h : ∀ rv ∈ regions, 0 ≤ rv.2) :
    tableLaw (PMF.pure 0) regions = PMF.pure (regions.map (fun rv => (rv.1, (rv.2 : ℚ)))) := by
  unfold tableLaw
  rw [iid_pure, PMF.pure_map]
  congr 1
  unfold noised
  apply List.ext_getElem
  · simp
  · intro i h1 h2
    have hi : i < regions.length := by simpa using h2
    have := h _ (List.getElem_mem hi)
    simp [this]

/-- Sum of the sampled counts over some regions. -/
theorem sumOver_sample (P : Nat → Bool) (keys : List Nat) (pops : List Int)
    (hl : keys.length = pops.length) (T : Finset (Fin (urn pops).length)) :
    sumOver P ((keys.zip (countsOf (fun i => (urn pops)[i]) pops.length T)).map
        (fun rv => (rv.1, (rv.2 : ℚ))))
      = ((#{i ∈ T | P (keys.getD (urn pops)[i] 0) = true} : Nat) : ℚ) := by
  rw [sumOver_zip P keys _ (by rw [countsOf_length, hl]), hl,
    ← sum_colours (fun i : Fin (urn pops).length => (urn pops)[i]) pops.length ?_ T
      (fun j => P (keys.getD j 0))]
  · apply Finset.sum_congr rfl
    intro j hj
    have hj' : j < pops.length := by simpa using hj
    have : (countsOf (fun i : Fin (urn pops).length => (urn pops)[i]) pops.length T).getD j 0
        = ((#{i ∈ T | (urn pops)[i] = j} : Nat) : Int) := by
      unfold countsOf
      rw [List.getD_eq_getElem?_getD, List.getElem?_map, List.getElem?_range hj']
      rfl
    rw [this]
  · intro i
    have hm : (urn pops)[i] ∈ urn pops := List.getElem_mem _
    unfold urn at hm
    rw [List.mem_flatMap] at hm
    obtain ⟨ci, h1, h2⟩ := hm
    have h3 := List.eq_of_mem_replicate h2
    have h4 := List.snd_lt_of_mem_zipIdx h1
    unfold urn
    omega

/-- The counts of the whole urn. -/
theorem countsOf_univ (pops : List Int) (hnn : ∀ x ∈ pops, 0 ≤ x) :
    countsOf (fun i : Fin (urn pops).length => (urn pops)[i]) pops.length univ = pops := by
  apply List.ext_getElem
  · exact countsOf_length _ _ _
  · intro j h1 h2
    simp only [countsOf, List.getElem_map, List.getElem_range]
    rw [card_colour, urn_count, List.getD_eq_getElem _ _ h2]
    exact Int.toNat_of_nonneg (hnn _ (List.getElem_mem h2))

/-- Users reached by one of the publishers. -/
theorem card_hits {logs : List Log} {h : HaloSimulator S} (hb : HaloBuilt logs h)
    (spends : List ℚ) (hl : spends.length = logs.length) (hact : numActive spends ≤ 20)
    (t : Finset Nat) :
    #{i : Fin (urn (pops logs spends)).length |
        hits t ((regionKeys spends).getD (urn (pops logs spends))[i] 0) = true}
      = reachedByAny logs spends t := by
  obtain ⟨d, h1, h2, h3, h4, h5, h6, h7⟩ := request_table hb spends hl hact
  have e1 := sumOver_sample (hits t) (regionKeys spends) (pops logs spends) (by simp [pops]) univ
  rw [countsOf_univ _ (pops_nonneg logs spends)] at e1
  have e2 := C23_aggregate hb spends hl hact 1 le_rfl d h1 t.toList t.nodup_toList
  rw [aggregateReach_eq _ t.nodup_toList, Finset.toList_toFinset] at e2
  have e3 : exactRegions d
      = ((regionKeys spends).zip (pops logs spends)).map (fun rv => (rv.1, (rv.2 : ℚ))) := by
    rw [← h2, ← h6]
    unfold exactRegions dictKeys regionCounts
    rw [List.zip_map', List.map_map]
    rfl
  rw [e3, e1] at e2
  have e4 := Nat.cast_injective (R := ℚ) e2
  rw [e4]
  simp [reachedByAny]

omit [Fintype R] [DecidableEq R] in
/-- The mean of what is reported for a given sample, without noise on the regions. -/
theorem sample_mean (l : Laws R) (hnoise : l.noise = PMF.pure 0) (h : HaloSimulator S)
    (spends : List ℚ) (hlen : h.dataSet.data.length = spends.length) (budget : PrivacyBudget ℚ)
    (split : ℚ) (st : HaloState) (keys : List Nat) (pops : List Int)
    (hk : keys.length = pops.length) (n : Nat) (m : ℝ)
    (hm : HasMean (cardinalityLaw l n) (fun c => (c : ℝ)) m) (t : Finset Nat) (hne : t.Nonempty)
    (ht : ∀ i ∈ t, isActive spends i) (T : Finset (Fin (urn pops).length)) :
    HasMean (resultLaw l h spends budget split st keys n
        (#T, countsOf (fun i => (urn pops)[i]) pops.length T)) (reportedReach spends t)
      (m * ((#{i ∈ T | hits t (keys.getD (urn pops)[i] 0) = true} : ℝ) / (#T : ℝ))) := by
  unfold resultLaw
  simp only
  split
  · next h0 =>
    rw [h0, Nat.cast_zero, div_zero, mul_zero]
    exact HasMean.pure _ _
  · next h0 =>
    rw [hnoise, tableLaw_zero _ (by
      intro rv hrv
      have := (List.of_mem_zip (show (rv.1, rv.2) ∈ _ from hrv)).2
      unfold countsOf at this
      obtain ⟨j, _, hj⟩ := List.mem_map.1 this
      rw [← hj]
      exact Int.natCast_nonneg _), PMF.pure_bind]
    apply HasMean.map
    have e : ∀ c : ℚ, reportedReach spends t (h.generateReachPoints spends (scaledTo
        ((keys.zip (countsOf (fun i => (urn pops)[i]) pops.length T)).map
          (fun rv => (rv.1, (rv.2 : ℚ)))) c), afterVenn budget split st)
        = ((#{i ∈ T | hits t (keys.getD (urn pops)[i] 0) = true} : ℝ) / (#T : ℝ)) * (c : ℝ) := by
      intro c
      rw [reported_eq h spends _ hlen t hne ht]
      unfold scaledTo
      rw [sumOver_scale, ← sumOver_all, sumOver_sample _ keys pops hk, sumOver_sample _ keys pops hk]
      have : ({i ∈ T | true = true} : Finset (Fin (urn pops).length)) = T := by simp
      rw [this, if_pos (by exact_mod_cast h0)]
      push_cast
      ring
    simp only [e]
    rw [mul_comm m]
    exact hm.const_mul _

/-- The mean of what is reported, without noise on the regions. -/
theorem urn_mean (l : Laws R) (hnoise : l.noise = PMF.pure 0) (h : HaloSimulator S)
    (spends : List ℚ) (hlen : h.dataSet.data.length = spends.length) (budget : PrivacyBudget ℚ)
    (split : ℚ) (st : HaloState) (keys : List Nat) (pops : List Int)
    (hk : keys.length = pops.length)
    (hm : HasMean (cardinalityLaw l (urn pops).length) (fun c => (c : ℝ)) ((urn pops).length : ℝ))
    (t : Finset Nat) (hne : t.Nonempty) (ht : ∀ i ∈ t, isActive spends i) :
    HasMean ((jointLaw l.register (urn pops).length pops).bind
        (resultLaw l h spends budget split st keys (urn pops).length)) (reportedReach spends t)
      ((#{i : Fin (urn pops).length | hits t (keys.getD (urn pops)[i] 0) = true} : ℝ)
        * (1 - noActive l (urn pops).length)) := by
  have hsm := fun a : Fin (urn pops).length → R => sample_mean l hnoise h spends hlen budget split st
    keys pops hk (urn pops).length _ hm t hne ht (single a)
  rw [jointLaw_eq, PMF.bind_map]
  unfold noActive
  rw [← active_prob, ← share_mean l.register
    {i | hits t (keys.getD (urn pops)[i] 0) = true}, Finset.mul_sum]
  have h1 := hasMean_fintype (registersLaw l.register (urn pops).length) (fun a =>
    ((urn pops).length : ℝ) *
    ((#{i ∈ single a | hits t (keys.getD (urn pops)[i] 0) = true} : ℝ) / (#(single a) : ℝ)))
  have h2 := HasMean.bind (p := registersLaw l.register (urn pops).length) (fun a _ => hsm a)
    (fun a _ => le_rfl) (hasSum_fintype _).summable h1
  have h3 : ∀ a : Fin (urn pops).length → R,
      ({i ∈ single a | i ∈ ({i | hits t (keys.getD (urn pops)[i] 0) = true} :
        Finset (Fin (urn pops).length))} : Finset (Fin (urn pops).length))
      = {i ∈ single a | hits t (keys.getD (urn pops)[i] 0) = true} := by
    intro a; ext i; simp
  simp only [h3]
  have h4 : ∀ a : Fin (urn pops).length → R, ((urn pops).length : ℝ) *
      ((registersLaw l.register (urn pops).length a).toReal *
        ((#{i ∈ single a | hits t (keys.getD (urn pops)[i] 0) = true} : ℝ) / (#(single a) : ℝ)))
      = (registersLaw l.register (urn pops).length a).toReal * (((urn pops).length : ℝ) *
        ((#{i ∈ single a | hits t (keys.getD (urn pops)[i] 0) = true} : ℝ) / (#(single a) : ℝ))) := by
    intro a; ring
  simp only [h4]
  exact h2

theorem active_of_nonempty (spends : List ℚ) (t : Finset Nat) (hne : t.Nonempty)
    (ht : ∀ i ∈ t, isActive spends i) : numActive spends ≠ 0 := by
  obtain ⟨i, hi⟩ := hne
  obtain ⟨s, h1, h2⟩ := ht i hi
  unfold numActive
  intro h0
  rw [List.countP_eq_zero] at h0
  exact h0 s (List.mem_of_getElem? h1) (by simpa using h2)

/-- **C94 (without noise on the regions).** If the noised estimate of the cardinality is right on
average and the regions get no noise, then the reach reported for a set of publishers is right on
average: a request fails with some probability, and the mean over all requests (with zero for a
failure) is the number of people reached by the set, times the probability of success.

Missing: noise on the regions, with which the claim is false (`C94_full_is_false`): negative counts
are set to zero, and when all counts are zero the report is zero. -/
theorem C94_unbiased_partial (l : Laws R) {logs : List Log} {h : HaloSimulator S}
    (hb : HaloBuilt logs h) (hds : h.dataSet.data = h.publishers.map (·.publisherData))
    (hcost : ∀ log ∈ logs, ∀ e ∈ log, 0 < e.2)
    (spends : List ℚ) (hl : spends.length = logs.length) (hact : numActive spends ≤ 20)
    (budget : PrivacyBudget ℚ) (split : ℚ) (st : HaloState)
    (hest : HasMean (l.estimate (reachedCount logs spends)) (fun e => (e : ℝ))
      (reachedCount logs spends : ℝ))
    (hcard : HasMean l.cardinalityNoise (fun y => (y : ℝ)) 0) (hnoise : l.noise = PMF.pure 0)
    (t : Finset Nat) (hne : t.Nonempty) (ht : ∀ i ∈ t, isActive spends i) :
    HasMean (vennLaw l h spends budget split st) (reportedReach spends t)
      ((reachedByAny logs spends t : ℝ) * (1 - noActive l (reachedCount logs spends))) := by
  have hpos := active_of_nonempty spends t hne ht
  have hlen : h.dataSet.data.length = spends.length := by
    rw [hds, hl]
    exact (by simpa using (List.Forall₂.length_eq hb).symm)
  rw [request_law l hb hds hcost spends hl hact hpos]
  obtain ⟨p1, p2⟩ := pops_urn hb spends hl hact
  have hcm : HasMean (cardinalityLaw l (reachedCount logs spends)) (fun c => (c : ℝ))
      (reachedCount logs spends : ℝ) := by
    simpa using cardinality_mean l _ _ _ hest hcard
  have hH := card_hits hb spends hl hact t
  unfold noActive
  rw [← hH]
  rw [← p2] at hcm ⊢
  exact urn_mean l hnoise h spends hlen budget split st (regionKeys spends) (pops logs spends)
    (by simp [pops]) hcm t hne ht

/-! ## With noise -/

/-- Probability that the noised table is not all zero. -/
noncomputable def nonzeroProb (ν : PMF ℤ) (regions : Dict Nat Int) : ℝ :=
  ∑' tb, (tableLaw ν regions tb).toReal * (if (tb.map (·.2)).sum ≠ 0 then 1 else 0)

theorem nonzeroProb_hasMean (ν : PMF ℤ) (regions : Dict Nat Int) :
    HasMean (tableLaw ν regions) (fun tb => if (tb.map (·.2)).sum ≠ 0 then 1 else 0)
      (nonzeroProb ν regions) := by
  refine Summable.hasSum (Summable.of_nonneg_of_le (fun tb => ?_) (fun tb => ?_)
    (pmf_summable (tableLaw ν regions)))
  · simp only; split <;> simp
  · simp only; split <;> simp

theorem nonzeroProb_nonneg (ν : PMF ℤ) (regions : Dict Nat Int) : 0 ≤ nonzeroProb ν regions := by
  refine tsum_nonneg (fun tb => ?_)
  split <;> simp

theorem nonzeroProb_le_one (ν : PMF ℤ) (regions : Dict Nat Int) : nonzeroProb ν regions ≤ 1 := by
  refine hasSum_le (fun tb => ?_) (nonzeroProb_hasMean ν regions) (pmf_hasSum (tableLaw ν regions))
  simp only; split <;> simp

theorem noised_keys (regions : Dict Nat Int) (z : List ℤ) :
    dictKeys (noised regions z) = dictKeys regions := by
  unfold noised dictKeys
  rw [List.map_map]
  apply List.ext_getElem
  · simp
  · intro i h1 h2
    simp

theorem iid_replicate_ne_zero {X : Type} (ν : PMF X) (x : X) (hx : ν x ≠ 0) (n : Nat) :
    iid ν n (List.replicate n x) ≠ 0 := by
  induction n with
  | zero => simp [iid]
  | succ n ih =>
    rw [← PMF.mem_support_iff] at ih ⊢
    rw [iid, PMF.mem_support_bind_iff]
    refine ⟨x, (PMF.mem_support_iff _ _).2 hx, ?_⟩
    rw [PMF.mem_support_map_iff]
    exact ⟨_, ih, by rw [List.replicate_succ]⟩

theorem nonzeroProb_lt_one (ν : PMF ℤ) (regions : Dict Nat Int) (z : ℤ) (hz : ν z ≠ 0)
    (hr : ∀ rv ∈ regions, rv.2 + z ≤ 0) : nonzeroProb ν regions < 1 := by
  set tb := noised regions (List.replicate regions.length z) with htb
  have hsum : (tb.map (·.2)).sum = 0 := by
    apply List.sum_eq_zero
    intro x hx
    rw [htb] at hx
    unfold noised at hx
    rw [List.map_map, List.mem_map] at hx
    obtain ⟨⟨rv, k⟩, hm, rfl⟩ := hx
    have hk := List.snd_lt_of_mem_zipIdx hm
    have hk' : k < regions.length := by omega
    have hrv := hr rv (List.fst_mem_of_mem_zipIdx hm)
    have hg : (List.replicate regions.length z).getD k 0 = z := by
      rw [List.getD_eq_getElem _ _ (by simpa using hk'), List.getElem_replicate]
    simp only [Function.comp_apply, hg]
    rw [max_eq_left]
    exact_mod_cast hrv
  have hpos : tableLaw ν regions tb ≠ 0 := by
    rw [← PMF.mem_support_iff]
    unfold tableLaw
    rw [PMF.mem_support_map_iff]
    exact ⟨_, (PMF.mem_support_iff _ _).2 (iid_replicate_ne_zero ν z hz regions.length), rfl⟩
  refine hasSum_lt (i := tb) (fun tb => ?_) ?_ (nonzeroProb_hasMean ν regions)
    (pmf_hasSum (tableLaw ν regions))
  · simp only; split <;> simp
  · simp only [hsum, ne_eq, not_true_eq_false, if_false, mul_zero]
    exact ENNReal.toReal_pos hpos (PMF.apply_ne_top _ _)

omit [Fintype R] [DecidableEq R] in
/-- The mean of the reach reported for all publishers, for a given sample. -/
theorem sample_total_mean (l : Laws R) (h : HaloSimulator S)
    (spends : List ℚ) (hlen : h.dataSet.data.length = spends.length) (budget : PrivacyBudget ℚ)
    (split : ℚ) (st : HaloState) (keys : List Nat) (n : Nat) (m : ℝ)
    (hm : HasMean (cardinalityLaw l n) (fun c => (c : ℝ)) m) (t : Finset Nat) (hne : t.Nonempty)
    (ht : ∀ i ∈ t, isActive spends i) (hall : ∀ k ∈ keys, hits t k = true) (ks : Nat × List Int) :
    HasMean (resultLaw l h spends budget split st keys n ks) (reportedReach spends t)
      (m * (if ks.1 = 0 then 0 else nonzeroProb l.noise (keys.zip ks.2))) := by
  unfold resultLaw
  split
  · rw [mul_zero]; exact HasMean.pure _ _
  · have hval : ∀ tb, tableLaw l.noise (keys.zip ks.2) tb ≠ 0 → ∀ c : ℚ,
        reportedReach spends t (h.generateReachPoints spends (scaledTo tb c), afterVenn budget split st)
          = (if (tb.map (·.2)).sum ≠ 0 then (1 : ℝ) else 0) * (c : ℝ) := by
      intro tb htb c
      rw [reported_eq h spends _ hlen t hne ht]
      have hkeys : ∀ rv ∈ tb, hits t rv.1 = true := by
        rw [← PMF.mem_support_iff] at htb
        unfold tableLaw at htb
        obtain ⟨z, _, rfl⟩ := (PMF.mem_support_map_iff _ _ _).1 htb
        intro rv hrv
        have : rv.1 ∈ dictKeys (noised (keys.zip ks.2) z) := List.mem_map_of_mem hrv
        rw [noised_keys] at this
        obtain ⟨kv, h1, h2⟩ := List.mem_map.1 this
        rw [← h2]
        exact hall _ (List.of_mem_zip (show (kv.1, kv.2) ∈ _ from h1)).1
      have hso : sumOver (hits t) tb = (tb.map (·.2)).sum := by
        unfold sumOver
        rw [List.filter_eq_self.2 (fun rv hrv => hkeys rv hrv)]
      unfold scaledTo
      rw [sumOver_scale, hso]
      split
      · next h0 => rw [mul_div_cancel₀ _ h0, one_mul]
      · simp
    obtain ⟨A, hA⟩ := hm.abs
    have hAnn : 0 ≤ A := HasSum.nonneg (fun c => by positivity) hA
    refine HasMean.bind (g := fun tb => m * (if (tb.map (·.2)).sum ≠ 0 then 1 else 0))
      (G := fun _ => A) (fun tb htb => ?_) (fun tb htb => ?_) ?_ ?_
    · apply HasMean.map
      simp only [hval tb htb]
      rw [mul_comm m]
      exact hm.const_mul _
    · have h1 : HasMean (cardinalityLaw l n) (fun c => |reportedReach spends t
          (h.generateReachPoints spends (scaledTo tb c), afterVenn budget split st)|)
          ((if (tb.map (·.2)).sum ≠ 0 then (1 : ℝ) else 0) * A) := by
        simp only [hval tb htb]
        have := hA.const_mul (if (tb.map (·.2)).sum ≠ 0 then (1 : ℝ) else 0)
        refine this.congr (fun c _ => ?_)
        rw [abs_mul]
        congr 1
        split <;> simp
      have h2 := HasMean.map (f := fun out => |reportedReach spends t out|) h1
      rw [HasSum.tsum_eq h2]
      split
      · rw [one_mul]
      · rw [zero_mul]; exact hAnn
    · exact (pmf_summable _).mul_right A
    · exact (nonzeroProb_hasMean l.noise (keys.zip ks.2)).const_mul m

/-- The mean of the reach reported for all publishers. -/
theorem urn_total_mean (l : Laws R) (h : HaloSimulator S)
    (spends : List ℚ) (hlen : h.dataSet.data.length = spends.length) (budget : PrivacyBudget ℚ)
    (split : ℚ) (st : HaloState) (keys : List Nat) (pops : List Int)
    (hm : HasMean (cardinalityLaw l (urn pops).length) (fun c => (c : ℝ)) ((urn pops).length : ℝ))
    (t : Finset Nat) (hne : t.Nonempty) (ht : ∀ i ∈ t, isActive spends i)
    (hall : ∀ k ∈ keys, hits t k = true) :
    ∃ q, 0 ≤ q ∧ q ≤ 1 - noActive l (urn pops).length ∧
      HasMean ((jointLaw l.register (urn pops).length pops).bind
        (resultLaw l h spends budget split st keys (urn pops).length)) (reportedReach spends t)
        (((urn pops).length : ℝ) * q) ∧
      ((∃ z, l.noise z ≠ 0 ∧ z ≤ -((urn pops).length : ℤ)) → noActive l (urn pops).length < 1 →
        q < 1 - noActive l (urn pops).length) := by
  set s : (Fin (urn pops).length → R) → ℝ := fun a => if #(single a) = 0 then 0 else
    nonzeroProb l.noise (keys.zip (countsOf (fun i => (urn pops)[i]) pops.length (single a))) with hs
  have hs0 : ∀ a, 0 ≤ s a := by
    intro a; simp only [hs]; split
    · exact le_rfl
    · exact nonzeroProb_nonneg _ _
  have hs1 : ∀ a, s a ≤ if activeRegs a = 0 then 0 else 1 := by
    intro a; simp only [hs, card_single]; split
    · exact le_rfl
    · exact nonzeroProb_le_one _ _
  have hterm : ∀ a, (registersLaw l.register (urn pops).length a).toReal * s a
      ≤ (registersLaw l.register (urn pops).length a).toReal * (if activeRegs a = 0 then 0 else 1) :=
    fun a => mul_le_mul_of_nonneg_left (hs1 a) ENNReal.toReal_nonneg
  refine ⟨∑ a, (registersLaw l.register (urn pops).length a).toReal * s a,
    Finset.sum_nonneg (fun a _ => mul_nonneg ENNReal.toReal_nonneg (hs0 a)), ?_, ?_, ?_⟩
  · unfold noActive
    rw [← active_prob]
    exact Finset.sum_le_sum (fun a _ => hterm a)
  · rw [jointLaw_eq, PMF.bind_map]
    have hsm := fun a : Fin (urn pops).length → R => sample_total_mean l h spends hlen budget split st
      keys (urn pops).length _ hm t hne ht hall
      (#(single a), countsOf (fun i => (urn pops)[i]) pops.length (single a))
    have h1 := hasMean_fintype (registersLaw l.register (urn pops).length)
      (fun a => ((urn pops).length : ℝ) * s a)
    have h2 := HasMean.bind (p := registersLaw l.register (urn pops).length) (fun a _ => hsm a)
      (fun a _ => le_rfl) (hasSum_fintype _).summable h1
    rw [Finset.mul_sum]
    have h4 : ∀ a : Fin (urn pops).length → R, ((urn pops).length : ℝ) *
        ((registersLaw l.register (urn pops).length a).toReal * s a)
        = (registersLaw l.register (urn pops).length a).toReal * (((urn pops).length : ℝ) * s a) := by
      intro a; ring
    simp only [h4]
    exact h2
  · rintro ⟨z, hz, hzn⟩ hact
    unfold noActive at hact ⊢
    have hex : ∃ a, (registersLaw l.register (urn pops).length a).toReal
        * (if activeRegs a = 0 then (0 : ℝ) else 1) ≠ 0 := by
      by_contra hno
      push Not at hno
      have h1 := active_prob l.register (urn pops).length
      rw [Finset.sum_eq_zero (fun a _ => hno a)] at h1
      linarith
    obtain ⟨a, ha⟩ := hex
    have ha1 : activeRegs a ≠ 0 := by
      intro h0; rw [if_pos h0, mul_zero] at ha; exact ha rfl
    rw [if_neg ha1, mul_one] at ha
    rw [← active_prob]
    refine Finset.sum_lt_sum (fun a _ => hterm a) ⟨a, Finset.mem_univ _, ?_⟩
    rw [if_neg ha1]
    refine mul_lt_mul_of_pos_left ?_ (lt_of_le_of_ne ENNReal.toReal_nonneg (Ne.symm ha))
    simp only [hs]
    rw [if_neg (by rw [card_single]; exact ha1)]
    apply nonzeroProb_lt_one _ _ z hz
    intro rv hrv
    have hc := (List.of_mem_zip (show (rv.1, rv.2) ∈ _ from hrv)).2
    unfold countsOf at hc
    obtain ⟨j, _, hj⟩ := List.mem_map.1 hc
    have hle : #{i ∈ single a | (urn pops)[i] = j} ≤ (urn pops).length :=
      (Finset.card_le_univ _).trans (by simp)
    simp only at hj
    omega

/-! ## C94 with noise -/

/-- **C94 (total).** Whatever the noise on the regions, the reach reported for all publishers together
is on average not too large: its mean is at most the number of people reached, times the probability
of success.  It is smaller if the noise can erase the whole table. -/
theorem C94_total (l : Laws R) {logs : List Log} {h : HaloSimulator S}
    (hb : HaloBuilt logs h) (hds : h.dataSet.data = h.publishers.map (·.publisherData))
    (hcost : ∀ log ∈ logs, ∀ e ∈ log, 0 < e.2)
    (spends : List ℚ) (hl : spends.length = logs.length) (hact : numActive spends ≤ 20)
    (budget : PrivacyBudget ℚ) (split : ℚ) (st : HaloState)
    (hest : HasMean (l.estimate (reachedCount logs spends)) (fun e => (e : ℝ))
      (reachedCount logs spends : ℝ))
    (hcard : HasMean l.cardinalityNoise (fun y => (y : ℝ)) 0)
    (t : Finset Nat) (hne : t.Nonempty) (ht : ∀ i, i ∈ t ↔ isActive spends i) :
    ∃ m, HasMean (vennLaw l h spends budget split st) (reportedReach spends t) m ∧ 0 ≤ m ∧
      m ≤ (reachedCount logs spends : ℝ) * (1 - noActive l (reachedCount logs spends)) ∧
      ((∃ z, l.noise z ≠ 0 ∧ z ≤ -(reachedCount logs spends : ℤ)) →
        0 < reachedCount logs spends → noActive l (reachedCount logs spends) < 1 →
        m < (reachedCount logs spends : ℝ) * (1 - noActive l (reachedCount logs spends))) := by
  have hlen : h.dataSet.data.length = spends.length := by
    rw [hds, hl]
    exact (by simpa using (List.Forall₂.length_eq hb).symm)
  rw [request_law l hb hds hcost spends hl hact
    (active_of_nonempty spends t hne (fun i hi => (ht i).1 hi))]
  obtain ⟨p1, p2⟩ := pops_urn hb spends hl hact
  obtain ⟨d, _, _, _, hkeys, _, _, _⟩ := request_table hb spends hl hact
  have hcm : HasMean (cardinalityLaw l (reachedCount logs spends)) (fun c => (c : ℝ))
      (reachedCount logs spends : ℝ) := by
    simpa using cardinality_mean l _ _ _ hest hcard
  have hall : ∀ k ∈ regionKeys spends, hits t k = true := by
    intro k hk
    obtain ⟨h0, h1⟩ := (hkeys k).1 hk
    obtain ⟨i, hi⟩ := Nat.exists_testBit_of_ne_zero h0
    exact decide_eq_true ⟨i, (ht i).2 (h1 i hi), hi⟩
  rw [← p2] at hcm ⊢
  obtain ⟨q, q0, q1, q2, q3⟩ := urn_total_mean l h spends hlen budget split st (regionKeys spends)
    (pops logs spends) hcm t hne (fun i hi => (ht i).1 hi) hall
  refine ⟨_, q2, by positivity, mul_le_mul_of_nonneg_left q1 (Nat.cast_nonneg _), ?_⟩
  intro hz hn hact
  exact mul_lt_mul_of_pos_left (q3 hz hact) (by exact_mod_cast hn)

/-- **C94 (success).** A request fails exactly when no register is active. -/
theorem C94_success (l : Laws R) {logs : List Log} {h : HaloSimulator S}
    (hb : HaloBuilt logs h) (hds : h.dataSet.data = h.publishers.map (·.publisherData))
    (hcost : ∀ log ∈ logs, ∀ e ∈ log, 0 < e.2)
    (spends : List ℚ) (hl : spends.length = logs.length) (hact : numActive spends ≤ 20)
    (hpos : numActive spends ≠ 0) (budget : PrivacyBudget ℚ) (split : ℚ) (st : HaloState) :
    successProb (vennLaw l h spends budget split st) = 1 - noActive l (reachedCount logs spends) := by
  have hlen : h.dataSet.data.length = spends.length := by
    rw [hds, hl]
    exact (by simpa using (List.Forall₂.length_eq hb).symm)
  rw [request_law l hb hds hcost spends hl hact hpos]
  obtain ⟨p1, p2⟩ := pops_urn hb spends hl hact
  rw [← p2]
  set ps := pops logs spends
  unfold successProb noActive
  rw [jointLaw_eq, PMF.bind_map, PMF.toOuterMeasure_bind_apply, tsum_fintype, ENNReal.toReal_sum,
    ← active_prob]
  · apply Finset.sum_congr rfl
    intro a _
    rw [ENNReal.toReal_mul]
    congr 1
    simp only [Function.comp_apply]
    by_cases h0 : activeRegs a = 0
    · rw [if_pos h0]
      unfold resultLaw
      rw [if_pos (by simp only [card_single]; exact h0)]
      rw [PMF.toOuterMeasure_pure_apply, if_neg (by rintro ⟨pts, hp⟩; exact absurd hp (by simp))]
      rfl
    · rw [if_neg h0, (PMF.toOuterMeasure_apply_eq_one_iff _ _).2, ENNReal.toReal_one]
      intro out ho
      obtain ⟨tb, htb⟩ := resultLaw_support l h spends budget split st _ _ _
        (by simp only [card_single]; exact h0) out ho
      obtain ⟨pts, _, _, h1, _⟩ := C23_reach_points h spends tb hlen
      exact ⟨pts, htb.trans h1⟩
  · intro a _
    refine ENNReal.mul_ne_top (PMF.apply_ne_top _ _) ?_
    exact ne_top_of_le_ne_top ENNReal.one_ne_top (outer_le_one _ _)

/-- **C94.** If the noise and the estimate of the cardinality are right on average, then the reach
reported for every set of publishers is right on average (over the successful requests). -/
def C94_full : Prop :=
  ∀ (R S : Type) [Fintype R] [DecidableEq R] (l : Laws R) (logs : List Log) (h : HaloSimulator S),
    HaloBuilt logs h → h.dataSet.data = h.publishers.map (·.publisherData) →
    (∀ log ∈ logs, ∀ e ∈ log, 0 < e.2) →
    ∀ (spends : List ℚ), spends.length = logs.length → numActive spends ≤ 20 →
    ∀ (budget : PrivacyBudget ℚ) (split : ℚ) (st : HaloState),
      HasMean (l.estimate (reachedCount logs spends)) (fun e => (e : ℝ))
        (reachedCount logs spends : ℝ) →
      HasMean l.cardinalityNoise (fun y => (y : ℝ)) 0 →
      HasMean l.noise (fun z => (z : ℝ)) 0 →
      ∀ t : Finset Nat, t.Nonempty → (∀ i ∈ t, isActive spends i) →
        HasMean (vennLaw l h spends budget split st) (reportedReach spends t)
          ((reachedByAny logs spends t : ℝ) * (1 - noActive l (reachedCount logs spends)))

theorem exTwo_count : reachedCount exTwoLogs [2] = 1 := by
  obtain ⟨j₀, hj, ho⟩ := (pops_without exTwoBuilt 1 [2] rfl (by decide +kernel)).2 exTwo_reached
  have := ho.urn_length hj
  rwa [(pops_urn exTwoBuilt [2] rfl (by decide +kernel)).2,
    (pops_urn exOneBuilt [2] rfl (by decide +kernel)).2, exOne_count] at this

theorem exTwo_active (i : Nat) : i ∈ ({0} : Finset Nat) ↔ isActive [(2 : ℚ)] i := by
  rw [Finset.mem_singleton]
  constructor
  · rintro rfl; exact ⟨2, rfl, by norm_num⟩
  · rintro ⟨s, hs, _⟩
    have := (List.getElem?_eq_some_iff.1 hs).1
    simpa using this

theorem exTwo_union : reachedByAny exTwoLogs [2] {0} = 1 := by
  rw [← exTwo_count]
  unfold reachedByAny reachedCount
  congr 1
  ext u
  constructor
  · rintro ⟨i, _, h⟩; exact ⟨i, h⟩
  · rintro ⟨i, hi⟩
    have hi' := hi
    obtain ⟨log, s, _, h2, h3, _⟩ := hi'
    exact ⟨i, (exTwo_active i).2 ⟨s, h2, h3⟩, hi⟩

theorem exLaws_estimate (n : Nat) : HasMean (exLaws.estimate n) (fun e => (e : ℝ)) (n : ℝ) := by
  have := HasMean.pure (n : ℚ) (fun e : ℚ => (e : ℝ))
  simpa [exLaws] using this

/-- C94 is false of the code: with one person reached and discrete Laplace noise, the mean report is
less than one. -/
theorem C94_full_is_false : ¬ C94_full := by
  intro hfull
  have h1 := hfull (Fin 4) (List Int) exLaws exTwoLogs exTwoHalo exTwoBuilt (by decide +kernel)
    (by decide +kernel) [2] rfl (by decide +kernel) ⟨1, 0⟩ (1 / 2) exState (exLaws_estimate _)
    (discreteLaplace_mean (by norm_num)) (discreteLaplace_mean (by norm_num)) {0} (by simp) (fun i hi => (exTwo_active i).1 hi)
  obtain ⟨m, h2, _, _, h3⟩ := C94_total exLaws exTwoBuilt (by decide +kernel) (by decide +kernel)
    [2] rfl (by decide +kernel) ⟨1, 0⟩ (1 / 2) exState (exLaws_estimate _) (discreteLaplace_mean (by norm_num))
    {0} (by simp) exTwo_active
  have h4 := h3 ⟨-1, discreteLaplace_pos (by norm_num) _, by rw [exTwo_count]; norm_num⟩
    (by rw [exTwo_count]; norm_num) (by rw [exTwo_count, noActive_one]; norm_num)
  have h5 := h1.unique h2
  rw [exTwo_union] at h5
  rw [exTwo_count] at h4 h5
  exact absurd h5 (ne_of_gt h4)

/-- Sampling with four registers, noise only on the estimate of the cardinality. -/
noncomputable def exSampleLaws : Laws (Fin 4) := { exLaws with noise := PMF.pure 0 }

/-- Two publishers, each reached set of them reported right on average. -/
example (t : Finset Nat) (hne : t.Nonempty) (ht : ∀ i ∈ t, isActive [(2 : ℚ), 1] i) :
    HasMean (vennLaw exSampleLaws (exHalo exLib) [2, 1] ⟨1, 0⟩ (1 / 2) exState)
      (reportedReach [2, 1] t)
      ((reachedByAny exLogs [2, 1] t : ℝ) * (1 - noActive exSampleLaws (reachedCount exLogs [2, 1]))) :=
  C94_unbiased_partial exSampleLaws exHaloBuilt (by decide +kernel) (by decide +kernel) [2, 1] rfl
    (by decide +kernel) ⟨1, 0⟩ (1 / 2) exState (exLaws_estimate _) (discreteLaplace_mean (by norm_num)) rfl t hne ht

end

end Verif
