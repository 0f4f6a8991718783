import Verif.Lemmas.Noise
import Verif.Spec.VennLaw
import Mathlib.Logic.Equiv.Fintype
import Mathlib.Data.List.GetD
import Mathlib.Data.Fin.Tuple.Basic
import Mathlib.Algebra.BigOperators.Fin

/-!
# Sampling by registers
-/

namespace Verif.Spec

open Finset

/-! ## Independent registers -/

section
variable {R : Type} [Fintype R]

theorem registersLaw_apply (p : PMF R) (n : Nat) (a : Fin n → R) :
    registersLaw p n a = ∏ i, p (a i) := rfl

theorem map_equiv_apply {A B : Type} (p : PMF A) (e : A ≃ B) (b : B) : (p.map e) b = p (e.symm b) := by
  rw [PMF.map_apply, tsum_eq_single (e.symm b)]
  · rw [if_pos (by simp)]
  · intro a ha
    rw [if_neg]
    rintro rfl
    exact ha (by simp)

theorem registersLaw_perm (p : PMF R) {n : Nat} (σ : Equiv.Perm (Fin n)) :
    (registersLaw p n).map (fun a => a ∘ σ) = registersLaw p n := by
  ext a
  have e : (fun a : Fin n → R => a ∘ σ) = Equiv.arrowCongr σ.symm (Equiv.refl R) := by
    funext a i; simp
  rw [e, map_equiv_apply, registersLaw_apply, registersLaw_apply]
  simp only [Equiv.arrowCongr_symm, Equiv.arrowCongr_apply, Function.comp_apply, Equiv.refl_symm,
    Equiv.refl_apply, Equiv.symm_symm]
  exact Equiv.prod_comp σ.symm (fun i => p (a i))

theorem registersLaw_succ (p : PMF R) (n : Nat) :
    registersLaw p (n + 1) = p.bind (fun r => (registersLaw p n).map (fun b => Fin.cons (α := fun _ => R) r b)) := by
  ext a
  rw [registersLaw_apply, PMF.bind_apply, tsum_eq_single (a 0)]
  · rw [PMF.map_apply, tsum_eq_single (Fin.tail a)]
    · rw [if_pos (by simp), registersLaw_apply, Fin.prod_univ_succ]
      rfl
    · intro b hb
      rw [if_neg]
      intro h
      apply hb
      rw [h]
      simp
  · intro r hr
    have : ((registersLaw p n).map (fun b => Fin.cons (α := fun _ => R) r b)) a = 0 := by
      rw [PMF.map_apply, ENNReal.tsum_eq_zero]
      intro b
      rw [if_neg]
      intro h
      apply hr
      rw [h]
      simp
    rw [this, mul_zero]

theorem registersLaw_tail (p : PMF R) (n : Nat) :
    (registersLaw p (n + 1)).map (fun a => Fin.tail a) = registersLaw p n := by
  rw [registersLaw_succ, PMF.map_bind]
  have : ∀ r : R, ((registersLaw p n).map (fun b => Fin.cons (α := fun _ => R) r b)).map
      (fun a => Fin.tail a) = registersLaw p n := by
    intro r
    rw [PMF.map_comp]
    have : ((fun a : Fin (n + 1) → R => Fin.tail a) ∘ (fun b => Fin.cons (α := fun _ => R) r b)) = id := by
      funext b; simp
    rw [this, PMF.map_id]
  simp only [this, PMF.bind_const]

end

/-! ## The users alone in their register -/

section
variable {R : Type} [DecidableEq R]

/-- Users that share their register with nobody. -/
def single {n : Nat} (a : Fin n → R) : Finset (Fin n) := {i | ∀ j, a j = a i → j = i}

theorem mem_single {n : Nat} (a : Fin n → R) (i : Fin n) : i ∈ single a ↔ ∀ j, a j = a i → j = i := by
  simp [single]

theorem card_single [Fintype R] {n : Nat} (a : Fin n → R) : (single a).card = activeRegs a := by
  unfold activeRegs
  apply Finset.card_nbij (fun i => a i)
  · intro i hi
    rw [mem_coe, mem_single] at hi
    simp only [coe_filter, mem_univ, true_and, Set.mem_ofPred_eq]
    rw [Finset.card_eq_one]
    refine ⟨i, ?_⟩
    ext j
    simp only [mem_filter, mem_univ, true_and, mem_singleton]
    constructor
    · exact hi j
    · rintro rfl; rfl
  · intro i hi j _ hij
    rw [mem_coe, mem_single] at hi
    exact (hi j hij.symm).symm
  · intro r hr
    simp only [coe_filter, mem_univ, true_and, Set.mem_ofPred_eq] at hr
    rw [Finset.card_eq_one] at hr
    obtain ⟨i, hi⟩ := hr
    have hm : ∀ j, a j = r ↔ j = i := by
      intro j
      have : j ∈ ({i | a i = r} : Finset (Fin n)) ↔ j ∈ ({i} : Finset (Fin n)) := by rw [hi]
      simpa using this
    refine ⟨i, ?_, (hm i).2 rfl⟩
    rw [mem_coe, mem_single]
    intro j hj
    exact (hm j).1 (hj.trans ((hm i).2 rfl))

theorem single_perm {n : Nat} (a : Fin n → R) (σ : Equiv.Perm (Fin n)) :
    (single (a ∘ σ)).map σ.toEmbedding = single a := by
  ext i
  rw [mem_map_equiv, mem_single, mem_single]
  constructor
  · intro h j hj
    have := h (σ.symm j) (by simpa using hj)
    exact σ.symm.injective this
  · intro h j hj
    have := h (σ j) (by simpa using hj)
    rw [← this]; simp

end

/-! ## Symmetric random sets -/

/-- Sets of the same size are equally probable. -/
def Symmetric {n : Nat} (P : PMF (Finset (Fin n))) : Prop :=
  ∀ (σ : Equiv.Perm (Fin n)) T, P (T.map σ.toEmbedding) = P T

theorem single_symmetric {R : Type} [DecidableEq R] [Fintype R] (p : PMF R) (n : Nat) :
    Symmetric ((registersLaw p n).map single) := by
  intro σ T
  conv_rhs => rw [← registersLaw_perm p σ, PMF.map_comp]
  rw [PMF.map_apply, PMF.map_apply]
  congr 1
  funext a
  simp only [Function.comp_apply]
  have e := single_perm a σ
  by_cases h : T = single (a ∘ σ)
  · rw [if_pos h, if_pos (by rw [h, e])]
  · rw [if_neg h, if_neg]
    intro h2
    rw [← e] at h2
    exact h (Finset.map_injective _ h2)

theorem powersetCard_self_nonempty {n : Nat} (T : Finset (Fin n)) :
    (powersetCard T.card (univ : Finset (Fin n))).Nonempty := ⟨T, by simp⟩

theorem mem_powersetCard_self {n : Nat} (T : Finset (Fin n)) :
    T ∈ powersetCard T.card (univ : Finset (Fin n)) := by simp

/-- A symmetric random set is uniform among the sets of its size. -/
theorem Symmetric.uniform {n : Nat} {P : PMF (Finset (Fin n))} (hP : Symmetric P) :
    P = P.bind (fun T => PMF.uniformOfFinset (powersetCard T.card (univ : Finset (Fin n)))
      (powersetCard_self_nonempty T)) := by
  classical
  ext T₀
  rw [PMF.bind_apply, tsum_fintype]
  have h1 : ∀ T : Finset (Fin n), P T * (PMF.uniformOfFinset
      (powersetCard T.card (univ : Finset (Fin n))) (powersetCard_self_nonempty T)) T₀
      = if T ∈ powersetCard T₀.card (univ : Finset (Fin n)) then
          P T₀ * ((powersetCard T₀.card (univ : Finset (Fin n))).card : ENNReal)⁻¹ else 0 := by
    intro T
    rw [PMF.uniformOfFinset_apply]
    by_cases h : T.card = T₀.card
    · rw [if_pos (by simp [h]), if_pos (by simp [h])]
      obtain ⟨σ, hσ⟩ := Equiv.Perm.exists_map_finset_eq T₀ T h.symm
      rw [← hσ, hP σ T₀, Finset.card_map]
    · rw [if_neg (by simp [Ne.symm h]), if_neg (by simp [h]), mul_zero]
  rw [Finset.sum_congr rfl (fun T _ => h1 T), Finset.sum_ite_mem, Finset.univ_inter,
    Finset.sum_const, nsmul_eq_mul]
  set c := ((powersetCard T₀.card (univ : Finset (Fin n))).card : ENNReal) with hc
  have hc0 : c ≠ 0 := by
    rw [hc, Nat.cast_ne_zero, Finset.card_ne_zero]
    exact ⟨T₀, mem_powersetCard_self T₀⟩
  have hct : c ≠ ⊤ := ENNReal.natCast_ne_top _
  rw [mul_comm (P T₀), ← mul_assoc, ENNReal.mul_inv_cancel hc0 hct, one_mul]

/-! ## Colours -/

theorem exists_recolour {n : Nat} (c c' : Fin n → Nat) (h : ∀ j, #{i | c i = j} = #{i | c' i = j}) :
    ∃ σ : Equiv.Perm (Fin n), ∀ i, c' (σ i) = c i := by
  have e : ∀ j, Nonempty ({i // c i = j} ≃ {i // c' i = j}) := by
    intro j
    rw [← Fintype.card_eq, Fintype.card_subtype, Fintype.card_subtype]
    exact h j
  let E := fun j => (e j).some
  refine ⟨((Equiv.sigmaFiberEquiv c).symm.trans (Equiv.sigmaCongrRight E)).trans
    (Equiv.sigmaFiberEquiv c'), ?_⟩
  intro i
  simp only [Equiv.trans_apply]
  exact (E (c i) ⟨i, rfl⟩).2

theorem Symmetric.recolour {n : Nat} {P : PMF (Finset (Fin n))} (hP : Symmetric P)
    (c c' : Fin n → Nat) (h : ∀ j, #{i | c i = j} = #{i | c' i = j}) (L : Nat) :
    P.map (fun T => (T.card, countsOf c L T)) = P.map (fun T => (T.card, countsOf c' L T)) := by
  obtain ⟨σ, hσ⟩ := exists_recolour c c' h
  have e1 : P.map (fun T => T.map σ.toEmbedding) = P := by
    have e : (fun T : Finset (Fin n) => T.map σ.toEmbedding)
        = (⟨fun T => T.map σ.toEmbedding, fun T => T.map σ.symm.toEmbedding, fun T => by
            ext i; simp, fun T => by ext i; simp⟩ : Finset (Fin n) ≃ Finset (Fin n)) := rfl
    ext T
    rw [e, map_equiv_apply]
    have := hP σ.symm T
    simpa using this
  conv_rhs => rw [← e1, PMF.map_comp]
  congr 1
  funext T
  unfold countsOf
  simp only [Function.comp_apply, Finset.card_map]
  congr 2
  funext j
  rw [Finset.filter_map, Finset.card_map]
  congr 3
  funext i
  simp [hσ]

/-! ## One user more -/

/-- Sum of the differences, entry by entry. -/
def listDistance (a b : List Int) : Nat := (List.zipWith (fun x y => (x - y).natAbs) a b).sum

theorem countsOf_length {n : Nat} (c : Fin n → Nat) (L : Nat) (T : Finset (Fin n)) :
    (countsOf c L T).length = L := by simp [countsOf]

theorem listDistance_range (f g : Nat → Int) (L : Nat) :
    listDistance ((List.range L).map f) ((List.range L).map g)
      = ∑ j ∈ range L, (f j - g j).natAbs := by
  unfold listDistance
  rw [List.zipWith_map, List.zipWith_self, Finset.sum_range, ← List.sum_ofFn, List.ofFn_eq_map]
  congr 1
  rw [← List.map_coe_finRange_eq_range, List.map_map]
  rfl

theorem single_cons_counts {R : Type} [DecidableEq R] {n : Nat} (a : Fin (n + 1) → R)
    (c : Fin n → Nat) (j₀ L : Nat) :
    listDistance (countsOf (Fin.cons j₀ c) L (single a)) (countsOf c L (single (Fin.tail a))) ≤ 1 := by
  classical
  set t : Fin n → R := Fin.tail a with ht
  have htail : ∀ i, t i = a i.succ := fun i => rfl
  set B : Finset (Fin n) := {i ∈ single t | t i = a 0} with hB
  have hsucc : ∀ i : Fin n, i.succ ∈ single a ↔ i ∈ single t ∧ t i ≠ a 0 := by
    intro i
    rw [mem_single, mem_single, Fin.forall_fin_succ]
    constructor
    · rintro ⟨h0, h⟩
      refine ⟨fun j hj => Fin.succ_injective _ (h j hj), fun h1 => ?_⟩
      exact absurd (h0 h1.symm) (Fin.succ_ne_zero i).symm
    · rintro ⟨h, h0⟩
      exact ⟨fun h1 => absurd h1.symm h0, fun j hj => by rw [h j hj]⟩
  have hzero : (0 : Fin (n + 1)) ∈ single a → B = ∅ := by
    intro h0
    rw [mem_single] at h0
    rw [hB, Finset.filter_eq_empty_iff]
    intro i _ hi
    exact absurd (h0 i.succ hi) (Fin.succ_ne_zero i)
  have hBcard : B.card ≤ 1 := by
    rw [Finset.card_le_one]
    intro i hi j hj
    rw [hB, mem_filter, mem_single] at hi hj
    exact (hi.1 j (hj.2.trans hi.2.symm)).symm
  unfold countsOf
  rw [listDistance_range]
  have hcount : ∀ j, (((#{i ∈ single a | (Fin.cons j₀ c : Fin (n + 1) → Nat) i = j} : Nat) : Int)
        - ((#{i ∈ single t | c i = j} : Nat) : Int)).natAbs
      ≤ (if (0 : Fin (n + 1)) ∈ single a ∧ j₀ = j then 1 else 0) + #{i ∈ B | c i = j} := by
    intro j
    have e1 : #{i ∈ single a | (Fin.cons j₀ c : Fin (n + 1) → Nat) i = j}
        = (if (0 : Fin (n + 1)) ∈ single a ∧ j₀ = j then 1 else 0)
          + #{i ∈ single t | t i ≠ a 0 ∧ c i = j} := by
      have : ({i ∈ single a | (Fin.cons j₀ c : Fin (n + 1) → Nat) i = j} : Finset (Fin (n + 1)))
          = ({i | i ∈ single a ∧ (Fin.cons j₀ c : Fin (n + 1) → Nat) i = j} : Finset (Fin (n + 1))) := by
        ext i; simp
      rw [this, Fin.card_filter_univ_succ]
      have e2 : ({i | (fun x => x ∈ single a ∧ (Fin.cons j₀ c : Fin (n + 1) → Nat) x = j) i.succ} : Finset (Fin n))
          = {i ∈ single t | t i ≠ a 0 ∧ c i = j} := by
        ext i
        simp only [mem_filter, mem_univ, true_and, hsucc, Fin.cons_succ]
        tauto
      simp only [Fin.cons_zero]
      simp only at e2
      split
      · rw [add_comm]; congr 2
      · rw [zero_add]; congr 1
    have e3 : #{i ∈ single t | c i = j}
        = #{i ∈ single t | t i ≠ a 0 ∧ c i = j} + #{i ∈ B | c i = j} := by
      rw [← Finset.card_union_of_disjoint]
      · congr 1
        ext i
        simp only [hB, mem_filter, mem_union]
        tauto
      · rw [Finset.disjoint_left]
        intro i hi hj
        simp only [hB, mem_filter] at hi hj
        exact hi.2.1 hj.1.2
    rw [e1, e3]
    split <;> push_cast <;> omega
  calc ∑ j ∈ range L, _ ≤ ∑ j ∈ range L, ((if (0 : Fin (n + 1)) ∈ single a ∧ j₀ = j then 1 else 0)
          + #{i ∈ B | c i = j}) := Finset.sum_le_sum (fun j _ => hcount j)
    _ = ∑ j ∈ range L, (if (0 : Fin (n + 1)) ∈ single a ∧ j₀ = j then 1 else 0)
          + ∑ j ∈ range L, #{i ∈ B | c i = j} := Finset.sum_add_distrib
    _ ≤ 1 := by
        have hsumB : ∑ j ∈ range L, #{i ∈ B | c i = j} ≤ B.card := by
          rw [← Finset.card_biUnion]
          · apply Finset.card_le_card
            intro i hi
            simp only [mem_biUnion, mem_filter] at hi
            obtain ⟨_, _, h, _⟩ := hi
            exact h
          · intro x _ y _ hxy
            rw [Function.onFun, Finset.disjoint_left]
            intro i hi hj
            rw [mem_filter] at hi hj
            exact hxy (hi.2.symm.trans hj.2)
        by_cases h0 : (0 : Fin (n + 1)) ∈ single a
        · rw [hzero h0] at hsumB
          have : ∑ j ∈ range L, (if (0 : Fin (n + 1)) ∈ single a ∧ j₀ = j then 1 else 0) ≤ 1 := by
            simp only [h0, true_and]
            rw [Finset.sum_ite_eq]
            split <;> simp
          rw [Finset.card_empty, Nat.le_zero] at hsumB
          rw [hzero h0, hsumB, add_zero]
          exact this
        · simp only [h0, false_and, if_false, Finset.sum_const_zero, zero_add]
          exact hsumB.trans hBcard

/-! ## The urn -/

theorem urn_length (pops : List Int) : (urn pops).length = (pops.map Int.toNat).sum := by
  unfold urn
  rw [List.length_flatMap]
  simp only [List.length_replicate]
  have : pops.zipIdx.map (fun ci => ci.1.toNat) = (pops.zipIdx.map (·.1)).map Int.toNat := by
    rw [List.map_map]; rfl
  rw [this, List.zipIdx_map_fst]

theorem sum_toNat (pops : List Int) (h : ∀ x ∈ pops, 0 ≤ x) :
    ((pops.map Int.toNat).sum : Int) = pops.sum := by
  induction pops with
  | nil => simp
  | cons x l ih =>
    rw [List.map_cons, List.sum_cons, List.sum_cons, ← ih (fun y hy => h y (by simp [hy]))]
    have := h x (by simp)
    push_cast
    omega

theorem urn_length_eq (pops : List Int) (h : ∀ x ∈ pops, 0 ≤ x) :
    (urn pops).length = pops.sum.toNat := by
  rw [urn_length, ← sum_toNat pops h, Int.toNat_natCast]

theorem urn_count_aux (pops : List Int) (j k : Nat) :
    ((pops.zipIdx k).flatMap (fun ci => List.replicate ci.1.toNat ci.2)).count j
      = if k ≤ j then (pops.getD (j - k) 0).toNat else 0 := by
  induction pops generalizing k with
  | nil => simp
  | cons x l ih =>
    rw [List.zipIdx_cons, List.flatMap_cons, List.count_append, ih, List.count_replicate]
    rcases lt_trichotomy j k with h | h | h
    · have h1 : ¬ k ≤ j := by omega
      have h2 : ¬ k + 1 ≤ j := by omega
      have h3 : ¬ (k = j) := by omega
      simp [h1, h2, h3]
    · subst h
      simp
    · have h1 : k ≤ j := by omega
      have h2 : k + 1 ≤ j := by omega
      have h3 : ¬ (k = j) := by omega
      have e : j - k = (j - (k + 1)) + 1 := by omega
      simp only [h1, h2, if_true]
      rw [e, List.getD_cons_succ]
      simp [h3]

theorem urn_count (pops : List Int) (j : Nat) : (urn pops).count j = (pops.getD j 0).toNat := by
  unfold urn
  rw [urn_count_aux]; simp

theorem card_colour (l : List Nat) (j : Nat) : #{i : Fin l.length | l[i] = j} = l.count j := by
  induction l with
  | nil => simp
  | cons x l ih =>
    have := Fin.card_filter_univ_succ (fun i : Fin (l.length + 1) => (x :: l)[i] = j)
    rw [List.count_cons]
    refine this.trans ?_
    have e : #{i : Fin l.length | (x :: l)[i.succ] = j} = l.count j := by
      rw [← ih]; rfl
    rw [e]
    by_cases h : x = j
    · simp [h]
    · simp [h]

/-! ## The sampled counts -/

section
variable {R : Type} [Fintype R] [DecidableEq R]

/-- Number of active registers and sampled counts. -/
noncomputable def jointLaw (p : PMF R) (n : Nat) (pops : List Int) : PMF (Nat × List Int) :=
  (registersLaw p n).bind fun a => (hyperLaw pops (activeRegs a)).map fun s => (activeRegs a, s)

theorem bind_congr_support {A B : Type} (p : PMF A) (f g : A → PMF B)
    (h : ∀ a, p a ≠ 0 → f a = g a) : p.bind f = p.bind g := by
  ext b
  rw [PMF.bind_apply, PMF.bind_apply]
  congr 1
  funext a
  by_cases ha : p a = 0
  · rw [ha, zero_mul, zero_mul]
  · rw [h a ha]

/-- Sampling as many users as there are active registers is the same as taking the users alone in
their registers. -/
theorem jointLaw_eq (p : PMF R) (pops : List Int) :
    jointLaw p (urn pops).length pops = (registersLaw p (urn pops).length).map (fun a =>
      ((single a).card, countsOf (fun i => (urn pops)[i]) pops.length (single a))) := by
  have hP := single_symmetric p (urn pops).length
  set P := (registersLaw p (urn pops).length).map (single (R := R)) with hPdef
  have e1 : jointLaw p (urn pops).length pops = P.bind (fun T =>
      (PMF.uniformOfFinset (powersetCard T.card univ) (powersetCard_self_nonempty T)).map
        (fun T' => (T.card, countsOf (fun i => (urn pops)[i]) pops.length T'))) := by
    unfold jointLaw
    rw [hPdef, PMF.bind_map]
    congr 1
    funext a
    simp only [Function.comp_apply, hyperLaw]
    rw [← card_single a, dif_pos (powersetCard_self_nonempty (single a)), PMF.map_comp]
    rfl
  have e2 : (registersLaw p (urn pops).length).map (fun a =>
      ((single a).card, countsOf (fun i => (urn pops)[i]) pops.length (single a)))
      = P.map (fun T => (T.card, countsOf (fun i => (urn pops)[i]) pops.length T)) := by
    rw [hPdef, PMF.map_comp]; rfl
  rw [e1, e2]
  conv_rhs => rw [hP.uniform, PMF.map_bind]
  congr 1
  funext T
  rw [← PMF.bind_pure_comp, ← PMF.bind_pure_comp]
  apply bind_congr_support
  intro T' hT'
  rw [← PMF.mem_support_iff, PMF.mem_support_uniformOfFinset_iff] at hT'
  have : T'.card = T.card := by simpa using hT'
  simp only [Function.comp_apply, this]

/-- Counts with one user more in region `j₀`. -/
structure OneMore (pops pops' : List Int) (j₀ : Nat) : Prop where
  length_eq : pops'.length = pops.length
  nonneg : ∀ x ∈ pops, 0 ≤ x
  get : ∀ j, pops'.getD j 0 = pops.getD j 0 + if j = j₀ then 1 else 0

theorem OneMore.nonneg' {pops pops' : List Int} {j₀ : Nat} (h : OneMore pops pops' j₀) :
    ∀ x ∈ pops', 0 ≤ x := by
  intro x hx
  obtain ⟨j, hj, rfl⟩ := List.getElem_of_mem hx
  have e := h.get j
  rw [List.getD_eq_getElem _ _ hj, List.getD_eq_getElem _ _ (by rw [← h.length_eq]; exact hj)] at e
  have := h.nonneg _ (List.getElem_mem (l := pops) (n := j) (by rw [← h.length_eq]; exact hj))
  rw [e]
  split <;> omega

theorem OneMore.urn_length {pops pops' : List Int} {j₀ : Nat} (h : OneMore pops pops' j₀)
    (hj : j₀ < pops.length) : (urn pops').length = (urn pops).length + 1 := by
  rw [urn_length_eq _ h.nonneg', urn_length_eq _ h.nonneg]
  have : pops'.sum = pops.sum + 1 := by
    have e : ∀ l : List Int, l.sum = ∑ j ∈ range l.length, l.getD j 0 := by
      intro l
      rw [Finset.sum_range]
      conv_lhs => rw [← List.ofFn_getElem (xs := l), List.sum_ofFn]
      refine Finset.sum_congr rfl (fun i _ => ?_)
      rw [List.getD_eq_getElem _ _ i.2]
    rw [e, e, h.length_eq, Finset.sum_congr rfl (fun j _ => h.get j), Finset.sum_add_distrib]
    simp [hj]
  have h0 : 0 ≤ pops.sum := List.sum_nonneg h.nonneg
  omega

/-- The counts sampled for two populations that differ by one user, drawn together. -/
theorem jointLaw_couple (p : PMF R) {pops pops' : List Int} {j₀ : Nat} (h : OneMore pops pops' j₀)
    (hj : j₀ < pops.length) :
    jointLaw p (urn pops).length pops = (registersLaw p ((urn pops).length + 1)).map (fun a =>
      ((single (Fin.tail a)).card,
        countsOf (fun i => (urn pops)[i]) pops.length (single (Fin.tail a)))) ∧
    jointLaw p (urn pops').length pops' = (registersLaw p ((urn pops).length + 1)).map (fun a =>
      ((single a).card,
        countsOf (Fin.cons j₀ (fun i : Fin (urn pops).length => (urn pops)[i])) pops.length
          (single a))) := by
  constructor
  · rw [jointLaw_eq]
    conv_lhs => rw [← registersLaw_tail, PMF.map_comp]
    rfl
  · rw [jointLaw_eq, h.length_eq]
    have gen : ∀ (l : List Nat) (N : Nat) (hl : l.length = N) (c' : Fin N → Nat)
        (hc : ∀ j, l.count j = #{i | c' i = j}),
        (registersLaw p l.length).map (fun a =>
          ((single a).card, countsOf (fun i => l[i]) pops.length (single a)))
        = (registersLaw p N).map (fun a => ((single a).card, countsOf c' pops.length (single a))) := by
      intro l N hl c' hc
      subst hl
      have := (single_symmetric p l.length).recolour (fun i => l[i]) c' (by
        intro j; rw [card_colour, hc]) pops.length
      rw [PMF.map_comp, PMF.map_comp] at this
      exact this
    apply gen _ _ (h.urn_length hj)
    intro j
    rw [urn_count, h.get, Fin.card_filter_univ_succ]
    simp only [Fin.cons_zero, Fin.cons_succ]
    rw [card_colour, urn_count]
    have h0 : 0 ≤ pops.getD j 0 := by
      by_cases hl : j < pops.length
      · rw [List.getD_eq_getElem _ _ hl]; exact h.nonneg _ (List.getElem_mem hl)
      · rw [List.getD_eq_default _ _ (by omega)]
    by_cases hjj : j = j₀
    · subst hjj; simp only [if_true]; omega
    · rw [if_neg hjj, if_neg (Ne.symm hjj)]; omega

end

/-! ## Closeness of two computations drawn together -/

theorem DpClose.couple {Ω O : Type} {ε : ℝ} (Q : PMF Ω) (F G : Ω → PMF O) (bad : Set Ω)
    (h : ∀ ω, ω ∉ bad → DpClose ε 0 (F ω) (G ω)) (δ : ℝ) (hδ : Q.toOuterMeasure bad ≤ ENNReal.ofReal δ) :
    DpClose ε δ (Q.bind F) (Q.bind G) := by
  intro S
  rw [PMF.toOuterMeasure_bind_apply, PMF.toOuterMeasure_bind_apply]
  calc ∑' ω, Q ω * (F ω).toOuterMeasure S
      ≤ ∑' ω, (ENNReal.ofReal (Real.exp ε) * (Q ω * (G ω).toOuterMeasure S) + bad.indicator Q ω) := by
        apply ENNReal.tsum_le_tsum
        intro ω
        by_cases hω : ω ∈ bad
        · rw [Set.indicator_of_mem hω]
          calc Q ω * (F ω).toOuterMeasure S ≤ Q ω * 1 := by gcongr; exact outer_le_one _ _
            _ ≤ _ := by rw [mul_one]; exact le_add_self
        · rw [Set.indicator_of_notMem hω, add_zero]
          have := h ω hω S
          rw [ENNReal.ofReal_zero, add_zero] at this
          calc Q ω * (F ω).toOuterMeasure S
              ≤ Q ω * (ENNReal.ofReal (Real.exp ε) * (G ω).toOuterMeasure S) := by gcongr
            _ = _ := by ring
    _ = ENNReal.ofReal (Real.exp ε) * ∑' ω, Q ω * (G ω).toOuterMeasure S + Q.toOuterMeasure bad := by
        rw [ENNReal.tsum_add, ENNReal.tsum_mul_left, PMF.toOuterMeasure_apply]
    _ ≤ _ := by gcongr

end Verif.Spec
