import Verif.Lemmas.Dp
import Verif.Spec.Noise
import Verif.Lemmas.Dict

/-!
# Rules for noised tables
-/

namespace Verif.Spec

open ENNReal

theorem StepLaw.steps {ε : ℝ} {ν : PMF ℤ} (h : StepLaw ε ν) (n : ℕ) (z : ℤ) :
    ν z ≤ ENNReal.ofReal (Real.exp (n * ε)) * ν (z + n) ∧
      ν (z + n) ≤ ENNReal.ofReal (Real.exp (n * ε)) * ν z := by
  induction n with
  | zero => simp
  | succ n ih =>
    have e : ENNReal.ofReal (Real.exp (((n + 1 : ℕ) : ℝ) * ε))
        = ENNReal.ofReal (Real.exp (n * ε)) * ENNReal.ofReal (Real.exp ε) := by
      rw [← ENNReal.ofReal_mul (Real.exp_nonneg _), ← Real.exp_add]
      push_cast
      ring_nf
    have e2 : z + ((n + 1 : ℕ) : ℤ) = z + n + 1 := by push_cast; ring
    rw [e, e2]
    obtain ⟨a, b⟩ := h (z + n)
    constructor
    · calc ν z ≤ ENNReal.ofReal (Real.exp (n * ε)) * ν (z + n) := ih.1
        _ ≤ ENNReal.ofReal (Real.exp (n * ε)) * (ENNReal.ofReal (Real.exp ε) * ν (z + n + 1)) := by
            gcongr
        _ = _ := by rw [mul_assoc]
    · calc ν (z + n + 1) ≤ ENNReal.ofReal (Real.exp ε) * ν (z + n) := b
        _ ≤ ENNReal.ofReal (Real.exp ε) * (ENNReal.ofReal (Real.exp (n * ε)) * ν z) := by
            gcongr
            exact ih.2
        _ = _ := by ring

theorem map_shift (ν : PMF ℤ) (v o : ℤ) : (ν.map (fun z => v + z)) o = ν (o - v) := by
  rw [PMF.map_apply, tsum_eq_single (o - v)]
  · rw [if_pos (by ring)]
  · intro b hb
    rw [if_neg]
    intro he
    exact hb (by rw [he]; ring)

theorem StepLaw.shift {ε : ℝ} {ν : PMF ℤ} (h : StepLaw ε ν) (v v' : ℤ) :
    DpClose (((v - v').natAbs : ℝ) * ε) 0 (ν.map (fun z => v + z)) (ν.map (fun z => v' + z)) := by
  apply DpClose.of_pointwise
  intro o
  rw [map_shift, map_shift]
  rcases le_total v v' with hle | hle
  · have e : o - v = (o - v') + ((v - v').natAbs : ℤ) := by omega
    rw [e]
    exact (h.steps _ _).2
  · have e : o - v' = (o - v) + ((v - v').natAbs : ℤ) := by omega
    rw [e]
    exact (h.steps _ _).1

/-- The result of the noise step for given noise. -/
def noised (regions : Dict Nat Int) (z : List ℤ) : Dict Nat ℚ :=
  regions.zipIdx.map (fun rk => (rk.1.1, max 0 ((rk.1.2 : ℚ) + ((z.getD rk.2 0 : ℤ) : ℚ))))

theorem noised_cons (r : Nat × Int) (rest : Dict Nat Int) (x : ℤ) (z : List ℤ) :
    noised (r :: rest) (x :: z) = (r.1, max 0 (((r.2 + x : ℤ)) : ℚ)) :: noised rest z := by
  unfold noised
  rw [List.zipIdx_cons', List.map_cons, List.map_map]
  simp [Function.comp_def]

/-- Distribution of the noised table. -/
noncomputable def tableLaw (ν : PMF ℤ) (regions : Dict Nat Int) : PMF (Dict Nat ℚ) :=
  (iid ν regions.length).map (noised regions)

theorem tableLaw_cons (ν : PMF ℤ) (r : Nat × Int) (rest : Dict Nat Int) :
    tableLaw ν (r :: rest) = (ν.map (fun z => r.2 + z)).bind (fun x =>
      (tableLaw ν rest).map (fun t => (r.1, max 0 ((x : ℤ) : ℚ)) :: t)) := by
  unfold tableLaw
  rw [List.length_cons]
  simp only [iid]
  rw [PMF.map_bind, PMF.bind_map]
  congr 1
  funext x
  rw [PMF.map_comp]
  simp only [Function.comp_apply]
  rw [PMF.map_comp]
  congr 1
  funext z
  simp only [Function.comp_apply, noised_cons]

theorem tableLaw_close {ε : ℝ} {ν : PMF ℤ} (h : StepLaw ε ν) : ∀ (a b : Dict Nat Int),
    dictKeys a = dictKeys b → DpClose ((tableDistance a b : ℝ) * ε) 0 (tableLaw ν a) (tableLaw ν b) := by
  intro a
  induction a with
  | nil =>
    intro b hb
    cases b with
    | nil => exact DpClose.refl (by simp [tableDistance]) _
    | cons r rest => simp [dictKeys] at hb
  | cons r rest ih =>
    intro b hb
    cases b with
    | nil => simp [dictKeys] at hb
    | cons r' rest' =>
      simp only [dictKeys, List.map_cons, List.cons.injEq] at hb
      rw [tableLaw_cons, tableLaw_cons, ← hb.1]
      have e : ((tableDistance (r :: rest) (r' :: rest') : ℕ) : ℝ) * ε
          = ((r.2 - r'.2).natAbs : ℝ) * ε + (tableDistance rest rest' : ℝ) * ε := by
        simp only [tableDistance, List.zipWith_cons_cons, List.sum_cons]
        push_cast
        ring
      rw [e, ← add_zero (0 : ℝ)]
      exact DpClose.bind le_rfl le_rfl (h.shift _ _) (fun x => (ih rest' hb.2).map _)

/-- The noise step hands out the noised table, and records its event. -/
theorem noiseLaw_eq {S : Type} (ν : PMF ℤ) (h : HaloSimulator S) (regions : Dict Nat Int)
    (budget : PrivacyBudget ℚ) (split : ℚ) (st : HaloState) :
    noiseLaw ν h regions budget split st = (tableLaw ν regions).map (fun t =>
      (.ok t, { tracker := st.tracker.append
                  { budget := ⟨budget.epsilon * split, budget.delta * split⟩,
                    mechanism := "Discrete Laplace", samplingBuckets := fullBucket },
                draws := st.draws + 1 })) := by
  unfold noiseLaw tableLaw
  rw [PMF.map_comp]
  congr 1
  funext z
  simp only [Function.comp_apply, HaloSimulator.addDpNoise, bind, HaloM.bind, HaloM.draw,
    HaloM.record, pure, withNoise, noiserOf, if_true, noised]

/-! ## Discrete Laplace noise -/

theorem discreteLaplace_ratio {ε : ℝ} (hε : 0 < ε) (z w : ℤ) (c : ℝ)
    (hc : (w.natAbs : ℝ) * ε ≤ c + z.natAbs * ε) :
    discreteLaplace ε hε z ≤ ENNReal.ofReal (Real.exp c) * discreteLaplace ε hε w := by
  unfold discreteLaplace
  rw [PMF.normalize_apply, PMF.normalize_apply, ← mul_assoc]
  gcongr
  rw [← ENNReal.ofReal_mul (Real.exp_nonneg _), ← Real.exp_add]
  apply ENNReal.ofReal_le_ofReal
  rw [Real.exp_le_exp]
  linarith

theorem discreteLaplace_step {ε : ℝ} (hε : 0 < ε) : StepLaw ε (discreteLaplace ε hε) := by
  intro z
  constructor
  · apply discreteLaplace_ratio
    have : (z + 1).natAbs ≤ 1 + z.natAbs := by omega
    have : ((z + 1).natAbs : ℝ) ≤ 1 + z.natAbs := by exact_mod_cast this
    nlinarith
  · apply discreteLaplace_ratio
    have : z.natAbs ≤ 1 + (z + 1).natAbs := by omega
    have : (z.natAbs : ℝ) ≤ 1 + (z + 1).natAbs := by exact_mod_cast this
    nlinarith

end Verif.Spec

namespace Verif.Spec

open ENNReal

/-- Distribution of one noised count. -/
noncomputable def entryLaw (ν : PMF ℤ) (v : ℤ) : PMF ℚ := ν.map (fun z => max 0 ((v + z : ℤ) : ℚ))

theorem tableLaw_cons_apply (ν : PMF ℤ) (r : Nat × Int) (rest : Dict Nat Int) (y : ℚ) (t : Dict Nat ℚ) :
    tableLaw ν (r :: rest) ((r.1, y) :: t) = entryLaw ν r.2 y * tableLaw ν rest t := by
  have e : tableLaw ν (r :: rest) = (entryLaw ν r.2).bind (fun x =>
      (tableLaw ν rest).map (fun t => (r.1, x) :: t)) := by
    rw [tableLaw_cons, PMF.bind_map]
    unfold entryLaw
    rw [PMF.bind_map]
    rfl
  rw [e, PMF.bind_apply, tsum_eq_single y]
  · congr 1
    rw [PMF.map_apply, tsum_eq_single t]
    · rw [if_pos rfl]
    · intro t' ht'
      rw [if_neg]
      intro h
      simp only [List.cons.injEq, true_and] at h
      exact ht' h.symm
  · intro y' hy'
    have : ((tableLaw ν rest).map (fun t => (r.1, y') :: t)) ((r.1, y) :: t) = 0 := by
      rw [PMF.map_apply, ENNReal.tsum_eq_zero]
      intro t'
      rw [if_neg]
      intro h
      simp only [List.cons.injEq, Prod.mk.injEq, true_and] at h
      exact hy' h.1.symm
    rw [this, mul_zero]

theorem discreteLaplace_exact {ε : ℝ} (hε : 0 < ε) (z w : ℤ) (n : ℕ)
    (hn : w.natAbs = n + z.natAbs) :
    discreteLaplace ε hε z = ENNReal.ofReal (Real.exp (n * ε)) * discreteLaplace ε hε w := by
  unfold discreteLaplace
  rw [PMF.normalize_apply, PMF.normalize_apply, ← mul_assoc]
  congr 1
  rw [← ENNReal.ofReal_mul (Real.exp_nonneg _), ← Real.exp_add, hn]
  congr 2
  push_cast
  ring

theorem discreteLaplace_pos {ε : ℝ} (hε : 0 < ε) (z : ℤ) : discreteLaplace ε hε z ≠ 0 := by
  unfold discreteLaplace
  rw [PMF.normalize_apply]
  refine mul_ne_zero ?_ (ENNReal.inv_ne_zero.2 (weights_ne_top hε))
  rw [Ne, ENNReal.ofReal_eq_zero, not_le]
  exact Real.exp_pos _

/-- For every two counts there is a result that tells them apart as well as possible. -/
theorem entryLaw_exact {ε : ℝ} (hε : 0 < ε) (a b : ℤ) (ha : 0 ≤ a) (hb : 0 ≤ b) :
    ∃ y : ℚ, entryLaw (discreteLaplace ε hε) a y
        = ENNReal.ofReal (Real.exp ((a - b).natAbs * ε)) * entryLaw (discreteLaplace ε hε) b y ∧
      entryLaw (discreteLaplace ε hε) b y ≠ 0 := by
  classical
  have hpos : ∀ v y z : ℤ, max 0 ((v + z : ℤ) : ℚ) = (y : ℚ) →
      entryLaw (discreteLaplace ε hε) v y ≠ 0 := by
    intro v y z hz h0
    unfold entryLaw at h0
    rw [PMF.map_apply, ENNReal.tsum_eq_zero] at h0
    have := h0 z
    rw [if_pos hz.symm] at this
    exact discreteLaplace_pos hε z this
  rcases lt_trichotomy a b with hlt | heq | hgt
  · refine ⟨((0 : ℤ) : ℚ), ?_, hpos b 0 (-b) (by simp)⟩
    unfold entryLaw
    rw [PMF.map_apply, PMF.map_apply, ← ENNReal.tsum_mul_left]
    refine Eq.trans ((Equiv.addRight (b - a)).tsum_eq _).symm ?_
    congr 1
    funext w
    have e : a + (Equiv.addRight (b - a)) w = b + w := by rw [Equiv.coe_addRight]; ring
    by_cases hw : ((0 : ℤ) : ℚ) = max 0 ((b + w : ℤ) : ℚ)
    · rw [if_pos (by rw [e]; exact hw), if_pos hw, Equiv.coe_addRight]
      have hle : ((b + w : ℤ) : ℚ) ≤ 0 := by
        have := le_max_right (0 : ℚ) ((b + w : ℤ) : ℚ)
        rw [← hw] at this
        simpa using this
      have hle' : b + w ≤ 0 := by exact_mod_cast hle
      exact discreteLaplace_exact hε (w + (b - a)) w _ (by omega)
    · rw [if_neg (by rw [e]; exact hw), if_neg hw, mul_zero]
  · subst heq
    refine ⟨((a : ℤ) : ℚ), by simp, hpos a a 0 (by
      rw [add_zero]; exact max_eq_right (by exact_mod_cast ha))⟩
  · have hone : ∀ v : ℤ, entryLaw (discreteLaplace ε hε) v ((a : ℤ) : ℚ)
        = discreteLaplace ε hε (a - v) := by
      intro v
      unfold entryLaw
      rw [PMF.map_apply, tsum_eq_single (a - v)]
      · rw [if_pos]
        rw [show v + (a - v) = a by ring]
        exact (max_eq_right (by exact_mod_cast ha)).symm
      · intro z hz
        rw [if_neg]
        intro h
        have hapos : (0 : ℚ) < (a : ℚ) := by exact_mod_cast (lt_of_le_of_lt hb hgt)
        rcases le_total (0 : ℚ) ((v + z : ℤ) : ℚ) with h1 | h1
        · rw [max_eq_right h1] at h
          have : a = v + z := by exact_mod_cast h
          exact hz (by omega)
        · rw [max_eq_left h1] at h
          exact absurd h (ne_of_gt hapos)
    refine ⟨((a : ℤ) : ℚ), ?_, ?_⟩
    · rw [hone, hone]
      exact discreteLaplace_exact hε _ _ _ (by simp)
    · rw [hone]; exact discreteLaplace_pos hε _

theorem tableLaw_exact {ε : ℝ} (hε : 0 < ε) : ∀ (a b : Dict Nat Int), dictKeys a = dictKeys b →
    (∀ r ∈ a, 0 ≤ r.2) → (∀ r ∈ b, 0 ≤ r.2) →
    ∃ t : Dict Nat ℚ, tableLaw (discreteLaplace ε hε) a t
        = ENNReal.ofReal (Real.exp ((tableDistance a b : ℝ) * ε)) * tableLaw (discreteLaplace ε hε) b t ∧
      tableLaw (discreteLaplace ε hε) b t ≠ 0 := by
  intro a
  induction a with
  | nil =>
    intro b hb _ _
    cases b with
    | nil =>
      refine ⟨[], by simp [tableDistance], ?_⟩
      simp [tableLaw, iid, noised, PMF.pure_map]
    | cons r rest => simp [dictKeys] at hb
  | cons r rest ih =>
    intro b hb ha hb0
    cases b with
    | nil => simp [dictKeys] at hb
    | cons r' rest' =>
      simp only [dictKeys, List.map_cons, List.cons.injEq] at hb
      obtain ⟨y, y1, y2⟩ := entryLaw_exact hε r.2 r'.2 (ha r (by simp)) (hb0 r' (by simp))
      obtain ⟨t, t1, t2⟩ := ih rest' hb.2 (fun x hx => ha x (by simp [hx]))
        (fun x hx => hb0 x (by simp [hx]))
      refine ⟨(r.1, y) :: t, ?_, ?_⟩
      · rw [tableLaw_cons_apply]
        conv_rhs => rw [hb.1, tableLaw_cons_apply]
        rw [y1, t1]
        have e : ((tableDistance (r :: rest) (r' :: rest') : ℕ) : ℝ) * ε
            = ((r.2 - r'.2).natAbs : ℝ) * ε + (tableDistance rest rest' : ℝ) * ε := by
          simp only [tableDistance, List.zipWith_cons_cons, List.sum_cons]
          push_cast
          ring
        rw [e, Real.exp_add, ENNReal.ofReal_mul (Real.exp_nonneg _)]
        ring
      · rw [hb.1, tableLaw_cons_apply]
        exact mul_ne_zero y2 t2

/-- How much two tables differ after noising. -/
theorem tableLaw_tight {ε c : ℝ} (hε : 0 < ε) (a b : Dict Nat Int) (hk : dictKeys a = dictKeys b)
    (ha : ∀ r ∈ a, 0 ≤ r.2) (hb : ∀ r ∈ b, 0 ≤ r.2)
    (h : DpClose c 0 (tableLaw (discreteLaplace ε hε) a) (tableLaw (discreteLaplace ε hε) b)) :
    (tableDistance a b : ℝ) * ε ≤ c := by
  obtain ⟨t, t1, t2⟩ := tableLaw_exact hε a b hk ha hb
  have hp := h.pointwise t
  rw [t1, ENNReal.mul_le_mul_iff_left t2 (PMF.apply_ne_top _ _),
    ENNReal.ofReal_le_ofReal_iff (Real.exp_nonneg _), Real.exp_le_exp] at hp
  exact hp

end Verif.Spec
