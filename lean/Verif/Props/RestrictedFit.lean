import Verif.Props.Restricted
import Verif.Model.RestrictedSampler

/-!
# C60–C62: more about the restricted pairwise union reach surface
-/

namespace Verif

open Verif.Spec Finset

/-! ## C60 -/

/-- C60, the documented form (restricted_pairwise_union_reach_surface.py:45-63): the prediction is
that of the pairwise model with `a i j = lbd i * lbd j`. -/
def C60_full : Prop :=
  ∀ (s : PairwiseSurface), WellFormed s → ∀ (lbd : Nat → ℚ),
    Restricted.checkFeasibility s.p lbd Restricted.defaultTol = true →
    ∀ (v : List ℚ), v.length = s.p → ∀ r, PairwiseSurface.getReachVector s.curves v = .ok r →
    ReachesInRange s r →
    ∃ pt, ({ s with a := Restricted.constructA s.p lbd } : PairwiseSurface).byImpressions v = .ok pt ∧
      pt.reach 1 = .ok (unionReach s.p (fun i j => if i = j then 0 else lbd i * lbd j)
        (surfaceMax s) (fun i => r.getD i 0))

/-- C60, what the code does: it uses half of the documented parameters. -/
theorem C60_half_of_documented_partial (s : PairwiseSurface) (hs : WellFormed s) (lbd : Nat → ℚ)
    (v : List ℚ) (hv : v.length = s.p) (r : List ℚ)
    (hr : PairwiseSurface.getReachVector s.curves v = .ok r) :
    ∃ pt, ({ s with a := Restricted.constructA s.p lbd } : PairwiseSurface).byImpressions v = .ok pt ∧
      pt.reach 1 = .ok (unionReach s.p (fun i j => if i = j then 0 else lbd i * lbd j / 2)
        (surfaceMax s) (fun i => r.getD i 0)) := by
  obtain ⟨pt, h1, _, _, h2⟩ := C30_formula { s with a := Restricted.constructA s.p lbd }
    ⟨hs.curves, by simp [Restricted.constructA], hs.positive⟩ v hv r hr
  refine ⟨pt, h1, ?_⟩
  rw [h2]
  congr 1
  unfold unionReach
  congr 2
  apply Finset.sum_congr rfl
  intro i hi
  apply Finset.sum_congr rfl
  intro j hj
  have : surfaceMatrix { s with a := Restricted.constructA s.p lbd } i j
      = if i = j then 0 else lbd i * lbd j / 2 :=
    constructA_entry s.p lbd i j (Finset.mem_range.1 hi) (Finset.mem_range.1 hj)
  rw [this]
  rfl

/-- C60, consequence: for every feasible lambda vector the predicted union reach is at least three
quarters of the sum of the reaches (up to the tolerance), whatever the data.  For two publishers with
the same audience the true union reach is half of that sum. -/
theorem C60_at_least_three_quarters (s : PairwiseSurface) (hs : WellFormed s) (lbd : Nat → ℚ)
    (h : Restricted.checkFeasibility s.p lbd Restricted.defaultTol = true)
    (v : List ℚ) (hv : v.length = s.p) (r : List ℚ)
    (hr : PairwiseSurface.getReachVector s.curves v = .ok r) (hrange : ReachesInRange s r) :
    ∃ pt u, ({ s with a := Restricted.constructA s.p lbd } : PairwiseSurface).byImpressions v = .ok pt ∧
      pt.reach 1 = .ok u ∧ (3 - Restricted.defaultTol) / 4 * r.sum ≤ u := by
  obtain ⟨pt, h1, _, _, h2⟩ := C30_formula { s with a := Restricted.constructA s.p lbd }
    ⟨hs.curves, by simp [Restricted.constructA], hs.positive⟩ v hv r hr
  refine ⟨pt, _, h1, h2, ?_⟩
  have hlen : r.length = s.p := by
    rw [reachVector_length _ _ _ hr, hs.curves, hv, min_self]
  obtain ⟨hp, hrow⟩ := C35_plausible s.p lbd Restricted.defaultTol
    (by norm_num [Restricted.defaultTol]) h
  rw [list_sum_getD, hlen]
  unfold unionReach
  set A := fun i j => (Restricted.constructA s.p lbd).getD (i * s.p + j) 0 with hA
  have key : ∑ i ∈ range s.p, ∑ j ∈ range s.p, A i j * r.getD i 0 * r.getD j 0
        / max (surfaceMax s i) (surfaceMax s j)
      ≤ (1 + Restricted.defaultTol) / 2 * ∑ i ∈ range s.p, r.getD i 0 := by
    rw [Finset.mul_sum]
    apply Finset.sum_le_sum
    intro i hi
    have hi := Finset.mem_range.1 hi
    have hri := (hrange i hi).1
    calc _ ≤ ∑ j ∈ range s.p, A i j * r.getD i 0 := by
          apply Finset.sum_le_sum
          intro j hj
          have hj := Finset.mem_range.1 hj
          have hM := surfaceMax_pos s hs j hj
          rw [div_le_iff₀ (lt_of_lt_of_le hM (le_max_right _ _))]
          apply mul_le_mul_of_nonneg_left (le_trans (hrange j hj).2 (le_max_right _ _))
          exact mul_nonneg (hp.nonneg i hi j hj) hri
      _ = (∑ j ∈ range s.p, A i j) * r.getD i 0 := by rw [Finset.sum_mul]
      _ ≤ _ := mul_le_mul_of_nonneg_right (hrow i hi) hri
  have e : ∀ i j, surfaceMatrix { s with a := Restricted.constructA s.p lbd } i j = A i j :=
    fun _ _ => rfl
  have e2 : ∀ k, surfaceMax { s with a := Restricted.constructA s.p lbd } k = surfaceMax s k :=
    fun _ => rfl
  simp only [e, e2]
  have hnn : 0 ≤ ∑ i ∈ range s.p, r.getD i 0 :=
    Finset.sum_nonneg (fun i hi => (hrange i (Finset.mem_range.1 hi)).1)
  linarith

theorem exSurface_wellFormed : WellFormed exSurface := by
  refine ⟨rfl, rfl, ?_⟩
  intro c hc
  simp only [exSurface, List.mem_cons, List.not_mem_nil, or_false] at hc
  rcases hc with rfl | rfl <;> norm_num

theorem exSurface_reaches : PairwiseSurface.getReachVector exSurface.curves [20, 10] = .ok [20, 5] := by
  decide +kernel

theorem exSurface_inRange : ReachesInRange exSurface [20, 5] := by
  unfold ReachesInRange
  decide +kernel

/-- The documented form does not hold: with both lambdas one, it predicts 22.5 on the example; the
code predicts 23.75. -/
theorem C60_full_is_false : ¬ C60_full := by
  intro h
  obtain ⟨pt, h1, h2⟩ := h exSurface exSurface_wellFormed (fun _ => 1) (by decide +kernel)
    [20, 10] rfl [20, 5] exSurface_reaches exSurface_inRange
  obtain ⟨pt', h1', h2'⟩ := C60_half_of_documented_partial exSurface exSurface_wellFormed (fun _ => 1)
    [20, 10] rfl [20, 5] exSurface_reaches
  rw [h1] at h1'
  obtain rfl : pt = pt' := by simpa using h1'
  rw [h2] at h2'
  have := Except.ok.inj h2'
  revert this
  decide +kernel

/-! ## C61 -/

/-- C61: if a run reports convergence, its last round improved the loss by at most the configured
improvement.  (`fit'` is the same run stopped one round earlier.) -/
def C61_full : Prop :=
  ∀ (p : Nat) (pts : List RestrictedPoint) (mi : ℚ) (maxRounds : Nat) (orders : Nat → List Nat)
    (lbd : Nat → ℚ) (fit fit' : Restricted.LocalFit) (n : Nat),
    Restricted.fitOneInit p pts mi maxRounds orders lbd = some fit → fit.converge = true →
    fit.rounds = n + 1 → Restricted.fitOneInit p pts mi n orders lbd = some fit' →
    Restricted.loss p pts fit'.lbd - mi ≤ Restricted.loss p pts fit.lbd

/-- One training point for two publishers whose predicted overlap is the product of the lambdas. -/
def exOnePoint : List RestrictedPoint := [⟨7 / 10, fun _ _ => 1⟩]

/-- False after the first round, where the previous loss is taken to be one less than the loss of
the start: a first round that improves the loss from 0.49 to 0 is reported as convergence, although
the required improvement is only 0.001. -/
theorem C61_full_is_false : ¬ C61_full := by
  intro h
  have e : ∀ n, (Restricted.fitOneInit 2 exOnePoint (1 / 1000) n (fun _ => [0, 1])
        (fun j => if j = 1 then 1 else 0)) =
      (Restricted.fitLoop 2 exOnePoint (1 / 1000) (fun _ => [0, 1]) n
        (fun j => if j = 1 then 1 else 0) (49 / 100) (49 / 100 - 1) 0) := by
    intro n
    unfold Restricted.fitOneInit
    have : Restricted.loss 2 exOnePoint (fun j => if j = 1 then 1 else 0) = 49 / 100 := by
      simp [Restricted.loss, exOnePoint, Restricted.fitted]
      norm_num
    rw [this]
  have hround : Restricted.round 2 exOnePoint (fun j => if j = 1 then 1 else 0) [0, 1]
      = some (Function.update (Function.update (fun j => if j = 1 then 1 else 0) 0 (7 / 10)) 1 1) := by
    have s1 : Restricted.step 2 exOnePoint (fun j => if j = 1 then 1 else 0) 0 = some (7 / 10) := by
      decide +kernel
    have s2 : Restricted.step 2 exOnePoint
        (Function.update (fun j => if j = 1 then 1 else 0) 0 (7 / 10)) 1 = some 1 := by
      decide +kernel
    unfold Restricted.round
    rw [s1]
    simp only
    unfold Restricted.round
    rw [s2]
    simp only
    rfl
  have hl : Restricted.loss 2 exOnePoint
      (Function.update (Function.update (fun j => if j = 1 then 1 else 0) 0 (7 / 10)) 1 1) = 0 := by
    simp [Restricted.loss, exOnePoint, Restricted.fitted, Finset.sum_range_succ, Function.update]
    norm_num
  have := h 2 exOnePoint (1 / 1000) 1000 (fun _ => [0, 1]) (fun j => if j = 1 then 1 else 0)
    ⟨Function.update (Function.update (fun j => if j = 1 then 1 else 0) 0 (7 / 10)) 1 1, 0, true, 1⟩
    ⟨fun j => if j = 1 then 1 else 0, 49 / 100 - 1, decide ((49 / 100 - 1 : ℚ) ≥ 49 / 100 - 1 / 1000), 0⟩
    0 (by
      rw [e]
      unfold Restricted.fitLoop
      rw [if_pos (by norm_num), hround]
      simp only
      rw [hl]
      unfold Restricted.fitLoop
      rw [if_neg (by norm_num)]
      norm_num) rfl rfl (by rw [e]; rfl)
  simp only at this
  rw [hl] at this
  simp [Restricted.loss, exOnePoint, Restricted.fitted] at this
  norm_num at this

/-- The state before the last round. -/
theorem fitLoop_last (p : Nat) (pts : List RestrictedPoint) (mi : ℚ) (orders : Nat → List Nat)
    (left : Nat) (lbd : Nat → ℚ) (prev cur : ℚ) (n : Nat) (fit : Restricted.LocalFit) (m : Nat)
    (h : Restricted.fitLoop p pts mi orders left lbd prev cur n = some fit)
    (hm : fit.rounds = n + (m + 1)) :
    ∃ fit', Restricted.fitLoop p pts mi orders m lbd prev cur n = some fit' ∧
      fit'.rounds = n + m ∧
      fit.converge = decide (fit.loss ≥ fit'.loss - mi) ∧
      fit.loss = Restricted.loss p pts fit.lbd ∧
      (m ≠ 0 → fit'.loss = Restricted.loss p pts fit'.lbd) ∧ (m = 0 → fit'.loss = cur) := by
  induction m generalizing left lbd prev cur n with
  | zero =>
    refine ⟨_, rfl, rfl, ?_⟩
    cases left with
    | zero =>
      simp only [Restricted.fitLoop, Option.some.injEq] at h
      rw [← h] at hm; simp at hm
    | succ left =>
      unfold Restricted.fitLoop at h
      split at h
      · split at h
        · cases h
        · rename_i lbd' hr
          have stop : fit = ⟨lbd', Restricted.loss p pts lbd',
              decide (Restricted.loss p pts lbd' ≥ cur - mi), n + 1⟩ := by
            have key : ∀ left lbd prev cur n,
                Restricted.fitLoop p pts mi orders left lbd prev cur n = some fit →
                fit.rounds = n → fit = ⟨lbd, cur, decide (cur ≥ prev - mi), n⟩ := by
              have mono : ∀ left lbd prev cur n,
                  Restricted.fitLoop p pts mi orders left lbd prev cur n = some fit →
                  n ≤ fit.rounds := by
                intro left
                induction left with
                | zero =>
                  intro lbd prev cur n h
                  simp only [Restricted.fitLoop, Option.some.injEq] at h
                  rw [← h]
                | succ left ih =>
                  intro lbd prev cur n h
                  unfold Restricted.fitLoop at h
                  split at h
                  · split at h
                    · cases h
                    · have := ih _ _ _ _ h; omega
                  · simp only [Option.some.injEq] at h; rw [← h]
              intro left lbd prev cur n h hn
              cases left with
              | zero => simp only [Restricted.fitLoop, Option.some.injEq] at h; rw [← h]
              | succ left =>
                unfold Restricted.fitLoop at h
                split at h
                · split at h
                  · cases h
                  · have := mono _ _ _ _ _ h; omega
                · simp only [Option.some.injEq] at h; rw [← h]
            exact key _ _ _ _ _ h (by omega)
          rw [stop]
          simp
      · simp only [Option.some.injEq] at h
        rw [← h] at hm; simp at hm
  | succ m ih =>
    cases left with
    | zero =>
      simp only [Restricted.fitLoop, Option.some.injEq] at h
      rw [← h] at hm; simp at hm
    | succ left =>
      unfold Restricted.fitLoop at h
      split at h
      · rename_i hc
        split at h
        · cases h
        · rename_i lbd' hr
          obtain ⟨fit', a1, a2, a3, a4, a5, a6⟩ := ih left lbd' cur _ (n + 1) h (by omega)
          refine ⟨fit', ?_, by omega, a3, a4, fun _ => ?_, by omega⟩
          · unfold Restricted.fitLoop
            rw [if_pos hc, hr]
            exact a1
          · by_cases hm0 : m = 0
            · subst hm0
              rw [a6 rfl]
              simp only [Restricted.fitLoop, Option.some.injEq] at a1
              rw [← a1]
            · exact a5 hm0
      · simp only [Option.some.injEq] at h
        rw [← h] at hm; simp at hm

/-- C61, partial: true if at least two rounds were performed. -/
theorem C61_converged_partial (p : Nat) (pts : List RestrictedPoint) (mi : ℚ) (maxRounds : Nat)
    (orders : Nat → List Nat) (lbd : Nat → ℚ) (fit fit' : Restricted.LocalFit) (n : Nat)
    (h : Restricted.fitOneInit p pts mi maxRounds orders lbd = some fit)
    (hc : fit.converge = true) (hn : fit.rounds = n + 1) (hpos : 0 < n)
    (h' : Restricted.fitOneInit p pts mi n orders lbd = some fit') :
    Restricted.loss p pts fit'.lbd - mi ≤ Restricted.loss p pts fit.lbd := by
  unfold Restricted.fitOneInit at h h'
  obtain ⟨f, a1, _, a3, a4, a5, _⟩ := fitLoop_last p pts mi orders maxRounds lbd _ _ 0 fit n h (by omega)
  rw [h'] at a1
  obtain rfl : fit' = f := by simpa using a1
  rw [hc, a4, a5 (by omega)] at a3
  exact of_decide_eq_true a3.symm

/-- A run of two rounds that converges: the observed overlap is 2, more than is feasible, and the
loss goes from 4 to 1 in the first round. -/
example : (Restricted.fitOneInit 2 [⟨2, fun _ _ => 1⟩] (1 / 1000) 1000 (fun _ => [0, 1])
    (fun j => if j = 1 then 1 else 0)).map (fun f => (f.lbd 0, f.lbd 1, f.converge, f.rounds))
      = some (1, 1, true, 2) := by
  have s1 : Restricted.round 2 [⟨2, fun _ _ => 1⟩] (fun j => if j = 1 then 1 else 0) [0, 1]
      = some (Function.update (Function.update (fun j => if j = 1 then 1 else 0) 0 1) 1 1) := by
    have a : Restricted.step 2 [⟨2, fun _ _ => 1⟩] (fun j => if j = 1 then 1 else 0) 0 = some 1 := by
      decide +kernel
    have b : Restricted.step 2 [⟨2, fun _ _ => 1⟩]
        (Function.update (fun j => if j = 1 then 1 else 0) 0 1) 1 = some 1 := by decide +kernel
    unfold Restricted.round; rw [a]; simp only
    unfold Restricted.round; rw [b]; simp only; rfl
  have s2 : Restricted.round 2 [⟨2, fun _ _ => 1⟩]
      (Function.update (Function.update (fun j => if j = 1 then 1 else 0) 0 1) 1 1) [0, 1]
      = some (Function.update (Function.update
        (Function.update (Function.update (fun j => if j = 1 then 1 else 0) 0 1) 1 1) 0 1) 1 1) := by
    have a : Restricted.step 2 [⟨2, fun _ _ => 1⟩] (Function.update (Function.update
        (fun j => if j = 1 then 1 else 0) 0 1) 1 1) 0 = some 1 := by decide +kernel
    have b : Restricted.step 2 [⟨2, fun _ _ => 1⟩] (Function.update (Function.update (Function.update
        (fun j => if j = 1 then 1 else 0) 0 1) 1 1) 0 1) 1 = some 1 := by decide +kernel
    unfold Restricted.round; rw [a]; simp only
    unfold Restricted.round; rw [b]; simp only; rfl
  have l0 : Restricted.loss 2 [⟨2, fun _ _ => 1⟩] (fun j => if j = 1 then 1 else 0) = 4 := by
    simp [Restricted.loss, Restricted.fitted]; norm_num
  have l1 : Restricted.loss 2 [⟨2, fun _ _ => 1⟩]
      (Function.update (Function.update (fun j => if j = 1 then 1 else 0) 0 1) 1 1) = 1 := by
    simp [Restricted.loss, Restricted.fitted, Finset.sum_range_succ, Function.update]; norm_num
  have l2 : Restricted.loss 2 [⟨2, fun _ _ => 1⟩] (Function.update (Function.update
        (Function.update (Function.update (fun j => if j = 1 then 1 else 0) 0 1) 1 1) 0 1) 1 1) = 1 := by
    simp [Restricted.loss, Restricted.fitted, Finset.sum_range_succ, Function.update]; norm_num
  unfold Restricted.fitOneInit
  rw [l0]
  unfold Restricted.fitLoop
  rw [if_pos (by norm_num), s1]
  simp only
  unfold Restricted.fitLoop
  rw [l1, if_pos (by norm_num), s2]
  simp only
  unfold Restricted.fitLoop
  rw [l2, if_neg (by norm_num)]
  simp [Function.update]

/-! ## C62 -/

/-- Feasible starting points, as lists of real numbers. -/
def FeasibleStart (l : List ℝ) : Prop := ∀ x ∈ l, 0 ≤ x ∧ x * (l.sum - x) ≤ 1

theorem simplexPoint_spec (u : List ℝ) (lo : ℝ) (hlo : lo ≤ 1) (h1 : ∀ x ∈ u, lo ≤ x ∧ x ≤ 1)
    (hs : u.Pairwise (· ≤ ·)) :
    (∀ x ∈ (u ++ [1]).zipWith (· - ·) (lo :: u), 0 ≤ x) ∧
      ((u ++ [1]).zipWith (· - ·) (lo :: u)).sum = 1 - lo ∧
      ((u ++ [1]).zipWith (· - ·) (lo :: u)).length = u.length + 1 := by
  induction u generalizing lo with
  | nil => simp [hlo]
  | cons a u ih =>
    rw [List.pairwise_cons] at hs
    obtain ⟨i1, i2, i3⟩ := ih a (h1 a (by simp)).2
      (fun x hx => ⟨hs.1 x hx, (h1 x (by simp [hx])).2⟩) hs.2
    have ha := (h1 a (by simp)).1
    refine ⟨?_, ?_, ?_⟩
    · intro x hx
      simp only [List.cons_append, List.zipWith_cons_cons, List.mem_cons] at hx
      rcases hx with rfl | hx
      · linarith
      · exact i1 x hx
    · simp only [List.cons_append, List.zipWith_cons_cons, List.sum_cons]
      rw [i2]; ring
    · simp only [List.cons_append, List.zipWith_cons_cons, List.length_cons]
      rw [i3]

theorem le_maxOf (l : List ℝ) : ∀ x ∈ l, x ≤ RestrictedSampler.maxOf l := by
  unfold RestrictedSampler.maxOf
  induction l with
  | nil => simp
  | cons a l ih =>
    intro x hx
    rcases List.mem_cons.1 hx with rfl | hx
    · exact le_max_left _ _
    · exact le_trans (ih x hx) (le_max_right _ _)

theorem maxOf_nonneg (l : List ℝ) : 0 ≤ RestrictedSampler.maxOf l := by
  unfold RestrictedSampler.maxOf
  induction l with
  | nil => simp
  | cons a l ih => exact le_trans ih (le_max_right _ _)

/-- C62: the simplex sampler returns a feasible vector with one coordinate per publisher, whatever
the random draws. -/
theorem C62_scaled_sampler_feasible (u : List ℝ) (h1 : ∀ x ∈ u, 0 ≤ x ∧ x ≤ 1)
    (hs : u.Pairwise (· ≤ ·)) (t : ℝ) (ht0 : 0 ≤ t) (ht1 : t ≤ 1) (tol : ℝ) (htol : 0 < tol) :
    (RestrictedSampler.scaledFromSimplex u t tol).length = u.length + 1 ∧
      FeasibleStart (RestrictedSampler.scaledFromSimplex u t tol) := by
  obtain ⟨n1, n2, n3⟩ := simplexPoint_spec u 0 (by norm_num) h1 hs
  unfold RestrictedSampler.scaledFromSimplex
  have e : (u ++ [1]).zipWith (· - ·) (0 :: u) = RestrictedSampler.simplexPoint u := rfl
  rw [e] at n1 n2 n3
  simp only
  generalize RestrictedSampler.simplexPoint u = nu at n1 n2 n3
  rw [sub_zero] at n2
  refine ⟨by simp [n3], ?_⟩
  rw [n2, mul_one]
  set q := max (Real.sqrt (RestrictedSampler.maxOf nu)) tol with hq
  have hqpos : 0 < q := lt_of_lt_of_le htol (le_max_right _ _)
  have hsum : (nu.map (fun x => t * (1 / q) * x)).sum = t * (1 / q) := by
    rw [List.sum_map_mul_left, List.map_id', n2, mul_one]
  have hqsq : RestrictedSampler.maxOf nu ≤ q ^ 2 := by
    have : Real.sqrt (RestrictedSampler.maxOf nu) ≤ q := le_max_left _ _
    calc RestrictedSampler.maxOf nu = Real.sqrt (RestrictedSampler.maxOf nu) ^ 2 :=
          (Real.sq_sqrt (maxOf_nonneg nu)).symm
      _ ≤ q ^ 2 := pow_le_pow_left₀ (Real.sqrt_nonneg _) this 2
  intro y hy
  obtain ⟨x, hx, rfl⟩ := List.mem_map.1 hy
  have hx0 := n1 x hx
  have hs0 : 0 ≤ t * (1 / q) := mul_nonneg ht0 (by positivity)
  have hy0 : 0 ≤ t * (1 / q) * x := mul_nonneg hs0 hx0
  refine ⟨hy0, ?_⟩
  rw [hsum]
  calc t * (1 / q) * x * (t * (1 / q) - t * (1 / q) * x)
      ≤ t * (1 / q) * x * (t * (1 / q)) := mul_le_mul_of_nonneg_left (by linarith) hy0
    _ = t ^ 2 * (x / q ^ 2) := by field_simp
    _ ≤ 1 * 1 := by
        apply mul_le_mul
        · nlinarith
        · rw [div_le_one (by positivity)]
          exact le_trans (le_maxOf nu x hx) hqsq
        · positivity
        · norm_num
    _ = 1 := by norm_num

example : ∀ x ∈ ([1 / 4, 1 / 2] : List ℝ), 0 ≤ x ∧ x ≤ 1 := by
  intro x hx
  simp only [List.mem_cons, List.not_mem_nil, or_false] at hx
  rcases hx with rfl | rfl <;> norm_num

example : ([1 / 4, 1 / 2] : List ℝ).Pairwise (· ≤ ·) := by
  simp; norm_num

/-- C62: the rejection sampler returns the first draw that is feasible up to the tolerance. -/
theorem C62_truncated_sampler (p : Nat) (draws : Nat → Nat → ℚ) (fuel : Nat) (lbd : Nat → ℚ)
    (h : Restricted.truncatedUniform p draws fuel 0 = some lbd) :
    (∀ j < p, 0 ≤ lbd j ∧ lbd j * ∑ k ∈ (range p).erase j, lbd k ≤ 1 + Restricted.defaultTol) ∧
      ∃ n < fuel, lbd = draws n ∧ ∀ m < n, ¬ FeasibleLambda p (draws m) := by
  have iff_check : ∀ lbd, Restricted.checkFeasibility p lbd Restricted.defaultTol = true ↔
      ∀ j < p, 0 ≤ lbd j ∧ lbd j * ∑ k ∈ (range p).erase j, lbd k ≤ 1 + Restricted.defaultTol := by
    intro lbd
    unfold Restricted.checkFeasibility
    rw [List.all_eq_true]
    refine forall_congr' fun j => ?_
    rw [List.mem_range]
    refine forall_congr' fun hj => ?_
    rw [← total_sub p lbd j hj]
    simp
  have key : ∀ fuel n, Restricted.truncatedUniform p draws fuel n = some lbd →
      Restricted.checkFeasibility p lbd Restricted.defaultTol = true ∧
      ∃ k, n ≤ k ∧ k < n + fuel ∧ lbd = draws k ∧ ∀ m, n ≤ m → m < k →
        ¬ FeasibleLambda p (draws m) := by
    intro fuel
    induction fuel with
    | zero => intro n h; cases h
    | succ fuel ih =>
      intro n h
      unfold Restricted.truncatedUniform at h
      split at h
      · rename_i hc
        obtain rfl : draws n = lbd := by simpa using h
        exact ⟨hc, n, le_refl _, by omega, rfl, by omega⟩
      · rename_i hc
        obtain ⟨a, k, k1, k2, k3, k4⟩ := ih (n + 1) h
        refine ⟨a, k, by omega, by omega, k3, ?_⟩
        intro m hm1 hm2
        rcases Nat.eq_or_lt_of_le hm1 with rfl | hlt
        · intro hf
          apply hc
          rw [iff_check]
          intro j hj
          exact ⟨(hf j hj).1, le_trans (hf j hj).2 (by norm_num [Restricted.defaultTol])⟩
        · exact k4 m hlt hm2
  obtain ⟨a, k, _, k2, k3, k4⟩ := key fuel 0 h
  exact ⟨(iff_check lbd).1 a, k, by omega, k3, fun m hm => k4 m (by omega) hm⟩

/-- Three publishers: the first draw is infeasible, the second is taken. -/
example : (Restricted.truncatedUniform 3 (fun n _ => if n = 0 then 9 / 10 else 1 / 2) 5 0).map
    (fun l => (l 0, l 1, l 2)) = some (1 / 2, 1 / 2, 1 / 2) := by decide +kernel

/-- C62: the simplex sampler uses the whole range of feasible vectors in each direction: scaled with
`t`, the greatest product of a coordinate and the sum of all is `t` squared. -/
theorem C62_scaled_sampler_range (u : List ℝ) (h1 : ∀ x ∈ u, 0 ≤ x ∧ x ≤ 1)
    (hs : u.Pairwise (· ≤ ·)) (t : ℝ) (tol : ℝ)
    (htol : 0 < tol) (hsmall : tol ^ 2 * (u.length + 1) ≤ 1) :
    let lbd := RestrictedSampler.scaledFromSimplex u t tol
    (∃ y ∈ lbd, y * lbd.sum = t ^ 2) ∧ ∀ y ∈ lbd, y * lbd.sum ≤ t ^ 2 := by
  intro lbd
  obtain ⟨n1, n2, n3⟩ := simplexPoint_spec u 0 (by norm_num) h1 hs
  have e : (u ++ [1]).zipWith (· - ·) (0 :: u) = RestrictedSampler.simplexPoint u := rfl
  rw [e] at n1 n2 n3
  simp only [lbd, RestrictedSampler.scaledFromSimplex]
  generalize RestrictedSampler.simplexPoint u = nu at n1 n2 n3
  rw [sub_zero] at n2
  rw [n2, mul_one]
  have hmem : ∀ l : List ℝ, (∀ x ∈ l, 0 ≤ x) → l ≠ [] → RestrictedSampler.maxOf l ∈ l := by
    intro l
    induction l with
    | nil => intro _ h; exact absurd rfl h
    | cons a l ih =>
      intro hl _
      unfold RestrictedSampler.maxOf
      rw [List.foldr_cons]
      by_cases hnil : l = []
      · subst hnil
        simp [max_eq_left (hl a (by simp))]
      · have := ih (fun x hx => hl x (by simp [hx])) hnil
        unfold RestrictedSampler.maxOf at this
        rcases max_choice a (l.foldr max 0) with h | h
        · rw [h]; simp
        · rw [h]; exact List.mem_cons_of_mem _ this
  have hne : nu ≠ [] := by rintro rfl; simp at n3
  have hmax := hmem nu n1 hne
  set M := RestrictedSampler.maxOf nu with hM
  have hMle : ∀ x ∈ nu, x ≤ M := le_maxOf nu
  have hMsum : 1 ≤ (u.length + 1 : ℝ) * M := by
    have := List.sum_le_card_nsmul nu M hMle
    rw [n2, n3, nsmul_eq_mul] at this
    push_cast at this
    exact this
  have hMt : tol ^ 2 ≤ M := by
    have hp : (0 : ℝ) < u.length + 1 := by positivity
    nlinarith
  have hM0 : 0 < M := lt_of_lt_of_le (by positivity) hMt
  have hq : max (Real.sqrt M) tol = Real.sqrt M := max_eq_left (Real.le_sqrt_of_sq_le hMt)
  rw [hq]
  have hsum : (nu.map (fun x => t * (1 / Real.sqrt M) * x)).sum = t * (1 / Real.sqrt M) := by
    rw [List.sum_map_mul_left, List.map_id', n2, mul_one]
  have hsq : Real.sqrt M ^ 2 = M := Real.sq_sqrt hM0.le
  have hs0 : 0 < Real.sqrt M := Real.sqrt_pos.2 hM0
  have hval : ∀ x, t * (1 / Real.sqrt M) * x * (t * (1 / Real.sqrt M)) = t ^ 2 * (x / M) := by
    intro x
    rw [show x / M = x / Real.sqrt M ^ 2 by rw [hsq]]; field_simp
  rw [hsum]
  constructor
  · refine ⟨_, List.mem_map.2 ⟨M, hmax, rfl⟩, ?_⟩
    rw [hval, div_self hM0.ne', mul_one]
  · intro y hy
    obtain ⟨x, hx, rfl⟩ := List.mem_map.1 hy
    rw [hval]
    exact mul_le_of_le_one_right (by positivity) ((div_le_one hM0).2 (hMle x hx))

example : ((1 / 10000 : ℝ)) ^ 2 * (([1 / 4, 1 / 2] : List ℝ).length + 1) ≤ 1 := by norm_num

end Verif
