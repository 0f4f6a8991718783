import Verif.Model.Restricted
import Verif.Props.Pairwise
import Verif.Spec.Restricted
import Mathlib.Tactic.Linarith
import Mathlib.Tactic.Ring
import Mathlib.Tactic.FieldSimp
import Mathlib.Tactic.Positivity
import Mathlib.Algebra.Order.Group.MinMax

/-!
# C32–C35: the restricted pairwise union reach surface
-/

namespace Verif

open Verif.Spec Finset

/-! ## C32 -/

theorem constructA_entry (p : Nat) (lbd : Nat → ℚ) (i j : Nat) (hi : i < p) (hj : j < p) :
    (Restricted.constructA p lbd).getD (i * p + j) 0 = if i = j then 0 else lbd i * lbd j / 2 := by
  unfold Restricted.constructA
  rw [List.getD_eq_getElem?_getD, List.getElem?_map, List.getElem?_range (flat_lt p i j hi hj)]
  simp only [Option.map_some, Option.getD_some, flat_div p i j hj, flat_mod p i j hj]
  split
  · rename_i h; rw [h]; ring
  · ring

/-- Off-diagonal sums: removing the diagonal from a double sum. -/
theorem sum_off_diag (p : Nat) (f : Nat → Nat → ℚ) :
    ∑ j ∈ range p, ∑ k ∈ range p, f j k - ∑ j ∈ range p, f j j
      = ∑ j ∈ range p, ∑ k ∈ range p, if j = k then 0 else f j k := by
  rw [← Finset.sum_sub_distrib]
  apply Finset.sum_congr rfl
  intro j hj
  have : f j j = ∑ k ∈ range p, if j = k then f j k else 0 := by
    rw [Finset.sum_ite_eq]; simp [Finset.mem_range.1 hj]
  rw [this, ← Finset.sum_sub_distrib]
  apply Finset.sum_congr rfl
  intro k _
  split <;> simp

theorem fitted_off_diag (p : Nat) (lbd : Nat → ℚ) (D : Nat → Nat → ℚ) :
    Restricted.fitted p lbd D
      = (∑ j ∈ range p, ∑ k ∈ range p, if j = k then 0 else lbd j * lbd k * D j k) / 2 := by
  unfold Restricted.fitted
  rw [← sum_off_diag]

/-- C32 (a): at every training point the fitted value used in the loss is the sum of the single
reaches minus the prediction of the surface built from the same lambdas. -/
theorem C32_fitted_is_own_overlap (s : PairwiseSurface) (hs : WellFormed s) (lbd : Nat → ℚ)
    (v : List ℚ) (hv : v.length = s.p) (r : List ℚ)
    (hr : PairwiseSurface.getReachVector s.curves v = .ok r) :
    ∃ pt u, ({ s with a := Restricted.constructA s.p lbd } : PairwiseSurface).byImpressions v = .ok pt ∧
      pt.reach 1 = .ok u ∧
      Restricted.fitted s.p lbd (Restricted.constructD r (s.curves.map (·.maxReach))) = r.sum - u := by
  have hws : WellFormed { s with a := Restricted.constructA s.p lbd } :=
    ⟨hs.curves, by simp [Restricted.constructA], hs.positive⟩
  have hlen : r.length = s.p := by
    rw [reachVector_length _ _ _ hr, hs.curves, hv, min_self]
  obtain ⟨pt, h1, _, _, h2⟩ := C30_formula _ hws v hv r hr
  refine ⟨pt, _, h1, h2, ?_⟩
  rw [fitted_off_diag]
  unfold unionReach
  rw [list_sum_getD, hlen, sub_sub_cancel, div_eq_inv_mul, show (1 / 2 : ℚ) = 2⁻¹ by norm_num]
  congr 1
  apply Finset.sum_congr rfl
  intro i hi
  apply Finset.sum_congr rfl
  intro j hj
  have hi := Finset.mem_range.1 hi
  have hj := Finset.mem_range.1 hj
  have hM := surfaceMax_pos s hs i hi
  have hne : max (surfaceMax s i) (surfaceMax s j) ≠ 0 :=
    (lt_of_lt_of_le hM (le_max_left _ _)).ne'
  have e : surfaceMatrix { s with a := Restricted.constructA s.p lbd } i j
      = if i = j then 0 else lbd i * lbd j / 2 := constructA_entry s.p lbd i j hi hj
  have e2 : ∀ k, surfaceMax { s with a := Restricted.constructA s.p lbd } k = surfaceMax s k :=
    fun _ => rfl
  rw [e, e2, e2]
  unfold Restricted.constructD
  have e3 : ∀ k, (s.curves.map (·.maxReach)).getD k 0 = surfaceMax s k := fun _ => rfl
  rw [e3, e3, max_comm (surfaceMax s j)]
  split
  · simp
  · field_simp

/-- The training points with at least two active publishers, those the restricted surface is
fitted to. -/
def multiPublisherPoints (s : PairwiseSurface) : List ReachPoint :=
  s.data.filter (fun pt => decide ((pt.impressions.count 0 : Int) < (s.p : Int) - 1))

/-- C32 (b): so if no observed overlap lies below the floor of 0.0001, the loss is the sum of the
squared prediction errors of that surface over the training points with at least two active
publishers. -/
theorem C32_loss_is_squared_error (s : PairwiseSurface) (hs : WellFormed s)
    (hdim : ∀ pt ∈ multiPublisherPoints s, pt.impressions.length = s.p)
    (pts : List RestrictedPoint) (hpts : Restricted.setup s = .ok pts) (lbd : Nat → ℚ)
    (hfloor : ∀ pt ∈ multiPublisherPoints s, ∀ r y,
      PairwiseSurface.getReachVector s.curves pt.impressions = .ok r →
      pt.reach 1 = .ok y → 1 / 10000 ≤ r.sum - y) :
    ∃ obs preds : List ℚ,
      (multiPublisherPoints s).mapM (fun pt => pt.reach 1) = .ok obs ∧
      (multiPublisherPoints s).mapM (fun pt => do
        let prediction ←
          ({ s with a := Restricted.constructA s.p lbd } : PairwiseSurface).byImpressions pt.impressions
        prediction.reach 1) = .ok preds ∧
      Restricted.loss s.p pts lbd = squaredError obs preds := by
  unfold multiPublisherPoints at *
  unfold Restricted.setup at hpts
  have own := C32_fitted_is_own_overlap s hs lbd
  generalize ({ s with a := Restricted.constructA s.p lbd } : PairwiseSurface).byImpressions = f at *
  generalize s.data = data at *
  cases ho : data.mapM (Restricted.setupPoint s) with
  | error e => rw [ho] at hpts; cases hpts
  | ok opts =>
    rw [ho] at hpts
    simp only [bind, Except.bind, pure, Except.pure, Except.ok.injEq] at hpts
    subst hpts
    rw [mapM_ok_iff] at ho
    simp only [mapM_ok_iff]
    induction ho with
    | nil => exact ⟨[], [], by simp, by simp, by simp [Restricted.loss, squaredError]⟩
    | @cons pt o l opts h _ ih =>
      by_cases hc : (pt.impressions.count 0 : Int) < (s.p : Int) - 1
      · rw [List.filter_cons_of_pos (by simpa using hc)] at hdim hfloor ⊢
        obtain ⟨obs, preds, h1, h2, h3⟩ := ih (fun q hq => hdim q (by simp [hq]))
          (fun q hq => hfloor q (by simp [hq]))
        unfold Restricted.setupPoint at h
        rw [if_pos hc] at h
        cases hr : PairwiseSurface.getReachVector s.curves pt.impressions with
        | error e => rw [hr] at h; cases h
        | ok r =>
          cases hy : pt.reach 1 with
          | error e => rw [hr, hy] at h; cases h
          | ok y =>
            rw [hr, hy] at h
            simp only [bind, Except.bind, pure, Except.pure, Except.ok.injEq] at h
            subst h
            obtain ⟨q, u, q1, q2, q3⟩ := own pt.impressions
              (hdim pt (by simp)) r hr
            refine ⟨y :: obs, u :: preds, List.Forall₂.cons hy h1, List.Forall₂.cons ?_ h2, ?_⟩
            · rw [q1]; exact q2
            · have hf := hfloor pt (by simp) r y hr hy
              simp only [List.filterMap_cons, id, Restricted.loss, List.map_cons, List.sum_cons,
                squaredError, List.zip_cons_cons] at h3 ⊢
              rw [h3, q3, max_eq_right hf]
              ring
      · rw [List.filter_cons_of_neg (by simpa using hc)] at hdim hfloor ⊢
        unfold Restricted.setupPoint at h
        rw [if_neg hc] at h
        cases h
        simpa using ih hdim hfloor

theorem update_eq_add (lbd : Nat → ℚ) (i : Nat) (l : ℚ) (j : Nat) :
    Function.update lbd i l j = lbd j + if j = i then l - lbd i else 0 := by
  by_cases h : j = i
  · subst h; simp
  · simp [h]

/-- C32 (c): as a function of a single coordinate the fitted value is affine, with the intercept
and slope that `_step` uses. -/
theorem C32_affine (p : Nat) (lbd : Nat → ℚ) (D : Nat → Nat → ℚ)
    (hD : ∀ j < p, ∀ k < p, D j k = D k j) (i : Nat) (hi : i < p) (l : ℚ) :
    Restricted.fitted p (Function.update lbd i l) D
      = Restricted.computeU p lbd i D + Restricted.computeV p lbd i D * l := by
  have him : i ∈ range p := Finset.mem_range.2 hi
  have hrow : ∑ k ∈ range p, lbd k * D i k = ∑ k ∈ range p, lbd k * D k i := by
    apply Finset.sum_congr rfl
    intro k hk
    rw [hD i hi k (Finset.mem_range.1 hk)]
  unfold Restricted.fitted Restricted.computeU Restricted.computeV
  set δ := l - lbd i with hδ
  have h1 : ∑ j ∈ range p, ∑ k ∈ range p,
      Function.update lbd i l j * Function.update lbd i l k * D j k
      = ∑ j ∈ range p, ∑ k ∈ range p, lbd j * lbd k * D j k
        + δ * ∑ k ∈ range p, lbd k * D i k + δ * ∑ j ∈ range p, lbd j * D j i + δ * δ * D i i := by
    have e : ∀ j k, Function.update lbd i l j * Function.update lbd i l k * D j k
        = lbd j * lbd k * D j k + (if j = i then δ * (lbd k * D i k) else 0)
          + (if k = i then δ * (lbd j * D j i) else 0)
          + (if j = i then (if k = i then δ * δ * D i i else 0) else 0) := by
      intro j k
      rw [update_eq_add, update_eq_add]
      by_cases hj : j = i <;> by_cases hk : k = i <;> simp [hj, hk] <;> ring
    simp only [e, Finset.sum_add_distrib, Finset.mul_sum]
    congr 1
    · congr 1
      · congr 1
        rw [Finset.sum_comm]
        simp [Finset.sum_ite_eq', him]
      · simp [Finset.sum_ite_eq', him]
    · have : ∀ x ∈ range p, (∑ y ∈ range p, if x = i then (if y = i then δ * δ * D i i else 0) else 0)
          = if x = i then δ * δ * D i i else 0 := by
        intro x _
        by_cases hx : x = i <;> simp [hx, hi]
      rw [Finset.sum_congr rfl this]
      simp [hi]
  have h2 : ∑ j ∈ range p, Function.update lbd i l j * Function.update lbd i l j * D j j
      = ∑ j ∈ range p, lbd j * lbd j * D j j + (2 * δ * lbd i + δ * δ) * D i i := by
    have e : ∀ j, Function.update lbd i l j * Function.update lbd i l j * D j j
        = lbd j * lbd j * D j j + if j = i then (2 * δ * lbd i + δ * δ) * D i i else 0 := by
      intro j
      rw [update_eq_add]
      by_cases hj : j = i
      · subst hj; simp; ring
      · simp [hj]
    simp only [e, Finset.sum_add_distrib]
    simp [hi]
  rw [h1, h2, hrow, hδ]
  ring

/-- The fitted value on the example of two publishers: with lambdas 1 and 1/2 the surface predicts
25 - 5/8 for reaches 20 and 5. -/
example : Restricted.fitted 2 (fun j => if j = 0 then 1 else 1 / 2)
      (Restricted.constructD [20, 5] (exSurface.curves.map (·.maxReach))) = 5 / 8 ∧
    (({ exSurface with a := Restricted.constructA 2 (fun j => if j = 0 then 1 else 1 / 2) } :
      PairwiseSurface).byImpressions [20, 10]).toOption.map (·.kplusReaches) = some [25 - 5 / 8] := by
  constructor <;> decide +kernel

/-- Both training points of the example have two active publishers and an overlap above the floor. -/
example : (Restricted.setup exSurface).toOption.map (fun l => l.map (fun pt => (pt.y, pt.D 0 1)))
    = some [(1, 5 / 4), (1, 4 / 5)] := by decide +kernel

/-! ## C34 -/

theorem total_sub (p : Nat) (lbd : Nat → ℚ) (j : Nat) (hj : j < p) :
    Restricted.total p lbd - lbd j = ∑ k ∈ (range p).erase j, lbd k := by
  unfold Restricted.total
  rw [Finset.sum_erase_eq_sub (Finset.mem_range.2 hj)]

theorem others_update_self (p : Nat) (lbd : Nat → ℚ) (i : Nat) (l : ℚ) :
    ∑ k ∈ (range p).erase i, Function.update lbd i l k = ∑ k ∈ (range p).erase i, lbd k := by
  apply Finset.sum_congr rfl
  intro k hk
  rw [Function.update_of_ne (Finset.ne_of_mem_erase hk)]

theorem others_update (p : Nat) (lbd : Nat → ℚ) (i j : Nat) (hi : i < p) (hij : j ≠ i) (l : ℚ) :
    ∑ k ∈ (range p).erase j, Function.update lbd i l k
      = ∑ k ∈ (range p).erase j, lbd k - lbd i + l := by
  have him : i ∈ (range p).erase j := Finset.mem_erase.2 ⟨fun h => hij h.symm, Finset.mem_range.2 hi⟩
  rw [← Finset.add_sum_erase _ _ him, ← Finset.add_sum_erase _ lbd him, Function.update_self]
  have : ∑ x ∈ ((range p).erase j).erase i, Function.update lbd i l x
      = ∑ x ∈ ((range p).erase j).erase i, lbd x := by
    apply Finset.sum_congr rfl
    intro k hk
    rw [Function.update_of_ne (Finset.ne_of_mem_erase hk)]
  rw [this]
  ring

theorem foldl_min_le_iff (i : Nat) (f : Nat → ℚ) (x : ℚ) (l : List Nat) (b : ℚ) :
    x ≤ l.foldl (fun res j => if j ≠ i then min res (f j) else res) b
      ↔ x ≤ b ∧ ∀ j ∈ l, j ≠ i → x ≤ f j := by
  induction l generalizing b with
  | nil => simp
  | cons a l ih =>
    rw [List.foldl_cons, ih]
    by_cases h : a = i
    · subst h; simp
    · simp [h, and_assoc]

/-- What it means to be at most the bound. -/
theorem le_feasibleBound_iff (p : Nat) (lbd : Nat → ℚ) (i : Nat) (hi : i < p) (tol x : ℚ)
    (htol : 0 < tol) :
    x ≤ Restricted.feasibleBound p lbd i tol ↔
      x * max (∑ k ∈ (range p).erase i, lbd k) tol ≤ 1 ∧
      ∀ j < p, j ≠ i →
        (∑ k ∈ (range p).erase j, lbd k - lbd i + x) * max (lbd j) tol ≤ 1 := by
  unfold Restricted.feasibleBound
  rw [foldl_min_le_iff, total_sub p lbd i hi,
    le_div_iff₀ (lt_of_lt_of_le htol (le_max_right _ _))]
  refine and_congr Iff.rfl ?_
  constructor
  · intro h j hj hne
    have := h j (List.mem_range.2 hj) hne
    rw [← le_div_iff₀ (lt_of_lt_of_le htol (le_max_right _ _)), ← total_sub p lbd j hj]
    linarith
  · intro h j hj hne
    have := h j (List.mem_range.1 hj) hne
    rw [← le_div_iff₀ (lt_of_lt_of_le htol (le_max_right _ _)),
      ← total_sub p lbd j (List.mem_range.1 hj)] at this
    linarith

/-- C34 (sound): a non-negative value not above the bound keeps a feasible vector feasible. -/
theorem C34_bound_is_sound (p : Nat) (lbd : Nat → ℚ) (hf : FeasibleLambda p lbd) (tol : ℚ)
    (htol : 0 < tol) (i : Nat) (hi : i < p) (l : ℚ) (hl : 0 ≤ l)
    (hb : l ≤ Restricted.feasibleBound p lbd i tol) :
    FeasibleLambda p (Function.update lbd i l) := by
  rw [le_feasibleBound_iff p lbd i hi tol l htol] at hb
  intro j hj
  by_cases hji : j = i
  · subst hji
    rw [Function.update_self, others_update_self]
    refine ⟨hl, le_trans ?_ hb.1⟩
    exact mul_le_mul_of_nonneg_left (le_max_left _ _) hl
  · rw [Function.update_of_ne hji, others_update p lbd i j hi hji l]
    refine ⟨(hf j hj).1, ?_⟩
    have h := hb.2 j hj hji
    rcases le_or_gt 0 (∑ k ∈ (range p).erase j, lbd k - lbd i + l) with h0 | h0
    · rw [mul_comm]
      exact le_trans (mul_le_mul_of_nonneg_left (le_max_left _ _) h0) h
    · have := mul_nonneg (hf j hj).1 (neg_nonneg.2 h0.le)
      nlinarith

/-- C34, the claim of the docstring (lines 256-262): for a lambda vector that passes the check,
a non-negative value for coordinate `i` passes the check exactly if it is at most the bound. -/
def C34_full : Prop :=
  ∀ (p : Nat) (lbd : Nat → ℚ) (i : Nat) (l : ℚ), i < p → 0 ≤ l →
    Restricted.checkFeasibility p lbd Restricted.defaultTol = true →
    (Restricted.checkFeasibility p (Function.update lbd i l) Restricted.defaultTol = true ↔
      l ≤ Restricted.feasibleBound p lbd i Restricted.defaultTol)

/-- The check tolerates an excess of 1e-6 that the bound does not: with lambda `(0, 1)` the bound
for the first coordinate is 1, but 1.0000005 passes the check. -/
theorem C34_full_is_false : ¬ C34_full := by
  intro h
  have := h 2 (fun j => if j = 1 then 1 else 0) 0 (2000001 / 2000000) (by decide) (by decide +kernel)
    (by decide +kernel)
  revert this
  decide +kernel

/-- Even without tolerance the bound is not exact, since it replaces numbers below 1e-6 by 1e-6:
if all other coordinates are zero any value is feasible, but the bound is a million. -/
theorem C34_bound_of_zero_vector (p : Nat) (hp : 2 ≤ p) (l : ℚ) (hl : 1000000 < l) :
    FeasibleLambda p (Function.update (fun _ => 0) 0 l) ∧
      Restricted.feasibleBound p (fun _ => 0) 0 Restricted.defaultTol < l := by
  constructor
  · intro j hj
    by_cases h : j = 0
    · subst h
      rw [others_update_self]
      simp; linarith
    · rw [Function.update_of_ne h]
      simp
  · by_contra hc
    rw [not_lt, le_feasibleBound_iff p _ 0 (by omega) _ _ (by norm_num [Restricted.defaultTol])] at hc
    have := hc.1
    simp only [Finset.sum_const_zero, Restricted.defaultTol] at this
    rw [max_eq_right (by norm_num)] at this
    linarith

/-- C34, partial (a): for feasible vectors in which neither another coordinate nor the sum of the
others lies below the tolerance, the bound is exact for feasibility without tolerance. -/
theorem C34_bound_is_exact_partial (p : Nat) (lbd : Nat → ℚ) (hf : FeasibleLambda p lbd) (tol : ℚ)
    (htol : 0 < tol) (i : Nat) (hi : i < p)
    (hother : tol ≤ ∑ k ∈ (range p).erase i, lbd k) (hsmall : ∀ j < p, j ≠ i → tol ≤ lbd j)
    (l : ℚ) (hl : 0 ≤ l) :
    FeasibleLambda p (Function.update lbd i l) ↔ l ≤ Restricted.feasibleBound p lbd i tol := by
  refine ⟨fun h => ?_, C34_bound_is_sound p lbd hf tol htol i hi l hl⟩
  rw [le_feasibleBound_iff p lbd i hi tol l htol]
  constructor
  · have := (h i hi).2
    rwa [Function.update_self, others_update_self, ← max_eq_left hother] at this
  · intro j hj hji
    have := (h j hj).2
    rw [Function.update_of_ne hji, others_update p lbd i j hi hji l] at this
    rw [max_eq_left (hsmall j hj hji), mul_comm]
    exact this

/-- C34, partial (b): for all feasible vectors, zeros included, the bound is exact for being
feasible and of size at most `1 / tol`. -/
theorem C34_bound_is_exact_within_size_partial (p : Nat) (lbd : Nat → ℚ) (tol : ℚ)
    (hf : FeasibleLambda p lbd) (hw : WithinSize p lbd (1 / tol))
    (htol : 0 < tol) (i : Nat) (hi : i < p) (l : ℚ) (hl : 0 ≤ l) :
    (FeasibleLambda p (Function.update lbd i l) ∧ WithinSize p (Function.update lbd i l) (1 / tol))
      ↔ l ≤ Restricted.feasibleBound p lbd i tol := by
  constructor
  · rintro ⟨h1, h2⟩
    rw [le_feasibleBound_iff p lbd i hi tol l htol]
    constructor
    · have a := (h1 i hi).2
      have b := (h2 i hi).1
      rw [Function.update_self, others_update_self] at a
      rw [Function.update_self, le_div_iff₀ htol] at b
      rcases max_choice (∑ k ∈ (range p).erase i, lbd k) tol with h | h <;> rw [h] <;> assumption
    · intro j hj hji
      have a := (h1 j hj).2
      have b := (h2 j hj).2
      rw [others_update p lbd i j hi hji l] at a b
      rw [Function.update_of_ne hji, mul_comm] at a
      rw [le_div_iff₀ htol] at b
      rcases max_choice (lbd j) tol with h | h <;> rw [h] <;> assumption
  · intro h
    refine ⟨C34_bound_is_sound p lbd hf tol htol i hi l hl h, ?_⟩
    rw [le_feasibleBound_iff p lbd i hi tol l htol] at h
    intro j hj
    by_cases hji : j = i
    · subst hji
      rw [Function.update_self, others_update_self]
      refine ⟨?_, (hw j hj).2⟩
      rw [le_div_iff₀ htol]
      exact le_trans (mul_le_mul_of_nonneg_left (le_max_right _ _) hl) h.1
    · rw [Function.update_of_ne hji, others_update p lbd i j hi hji l]
      refine ⟨(hw j hj).1, ?_⟩
      rw [le_div_iff₀ htol]
      have := h.2 j hj hji
      rcases le_or_gt 0 (∑ k ∈ (range p).erase j, lbd k - lbd i + l) with h0 | h0
      · exact le_trans (mul_le_mul_of_nonneg_left (le_max_right _ _) h0) this
      · have := mul_pos (neg_pos.2 h0) htol
        linarith

/-- Both partial claims on a vector of three coordinates, where the bound for the last coordinate is
4/3. -/
example : FeasibleLambda 3 (fun j => if j = 0 then 1 / 2 else if j = 1 then 1 / 4 else 1) ∧
    WithinSize 3 (fun j => if j = 0 then 1 / 2 else if j = 1 then 1 / 4 else 1) 1000000 ∧
    Restricted.feasibleBound 3 (fun j => if j = 0 then 1 / 2 else if j = 1 then 1 / 4 else 1) 2
      Restricted.defaultTol = 4 / 3 := by
  unfold FeasibleLambda WithinSize
  decide +kernel

/-! ## C33 -/

/-- The training data handed to the coordinate steps: symmetric matrices. -/
def SymmetricPoints (p : Nat) (pts : List RestrictedPoint) : Prop :=
  ∀ pt ∈ pts, ∀ j < p, ∀ k < p, pt.D j k = pt.D k j

/-- The matrices built by the set-up are symmetric. -/
theorem constructD_symm (r m : List ℚ) (j k : Nat) :
    Restricted.constructD r m j k = Restricted.constructD r m k j := by
  unfold Restricted.constructD
  rw [mul_comm (r.getD j 0), max_comm]

/-- Loss along one coordinate is a quadratic. -/
theorem loss_update (p : Nat) (pts : List RestrictedPoint) (hs : SymmetricPoints p pts)
    (lbd : Nat → ℚ) (i : Nat) (hi : i < p) :
    ∃ c : ℚ, ∀ x : ℚ, Restricted.loss p pts (Function.update lbd i x) = c
      - 2 * (pts.map (fun pt => (pt.y - Restricted.computeU p lbd i pt.D) *
          Restricted.computeV p lbd i pt.D)).sum * x
      + (pts.map (fun pt => Restricted.computeV p lbd i pt.D *
          Restricted.computeV p lbd i pt.D)).sum * x ^ 2 := by
  unfold Restricted.loss
  induction pts with
  | nil => exact ⟨0, fun x => by simp⟩
  | cons pt pts ih =>
    obtain ⟨c, h⟩ := ih (fun q hq => hs q (by simp [hq]))
    refine ⟨(pt.y - Restricted.computeU p lbd i pt.D) ^ 2 + c, fun x => ?_⟩
    simp only [List.map_cons, List.sum_cons]
    rw [h x, C32_affine p lbd pt.D (hs pt (by simp)) i hi x]
    ring

theorem sum_sq_nonneg (pts : List RestrictedPoint) (f : RestrictedPoint → ℚ) :
    0 ≤ (pts.map (fun pt => f pt * f pt)).sum := by
  apply List.sum_nonneg
  intro x hx
  obtain ⟨pt, _, rfl⟩ := List.mem_map.1 hx
  exact mul_self_nonneg _

/-- The start a run of coordinate descent needs: feasible, and no coordinate or sum of all but one
above a million. -/
structure GoodStart (p : Nat) (lbd : Nat → ℚ) : Prop where
  feasible : FeasibleLambda p lbd
  size : WithinSize p lbd 1000000

theorem defaultTol_pos : 0 < Restricted.defaultTol := by norm_num [Restricted.defaultTol]
theorem defaultTol_inv : 1 / Restricted.defaultTol = 1000000 := by norm_num [Restricted.defaultTol]

theorem bound_of_good (p : Nat) (lbd : Nat → ℚ) (hg : GoodStart p lbd) (i : Nat) (hi : i < p) :
    lbd i ≤ Restricted.feasibleBound p lbd i Restricted.defaultTol := by
  rw [← C34_bound_is_exact_within_size_partial p lbd Restricted.defaultTol hg.feasible
    (by rw [defaultTol_inv]; exact hg.size) defaultTol_pos i hi _ (hg.feasible i hi).1,
    Function.update_eq_self, defaultTol_inv]
  exact ⟨hg.feasible, hg.size⟩

theorem good_of_bound (p : Nat) (lbd : Nat → ℚ) (hg : GoodStart p lbd) (i : Nat) (hi : i < p)
    (l : ℚ) (h0 : 0 ≤ l) (hl : l ≤ Restricted.feasibleBound p lbd i Restricted.defaultTol) :
    GoodStart p (Function.update lbd i l) := by
  rw [← C34_bound_is_exact_within_size_partial p lbd Restricted.defaultTol hg.feasible
    (by rw [defaultTol_inv]; exact hg.size) defaultTol_pos i hi _ h0, defaultTol_inv] at hl
  exact ⟨hl.1, hl.2⟩

/-- C33 as stated: whatever vector passes the check, every step returns a number, the updated
vector passes the check, and the loss does not grow. -/
def C33_full : Prop :=
  ∀ (p : Nat) (pts : List RestrictedPoint) (lbd : Nat → ℚ) (i : Nat), i < p →
    SymmetricPoints p pts → Restricted.checkFeasibility p lbd Restricted.defaultTol = true →
    ∃ l, Restricted.step p pts lbd i = some l ∧
      Restricted.checkFeasibility p (Function.update lbd i l) Restricted.defaultTol = true ∧
      Restricted.loss p pts (Function.update lbd i l) ≤ Restricted.loss p pts lbd

/-- C33 fails when the other coordinates are all zero: the step divides zero by zero. -/
theorem C33_full_is_false : ¬ C33_full := by
  intro h
  obtain ⟨l, h, _⟩ := h 2 [⟨1, fun _ _ => 1⟩] (fun j => if j = 0 then 1 / 2 else 0) 0 (by decide)
    (by intro pt hpt j _ k _; simp at hpt; subst hpt; rfl) (by decide +kernel)
  revert h
  simp [Restricted.step, Restricted.computeV]

/-- C33 also fails within the tolerance: from `(0, 1.000001, 1)`, which passes the check, the first
step returns a negative number, and the updated vector does not pass the check. -/
theorem C33_negative_step :
    ∃ (p : Nat) (pts : List RestrictedPoint) (lbd : Nat → ℚ) (i : Nat) (l : ℚ),
      Restricted.checkFeasibility p lbd Restricted.defaultTol = true ∧
      Restricted.step p pts lbd i = some l ∧ l < 0 ∧
      Restricted.checkFeasibility p (Function.update lbd i l) Restricted.defaultTol = false := by
  refine ⟨3, [⟨5, fun _ _ => 1⟩],
    (fun j => if j = 0 then 0 else if j = 1 then 1000001 / 1000000 else 1), 0, -1 / 1000000,
    by decide +kernel, by decide +kernel, by norm_num, by decide +kernel⟩

/-- C33 (a), partial: from every exactly feasible vector of size at most a million, whenever the
step returns a number, that number lies in the feasible range, has the least loss within that range,
keeps the vector feasible, and does not increase the loss. -/
theorem C33_step_partial (p : Nat) (pts : List RestrictedPoint) (hs : SymmetricPoints p pts)
    (lbd : Nat → ℚ) (hg : GoodStart p lbd) (i : Nat) (hi : i < p) (l : ℚ)
    (hl : Restricted.step p pts lbd i = some l) :
    0 ≤ l ∧ l ≤ Restricted.feasibleBound p lbd i Restricted.defaultTol ∧
      GoodStart p (Function.update lbd i l) ∧
      (∀ x, 0 ≤ x → FeasibleLambda p (Function.update lbd i x) →
        WithinSize p (Function.update lbd i x) 1000000 →
        Restricted.loss p pts (Function.update lbd i l)
          ≤ Restricted.loss p pts (Function.update lbd i x)) ∧
      Restricted.loss p pts (Function.update lbd i l) ≤ Restricted.loss p pts lbd := by
  obtain ⟨c, hc⟩ := loss_update p pts hs lbd i hi
  have hB := bound_of_good p lbd hg i hi
  have h0 := (hg.feasible i hi).1
  have hden := sum_sq_nonneg pts (fun pt => Restricted.computeV p lbd i pt.D)
  unfold Restricted.step at hl
  simp only at hl
  set num := (pts.map (fun pt => (pt.y - Restricted.computeU p lbd i pt.D) *
    Restricted.computeV p lbd i pt.D)).sum with hnum
  set den := (pts.map (fun pt => Restricted.computeV p lbd i pt.D *
    Restricted.computeV p lbd i pt.D)).sum with hden'
  set B := Restricted.feasibleBound p lbd i Restricted.defaultTol with hBdef
  split at hl
  · cases hl
  rename_i hne
  have hpos : 0 < den := lt_of_le_of_ne hden (Ne.symm hne)
  have hnd : num = num / den * den := by field_simp
  -- the range and optimality over the range
  have key : 0 ≤ l ∧ l ≤ B ∧ ∀ x, 0 ≤ x → x ≤ B →
      c - 2 * num * l + den * l ^ 2 ≤ c - 2 * num * x + den * x ^ 2 := by
    generalize num / den = h at hl hnd
    rw [hnd]
    split at hl
    · rename_i hneg
      obtain rfl : 0 = l := by simpa using hl
      refine ⟨le_refl _, le_trans h0 hB, fun x hx _ => ?_⟩
      have : 0 ≤ den * (x * (x - 2 * h)) := by
        apply mul_nonneg hpos.le (mul_nonneg hx (by linarith))
      nlinarith
    · rename_i hnn
      rw [not_lt] at hnn
      obtain rfl : min h B = l := by simpa using hl
      refine ⟨le_min hnn (le_trans h0 hB), min_le_right _ _, fun x hx hxB => ?_⟩
      rcases le_total h B with hh | hh
      · rw [min_eq_left hh]
        have : 0 ≤ den * (x - h) ^ 2 := mul_nonneg hpos.le (sq_nonneg _)
        nlinarith
      · rw [min_eq_right hh]
        have : 0 ≤ den * ((B - x) * ((h - B) + (h - x))) := by
          apply mul_nonneg hpos.le (mul_nonneg (by linarith) (by linarith))
        nlinarith
  obtain ⟨k1, k2, k3⟩ := key
  refine ⟨k1, k2, good_of_bound p lbd hg i hi l k1 k2, ?_, ?_⟩
  · intro x hx hf hw
    rw [hc, hc]
    apply k3 x hx
    rw [hBdef, ← C34_bound_is_exact_within_size_partial p lbd Restricted.defaultTol hg.feasible
      (by rw [defaultTol_inv]; exact hg.size) defaultTol_pos i hi x hx, defaultTol_inv]
    exact ⟨hf, hw⟩
  · have := k3 (lbd i) h0 hB
    rw [← hc, ← hc, Function.update_eq_self] at this
    exact this

/-- C33 (b), partial: so whole rounds, over any order of the coordinates, keep the vector feasible
and do not increase the loss. -/
theorem C33_round_partial (p : Nat) (pts : List RestrictedPoint) (hs : SymmetricPoints p pts)
    (order : List Nat) (ho : ∀ i ∈ order, i < p) (lbd lbd' : Nat → ℚ) (hg : GoodStart p lbd)
    (h : Restricted.round p pts lbd order = some lbd') :
    GoodStart p lbd' ∧ Restricted.loss p pts lbd' ≤ Restricted.loss p pts lbd := by
  induction order generalizing lbd with
  | nil =>
    simp only [Restricted.round, Option.some.injEq] at h
    subst h
    exact ⟨hg, le_refl _⟩
  | cons i order ih =>
    unfold Restricted.round at h
    split at h
    · cases h
    · rename_i l hl
      obtain ⟨_, _, h3, _, h5⟩ := C33_step_partial p pts hs lbd hg i (ho i (by simp)) l hl
      obtain ⟨a, b⟩ := ih (fun j hj => ho j (by simp [hj])) _ h3 h
      exact ⟨a, le_trans b h5⟩

/-- A whole loop. -/
theorem fitLoop_spec (p : Nat) (pts : List RestrictedPoint) (hs : SymmetricPoints p pts)
    (mi : ℚ) (orders : Nat → List Nat) (ho : ∀ n, ∀ i ∈ orders n, i < p) (left : Nat)
    (lbd : Nat → ℚ) (hg : GoodStart p lbd) (prev cur : ℚ) (n : Nat) (fit : Restricted.LocalFit)
    (h : Restricted.fitLoop p pts mi orders left lbd prev cur n = some fit) :
    GoodStart p fit.lbd ∧ Restricted.loss p pts fit.lbd ≤ Restricted.loss p pts lbd ∧
      n ≤ fit.rounds ∧ fit.rounds ≤ n + left ∧
      (fit.rounds = n → fit.loss = cur) ∧
      (fit.rounds ≠ n → fit.loss = Restricted.loss p pts fit.lbd) := by
  induction left generalizing lbd prev cur n with
  | zero =>
    simp only [Restricted.fitLoop, Option.some.injEq] at h
    subst h
    simp [hg]
  | succ left ih =>
    unfold Restricted.fitLoop at h
    split at h
    · split at h
      · cases h
      · rename_i lbd' hr
        obtain ⟨a, b⟩ := C33_round_partial p pts hs (orders n) (ho n) lbd lbd' hg hr
        obtain ⟨c1, c2, c3, c4, c5, c6⟩ := ih lbd' a _ _ _ h
        refine ⟨c1, le_trans c2 b, by omega, by omega, fun he => by omega, fun _ => ?_⟩
        by_cases he : fit.rounds = n + 1
        · -- the loop stopped right after this round
          have hl := c5 he
          rw [hl]
          have : fit.lbd = lbd' := by
            cases left with
            | zero => simp only [Restricted.fitLoop, Option.some.injEq] at h; rw [← h]
            | succ left =>
              unfold Restricted.fitLoop at h
              split at h
              · split at h
                · cases h
                · rename_i lbd2 hr2
                  obtain ⟨a2, _⟩ := C33_round_partial p pts hs (orders (n + 1)) (ho _) lbd' lbd2 a hr2
                  have key : ∀ left lbd prev cur n,
                      Restricted.fitLoop p pts mi orders left lbd prev cur n = some fit →
                      n ≤ fit.rounds := by
                    intro left
                    induction left with
                    | zero =>
                      intro lbd prev cur n h
                      simp only [Restricted.fitLoop, Option.some.injEq] at h
                      rw [← h]
                    | succ left ih =>
                      intro lbd prev cur n h
                      unfold Restricted.fitLoop at h
                      split at h
                      · split at h
                        · cases h
                        · have := ih _ _ _ _ h; omega
                      · simp only [Option.some.injEq] at h; rw [← h]
                  have := key _ _ _ _ _ h
                  omega
              · simp only [Option.some.injEq] at h; rw [← h]
          rw [this]
        · exact c6 he
    · simp only [Option.some.injEq] at h
      subst h
      simp [hg]

/-- C33 (c), partial: a whole run of coordinate descent from one starting point, with any random
orders, ends at a feasible vector whose loss is not above that of the start; it performs at most the
configured number of rounds and, if that number is positive, reports the loss of the vector it
returns. -/
theorem C33_run_partial (p : Nat) (pts : List RestrictedPoint) (hs : SymmetricPoints p pts)
    (mi : ℚ) (hmi : mi < 1) (maxRounds : Nat) (orders : Nat → List Nat)
    (ho : ∀ n, ∀ i ∈ orders n, i < p) (lbd : Nat → ℚ) (hg : GoodStart p lbd)
    (fit : Restricted.LocalFit)
    (h : Restricted.fitOneInit p pts mi maxRounds orders lbd = some fit) :
    FeasibleLambda p fit.lbd ∧ Restricted.loss p pts fit.lbd ≤ Restricted.loss p pts lbd ∧
      fit.rounds ≤ maxRounds ∧ (0 < maxRounds → fit.loss = Restricted.loss p pts fit.lbd) := by
  unfold Restricted.fitOneInit at h
  obtain ⟨a, b, _, d, _, f⟩ := fitLoop_spec p pts hs mi orders ho maxRounds lbd hg _ _ _ fit h
  refine ⟨a.feasible, b, by omega, fun hpos => f ?_⟩
  -- at least one round is performed
  obtain ⟨m, rfl⟩ : ∃ m, maxRounds = m + 1 := ⟨maxRounds - 1, by omega⟩
  unfold Restricted.fitLoop at h
  rw [if_pos (by linarith)] at h
  split at h
  · cases h
  · rename_i lbd' hr
    obtain ⟨a', _⟩ := C33_round_partial p pts hs (orders 0) (ho 0) lbd lbd' hg hr
    have := (fitLoop_spec p pts hs mi orders ho m lbd' a' _ _ _ fit h).2.2.1
    omega

/-! ### When the steps return a number -/

/-- Training data as the set-up builds it from non-negative reaches, with at least one training point
at which every pair of publishers can overlap. -/
structure PositiveData (p : Nat) (pts : List RestrictedPoint) : Prop where
  response : ∀ pt ∈ pts, 0 < pt.y
  nonneg : ∀ pt ∈ pts, ∀ j < p, ∀ k < p, 0 ≤ pt.D j k
  informative : ∃ pt ∈ pts, ∀ j < p, ∀ k < p, j ≠ k → 0 < pt.D j k

/-- At least two coordinates are positive. -/
def TwoPositive (p : Nat) (lbd : Nat → ℚ) : Prop :=
  ∃ j < p, ∃ k < p, j ≠ k ∧ 0 < lbd j ∧ 0 < lbd k

theorem computeV_eq (p : Nat) (lbd : Nat → ℚ) (i : Nat) (hi : i < p) (D : Nat → Nat → ℚ) :
    Restricted.computeV p lbd i D = ∑ j ∈ (range p).erase i, lbd j * D j i := by
  unfold Restricted.computeV
  rw [Finset.sum_erase_eq_sub (Finset.mem_range.2 hi)]

/-- The responses built by the set-up are positive: this is what the floor of 0.0001 is for. -/
theorem setup_response_pos (s : PairwiseSurface) (pts : List RestrictedPoint)
    (h : Restricted.setup s = .ok pts) : ∀ pt ∈ pts, 0 < pt.y := by
  unfold Restricted.setup at h
  cases ho : s.data.mapM (Restricted.setupPoint s) with
  | error e => rw [ho] at h; cases h
  | ok opts =>
    rw [ho] at h
    simp only [bind, Except.bind, pure, Except.pure, Except.ok.injEq] at h
    subst h
    rw [mapM_ok_iff] at ho
    intro q hq
    simp only [List.mem_filterMap, id, exists_eq_right] at hq
    obtain ⟨n, hn, hqn⟩ := List.getElem_of_mem hq
    have hlen := ho.length_eq
    have := (List.forall₂_iff_get.1 ho).2 n (by omega) hn
    simp only [List.get_eq_getElem, hqn] at this
    unfold Restricted.setupPoint at this
    split at this
    · cases hr : PairwiseSurface.getReachVector s.curves
        (s.data[n]'(by omega)).impressions with
      | error e => rw [hr] at this; cases this
      | ok r =>
        cases hy : (s.data[n]'(by omega)).reach 1 with
        | error e => rw [hr, hy] at this; cases this
        | ok y =>
          rw [hr, hy] at this
          simp only [bind, Except.bind, pure, Except.pure, Except.ok.injEq, Option.some.injEq] at this
          rw [← this]
          exact lt_of_lt_of_le (by norm_num) (le_max_left _ _)
    · cases this

/-- C33 (d): on such data, from a feasible vector with two positive coordinates, no step ever
divides zero by zero, and two coordinates stay positive. -/
theorem C33_step_is_a_number (p : Nat) (pts : List RestrictedPoint) (hs : SymmetricPoints p pts)
    (hd : PositiveData p pts) (lbd : Nat → ℚ) (hg : GoodStart p lbd) (h2 : TwoPositive p lbd)
    (i : Nat) (hi : i < p) :
    ∃ l, Restricted.step p pts lbd i = some l ∧ TwoPositive p (Function.update lbd i l) := by
  have hnn : ∀ j < p, 0 ≤ lbd j := fun j hj => (hg.feasible j hj).1
  have hV : ∀ pt ∈ pts, 0 ≤ Restricted.computeV p lbd i pt.D := by
    intro pt hpt
    rw [computeV_eq p lbd i hi]
    apply Finset.sum_nonneg
    intro j hj
    have hj' := Finset.mem_range.1 (Finset.mem_of_mem_erase hj)
    exact mul_nonneg (hnn j hj') (hd.nonneg pt hpt j hj' i hi)
  -- some other coordinate is positive
  obtain ⟨k, hk, hki, hkpos⟩ : ∃ k < p, k ≠ i ∧ 0 < lbd k := by
    obtain ⟨a, ha, b, hb, hab, pa, pb⟩ := h2
    by_cases h : a = i
    · exact ⟨b, hb, fun h' => hab (h.trans h'.symm), pb⟩
    · exact ⟨a, ha, h, pa⟩
  obtain ⟨pt0, hpt0, hinf⟩ := hd.informative
  have hV0 : 0 < Restricted.computeV p lbd i pt0.D := by
    rw [computeV_eq p lbd i hi]
    apply Finset.sum_pos'
    · intro j hj
      have hj' := Finset.mem_range.1 (Finset.mem_of_mem_erase hj)
      exact mul_nonneg (hnn j hj') (hd.nonneg pt0 hpt0 j hj' i hi)
    · exact ⟨k, Finset.mem_erase.2 ⟨hki, Finset.mem_range.2 hk⟩,
        mul_pos hkpos (hinf k hk i hi hki)⟩
  have hsumpos : ∀ f : RestrictedPoint → ℚ, (∀ pt ∈ pts, 0 ≤ f pt) → 0 < f pt0 →
      0 < (pts.map f).sum := by
    intro f h1 h3
    have := List.single_le_sum (l := pts.map f) (by
      intro x hx
      obtain ⟨pt, hpt, rfl⟩ := List.mem_map.1 hx
      exact h1 pt hpt) (f pt0) (List.mem_map.2 ⟨pt0, hpt0, rfl⟩)
    linarith
  have hden := hsumpos (fun pt => Restricted.computeV p lbd i pt.D * Restricted.computeV p lbd i pt.D)
    (fun pt _ => mul_self_nonneg _) (mul_pos hV0 hV0)
  have hB := bound_of_good p lbd hg i hi
  unfold Restricted.step
  simp only
  rw [if_neg hden.ne']
  by_cases hmany : ∃ k' < p, k' ≠ i ∧ k' ≠ k ∧ 0 < lbd k'
  · -- two other coordinates are positive, they are not touched
    obtain ⟨k', hk', hk'i, hk'k, hk'pos⟩ := hmany
    have two : ∀ l, TwoPositive p (Function.update lbd i l) := by
      intro l
      refine ⟨k, hk, k', hk', fun h => hk'k h.symm, ?_, ?_⟩
      · rwa [Function.update_of_ne hki]
      · rwa [Function.update_of_ne hk'i]
    split
    · exact ⟨_, rfl, two _⟩
    · exact ⟨_, rfl, two _⟩
  · -- coordinate `i` itself is positive and the intercept is zero
    have hone : ∀ j < p, j ≠ i → j ≠ k → lbd j = 0 := by
      intro j hj hji hjk
      by_contra hne
      exact hmany ⟨j, hj, hji, hjk, lt_of_le_of_ne (hnn j hj) (Ne.symm hne)⟩
    have hipos : 0 < lbd i := by
      obtain ⟨a, ha, b, hb, hab, pa, pb⟩ := h2
      by_contra hcon
      have ha' : a ≠ i := fun h => hcon (h ▸ pa)
      have hb' : b ≠ i := fun h => hcon (h ▸ pb)
      have e1 : a = k := by by_contra hne; rw [hone a ha ha' hne] at pa; exact lt_irrefl _ pa
      have e2 : b = k := by by_contra hne; rw [hone b hb hb' hne] at pb; exact lt_irrefl _ pb
      exact hab (e1.trans e2.symm)
    have hU : ∀ pt ∈ pts, Restricted.computeU p lbd i pt.D = 0 := by
      intro pt hpt
      have := C32_affine p lbd pt.D (hs pt hpt) i hi 0
      rw [mul_zero, add_zero] at this
      rw [← this, fitted_off_diag, div_eq_zero_iff]
      left
      apply Finset.sum_eq_zero
      intro a ha
      apply Finset.sum_eq_zero
      intro b hb
      have ha := Finset.mem_range.1 ha
      have hb := Finset.mem_range.1 hb
      have z : ∀ c < p, c ≠ k → Function.update lbd i 0 c = 0 := by
        intro c hc hck
        by_cases hci : c = i
        · subst hci; simp
        · rw [Function.update_of_ne hci]; exact hone c hc hci hck
      split
      · rfl
      · rename_i hab
        by_cases hak : a = k
        · rw [z b hb (fun h => hab (hak.trans h.symm))]; ring
        · rw [z a ha hak]; ring
    have hnum := hsumpos (fun pt => (pt.y - Restricted.computeU p lbd i pt.D) *
        Restricted.computeV p lbd i pt.D)
      (fun pt hpt => by rw [hU pt hpt, sub_zero]; exact mul_nonneg (hd.response pt hpt).le (hV pt hpt))
      (by rw [hU pt0 hpt0, sub_zero]; exact mul_pos (hd.response pt0 hpt0) hV0)
    have hhat := div_pos hnum hden
    rw [if_neg (not_lt.2 hhat.le)]
    refine ⟨_, rfl, k, hk, i, hi, hki, ?_, ?_⟩
    · rwa [Function.update_of_ne hki]
    · rw [Function.update_self]
      exact lt_min hhat (lt_of_lt_of_le hipos hB)

/-- C33 (d) for whole rounds. -/
theorem C33_round_is_a_number (p : Nat) (pts : List RestrictedPoint) (hs : SymmetricPoints p pts)
    (hd : PositiveData p pts) (order : List Nat) (ho : ∀ i ∈ order, i < p) (lbd : Nat → ℚ)
    (hg : GoodStart p lbd) (h2 : TwoPositive p lbd) :
    ∃ lbd', Restricted.round p pts lbd order = some lbd' ∧ TwoPositive p lbd' := by
  induction order generalizing lbd with
  | nil => exact ⟨lbd, rfl, h2⟩
  | cons i order ih =>
    have hi := ho i (by simp)
    obtain ⟨l, h1, h3⟩ := C33_step_is_a_number p pts hs hd lbd hg h2 i hi
    unfold Restricted.round
    rw [h1]
    exact ih (fun j hj => ho j (by simp [hj])) _
      (C33_step_partial p pts hs lbd hg i hi l h1).2.2.1 h3

/-- C33 (d) for whole runs: a run always ends with a number. -/
theorem C33_run_is_a_number (p : Nat) (pts : List RestrictedPoint) (hs : SymmetricPoints p pts)
    (hd : PositiveData p pts) (mi : ℚ) (maxRounds : Nat) (orders : Nat → List Nat)
    (ho : ∀ n, ∀ i ∈ orders n, i < p) (lbd : Nat → ℚ)
    (hg : GoodStart p lbd) (h2 : TwoPositive p lbd) :
    ∃ fit, Restricted.fitOneInit p pts mi maxRounds orders lbd = some fit := by
  have key : ∀ (left : Nat) (lbd : Nat → ℚ) (prev cur : ℚ) (n : Nat), GoodStart p lbd →
      TwoPositive p lbd →
      ∃ fit, Restricted.fitLoop p pts mi orders left lbd prev cur n = some fit := by
    intro left
    induction left with
    | zero => intro lbd prev cur n _ _; exact ⟨_, rfl⟩
    | succ left ih =>
      intro lbd prev cur n hg h2
      unfold Restricted.fitLoop
      split
      · obtain ⟨lbd', h3, h4⟩ := C33_round_is_a_number p pts hs hd (orders n) (ho n) lbd hg h2
        rw [h3]
        exact ih lbd' _ _ _ (C33_round_partial p pts hs (orders n) (ho n) lbd lbd' hg h3).1 h4
      · exact ⟨_, rfl⟩
  exact key maxRounds lbd _ _ 0 hg h2

/-- Two training points for three publishers. -/
def exRestrictedPoints : List RestrictedPoint :=
  [⟨3, fun _ _ => 2⟩, ⟨1, fun j k => if j = k then 5 else 1⟩]

def exLambda : Nat → ℚ := fun j => if j = 0 then 1 / 2 else if j = 1 then 1 / 4 else 1

theorem exLambda_good : GoodStart 3 exLambda where
  feasible := by unfold FeasibleLambda; decide +kernel
  size := by unfold WithinSize; decide +kernel

theorem exRestrictedPoints_symmetric : SymmetricPoints 3 exRestrictedPoints := by
  unfold SymmetricPoints exRestrictedPoints
  decide +kernel

example : PositiveData 3 exRestrictedPoints :=
  ⟨by unfold exRestrictedPoints; decide +kernel, by unfold exRestrictedPoints; decide +kernel,
    by unfold exRestrictedPoints; decide +kernel⟩

example : TwoPositive 3 exLambda := by unfold TwoPositive; decide +kernel

/-- A step on the example: coordinate 2 moves from 1 to its bound. -/
example : Restricted.step 3 exRestrictedPoints exLambda 2 = some (4 / 3) := by decide +kernel

/-! ### C35 -/

/-- C35: every lambda vector that passes the check (with any tolerance up to one) gives a plausible
overlap matrix, with row sums at most half of one plus the tolerance. -/
theorem C35_plausible (p : Nat) (lbd : Nat → ℚ) (tol : ℚ) (ht1 : tol ≤ 1)
    (h : Restricted.checkFeasibility p lbd tol = true) :
    PlausibleOverlap p (fun i j => (Restricted.constructA p lbd).getD (i * p + j) 0) ∧
      ∀ i < p, ∑ j ∈ range p, (Restricted.constructA p lbd).getD (i * p + j) 0 ≤ (1 + tol) / 2 := by
  have hc : ∀ j < p, 0 ≤ lbd j ∧ lbd j * ∑ k ∈ (range p).erase j, lbd k ≤ 1 + tol := by
    intro j hj
    unfold Restricted.checkFeasibility at h
    rw [List.all_eq_true] at h
    have := h j (List.mem_range.2 hj)
    simp only [gt_iff_lt, Bool.decide_or, Bool.not_or, Bool.and_eq_true, Bool.not_eq_eq_eq_not,
      Bool.not_true, decide_eq_false_iff_not, not_lt] at this
    rw [total_sub p lbd j hj] at this
    exact this
  have hrow : ∀ i < p, ∑ j ∈ range p, (if i = j then 0 else lbd i * lbd j / 2) ≤ (1 + tol) / 2 := by
    intro i hi
    have := (hc i hi).2
    rw [← Finset.sum_erase (range p) (a := i)
      (f := fun j => if i = j then 0 else lbd i * lbd j / 2) (by simp)]
    rw [Finset.sum_congr rfl (g := fun j => lbd i / 2 * lbd j) (by
      intro j hj
      rw [if_neg (fun e => (Finset.ne_of_mem_erase hj) e.symm)]
      ring), ← Finset.mul_sum]
    linarith
  have hcol : ∀ j < p, ∑ i ∈ range p, (if i = j then 0 else lbd i * lbd j / 2) ≤ (1 + tol) / 2 := by
    intro j hj
    refine le_of_eq_of_le (Finset.sum_congr rfl ?_) (hrow j hj)
    intro i _
    by_cases e : i = j
    · simp [e]
    · rw [if_neg e, if_neg (fun e' => e e'.symm)]; ring
  refine ⟨⟨?_, ?_, ?_, ?_, ?_⟩, ?_⟩
  · intro i hi j hj
    rw [constructA_entry p lbd i j hi hj]
    split
    · exact le_refl _
    · exact div_nonneg (mul_nonneg (hc i hi).1 (hc j hj).1) (by norm_num)
  · intro i hi
    rw [Finset.sum_congr rfl (fun j hj => constructA_entry p lbd i j hi (Finset.mem_range.1 hj))]
    exact le_trans (hrow i hi) (by linarith)
  · intro j hj
    rw [Finset.sum_congr rfl (fun i hi => constructA_entry p lbd i j (Finset.mem_range.1 hi) hj)]
    exact le_trans (hcol j hj) (by linarith)
  · intro i hi
    rw [constructA_entry p lbd i i hi hi]; simp
  · intro i hi j hj
    rw [constructA_entry p lbd i j hi hj, constructA_entry p lbd j i hj hi]
    by_cases e : i = j
    · simp [e]
    · rw [if_neg e, if_neg (fun e' => e e'.symm)]; ring
  · intro i hi
    rw [Finset.sum_congr rfl (fun j hj => constructA_entry p lbd i j hi (Finset.mem_range.1 hj))]
    exact hrow i hi

/-- C35: so the prediction lies between the largest single reach and the sum of the reaches. -/
theorem C35_union_reach (s : PairwiseSurface) (hs : WellFormed s) (lbd : Nat → ℚ)
    (h : Restricted.checkFeasibility s.p lbd Restricted.defaultTol = true)
    (v : List ℚ) (hv : v.length = s.p) (r : List ℚ)
    (hr : PairwiseSurface.getReachVector s.curves v = .ok r) (hrange : ReachesInRange s r) :
    ∃ pt u, ({ s with a := Restricted.constructA s.p lbd } : PairwiseSurface).byImpressions v = .ok pt ∧
      pt.reach 1 = .ok u ∧ (∀ x ∈ r, x ≤ u) ∧ u ≤ r.sum :=
  C30_bounds { s with a := Restricted.constructA s.p lbd }
    ⟨hs.curves, by simp [Restricted.constructA], hs.positive⟩
    (C35_plausible s.p lbd Restricted.defaultTol
      (by norm_num [Restricted.defaultTol]) h).1 v hv r hr hrange

example : Restricted.checkFeasibility 3 exLambda Restricted.defaultTol = true := by decide +kernel

end Verif
