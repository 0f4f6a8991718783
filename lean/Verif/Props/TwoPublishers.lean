import Verif.Props.Planner
import Mathlib.Tactic.Linarith
import Mathlib.Tactic.LinearCombination

/-!
# C85: the pairwise union surface of two publishers
-/

namespace Verif

open Finset Verif.Spec

/-- What `solvers.qp` is documented to return: a vector satisfying the constraints with the least
objective among all that do. -/
structure SolvesQp (n : Nat) (qp : PairwiseSurface.QP) (x : List ℚ) : Prop where
  length : x.length = n
  le : SatisfiesLe qp.G.rows qp.G.cols qp.G.entry (fun r => qp.h.getD r 0) (fun c => x.getD c 0)
  eq : SatisfiesEq qp.A.rows qp.A.cols qp.A.entry (fun r => qp.b.getD r 0) (fun c => x.getD c 0)
  least : ∀ y : List ℚ, y.length = n →
    SatisfiesLe qp.G.rows qp.G.cols qp.G.entry (fun r => qp.h.getD r 0) (fun c => y.getD c 0) →
    SatisfiesEq qp.A.rows qp.A.cols qp.A.entry (fun r => qp.b.getD r 0) (fun c => y.getD c 0) →
    qpObjective n qp.P qp.q (fun c => x.getD c 0) ≤ qpObjective n qp.P qp.q (fun c => y.getD c 0)

/-- The union reach of two publishers. -/
theorem unionReach_two (a : Nat → Nat → ℚ) (m r : Nat → ℚ) (ha : PlausibleOverlap 2 a) :
    unionReach 2 a m r = r 0 + r 1 - a 0 1 * (r 0 * r 1 / max (m 0) (m 1)) ∧
      0 ≤ a 0 1 ∧ a 0 1 ≤ 1 := by
  have h1 := ha.diag 0 (by omega)
  have h2 := ha.diag 1 (by omega)
  have h3 := ha.symm 0 (by omega) 1 (by omega)
  have h4 := ha.row 0 (by omega)
  simp only [sum_range_succ, sum_range_zero, h1] at h4
  refine ⟨?_, ha.nonneg 0 (by omega) 1 (by omega), by linarith⟩
  unfold unionReach
  simp only [sum_range_succ, sum_range_zero, h1, h2, ← h3, max_comm (m 1) (m 0)]
  ring

theorem plausible_two (t : ℚ) (h0 : 0 ≤ t) (h1 : t ≤ 1) :
    PlausibleOverlap 2 (fun i j => [0, t, t, 0].getD (i * 2 + j) 0) := by
  have hc : ∀ i, i < 2 → i = 0 ∨ i = 1 := by omega
  constructor
  · intro i hi j hj
    rcases hc i hi with rfl | rfl <;> rcases hc j hj with rfl | rfl <;> simp [h0]
  · intro i hi
    rcases hc i hi with rfl | rfl <;> simp [sum_range_succ, h1]
  · intro i hi
    rcases hc i hi with rfl | rfl <;> simp [sum_range_succ, h1]
  · intro i hi
    rcases hc i hi with rfl | rfl <;> simp
  · intro i hi j hj
    rcases hc i hi with rfl | rfl <;> rcases hc j hj with rfl | rfl <;> simp

/-- The point of the interval `[lo, hi]` closest to `y` is the only one. -/
theorem closest_in_interval (lo hi y u : ℚ) (h : lo ≤ hi) (h1 : lo ≤ u) (h2 : u ≤ hi)
    (hb : (y - u) ^ 2 ≤ (y - min hi (max y lo)) ^ 2) : u = min hi (max y lo) := by
  rcases le_total y lo with hy | hy
  · rw [max_eq_right hy, min_eq_right h] at hb ⊢
    nlinarith
  · rw [max_eq_left hy] at hb ⊢
    rcases le_total y hi with hy2 | hy2
    · rw [min_eq_right hy2] at hb ⊢
      have : (y - u) ^ 2 ≤ 0 := by simpa using hb
      have := pow_eq_zero_iff (n := 2) (by norm_num) |>.1 (le_antisymm this (sq_nonneg _))
      linarith
    · rw [min_eq_left hy2] at hb ⊢
      nlinarith

/-- What the lemmas below are about: two publishers, one training point with observed reach `y`, at
which the curves have reaches `r₀`, `r₁`; `m₀`, `m₁` are the maximum reaches. -/
structure TwoPublisherFit (s : PairwiseSurface) (pt : ReachPoint) (y r₀ r₁ m₀ m₁ : ℚ)
    (qp : PairwiseSurface.QP) : Prop where
  wf : WellFormed s
  two : s.p = 2
  data : s.data = [pt]
  dim : pt.impressions.length = 2
  observed : pt.reach 1 = .ok y
  reaches : PairwiseSurface.getReachVector s.curves pt.impressions = .ok [r₀, r₁]
  maxima : s.curves.map (·.maxReach) = [m₀, m₁]
  nonneg₀ : 0 ≤ r₀
  nonneg₁ : 0 ≤ r₁
  program : s.quadraticProgram = .ok qp

variable {s : PairwiseSurface} {pt : ReachPoint} {y r₀ r₁ m₀ m₁ : ℚ} {qp : PairwiseSurface.QP}

theorem TwoPublisherFit.prediction (h : TwoPublisherFit s pt y r₀ r₁ m₀ m₁ qp) (t : ℚ)
    (h0 : 0 ≤ t) (h1 : t ≤ 1) :
    ∃ out, { s with a := [0, t, t, 0] }.byImpressions pt.impressions = .ok out ∧
      out.reach 1 = .ok (r₀ + r₁ - t * (r₀ * r₁ / max m₀ m₁)) := by
  have hwf : WellFormed { s with a := [0, t, t, 0] } :=
    ⟨h.wf.curves, by show 4 = s.p * s.p; rw [h.two], h.wf.positive⟩
  obtain ⟨out, o1, _, _, o4⟩ := C30_formula { s with a := [0, t, t, 0] } hwf pt.impressions
    (by rw [h.dim]; exact h.two.symm) [r₀, r₁] h.reaches
  refine ⟨out, o1, ?_⟩
  have o4 := o4.trans (congrArg (fun n => Except.ok (unionReach n
    (surfaceMatrix { s with a := [0, t, t, 0] }) (surfaceMax { s with a := [0, t, t, 0] })
    (fun i => [r₀, r₁].getD i 0))) h.two)
  have e : surfaceMatrix { s with a := [0, t, t, 0] } =
      fun i j => [0, t, t, 0].getD (i * 2 + j) 0 := by
    funext i j
    unfold surfaceMatrix
    rw [h.two]
  rw [e] at o4
  rw [o4, (unionReach_two _ _ _ (plausible_two t h0 h1)).1]
  simp [surfaceMax, h.maxima]

theorem TwoPublisherFit.feasible (h : TwoPublisherFit s pt y r₀ r₁ m₀ m₁ qp) :
    (∀ x : List ℚ, x.length = 4 →
      ((SatisfiesLe qp.G.rows qp.G.cols qp.G.entry (fun r => qp.h.getD r 0) (fun c => x.getD c 0) ∧
        SatisfiesEq qp.A.rows qp.A.cols qp.A.entry (fun r => qp.b.getD r 0) (fun c => x.getD c 0)) ↔
        ∃ t : ℚ, 0 ≤ t ∧ t ≤ 1 ∧ x = [0, t, t, 0])) ∧
    ∀ t t' : ℚ, 0 ≤ t → t ≤ 1 → 0 ≤ t' → t' ≤ 1 →
      (qpObjective 4 qp.P qp.q (fun c => [0, t, t, 0].getD c 0) ≤
          qpObjective 4 qp.P qp.q (fun c => [0, t', t', 0].getD c 0) ↔
        (y - (r₀ + r₁ - t * (r₀ * r₁ / max m₀ m₁))) ^ 2 ≤
          (y - (r₀ + r₁ - t' * (r₀ * r₁ / max m₀ m₁))) ^ 2) := by
  have h4 : s.p * s.p = 4 := by rw [h.two]
  obtain ⟨qp', preds, e1, e2, e3⟩ := C31_minimisers s h.wf
    (by rw [h.data, h.two]; simpa using h.dim) [y]
    (by rw [h.data]; simp [h.observed, bind, Except.bind, pure, Except.pure])
    (by rw [h.data]; simpa using ⟨_, h.reaches⟩)
  have := h.program
  rw [e1] at this
  cases this
  rw [h4] at e2 e3
  constructor
  · intro x hx
    rw [(e3 x hx).1]
    have e : surfaceMatrix { s with a := x } = fun i j => x.getD (i * 2 + j) 0 := by
      funext i j
      unfold surfaceMatrix
      rw [h.two]
    rw [e, h.two]
    constructor
    · intro hpl
      obtain ⟨_, u2, u3⟩ := unionReach_two _ (fun _ => 0) (fun _ => 0) hpl
      have d0 := hpl.diag 0 (by omega)
      have d1 := hpl.diag 1 (by omega)
      have ds := hpl.symm 0 (by omega) 1 (by omega)
      match x, hx with
      | [a, b, c, d], _ =>
        simp only [Nat.zero_mul, Nat.one_mul, Nat.zero_add, List.getD_cons_zero,
          List.getD_cons_succ, Nat.reduceAdd] at d0 d1 ds u2 u3
        subst d0 d1 ds
        exact ⟨b, u2, u3, rfl⟩
    · rintro ⟨t, t0, t1, rfl⟩
      exact plausible_two t t0 t1
  · intro t t' t0 t1 t0' t1'
    have hpr : ∀ t : ℚ, 0 ≤ t → t ≤ 1 →
        preds [0, t, t, 0] = [r₀ + r₁ - t * (r₀ * r₁ / max m₀ m₁)] := by
      intro t t0 t1
      obtain ⟨out, o1, o2⟩ := h.prediction t t0 t1
      have := e2 [0, t, t, 0] rfl
      have hd' : ∀ f : ReachPoint → Except PyErr ℚ, s.data.mapM f = [pt].mapM f := by
        intro f; rw [h.data]
      rw [hd'] at this
      simp only [List.mapM_cons, List.mapM_nil, o1, o2, bind, Except.bind, pure, Except.pure,
        Except.ok.injEq] at this
      exact this.symm
    rw [(e3 [0, t, t, 0] rfl).2 [0, t', t', 0] rfl, hpr t t0 t1, hpr t' t0' t1']
    simp [squaredError]

/-- **C85 (a).** Two publishers, one training point.  The solutions of the quadratic program are
exactly the symmetric overlap matrices with entry `t` between 0 and 1 for which the surface predicts
at the training point the observed reach `y`, clamped to what the overlap model can express: at most
the sum of the single reaches, at least the sum less `r₀ r₁ / max m₀ m₁`. -/
theorem C85_solutions (h : TwoPublisherFit s pt y r₀ r₁ m₀ m₁ qp) (x : List ℚ) :
    SolvesQp 4 qp x ↔ ∃ t : ℚ, 0 ≤ t ∧ t ≤ 1 ∧ x = [0, t, t, 0] ∧
      r₀ + r₁ - t * (r₀ * r₁ / max m₀ m₁) =
        min (r₀ + r₁) (max y (r₀ + r₁ - r₀ * r₁ / max m₀ m₁)) := by
  obtain ⟨hfeas, hobj⟩ := h.feasible
  have hmp : ∀ m ∈ [m₀, m₁], 0 < m := by
    intro m hm'
    rw [← h.maxima, List.mem_map] at hm'
    obtain ⟨c, hc, rfl⟩ := hm'
    exact h.wf.positive c hc
  have hm0 : 0 < m₀ := hmp _ (by simp)
  have hM : 0 < max m₀ m₁ := lt_of_lt_of_le hm0 (le_max_left _ _)
  have n0 := h.nonneg₀
  have n1 := h.nonneg₁
  have hw0 : 0 ≤ r₀ * r₁ / max m₀ m₁ := by positivity
  generalize r₀ * r₁ / max m₀ m₁ = w at *
  generalize hS : r₀ + r₁ = S at *
  have hv1 : S - w ≤ min S (max y (S - w)) := le_min (by linarith) (le_max_right _ _)
  have hv2 : min S (max y (S - w)) ≤ S := min_le_left _ _
  constructor
  · intro hx
    obtain ⟨t', t0', t1', rfl⟩ := (hfeas x hx.length).1 ⟨hx.le, hx.eq⟩
    refine ⟨t', t0', t1', rfl, ?_⟩
    obtain ⟨t, t0, t1, ht⟩ : ∃ t : ℚ, 0 ≤ t ∧ t ≤ 1 ∧ S - t * w = min S (max y (S - w)) := by
      rcases hw0.eq_or_lt with h | h
      · exact ⟨0, le_rfl, zero_le_one, by rw [← h] at hv1 hv2 ⊢; linarith⟩
      · refine ⟨(S - min S (max y (S - w))) / w, div_nonneg (by linarith) hw0, ?_, ?_⟩
        · rw [div_le_one h]; linarith
        · rw [div_mul_cancel₀ _ h.ne']; ring
    have hf := (hfeas [0, t, t, 0] rfl).2 ⟨t, t0, t1, rfl⟩
    have := (hobj t' t t0' t1' t0 t1).1 (hx.least _ rfl hf.1 hf.2)
    rw [ht] at this
    have := mul_le_mul_of_nonneg_right t1' hw0
    have := mul_nonneg t0' hw0
    exact closest_in_interval (S - w) S y (S - t' * w) (by linarith) (by linarith) (by linarith)
      (by assumption)
  · rintro ⟨t, t0, t1, rfl, ht⟩
    have hf := (hfeas [0, t, t, 0] rfl).2 ⟨t, t0, t1, rfl⟩
    refine ⟨rfl, hf.1, hf.2, ?_⟩
    intro z hz hz1 hz2
    obtain ⟨t', t0', t1', rfl⟩ := (hfeas z hz).1 ⟨hz1, hz2⟩
    rw [hobj t t' t0 t1 t0' t1', ht]
    have := mul_le_mul_of_nonneg_right t1' hw0
    have := mul_nonneg t0' hw0
    generalize hu : S - t' * w = u
    have u1 : S - w ≤ u := by linarith
    have u2 : u ≤ S := by linarith
    rcases le_total y (S - w) with hy | hy
    · rw [max_eq_right hy, min_eq_right (by linarith)]
      nlinarith
    · rw [max_eq_left hy]
      rcases le_total y S with hy2 | hy2
      · rw [min_eq_right hy2, sub_self]
        positivity
      · rw [min_eq_left hy2]
        nlinarith

/-- **C85 (b).** Whatever solution the solver returns, the surface predicts at the training point
the observed reach, clamped to what the overlap model can express. -/
theorem C85_training_point (h : TwoPublisherFit s pt y r₀ r₁ m₀ m₁ qp) (x : List ℚ)
    (hx : SolvesQp 4 qp x) :
    ∃ out u, { s with a := x }.byImpressions pt.impressions = .ok out ∧ out.reach 1 = .ok u ∧
      u = min (r₀ + r₁) (max y (r₀ + r₁ - r₀ * r₁ / max m₀ m₁)) := by
  obtain ⟨t, t0, t1, rfl, ht⟩ := (C85_solutions h x).1 hx
  obtain ⟨out, o1, o2⟩ := h.prediction t t0 t1
  exact ⟨out, _, o1, o2, ht⟩

/-- **C85 (c).** There is a solution, and if both curves have positive reach there, only one. -/
theorem C85_unique (h : TwoPublisherFit s pt y r₀ r₁ m₀ m₁ qp) :
    (∃ x, SolvesQp 4 qp x) ∧
    (0 < r₀ → 0 < r₁ → ∀ x x', SolvesQp 4 qp x → SolvesQp 4 qp x' → x = x') := by
  have hm0 : 0 < m₀ := by
    have : m₀ ∈ s.curves.map (·.maxReach) := by rw [h.maxima]; simp
    obtain ⟨c, hc, rfl⟩ := List.mem_map.1 this
    exact h.wf.positive c hc
  have hM : 0 < max m₀ m₁ := lt_of_lt_of_le hm0 (le_max_left _ _)
  have n0 := h.nonneg₀
  have n1 := h.nonneg₁
  constructor
  · have hw0 : 0 ≤ r₀ * r₁ / max m₀ m₁ := by positivity
    have hex : ∃ t : ℚ, 0 ≤ t ∧ t ≤ 1 ∧ r₀ + r₁ - t * (r₀ * r₁ / max m₀ m₁) =
        min (r₀ + r₁) (max y (r₀ + r₁ - r₀ * r₁ / max m₀ m₁)) := by
      generalize r₀ * r₁ / max m₀ m₁ = w at *
      have hv1 : r₀ + r₁ - w ≤ min (r₀ + r₁) (max y (r₀ + r₁ - w)) :=
        le_min (by linarith) (le_max_right _ _)
      have hv2 : min (r₀ + r₁) (max y (r₀ + r₁ - w)) ≤ r₀ + r₁ := min_le_left _ _
      rcases hw0.eq_or_lt with h | h
      · exact ⟨0, le_rfl, zero_le_one, by rw [← h] at hv1 hv2 ⊢; linarith⟩
      · refine ⟨(r₀ + r₁ - min (r₀ + r₁) (max y (r₀ + r₁ - w))) / w,
          div_nonneg (by linarith) hw0, ?_, ?_⟩
        · rw [div_le_one h]; linarith
        · rw [div_mul_cancel₀ _ h.ne']; ring
    obtain ⟨t, t0, t1, ht⟩ := hex
    exact ⟨_, (C85_solutions h _).2 ⟨t, t0, t1, rfl, ht⟩⟩
  · intro p0 p1 x x' hx hx'
    obtain ⟨t, _, _, rfl, ht⟩ := (C85_solutions h x).1 hx
    obtain ⟨t', _, _, rfl, ht'⟩ := (C85_solutions h x').1 hx'
    have hw : 0 < r₀ * r₁ / max m₀ m₁ := by positivity
    have : t * (r₀ * r₁ / max m₀ m₁) = t' * (r₀ * r₁ / max m₀ m₁) := by linarith
    have := mul_right_cancel₀ hw.ne' this
    subst this
    rfl

/-- Reaches 20 and 5 of at most 40 and 10, together `y`. -/
theorem exTwoPublisherFit (y : ℚ) : ∃ qp,
    TwoPublisherFit { exSurface with data := [⟨[20, 10], [y], [], none, none⟩] }
      ⟨[20, 10], [y], [], none, none⟩ y 20 5 40 10 qp := by
  have hwf : WellFormed { exSurface with data := [⟨[20, 10], [y], [], none, none⟩] } := by
    refine ⟨rfl, rfl, ?_⟩
    intro c hc
    simp only [exSurface, List.mem_cons, List.not_mem_nil, or_false] at hc
    rcases hc with rfl | rfl <;> norm_num
  have hr : PairwiseSurface.getReachVector exSurface.curves [20, 10] = .ok [20, 5] := by
    decide +kernel
  have hy : (⟨[20, 10], [y], [], none, none⟩ : ReachPoint).reach 1 = .ok y := rfl
  obtain ⟨qp, _, hqp, _⟩ := C31_minimisers _ hwf (by simp [exSurface]) [y]
    (by simp [hy, bind, Except.bind, pure, Except.pure]) (by simpa using ⟨_, hr⟩)
  exact ⟨qp, hwf, rfl, rfl, rfl, hy, hr, rfl, by norm_num, by norm_num, hqp⟩

/-- An observed union of 24 is reproduced with overlap 2/5; an observed union of 20 is not: the
model cannot go below 22.5. -/
example : (∃ qp, ∃ s pt, TwoPublisherFit s pt 24 20 5 40 10 qp ∧ SolvesQp 4 qp [0, 2 / 5, 2 / 5, 0]) ∧
    (∃ qp, ∃ s pt, TwoPublisherFit s pt 20 20 5 40 10 qp ∧ SolvesQp 4 qp [0, 1, 1, 0] ∧
      ∀ x, SolvesQp 4 qp x → ∃ out, { s with a := x }.byImpressions pt.impressions = .ok out ∧
        out.reach 1 = .ok (45 / 2)) := by
  constructor
  · obtain ⟨qp, h⟩ := exTwoPublisherFit 24
    exact ⟨qp, _, _, h, (C85_solutions h _).2 ⟨2 / 5, by norm_num, by norm_num, rfl, by norm_num⟩⟩
  · obtain ⟨qp, h⟩ := exTwoPublisherFit 20
    refine ⟨qp, _, _, h, (C85_solutions h _).2 ⟨1, by norm_num, by norm_num, rfl, by norm_num⟩, ?_⟩
    intro x hx
    obtain ⟨out, u, h1, h2, h3⟩ := C85_training_point h x hx
    refine ⟨out, h1, ?_⟩
    rw [h2, h3]
    norm_num

end Verif
