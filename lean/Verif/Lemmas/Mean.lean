import Verif.Spec.Mean
import Verif.Lemmas.VennLaw
import Mathlib.Analysis.SpecificLimits.Normed
import Mathlib.Topology.Algebra.InfiniteSum.Real

/-!
# Mean values
-/

namespace Verif.Spec

variable {X Y : Type}

theorem HasMean.unique {p : PMF X} {f : X → ℝ} {a b : ℝ} (h : HasMean p f a) (h' : HasMean p f b) :
    a = b := HasSum.unique h h'

theorem HasMean.pure (x : X) (f : X → ℝ) : HasMean (PMF.pure x) f (f x) := by
  classical
  unfold HasMean
  convert hasSum_ite_eq x (f x) using 2 with y
  rw [PMF.pure_apply]
  split
  · next h => rw [h]; simp
  · simp

theorem HasMean.summable_abs {p : PMF X} {f : X → ℝ} {m : ℝ} (h : HasMean p f m) :
    Summable (fun x => (p x).toReal * |f x|) := by
  have := (HasSum.summable h).abs
  refine this.congr (fun x => ?_)
  rw [abs_mul, abs_of_nonneg ENNReal.toReal_nonneg]

theorem pmf_summable (p : PMF X) : Summable (fun x => (p x).toReal) :=
  ENNReal.summable_toReal p.tsum_coe_ne_top

theorem pmf_hasSum (p : PMF X) : HasSum (fun x => (p x).toReal) 1 := by
  have h := (pmf_summable p).hasSum
  rwa [← ENNReal.tsum_toReal_eq (fun x => p.apply_ne_top x), p.tsum_coe, ENNReal.toReal_one] at h

theorem HasMean.congr {p : PMF X} {f g : X → ℝ} {m : ℝ} (h : HasMean p f m)
    (hfg : ∀ x, p x ≠ 0 → f x = g x) : HasMean p g m := by
  unfold HasMean at *
  convert h using 2 with x
  by_cases hx : p x = 0
  · simp [hx]
  · rw [hfg x hx]

theorem HasMean.const_mul {p : PMF X} {f : X → ℝ} {m : ℝ} (h : HasMean p f m) (c : ℝ) :
    HasMean p (fun x => c * f x) (c * m) := by
  have e : (fun x => (p x).toReal * (c * f x)) = fun x => c * ((p x).toReal * f x) := by
    funext x; ring
  unfold HasMean
  rw [e]
  exact HasSum.mul_left c h

theorem HasMean.add {p : PMF X} {f g : X → ℝ} {m k : ℝ} (h : HasMean p f m) (h' : HasMean p g k) :
    HasMean p (fun x => f x + g x) (m + k) := by
  have e : (fun x => (p x).toReal * (f x + g x))
      = fun x => (p x).toReal * f x + (p x).toReal * g x := by
    funext x; ring
  unfold HasMean
  rw [e]
  exact HasSum.add h h'

theorem HasMean.const (p : PMF X) (c : ℝ) : HasMean p (fun _ => c) c := by
  have := (pmf_hasSum p).mul_right c
  rwa [one_mul] at this

theorem hasMean_fintype [Fintype X] (p : PMF X) (f : X → ℝ) :
    HasMean p f (∑ x, (p x).toReal * f x) := hasSum_fintype _

/-- The mean of a composite random experiment. -/
theorem HasMean.bind {p : PMF X} {q : X → PMF Y} {f : Y → ℝ} {g G : X → ℝ} {m : ℝ}
    (hq : ∀ x, p x ≠ 0 → HasMean (q x) f (g x))
    (hG : ∀ x, p x ≠ 0 → ∑' y, (q x y).toReal * |f y| ≤ G x)
    (hs : Summable (fun x => (p x).toReal * G x)) (hm : HasMean p g m) :
    HasMean (p.bind q) f m := by
  set F : X × Y → ℝ := fun z => (p z.1).toReal * ((q z.1 z.2).toReal * f z.2) with hF
  have hrow : ∀ x, HasSum (fun y => F (x, y)) ((p x).toReal * g x) := by
    intro x
    by_cases hx : p x = 0
    · simp only [hF, hx, ENNReal.toReal_zero, zero_mul]
      exact hasSum_zero
    · exact HasSum.mul_left _ (hq x hx)
  have habs : ∀ z, |F z| = (p z.1).toReal * ((q z.1 z.2).toReal * |f z.2|) := by
    intro z
    rw [hF, abs_mul, abs_mul, abs_of_nonneg ENNReal.toReal_nonneg,
      abs_of_nonneg ENNReal.toReal_nonneg]
  have hsum : Summable F := by
    rw [← summable_abs_iff]
    rw [summable_prod_of_nonneg (fun z => abs_nonneg _)]
    refine ⟨fun x => (hrow x).summable.abs, ?_⟩
    refine Summable.of_nonneg_of_le (fun x => tsum_nonneg (fun y => abs_nonneg _)) (fun x => ?_) hs
    simp only [habs]
    rw [tsum_mul_left]
    by_cases hx : p x = 0
    · simp [hx]
    · exact mul_le_mul_of_nonneg_left (hG x hx) ENNReal.toReal_nonneg
  have htot : HasSum F m := by
    have h1 := hsum.hasSum
    have h2 := h1.prod_fiberwise hrow
    rwa [h2.unique hm] at h1
  have hswap : HasSum (fun z : Y × X => F (z.2, z.1)) m :=
    ((Equiv.prodComm Y X).hasSum_iff (f := F)).2 htot
  refine hswap.prod_fiberwise (fun y => ?_)
  have h3 : HasSum (fun x => (p x * q x y).toReal) ((p.bind q) y).toReal := by
    rw [PMF.bind_apply, ENNReal.tsum_toReal_eq
      (fun x => ENNReal.mul_ne_top (p.apply_ne_top x) ((q x).apply_ne_top y))]
    refine (ENNReal.summable_toReal ?_).hasSum
    have := (p.bind q).apply_ne_top y
    rwa [PMF.bind_apply] at this
  have e : (fun x => F (x, y)) = fun x => (p x * q x y).toReal * f y := by
    funext x
    simp only [hF, ENNReal.toReal_mul]
    ring
  simp only [e]
  exact h3.mul_right (f y)

theorem HasMean.map {p : PMF X} {φ : X → Y} {f : Y → ℝ} {m : ℝ}
    (h : HasMean p (fun x => f (φ x)) m) : HasMean (p.map φ) f m := by
  rw [← PMF.bind_pure_comp]
  refine HasMean.bind (g := fun x => f (φ x)) (G := fun x => |f (φ x)|)
    (fun x _ => HasMean.pure _ _) (fun x _ => ?_) h.summable_abs h
  have := (HasMean.pure (φ x) (fun y => |f y|))
  exact le_of_eq (HasSum.tsum_eq this)

theorem HasMean.abs {p : PMF X} {f : X → ℝ} {m : ℝ} (h : HasMean p f m) :
    ∃ A, HasMean p (fun x => |f x|) A := ⟨_, h.summable_abs.hasSum⟩

/-- The sum of two independent random numbers. -/
theorem HasMean.independent_sum {p : PMF X} {r : PMF Y} {f : X → ℝ} {g : Y → ℝ} {Z : Type}
    {φ : X → Y → Z} {v : Z → ℝ} (hv : ∀ x y, v (φ x y) = f x + g y) {m k : ℝ}
    (hf : HasMean p f m) (hg : HasMean r g k) :
    HasMean (p.bind fun x => r.map (φ x)) v (m + k) := by
  obtain ⟨A, hA⟩ := hg.abs
  obtain ⟨B, hB⟩ := hf.abs
  have hS : HasMean p (fun x => |f x| + A) (B + A) := hB.add (HasMean.const _ A)
  refine HasMean.bind (g := fun x => f x + k) (G := fun x => |f x| + A) (fun x _ => ?_)
    (fun x _ => ?_) (HasSum.summable hS) (hf.add (HasMean.const _ k))
  · apply HasMean.map
    simp only [hv]
    exact (HasMean.const r (f x)).add hg
  · have h2 : HasMean r (fun y => |f x| + |g y|) (|f x| + A) := (HasMean.const _ _).add hA
    have h3 : HasMean r (fun y => |v (φ x y)|) (∑' y, (r y).toReal * |v (φ x y)|) := by
      refine Summable.hasSum ?_
      refine Summable.of_nonneg_of_le (fun y => by positivity) (fun y => ?_) (HasSum.summable h2)
      apply mul_le_mul_of_nonneg_left _ ENNReal.toReal_nonneg
      simp only [hv]
      exact abs_add_le _ _
    have h4 := HasMean.map (f := fun z => |v z|) h3
    rw [HasSum.tsum_eq h4]
    refine hasSum_le (fun y => ?_) h3 h2
    apply mul_le_mul_of_nonneg_left _ ENNReal.toReal_nonneg
    simp only [hv]
    exact abs_add_le _ _

/-- The noise is symmetric, hence zero on average. -/
theorem discreteLaplace_mean {ε : ℝ} (hε : 0 < ε) :
    HasMean (discreteLaplace ε hε) (fun z => (z : ℝ)) 0 := by
  set c := (∑' z : ℤ, ENNReal.ofReal (Real.exp (-ε * (z.natAbs : ℝ))))⁻¹ with hc
  have happ : ∀ z : ℤ, ((discreteLaplace ε hε) z).toReal
      = Real.exp (-ε * (z.natAbs : ℝ)) * c.toReal := by
    intro z
    unfold discreteLaplace
    rw [PMF.normalize_apply, ENNReal.toReal_mul, ENNReal.toReal_ofReal (Real.exp_nonneg _)]
  have hs : Summable (fun z : ℤ => ((discreteLaplace ε hε) z).toReal * (z : ℝ)) := by
    have hg : ∀ n : ℕ, Real.exp (-ε * (n : ℝ)) = Real.exp (-ε) ^ n := by
      intro n
      rw [← Real.exp_nat_mul, mul_comm]
    have h1 : Summable (fun n : ℕ => (n : ℝ) ^ 1 * Real.exp (-ε) ^ n) :=
      summable_pow_mul_geometric_of_norm_lt_one 1 (by
        rw [Real.norm_eq_abs, abs_of_pos (Real.exp_pos _), Real.exp_lt_one_iff]; linarith)
    apply Summable.of_nat_of_neg
    · refine (h1.mul_right c.toReal).congr (fun n => ?_)
      rw [happ, Int.natAbs_natCast, hg]
      push_cast
      ring
    · refine (h1.mul_right (-c.toReal)).congr (fun n => ?_)
      rw [happ, Int.natAbs_neg, Int.natAbs_natCast, hg]
      push_cast
      ring
  have h1 := hs.hasSum
  have h2 : HasSum (fun z : ℤ => -(((discreteLaplace ε hε) z).toReal * (z : ℝ)))
      (∑' z : ℤ, ((discreteLaplace ε hε) z).toReal * (z : ℝ)) := by
    have h3 := ((Equiv.neg ℤ).hasSum_iff
      (f := fun z : ℤ => ((discreteLaplace ε hε) z).toReal * (z : ℝ))).2 h1
    convert h3 using 2 with z
    simp only [Function.comp_apply, Equiv.neg_apply, happ, Int.natAbs_neg]
    push_cast
    ring
  have h4 := h2.unique h1.neg
  unfold HasMean
  have : ∑' z : ℤ, ((discreteLaplace ε hε) z).toReal * (z : ℝ) = 0 := by linarith
  rwa [this] at h1

end Verif.Spec
