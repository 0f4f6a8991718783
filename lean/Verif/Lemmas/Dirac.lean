import Verif.Model.Dirac
import Verif.Lemmas.Halo
import Mathlib.Analysis.SpecialFunctions.ExpDeriv
import Mathlib.Analysis.Calculus.Deriv.MeanValue
import Mathlib.Analysis.Calculus.Deriv.Pow
import Mathlib.Analysis.Complex.Exponential
import Mathlib.Data.List.GetD
import Mathlib.Algebra.BigOperators.Intervals
import Mathlib.Tactic

/-! Facts about the Poisson distribution, rounding and sums of arrays, for `Verif.Props.Dirac`. -/

namespace Verif

open Dirac

/-! ## The Poisson distribution -/

/-- The probability of at least `k` for a Poisson distribution (specification). -/
noncomputable def poissonTail (mean : ℝ) (k : Nat) : ℝ :=
  1 - ∑ n ∈ Finset.range k, Real.exp (-mean) * mean ^ n / n.factorial

theorem poissonTail_zero (mean : ℝ) : poissonTail mean 0 = 1 := by simp [poissonTail]

theorem poissonTail_succ (mean : ℝ) (k : Nat) :
    poissonTail mean (k + 1) = poissonTail mean k - poissonPmf mean k := by
  unfold poissonTail poissonPmf
  rw [Finset.sum_range_succ]
  ring

theorem poissonPmf_nonneg {mean : ℝ} (h : 0 ≤ mean) (k : Nat) : 0 ≤ poissonPmf mean k := by
  unfold poissonPmf
  positivity

theorem poissonTail_nonneg {mean : ℝ} (h : 0 ≤ mean) (k : Nat) : 0 ≤ poissonTail mean k := by
  unfold poissonTail
  have h1 := Real.sum_le_exp_of_nonneg h k
  have h2 : ∑ n ∈ Finset.range k, Real.exp (-mean) * mean ^ n / n.factorial =
      Real.exp (-mean) * ∑ n ∈ Finset.range k, mean ^ n / n.factorial := by
    rw [Finset.mul_sum]
    apply Finset.sum_congr rfl
    intros; ring
  rw [h2]
  have h3 : Real.exp (-mean) * ∑ n ∈ Finset.range k, mean ^ n / n.factorial ≤
      Real.exp (-mean) * Real.exp mean := mul_le_mul_of_nonneg_left h1 (Real.exp_nonneg _)
  rw [← Real.exp_add, neg_add_cancel, Real.exp_zero] at h3
  linarith

theorem poissonTail_antitone {mean : ℝ} (h : 0 ≤ mean) {k l : Nat} (hkl : k ≤ l) :
    poissonTail mean l ≤ poissonTail mean k := by
  induction l, hkl using Nat.le_induction with
  | base => exact le_rfl
  | succ l _ ih => rw [poissonTail_succ]; linarith [poissonPmf_nonneg h l]

theorem poissonTail_le_one {mean : ℝ} (h : 0 ≤ mean) (k : Nat) : poissonTail mean k ≤ 1 := by
  rw [← poissonTail_zero mean]
  exact poissonTail_antitone h (Nat.zero_le k)

theorem poissonTail_mean_zero (k : Nat) (hk : 0 < k) : poissonTail 0 k = 0 := by
  obtain ⟨k, rfl⟩ := Nat.exists_eq_add_of_le' hk
  unfold poissonTail
  rw [Finset.sum_range_succ']
  simp

theorem hasDerivAt_poissonTail (k : Nat) (x : ℝ) :
    HasDerivAt (fun x => poissonTail x (k + 1)) (poissonPmf x k) x := by
  induction k with
  | zero =>
    have h : HasDerivAt (fun x : ℝ => 1 - Real.exp (-x)) (-(Real.exp (-x) * (-1))) x :=
      ((hasDerivAt_neg x).exp).const_sub 1
    convert h using 1
    · funext y; simp [poissonTail]
    · simp [poissonPmf]
  | succ k ih =>
    have hf : (fun x => poissonTail x (k + 1 + 1)) =
        fun x => poissonTail x (k + 1) - poissonPmf x (k + 1) := by
      funext y; exact poissonTail_succ y (k + 1)
    rw [hf]
    have hp : HasDerivAt (fun x => poissonPmf x (k + 1))
        (poissonPmf x k - poissonPmf x (k + 1)) x := by
      have h1 : HasDerivAt (fun x : ℝ => Real.exp (-x)) (Real.exp (-x) * (-1)) x :=
        (hasDerivAt_neg x).exp
      have h2 : HasDerivAt (fun x : ℝ => x ^ (k + 1)) (((k + 1 : ℕ) : ℝ) * x ^ k) x := by
        simpa using hasDerivAt_pow (k + 1) x
      have h3 : HasDerivAt (fun x => poissonPmf x (k + 1)) _ x :=
        (h1.mul h2).div_const (((k + 1).factorial : ℕ) : ℝ)
      refine h3.congr_deriv ?_
      unfold poissonPmf
      have hk : ((k.factorial : ℕ) : ℝ) ≠ 0 := by exact_mod_cast k.factorial_ne_zero
      rw [Nat.factorial_succ]
      push_cast
      have hk1 : ((k : ℝ) + 1) ≠ 0 := by positivity
      field_simp
      ring
    exact (ih.sub hp).congr_deriv (by ring)

theorem poissonTail_mono {x y : ℝ} (hx : 0 ≤ x) (hxy : x ≤ y) (k : Nat) :
    poissonTail x k ≤ poissonTail y k := by
  cases k with
  | zero => rw [poissonTail_zero, poissonTail_zero]
  | succ k =>
    have hd : ∀ z, HasDerivAt (fun x => poissonTail x (k + 1)) (poissonPmf z k) z :=
      hasDerivAt_poissonTail k
    have hm : MonotoneOn (fun x => poissonTail x (k + 1)) (Set.Ici 0) := by
      apply monotoneOn_of_deriv_nonneg (convex_Ici 0)
      · exact fun z _ => (hd z).continuousAt.continuousWithinAt
      · exact fun z _ => (hd z).differentiableAt.differentiableWithinAt
      · intro z hz
        rw [(hd z).deriv]
        rw [interior_Ici] at hz
        exact poissonPmf_nonneg (le_of_lt hz) k
    exact hm hx (le_trans hx hxy) hxy

/-! ## Rounding -/

theorem npRound_mem (x : ℝ) : npRound x = ⌊x⌋ ∨ npRound x = ⌊x⌋ + 1 := by
  unfold npRound
  split_ifs <;> simp

theorem npRound_near (x : ℝ) : |(npRound x : ℝ) - x| ≤ 1 / 2 := by
  have h1 := Int.floor_le x
  have h2 := Int.lt_floor_add_one x
  unfold npRound
  split_ifs with h3 h4 h5
  · rw [abs_le]; constructor <;> linarith
  · rw [abs_le]; push_cast; constructor <;> linarith
  · rw [abs_le]; constructor <;> linarith [not_lt.1 h3, not_lt.1 h4]
  · rw [abs_le]; push_cast; constructor <;> linarith [not_lt.1 h3, not_lt.1 h4]

theorem npRound_mono {x y : ℝ} (h : x ≤ y) : npRound x ≤ npRound y := by
  have hf : ⌊x⌋ ≤ ⌊y⌋ := Int.floor_mono h
  rcases eq_or_lt_of_le hf with he | hl
  · unfold npRound
    rw [he]
    split_ifs <;> first | omega | (exfalso; linarith)
  · have h1 : npRound x ≤ ⌊x⌋ + 1 := by rcases npRound_mem x with h | h <;> omega
    have h2 : ⌊y⌋ ≤ npRound y := by rcases npRound_mem y with h | h <;> omega
    omega

theorem npRound_intCast (n : ℤ) : npRound (n : ℝ) = n := by
  unfold npRound
  rw [Int.floor_intCast, if_pos (by norm_num)]

/-- Rounding something below `n + 1/2` gives at most `n`. -/
theorem npRound_le {x : ℝ} {n : ℤ} (h : x < n + 1 / 2) : npRound x ≤ n := by
  have := npRound_near x
  rw [abs_le] at this
  have h2 : ((npRound x : ℤ) : ℝ) < n + 1 := by linarith [this.2]
  have h3 : npRound x < n + 1 := by exact_mod_cast h2
  omega

theorem npRound_nonneg {x : ℝ} (h : 0 ≤ x) : 0 ≤ npRound x := by
  have := npRound_mono h
  have h0 : npRound (0 : ℝ) = 0 := by simpa using npRound_intCast 0
  rwa [h0] at this

/-! ## Sums of arrays -/

theorem reverseCumsum_length (l : List ℝ) : (reverseCumsum l).length = l.length := by
  induction l with
  | nil => rfl
  | cons a l ih => simp [reverseCumsum, ih]

theorem reverseCumsum_getD (l : List ℝ) (k : Nat) : (reverseCumsum l).getD k 0 = (l.drop k).sum := by
  induction l generalizing k with
  | nil => simp [reverseCumsum]
  | cons a l ih =>
    cases k with
    | zero => simp [reverseCumsum]
    | succ k => simpa [reverseCumsum] using ih k

theorem foldl_zipWith_add (L : Nat) (vs : List (List ℝ)) : ∀ (v : List ℝ), v.length = L →
    (∀ u ∈ vs, u.length = L) →
    (vs.foldl (List.zipWith (· + ·)) v).length = L ∧
    ∀ f, (vs.foldl (List.zipWith (· + ·)) v).getD f 0 =
      v.getD f 0 + (vs.map (fun u => u.getD f 0)).sum := by
  induction vs with
  | nil => intro v hv _; exact ⟨hv, by simp⟩
  | cons u vs ih =>
    intro v hv hvs
    have hu : u.length = L := hvs u List.mem_cons_self
    have hl : (List.zipWith (· + ·) v u).length = L := by simp [hv, hu]
    obtain ⟨h1, h2⟩ := ih _ hl (fun w hw => hvs w (List.mem_cons_of_mem _ hw))
    refine ⟨h1, ?_⟩
    intro f
    rw [List.foldl_cons, h2, List.map_cons, List.sum_cons, ← add_assoc]
    congr 1
    by_cases hf : f < L
    · rw [List.getD_eq_getElem _ _ (by omega), List.getElem_zipWith,
        List.getD_eq_getElem _ _ (by omega), List.getD_eq_getElem _ _ (by omega)]
    · rw [List.getD_eq_default _ _ (by omega), List.getD_eq_default _ _ (by omega),
        List.getD_eq_default _ _ (by omega), add_zero]

theorem weightedSum_ok (ws : List ℝ) (pmfs : List (List ℝ)) (L : Nat)
    (hlen : ws.length = pmfs.length) (hne : pmfs ≠ []) (hL : ∀ p ∈ pmfs, p.length = L) :
    ∃ v, weightedSum ws pmfs = .ok v ∧ v.length = L ∧
      ∀ f, v.getD f 0 = (List.zipWith (fun w p => w * List.getD p f 0) ws pmfs).sum := by
  unfold weightedSum
  cases pmfs with
  | nil => exact absurd rfl hne
  | cons p pmfs =>
    cases ws with
    | nil => simp at hlen
    | cons w ws =>
      rw [List.zipWith_cons_cons]
      have hlen' : ∀ u ∈ List.zipWith (fun w pmf => pmf.map (w * ·)) ws pmfs, u.length = L := by
        intro u hu
        rw [List.mem_iff_getElem] at hu
        obtain ⟨i, hi, rfl⟩ := hu
        rw [List.getElem_zipWith, List.length_map]
        exact hL _ (List.mem_cons_of_mem _ (List.getElem_mem _))
      obtain ⟨h1, h2⟩ := foldl_zipWith_add L _ (p.map (w * ·))
        (by rw [List.length_map]; exact hL p List.mem_cons_self) hlen'
      refine ⟨_, rfl, h1, ?_⟩
      intro f
      have hm : ∀ (w : ℝ) (p : List ℝ), (p.map (w * ·)).getD f 0 = w * p.getD f 0 := by
        intro w p
        by_cases hf : f < p.length
        · rw [List.getD_eq_getElem _ _ (by simpa using hf), List.getElem_map,
            List.getD_eq_getElem _ _ hf]
        · rw [List.getD_eq_default _ _ (by simpa using hf), List.getD_eq_default _ _ (by omega),
            mul_zero]
      rw [h2, hm, List.zipWith_cons_cons, List.sum_cons, List.map_zipWith]
      simp only [hm]

end Verif
