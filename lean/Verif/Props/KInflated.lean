import Verif.Model.KInflated
import Verif.Lemmas.Thinning

/-!
# C39 and C40: the k-inflated gamma-Poisson distribution and its predictions
-/

namespace Verif

open Finset KInflated

/-! ## C39 -/

/-- What scipy's negative binomial distribution, shifted by one, is assumed to satisfy: probabilities
of the numbers from one on, which add up to at most one. -/
def IsTail (g : Nat → ℚ) : Prop :=
  (∀ n, 1 ≤ n → 0 ≤ g n) ∧ ∀ m, ∑ n ∈ Finset.Icc 1 m, g n ≤ 1

theorem sum_Icc_one (g : Nat → ℚ) (m : Nat) :
    ∑ n ∈ Finset.Icc 1 m, g n = ∑ i ∈ Finset.range m, g (1 + i) := by
  rw [← Finset.sum_image (s := Finset.range m) (g := fun i => 1 + i) (f := g)
    (fun a _ b _ h => by simpa using h)]
  apply Finset.sum_congr _ (fun _ _ => rfl)
  ext x
  simp only [Finset.mem_Icc, Finset.mem_image, Finset.mem_range]
  constructor
  · rintro ⟨h1, h2⟩; exact ⟨x - 1, by omega, by omega⟩
  · rintro ⟨i, h1, h2⟩; omega

theorem scaleDown_length (a : List ℚ) : (scaleDown a).length = a.length := by
  unfold scaleDown; split <;> simp

theorem scaleDown_spec {a : List ℚ} (ha : ∀ x ∈ a, 0 ≤ x) :
    (∀ x ∈ scaleDown a, 0 ≤ x) ∧ (scaleDown a).sum ≤ 1 := by
  unfold scaleDown
  split
  · rename_i h
    constructor
    · intro x hx
      obtain ⟨y, hy, rfl⟩ := List.mem_map.1 hx
      exact div_nonneg (ha y hy) (by linarith)
    · have : (a.map (fun x => x / a.sum)).sum = a.sum / a.sum := by
        simp only [div_eq_mul_inv]
        rw [List.sum_map_mul_right]
        simp
      rw [this, div_self (by linarith)]
  · rename_i h
    exact ⟨ha, not_lt.1 h⟩

/-- The values before the last one is corrected. -/
def rawPmf (M : Nat) (g : Nat → ℚ) (a : List ℚ) : List ℚ :=
  [0] ++ a ++ (List.range' (a.length + 1) (M - (a.length + 1))).map (fun n =>
    if 1 ≤ ∑ i ∈ Finset.Icc 1 a.length, g i then 0
    else (1 - a.sum) / (1 - ∑ i ∈ Finset.Icc 1 a.length, g i) * g n)

theorem distPmf_eq (M : Nat) (g : Nat → ℚ) (a : List ℚ) :
    distPmf M g a = (rawPmf M g a).dropLast ++ [1 - (rawPmf M g a).dropLast.sum] := by
  have ht : ((List.range' 1 a.length).map g).sum = ∑ i ∈ Finset.Icc 1 a.length, g i := by
    rw [list_sum_range', sum_Icc_one]
  have : distPmf M g a = closeSum (rawPmf M g a) := by
    unfold distPmf rawPmf
    simp only [ht, ge_iff_le]
    congr 2
    split
    · rename_i h
      rw [List.map_map]
      apply List.map_congr_left
      intro n _
      simp
    · rw [List.map_map]
      rfl
  rw [this]; rfl

theorem rawPmf_length (M : Nat) (g : Nat → ℚ) (a : List ℚ) :
    (rawPmf M g a).length = max M (a.length + 1) := by
  simp [rawPmf]; omega

theorem rawPmf_spec (M : Nat) (g : Nat → ℚ) (a : List ℚ) (hg : IsTail g) (ha : ∀ x ∈ a, 0 ≤ x)
    (hs : a.sum ≤ 1) : (∀ x ∈ rawPmf M g a, 0 ≤ x) ∧ (rawPmf M g a).sum ≤ 1 := by
  obtain ⟨hg0, hg1⟩ := hg
  constructor
  · intro x hx
    unfold rawPmf at hx
    simp only [List.mem_append, List.mem_singleton, List.mem_map] at hx
    rcases hx with (rfl | h) | ⟨n, hn, rfl⟩
    · exact le_refl _
    · exact ha x h
    · split
      · exact le_refl _
      · rename_i h
        have h1 := List.mem_range'_1.1 hn
        exact mul_nonneg (div_nonneg (by linarith) (by linarith)) (hg0 n (by omega))
  · unfold rawPmf
    rw [List.sum_append, List.sum_append, List.sum_singleton, zero_add, list_sum_range']
    by_cases h : 1 ≤ ∑ i ∈ Finset.Icc 1 a.length, g i
    · simp only [if_pos h]
      simpa using hs
    · simp only [if_neg h]
      rw [← Finset.mul_sum]
      have h2 := hg1 (a.length + (M - (a.length + 1)))
      rw [sum_Icc_one, Finset.sum_range_add, ← sum_Icc_one] at h2
      have h3 : ∑ x ∈ Finset.range (M - (a.length + 1)), g (1 + (a.length + x)) =
          ∑ i ∈ Finset.range (M - (a.length + 1)), g (a.length + 1 + i) := by
        apply Finset.sum_congr rfl
        intro i _
        congr 1
        omega
      rw [h3] at h2
      have h4 : 0 < 1 - ∑ i ∈ Finset.Icc 1 a.length, g i := by linarith
      have h5 : (1 - a.sum) / (1 - ∑ i ∈ Finset.Icc 1 a.length, g i) *
          ∑ i ∈ Finset.range (M - (a.length + 1)), g (a.length + 1 + i) ≤ 1 - a.sum := by
        rw [div_mul_eq_mul_div, div_le_iff₀ h4]
        exact mul_le_mul_of_nonneg_left (by linarith) (by linarith)
      linarith

theorem dropLast_sum_le {l : List ℚ} (h : ∀ x ∈ l, 0 ≤ x) : l.dropLast.sum ≤ l.sum := by
  by_cases hl : l = []
  · subst hl; simp
  · conv_rhs => rw [← List.dropLast_append_getLast hl]
    rw [List.sum_append, List.sum_singleton]
    have := h _ (List.getLast_mem hl)
    linarith

/-- **C39.** For every non-negative inflation vector, also of sum above one, and every tail, the
probabilities are non-negative, add up to one, and there is nothing on zero impressions. -/
theorem C39_distribution (M : Nat) (hM : 2 ≤ M) (gp : ℚ → ℚ → Nat → ℚ) (alpha beta : ℚ)
    (a : List ℚ) (hg : IsTail (gp alpha beta)) (ha : ∀ x ∈ a, 0 ≤ x) :
    IsDistribution (Dist.new M gp alpha beta a).pmf ∧
    (Dist.new M gp alpha beta a).pmf.length = max M (a.length + 1) ∧
    (Dist.new M gp alpha beta a).pmf.head? = some 0 := by
  obtain ⟨h1, h2⟩ := scaleDown_spec ha
  obtain ⟨h3, h4⟩ := rawPmf_spec M (gp alpha beta) (scaleDown a) hg h1 h2
  have hlen := rawPmf_length M (gp alpha beta) (scaleDown a)
  rw [scaleDown_length] at hlen
  have hd : ∀ x ∈ (rawPmf M (gp alpha beta) (scaleDown a)).dropLast, 0 ≤ x :=
    fun x hx => h3 x (List.dropLast_subset _ hx)
  unfold Dist.new
  simp only [distPmf_eq]
  refine ⟨⟨?_, ?_⟩, ?_, ?_⟩
  · intro x hx
    rcases List.mem_append.1 hx with h | h
    · exact hd x h
    · rw [List.mem_singleton.1 h]
      have := dropLast_sum_le h3
      linarith
  · rw [List.sum_append, List.sum_singleton]; ring
  · rw [List.length_append, List.length_dropLast, hlen, List.length_singleton]
    omega
  · have hne : (rawPmf M (gp alpha beta) (scaleDown a)).dropLast ≠ [] := by
      intro h
      have := congrArg List.length h
      rw [List.length_dropLast, hlen] at this
      simp at this
      omega
    rw [List.head?_append_of_ne_nil _ hne]
    have : (rawPmf M (gp alpha beta) (scaleDown a)).head? = some 0 := by simp [rawPmf]
    cases hr : rawPmf M (gp alpha beta) (scaleDown a) with
    | nil => rw [hr] at hne; simp at hne
    | cons x l =>
      rw [hr] at this hne
      cases l with
      | nil => simp at hne
      | cons y l => simpa using this

/-- **C39.** The probabilities are the documented ones: the inflation vector (scaled to sum one if its
sum is above one), followed by multiples of the tail; the last entry takes what is left. -/
theorem C39_values (M : Nat) (gp : ℚ → ℚ → Nat → ℚ) (alpha beta : ℚ) (a : List ℚ)
    (hM : a.length + 1 < M) :
    let pmf := (Dist.new M gp alpha beta a).pmf
    let s := ∑ i ∈ Finset.range a.length, a.getD i 0
    let t := ∑ i ∈ Finset.Icc 1 a.length, gp alpha beta i
    (∀ i, i < a.length → pmf.getD (i + 1) 0 = if s > 1 then a.getD i 0 / s else a.getD i 0) ∧
    (∀ n, a.length < n → n + 1 < M → t < 1 → pmf.getD n 0 =
      if s > 1 then 0 else (1 - s) / (1 - t) * gp alpha beta n) ∧
    (∀ n, a.length < n → n + 1 < M → 1 ≤ t → pmf.getD n 0 = 0) := by
  intro pmf s t
  have hs : s = a.sum := (list_sum_getD a).symm
  have hlen := rawPmf_length M (gp alpha beta) (scaleDown a)
  rw [scaleDown_length] at hlen
  have hpm : pmf = distPmf M (gp alpha beta) (scaleDown a) := rfl
  have hget : ∀ n, n + 1 < M → pmf.getD n 0 = (rawPmf M (gp alpha beta) (scaleDown a)).getD n 0 := by
    intro n hn
    rw [hpm, distPmf_eq, List.getD_append _ _ _ _ (by rw [List.length_dropLast, hlen]; omega)]
    rw [List.getD_eq_getElem _ _ (by rw [List.length_dropLast, hlen]; omega),
      List.getElem_dropLast, List.getD_eq_getElem _ _ (by rw [hlen]; omega)]
  have hsum : s > 1 → (scaleDown a).sum = 1 := by
    intro h
    unfold scaleDown
    rw [hs] at h
    rw [if_pos h]
    have : (a.map (fun x => x / a.sum)).sum = a.sum / a.sum := by
      simp only [div_eq_mul_inv]
      rw [List.sum_map_mul_right]
      simp
    rw [this, div_self (by linarith)]
  have htail : ∀ n, a.length < n → n + 1 < M → pmf.getD n 0 =
      if 1 ≤ t then 0 else (1 - (scaleDown a).sum) / (1 - t) * gp alpha beta n := by
    intro n h1 h2
    rw [hget n h2]
    unfold rawPmf
    rw [List.getD_append_right _ _ _ _ (by simp [scaleDown_length]; omega)]
    simp only [scaleDown_length]
    have hi : n - ([(0 : ℚ)] ++ scaleDown a).length = n - (a.length + 1) := by
      simp [scaleDown_length]
    rw [hi, List.getD_eq_getElem _ _ (by simp; omega), List.getElem_map, List.getElem_range']
    rw [show a.length + 1 + 1 * (n - (a.length + 1)) = n by omega]
  refine ⟨?_, ?_, ?_⟩
  · intro i hi
    rw [hget (i + 1) (by omega)]
    unfold rawPmf
    rw [List.getD_append _ _ _ _ (by simp [scaleDown_length]; omega)]
    simp only [List.singleton_append, List.getD_cons_succ]
    unfold scaleDown
    rw [hs]
    split
    · rw [List.getD_eq_getElem _ _ (by simpa using hi), List.getElem_map,
        List.getD_eq_getElem _ _ hi]
    · rfl
  · intro n h1 h2 h3
    rw [htail n h1 h2, if_neg (by linarith)]
    split
    · rename_i h
      rw [hsum h]; ring
    · rename_i h
      have : scaleDown a = a := by
        unfold scaleDown; rw [hs] at h; rw [if_neg h]
      rw [this, hs]
  · intro n h1 h2 h3
    rw [htail n h1 h2, if_pos h3]

/-- A tail for the examples: the exponential-Poisson distribution with rate one, 1/2, 1/4, … -/
def exTail (_ _ : ℚ) (n : Nat) : ℚ := if n = 0 then 0 else (1 / 2) ^ n

theorem exTail_isTail (alpha beta : ℚ) : IsTail (exTail alpha beta) := by
  have h : ∀ m, ∑ n ∈ Finset.range m, exTail alpha beta (1 + n) = 1 - (1 / 2) ^ m := by
    intro m
    induction m with
    | zero => simp
    | succ m ih =>
      rw [Finset.sum_range_succ, ih]
      unfold exTail
      rw [if_neg (by omega), pow_succ, pow_add]
      ring
  constructor
  · intro n _
    unfold exTail
    split <;> positivity
  · intro m
    rw [sum_Icc_one, h]
    have : (0 : ℚ) ≤ (1 / 2) ^ m := by positivity
    linarith

/-- The first probability is raised to 3/4; the last one takes the rest. -/
example : (Dist.new 5 exTail 1 1 [3/4]).pmf = [0, 3/4, 1/8, 1/16, 1/16] := by decide +kernel

/-- A vector of sum above one is scaled down. -/
example : (Dist.new 4 exTail 1 1 [3/2, 1/2]).pmf = [0, 3/4, 1/4, 0] := by decide +kernel

example : (∀ x ∈ [(3/2 : ℚ), 1/2], 0 ≤ x) ∧ [(3/2 : ℚ), 1/2].length + 1 < 4 := by decide +kernel

/-! ## C40 -/

/-- What the predictions below need of a fit: a positive population and a distribution that puts
nothing on zero impressions (by C39 every distribution built by the code). -/
def GoodFit (f : Fitted) : Prop :=
  0 < f.maxReach ∧ IsDistribution f.dist.pmf ∧ f.dist.pmf.getD 0 0 = 0

/-- The number of impressions in the inventory (specification). -/
def inventory (f : Fitted) : ℚ :=
  f.maxReach * ∑ n ∈ Finset.range f.dist.pmf.length, (n : ℚ) * f.dist.pmf.getD n 0

/-- The share of the inventory that is shown (specification). -/
def share (f : Fitted) (I : ℚ) : ℚ := min (I / inventory f) 1

theorem expectedValue_eq (l : List ℚ) :
    expectedValue l = ∑ n ∈ Finset.range l.length, (n : ℚ) * l.getD n 0 := by
  have h : ∀ (l : List ℚ) (s : Nat), ((l.zipIdx s).map (fun x => (x.2 : ℚ) * x.1)).sum =
      ∑ n ∈ Finset.range l.length, ((s + n : Nat) : ℚ) * l.getD n 0 := by
    intro l
    induction l with
    | nil => simp
    | cons a l ih =>
      intro s
      rw [List.zipIdx_cons, List.map_cons, List.sum_cons, ih, List.length_cons,
        Finset.sum_range_succ', add_comm]
      congr 1
      · apply Finset.sum_congr rfl
        intro n _
        rw [List.getD_cons_succ, show s + 1 + n = s + (n + 1) by omega]
  unfold expectedValue
  rw [h l 0]
  apply Finset.sum_congr rfl
  intro n _
  rw [Nat.zero_add]

theorem maxImpressions_eq (f : Fitted) : f.maxImpressions = inventory f := by
  unfold Fitted.maxImpressions inventory
  rw [expectedValue_eq]

/-- The inventory has at least one impression for everybody. -/
theorem inventory_ge {f : Fitted} (hf : GoodFit f) : f.maxReach ≤ inventory f := by
  obtain ⟨hN, ⟨h0, h1⟩, hz⟩ := hf
  have : 1 ≤ ∑ n ∈ Finset.range f.dist.pmf.length, (n : ℚ) * f.dist.pmf.getD n 0 := by
    rw [← h1, list_sum_getD]
    apply Finset.sum_le_sum
    intro n _
    cases n with
    | zero => rw [hz]; simp
    | succ n =>
      have h2 := getD_nonneg h0 (n + 1)
      have h3 : (1 : ℚ) ≤ ((n + 1 : Nat) : ℚ) := by push_cast; linarith [Nat.cast_nonneg (α := ℚ) n]
      nlinarith
  unfold inventory
  nlinarith

theorem share_bounds {f : Fitted} (hf : GoodFit f) {I : ℚ} (hI : 0 ≤ I) :
    0 ≤ share f I ∧ share f I ≤ 1 := by
  have h := lt_of_lt_of_le hf.1 (inventory_ge hf)
  exact ⟨le_min (div_nonneg hI h.le) zero_le_one, min_le_right _ _⟩

theorem servedShare_eq {f : Fitted} (hf : GoodFit f) {I : ℚ} (hI : 0 ≤ I) :
    servedShare I f.maxImpressions = some (share f I) := by
  have h := lt_of_lt_of_le hf.1 (inventory_ge hf)
  unfold servedShare
  rw [maxImpressions_eq, if_neg h.ne', if_neg (not_lt.2 (div_nonneg hI h.le))]
  rfl

/-- **C40 (formula).** For every fit and non-negative number of impressions, the predicted k+ reach
is the population times the probability that a user sees at least `k` impressions when every
impression of the inventory is shown with the same probability. -/
theorem C40_formula (f : Fitted) (hf : GoodFit f) (I : ℚ) (hI : 0 ≤ I) (F : Nat) (hF : 1 ≤ F) :
    predict f I F = .ok (some ((List.range F).map (fun j : Nat =>
      f.maxReach * shownAtLeast f.dist.pmf (j + 1) (share f I)))) := by
  obtain ⟨F, rfl⟩ := Nat.exists_eq_add_of_le' hF
  unfold predict
  rw [servedShare_eq hf hI]
  have hk : kplusreach f.dist.pmf (F + 1) (share f I) =
      .ok (shownAtLeast f.dist.pmf (F + 1) (share f I)) := by
    unfold kplusreach
    rw [if_neg (by omega), List.range_eq_range', kreach_range']
    simp only [bind, Except.bind, pure, Except.pure]
    rw [sum_shownExactly, shownAtLeast_zero hf.2.1.2, Nat.zero_add]
    congr 1
    ring
  simp only [Int.toNat_natCast, Nat.add_sub_cancel, kreach_range', hk, bind, Except.bind, pure,
    Except.pure]
  congr 2
  have ht := kplusFromHist_telescope
    (fun k => f.maxReach * shownAtLeast f.dist.pmf k (share f I)) 1 F
  rw [List.map_map]
  have hm : (List.range' 1 F).map ((fun x => f.maxReach * x) ∘
      fun k => shownExactly f.dist.pmf k (share f I)) =
      (List.range' 1 F).map (fun k => f.maxReach * shownAtLeast f.dist.pmf k (share f I) -
        f.maxReach * shownAtLeast f.dist.pmf (k + 1) (share f I)) := by
    apply List.map_congr_left
    intro k _
    simp only [Function.comp_apply]
    rw [shownExactly_eq]; ring
  rw [hm, show F + 1 = 1 + F by omega, ht, List.range'_eq_map_range, List.map_map,
    show F + 1 = 1 + F by omega]
  apply List.map_congr_left
  intro j _
  simp only [Function.comp_apply]
  rw [show 1 + j = j + 1 by omega]

/-- **C40 (order and bounds).** Predicted k+ reaches do not increase with `k` and lie between zero
and the population. -/
theorem C40_bounds (f : Fitted) (hf : GoodFit f) (I : ℚ) (hI : 0 ≤ I) (F : Nat) (hF : 1 ≤ F) :
    ∃ l, predict f I F = .ok (some l) ∧ l.length = F ∧ l.Pairwise (fun x y => y ≤ x) ∧
      ∀ x ∈ l, 0 ≤ x ∧ x ≤ f.maxReach := by
  obtain ⟨h0, h1⟩ := share_bounds hf hI
  refine ⟨_, C40_formula f hf I hI F hF, by simp, ?_, ?_⟩
  · rw [List.pairwise_map]
    apply List.pairwise_lt_range.imp
    intro i j hij
    exact mul_le_mul_of_nonneg_left (shownAtLeast_antitone hf.2.1.1 h0 h1 (by omega)) hf.1.le
  · intro x hx
    obtain ⟨j, -, rfl⟩ := List.mem_map.1 hx
    refine ⟨mul_nonneg hf.1.le (shownAtLeast_nonneg hf.2.1.1 h0 h1 _), ?_⟩
    have := shownAtLeast_le_sum hf.2.1.1 h0 h1 (j + 1)
    rw [hf.2.1.2] at this
    have := mul_le_mul_of_nonneg_left this hf.1.le
    linarith

/-- **C40 (requested frequencies).** The predictions do not depend on the maximal frequency asked
for. -/
theorem C40_max_frequency (f : Fitted) (hf : GoodFit f) (I : ℚ) (hI : 0 ≤ I) (F F' : Nat)
    (hF : 1 ≤ F) (hFF : F ≤ F') :
    ∃ l, predict f I F' = .ok (some l) ∧ predict f I F = .ok (some (l.take F)) := by
  refine ⟨_, C40_formula f hf I hI F' (le_trans hF hFF), ?_⟩
  rw [C40_formula f hf I hI F hF, ← List.map_take, List.take_range, Nat.min_eq_left hFF]

/-- **C40 (monotone).** More impressions never lower a predicted k+ reach. -/
theorem C40_monotone (f : Fitted) (hf : GoodFit f) (I I' : ℚ) (hI : 0 ≤ I) (hII : I ≤ I') (F : Nat)
    (hF : 1 ≤ F) :
    ∃ l l', predict f I F = .ok (some l) ∧ predict f I' F = .ok (some l') ∧
      List.Forall₂ (· ≤ ·) l l' := by
  have h := lt_of_lt_of_le hf.1 (inventory_ge hf)
  refine ⟨_, _, C40_formula f hf I hI F hF, C40_formula f hf I' (le_trans hI hII) F hF, ?_⟩
  rw [List.forall₂_map_left_iff, List.forall₂_map_right_iff, List.forall₂_same]
  intro j _
  refine mul_le_mul_of_nonneg_left (shownAtLeast_mono hf.2.1.1 (share_bounds hf hI).1 ?_
    (share_bounds hf (le_trans hI hII)).2 _) hf.1.le
  exact min_le_min_right _ (div_le_div_of_nonneg_right hII h.le)

/-- **C40 (ends of the curve).** Without impressions nobody is reached; when the inventory is used up,
everybody is, and those reached `k` times are those with an inventory of at least `k`. -/
theorem C40_ends (f : Fitted) (hf : GoodFit f) (F : Nat) (hF : 1 ≤ F) :
    predict f 0 F = .ok (some (List.replicate F 0)) ∧
    ∀ I, inventory f ≤ I → ∃ l, predict f I F = .ok (some l) ∧ l.head? = some f.maxReach ∧
      ∀ k, k < F → l.getD k 0 =
        f.maxReach * ∑ n ∈ Finset.Ico (k + 1) f.dist.pmf.length, f.dist.pmf.getD n 0 := by
  have h := lt_of_lt_of_le hf.1 (inventory_ge hf)
  constructor
  · rw [C40_formula f hf 0 (le_refl _) F hF]
    have : share f 0 = 0 := by unfold share; rw [zero_div]; exact min_eq_left zero_le_one
    rw [this]
    congr 2
    rw [List.eq_replicate_iff]
    refine ⟨by simp, ?_⟩
    intro x hx
    obtain ⟨j, -, rfl⟩ := List.mem_map.1 hx
    rw [shownAtLeast_at_zero _ (by omega), mul_zero]
  · intro I hI
    have hs : share f I = 1 := by
      unfold share
      apply min_eq_right
      rw [le_div_iff₀ h]; linarith
    have hat : ∀ k, shownAtLeast f.dist.pmf (k + 1) 1 =
        ∑ n ∈ Finset.Ico (k + 1) f.dist.pmf.length, f.dist.pmf.getD n 0 := by
      intro k
      unfold shownAtLeast
      have hsub : Finset.Ico (k + 1) f.dist.pmf.length ⊆ Finset.range f.dist.pmf.length := by
        intro x hx; exact Finset.mem_range.2 (Finset.mem_Ico.1 hx).2
      rw [← Finset.sum_subset hsub (f := fun n => f.dist.pmf.getD n 0 * binTail n (k + 1) 1)]
      · apply Finset.sum_congr rfl
        intro n hn
        rw [binTail_one _ _ (Finset.mem_Ico.1 hn).1, mul_one]
      · intro n hn hn'
        have h1 := Finset.mem_range.1 hn
        rw [binTail_of_lt (by
          by_contra hc
          exact hn' (Finset.mem_Ico.2 ⟨by omega, h1⟩)), mul_zero]
    refine ⟨_, C40_formula f hf I (le_trans h.le hI) F hF, ?_, ?_⟩
    · obtain ⟨F, rfl⟩ := Nat.exists_eq_add_of_le' hF
      rw [List.range_succ_eq_map, List.map_cons, List.head?_cons, hs, hat 0]
      have : f.dist.pmf.sum = ∑ n ∈ Finset.Ico 1 f.dist.pmf.length, f.dist.pmf.getD n 0 := by
        rw [list_sum_getD]
        have hl : 0 < f.dist.pmf.length := by
          rw [List.length_pos_iff]
          intro he
          have := hf.2.1.2
          rw [he] at this
          simp at this
        rw [Finset.range_eq_Ico, Finset.sum_eq_sum_Ico_succ_bot hl, hf.2.2, zero_add]
      rw [Nat.zero_add, ← this, hf.2.1.2, mul_one]
    · intro k hk
      rw [List.getD_eq_getElem _ _ (by simpa using hk), List.getElem_map, List.getElem_range, hs,
        hat k]

/-- A fit for the examples: 100 people with one, two or three impressions. -/
def exFit : Fitted := { maxReach := 100, dist := ⟨1, 1, [], [0, 1/2, 1/4, 1/4]⟩ }

example : GoodFit exFit := by
  unfold GoodFit IsDistribution
  decide +kernel

/-- Half of the inventory of 175 impressions is shown. -/
example : inventory exFit = 175 := by
  simp [inventory, exFit, Finset.sum_range_succ]; norm_num

example : predict exFit (175 / 2) 3 = .ok (some [525 / 8, 150 / 8, 25 / 8]) := by decide +kernel

/-- **C40 (no frequency).** Asked for a highest frequency of zero or less, the model reports its whole
audience as reached, whatever the impressions. -/
theorem C40_no_frequency (f : Fitted) (hf : GoodFit f) (I : ℚ) (hI : 0 ≤ I) (F : Int) (hF : F ≤ 0) :
    predict f I F = .ok (some [f.maxReach]) := by
  unfold predict
  rw [servedShare_eq hf hI]
  have : F.toNat = 0 := by omega
  simp [this, kreach, kplusreach, kplusFromHist, npCumsum, bind, Except.bind, pure, Except.pure]

/-- **C40 (no inventory).** If the distribution has no inventory, a query for no impressions has no
answer, and one for any impressions is answered as if all of it was used up. -/
theorem C40_no_inventory (f : Fitted) (h : inventory f = 0) (I : ℚ) (F : Int) :
    (I ≤ 0 → predict f I F = .ok none) ∧
    (0 < I → predict f I F ≠ .ok none) := by
  have h' : f.maxImpressions = 0 := by rw [maxImpressions_eq, h]
  constructor
  · intro hI
    unfold predict
    rw [h', servedShare, if_pos rfl, if_neg (not_lt.2 hI)]
  · intro hI
    unfold predict
    rw [h', servedShare, if_pos rfl, if_pos hI]
    dsimp only
    cases kreach f.dist.pmf (List.range' 1 (F.toNat - 1)) 1 with
    | error e => simp [bind, Except.bind]
    | ok l =>
      cases kplusreach f.dist.pmf F.toNat 1 with
      | error e => simp [bind, Except.bind]
      | ok k => simp [bind, Except.bind, pure, Except.pure]

example : inventory { maxReach := 100, dist := ⟨1, 1, [], [1]⟩ } = 0 := by
  simp [inventory]

/-- **C40 (frequencies asked for).** Besides none at all, only consecutive frequencies, or one
frequency several times, are answered; any others are refused with a `RuntimeError`. -/
theorem C40_consecutive (pmf : List ℚ) (ks : List Nat) (p : ℚ) :
    kreach pmf ks p = .error .runtimeError ↔
      (∀ a n, ks ≠ List.range' a n) ∧ ∀ a n, ks ≠ List.replicate n a := by
  have hcons : ∀ l : List Nat, l ≠ [] → (isConsecutive l = true ↔
      (∃ a n, l = List.range' a n) ∨ ∃ a n, l = List.replicate n a) := by
    intro l hl
    constructor
    · intro h
      unfold isConsecutive at h
      simp only at h
      split at h
      · exact Or.inl ⟨_, _, of_decide_eq_true h⟩
      · split at h
        · right
          refine ⟨l.headD 0, l.length, List.eq_replicate_iff.2 ⟨rfl, ?_⟩⟩
          intro b hb
          exact of_decide_eq_true (List.all_eq_true.1 h b hb)
        · cases h
    · rintro (⟨a, n, rfl⟩ | ⟨a, n, rfl⟩)
      · cases n with
        | zero => simp at hl
        | succ n => exact isConsecutive_range' a n
      · cases n with
        | zero => simp at hl
        | succ n =>
          unfold isConsecutive
          have h1 : (List.replicate (n + 1) a).headD 0 = a := rfl
          have h2 : (List.replicate (n + 1) a).getLastD 0 = a := by
            rw [List.getLastD_eq_getLast?, List.getLast?_replicate]; simp
          simp only [h1, h2, List.length_replicate, List.length_range', Nat.add_sub_cancel_left]
          split
          · rename_i h
            obtain rfl : n = 0 := by omega
            exact decide_eq_true rfl
          · simp
  unfold kreach
  by_cases h0 : ks = []
  · subst h0
    simp only [if_true]
    constructor
    · intro h; cases h
    · rintro ⟨h, -⟩; exact absurd rfl (h 0 0)
  · rw [if_neg h0]
    by_cases hc : isConsecutive ks = true
    · rw [hc]
      simp only [Bool.not_true, Bool.false_eq_true, if_false]
      constructor
      · intro h; cases h
      · rintro ⟨h1, h2⟩
        rcases (hcons ks h0).1 hc with ⟨a, n, h⟩ | ⟨a, n, h⟩
        · exact absurd h (h1 a n)
        · exact absurd h (h2 a n)
    · have hf : isConsecutive ks = false := by simpa using hc
      rw [hf]
      simp only [Bool.not_false, if_true, true_iff]
      rw [hcons ks h0, not_or] at hc
      push Not at hc
      exact hc

example : kreach [0, 1/2, 1/2] [1, 3] (1/2) = .error .runtimeError := by decide +kernel

end Verif
