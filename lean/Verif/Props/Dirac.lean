import Verif.Model.Dirac
import Verif.Lemmas.Dirac
import Verif.Props.KInflatedFit
import Mathlib.Analysis.Complex.ExponentialBounds

/-!
# The Dirac mixture model

Properties C53, C77 and C78, about `dirac_mixture_single_publisher_model.py`.
-/

namespace Verif

open Dirac

/-! ## C53 -/

/-- The probability of at least `k` impressions, if a share `w` of the people sees impressions at rate
`c * s`, for every weight `w` and component `c` (specification). -/
noncomputable def mixtureTail (ws : List ℝ) (comps : List ℚ) (s : ℝ) (k : Nat) : ℝ :=
  (List.zipWith (fun w (c : ℚ) => w * poissonTail (c * s) k) ws comps).sum

/-- The model has been fitted: weights and components for a universe of `U` people and `I0` observed
impressions. -/
structure DiracFit (m : Dirac.Model) (ws : List ℝ) (comps : List ℚ) (U I0 : ℚ) : Prop where
  computed : m.fitComputed = true
  optimizer : ∃ obs F, m.optimizer = some ⟨obs, F, comps, some ws⟩
  lengths : ws.length = comps.length
  nonempty : comps ≠ []
  size : m.point.universeSize? = some U
  impressions : m.point.impressions[0]? = some I0
  positive : 0 < I0

/-- The weights are a distribution and the rates are not negative. -/
structure MixtureOk (ws : List ℝ) (comps : List ℚ) : Prop where
  weights : ∀ w ∈ ws, 0 ≤ w
  total : ws.sum = 1
  rates : ∀ c ∈ comps, 0 ≤ c

/-- The vector of probabilities, without the failure case. -/
noncomputable def poissonVec (mean : ℝ) (F : Nat) : List ℝ :=
  (List.range F).map (poissonPmf mean) ++ [poissonSf mean F]

theorem truncated_eq (mean : ℝ) (F : Nat) :
    truncatedPoissonPmfVec mean (F : ℤ) = .ok (poissonVec mean F) := by
  unfold truncatedPoissonPmfVec poissonVec
  rw [if_neg (by omega)]
  simp only [Int.toNat_natCast]

theorem poissonSf_eq (mean : ℝ) (F : Nat) : poissonSf mean F = poissonTail mean F := by
  unfold poissonSf poissonTail
  congr 1

theorem poissonVec_length (mean : ℝ) (F : Nat) : (poissonVec mean F).length = F + 1 := by
  simp [poissonVec]

theorem poissonVec_getD (mean : ℝ) (F f : Nat) : (poissonVec mean F).getD f 0 =
    if f < F then poissonPmf mean f else if f = F then poissonTail mean F else 0 := by
  unfold poissonVec
  split_ifs with h1 h2
  · rw [List.getD_append _ _ _ _ (by simpa using h1)]
    rw [List.getD_eq_getElem _ _ (by simpa using h1)]
    simp
  · subst h2
    rw [List.getD_append_right _ _ _ _ (by simp)]
    simp [poissonSf_eq]
  · rw [List.getD_eq_default]
    simp; omega

theorem poissonVec_nonneg {mean : ℝ} (h : 0 ≤ mean) (F f : Nat) :
    0 ≤ (poissonVec mean F).getD f 0 := by
  rw [poissonVec_getD]
  split_ifs
  · exact poissonPmf_nonneg h f
  · exact poissonTail_nonneg h F
  · exact le_rfl

/-- The entries from `k` on are the probability of at least `k`. -/
theorem poissonVec_drop_sum (mean : ℝ) (F k : Nat) (hk : k ≤ F) :
    ((poissonVec mean F).drop k).sum = poissonTail mean k := by
  obtain ⟨d, rfl⟩ := Nat.exists_eq_add_of_le hk
  induction d generalizing k with
  | zero =>
    unfold poissonVec
    rw [Nat.add_zero, List.drop_append_of_le_length (by simp), List.drop_eq_nil_of_le (by simp)]
    simp [poissonSf_eq]
  | succ d ih =>
    have h1 := ih (k + 1) (by omega)
    rw [show k + 1 + d = k + (d + 1) by omega] at h1
    rw [List.drop_eq_getElem_cons (by rw [poissonVec_length]; omega), List.sum_cons, h1,
      ← List.getD_eq_getElem _ 0, poissonVec_getD, if_pos (by omega), poissonTail_succ]
    ring

theorem mapM_truncated (comps : List ℚ) (s : ℝ) (F : Nat) :
    comps.mapM (fun c : ℚ => truncatedPoissonPmfVec (c * s) (F : ℤ)) =
      .ok (comps.map (fun c : ℚ => poissonVec (c * s) F)) := by
  simp only [truncated_eq]
  induction comps with
  | nil => rfl
  | cons c comps ih => rw [List.mapM_cons, ih]; rfl

theorem sum_drop_eq (v : List ℝ) (k L : Nat) (h : v.length = L) :
    (v.drop k).sum = ∑ f ∈ Finset.Ico k L, v.getD f 0 := by
  subst h
  induction v generalizing k with
  | nil => simp
  | cons a v ih =>
    cases k with
    | zero =>
      have := ih 0
      rw [List.drop_zero] at this ⊢
      rw [List.sum_cons, this, List.length_cons,
        Finset.sum_eq_sum_Ico_succ_bot (Nat.succ_pos v.length)]
      rw [← Finset.sum_Ico_add' (fun f => (a :: v).getD f 0) 0 v.length 1]
      simp
    | succ k =>
      rw [List.drop_succ_cons, ih k, List.length_cons,
        ← Finset.sum_Ico_add' (fun f => (a :: v).getD f 0) k v.length 1]
      simp

theorem sum_zipWith_comm {α : Type} (ws : List ℝ) (cs : List α) (g : Nat → α → ℝ) (A : Finset Nat) :
    ∑ f ∈ A, (List.zipWith (fun w c => w * g f c) ws cs).sum =
      (List.zipWith (fun w c => w * ∑ f ∈ A, g f c) ws cs).sum := by
  induction ws generalizing cs with
  | nil => simp
  | cons w ws ih =>
    cases cs with
    | nil => simp
    | cons c cs =>
      simp only [List.zipWith_cons_cons, List.sum_cons]
      rw [Finset.sum_add_distrib, ih, Finset.mul_sum]

/-- The predicted histogram of a fitted optimizer. -/
theorem predict_fitted (solve : Solve) (obs : List ℚ) (F0 : Nat) (comps : List ℚ) (ws : List ℝ)
    (hl : ws.length = comps.length) (hne : comps ≠ []) (s : ℝ) (F : Nat) :
    ∃ v, (⟨obs, F0, comps, some ws⟩ : Optimizer).predict solve s F = .ok v ∧ v.length = F + 1 ∧
      (∀ f, v.getD f 0 =
        (List.zipWith (fun w (c : ℚ) => w * (poissonVec (c * s) F).getD f 0) ws comps).sum) ∧
      ∀ k, k ≤ F → (v.drop k).sum = mixtureTail ws comps s k := by
  obtain ⟨v, h1, h2, h3⟩ := weightedSum_ok ws (comps.map (fun c : ℚ => poissonVec (c * s) F)) (F + 1)
    (by simpa using hl) (by simpa using hne) (by
      intro p hp
      obtain ⟨c, -, rfl⟩ := List.mem_map.1 hp
      exact poissonVec_length _ _)
  have h3' : ∀ f, v.getD f 0 =
      (List.zipWith (fun w (c : ℚ) => w * (poissonVec (c * s) F).getD f 0) ws comps).sum := by
    intro f
    rw [h3, List.zipWith_map_right]
  refine ⟨v, ?_, h2, h3', ?_⟩
  · unfold Optimizer.predict Optimizer.fit
    simp only [bind, Except.bind, mapM_truncated, Option.getD_some]
    exact h1
  · intro k hk
    rw [sum_drop_eq v k _ h2]
    simp only [h3']
    rw [sum_zipWith_comm]
    unfold mixtureTail
    congr 2
    funext w c
    rw [← sum_drop_eq _ k _ (poissonVec_length _ _), poissonVec_drop_sum _ _ _ hk]

theorem mixtureTail_bounds {ws : List ℝ} {comps : List ℚ} (hok : ∀ w ∈ ws, 0 ≤ w)
    (hc : ∀ c ∈ comps, 0 ≤ c) {s : ℝ} (hs : 0 ≤ s) (k : Nat) :
    0 ≤ mixtureTail ws comps s k ∧ mixtureTail ws comps s k ≤ ws.sum := by
  unfold mixtureTail
  induction ws generalizing comps with
  | nil => simp
  | cons w ws ih =>
    have hw := hok w List.mem_cons_self
    have hws : ∀ w ∈ ws, 0 ≤ w := fun x hx => hok x (List.mem_cons_of_mem _ hx)
    cases comps with
    | nil =>
      simp only [List.zipWith_nil_right, List.sum_nil, le_refl, true_and]
      exact List.sum_nonneg hok
    | cons c comps =>
      obtain ⟨i1, i2⟩ := ih hws (fun x hx => hc x (List.mem_cons_of_mem _ hx))
      have hcs : (0 : ℝ) ≤ c * s :=
        mul_nonneg (by exact_mod_cast hc c List.mem_cons_self) hs
      have t0 := poissonTail_nonneg hcs k
      have t1 := poissonTail_le_one hcs k
      rw [List.zipWith_cons_cons, List.sum_cons, List.sum_cons]
      exact ⟨add_nonneg (mul_nonneg hw t0) i1, add_le_add (mul_le_of_le_one_right hw t1) i2⟩

theorem mixtureTail_compare {ws : List ℝ} {comps : List ℚ} (hok : ∀ w ∈ ws, 0 ≤ w)
    {s s' : ℝ} {k k' : Nat}
    (h : ∀ c ∈ comps, poissonTail (c * s) k ≤ poissonTail (c * s') k') :
    mixtureTail ws comps s k ≤ mixtureTail ws comps s' k' := by
  unfold mixtureTail
  induction ws generalizing comps with
  | nil => simp
  | cons w ws ih =>
    cases comps with
    | nil => simp
    | cons c comps =>
      rw [List.zipWith_cons_cons, List.sum_cons, List.zipWith_cons_cons, List.sum_cons]
      exact add_le_add
        (mul_le_mul_of_nonneg_left (h c List.mem_cons_self) (hok w List.mem_cons_self))
        (ih (fun x hx => hok x (List.mem_cons_of_mem _ hx))
          (fun x hx => h x (List.mem_cons_of_mem _ hx)))

/-- What a query to a fitted model returns. -/
theorem byImpressions_fitted (solve : Solve) (m : Dirac.Model) (ws : List ℝ) (comps : List ℚ)
    (U I0 : ℚ) (hm : DiracFit m ws comps U I0) (x : ℚ) (F : Nat) :
    ∃ pt, m.byImpressions solve [x] F = .ok (pt, m) ∧ pt.impressions = [x] ∧
      pt.kplusReaches.length = F ∧
      (∀ k, k < F → pt.kplusReaches.getD k 0 =
        ((toInt32 (npRound (U * mixtureTail ws comps ((x / I0 : ℚ) : ℝ) (k + 1))) : ℤ) : ℚ)) ∧
      pt.spends = m.truthyCpi.map (fun c => [x * c]) := by
  obtain ⟨obs, F0, ho⟩ := hm.optimizer
  obtain ⟨v, h1, h2, -, h4⟩ := predict_fitted solve obs F0 comps ws hm.lengths hm.nonempty
    ((x / I0 : ℚ) : ℝ) F
  have hi : pyIndex m.point.impressions 0 = .ok I0 := (pyIndex_ok_iff _ 0 _).2 hm.impressions
  have hu : m.point.universeSize = .ok U := by
    unfold ReachPoint.universeSize; rw [hm.size]
  have hfit : m.fit solve = .ok m := by
    unfold Dirac.Model.fit; rw [if_pos hm.computed]
  set kplus := (reverseCumsum v).tail.map
    (fun s : ℝ => ((toInt32 (npRound (U * s)) : ℤ) : ℚ)) with hk
  have hlen : kplus.length = F := by
    rw [hk, List.length_map, List.length_tail, reverseCumsum_length, h2]; omega
  have hget : ∀ k, k < F → kplus.getD k 0 =
      ((toInt32 (npRound (U * mixtureTail ws comps ((x / I0 : ℚ) : ℝ) (k + 1))) : ℤ) : ℚ) := by
    intro k hkF
    have hk1 : k < (reverseCumsum v).tail.length := by
      rw [List.length_tail, reverseCumsum_length, h2]; omega
    rw [hk, List.getD_eq_getElem _ _ (by simpa using hk1), List.getElem_map, List.getElem_tail,
      ← List.getD_eq_getElem _ 0, reverseCumsum_getD, h4 _ (by omega)]
  have hbody : m.byImpressions solve [x] F =
      (match m.truthyCpi with
        | some cpi => ReachPoint.new [x] kplus (some [x * cpi])
        | none => ReachPoint.new [x] kplus).bind (fun point => .ok (point, m)) := by
    unfold Dirac.Model.byImpressions
    simp only [hfit, ho, hi, hu, h1, bind, Except.bind, pure, Except.pure]
    cases m.truthyCpi <;> rfl
  rw [hbody]
  cases hc : m.truthyCpi with
  | none =>
    refine ⟨_, rfl, rfl, hlen, hget, rfl⟩
  | some c =>
    refine ⟨_, rfl, rfl, hlen, hget, rfl⟩

/-- **C53 (histogram).** The predicted histogram of frequencies is a distribution, whatever the factor
by which impressions are scaled. -/
theorem C53_histogram (solve : Solve) (m : Dirac.Model) (ws : List ℝ) (comps : List ℚ) (U I0 : ℚ)
    (hm : DiracFit m ws comps U I0) (hok : MixtureOk ws comps) (s : ℝ) (hs : 0 ≤ s) (F : Nat) :
    ∃ o v, m.optimizer = some o ∧ o.predict solve s F = .ok v ∧ v.length = F + 1 ∧
      (∀ p ∈ v, 0 ≤ p) ∧ v.sum = 1 := by
  obtain ⟨obs, F0, ho⟩ := hm.optimizer
  obtain ⟨v, h1, h2, h3, h4⟩ := predict_fitted solve obs F0 comps ws hm.lengths hm.nonempty s F
  refine ⟨_, v, ho, h1, h2, ?_, ?_⟩
  · intro p hp
    obtain ⟨f, hf, rfl⟩ := List.mem_iff_getElem.1 hp
    rw [← List.getD_eq_getElem _ 0, h3]
    apply List.sum_nonneg
    intro y hy
    obtain ⟨i, hi, rfl⟩ := List.mem_iff_getElem.1 hy
    rw [List.getElem_zipWith]
    apply mul_nonneg
    · exact hok.weights _ (List.getElem_mem _)
    · apply poissonVec_nonneg
      apply mul_nonneg _ hs
      exact_mod_cast hok.rates _ (List.getElem_mem _)
  · have := h4 0 (Nat.zero_le _)
    rw [List.drop_zero] at this
    rw [this, ← hok.total]
    unfold mixtureTail
    simp only [poissonTail_zero, mul_one]
    have hl := hm.lengths
    clear * - hl
    induction ws generalizing comps with
    | nil => simp
    | cons w ws ih =>
      cases comps with
      | nil => simp at hl
      | cons c comps =>
        rw [List.zipWith_cons_cons, List.sum_cons, List.sum_cons, ih comps (by simpa using hl)]

theorem toInt32_of_range {n : ℤ} (h0 : 0 ≤ n) (h1 : n < 2 ^ 31) : toInt32 n = n := by
  unfold toInt32
  rw [if_pos ⟨by omega, h1⟩]

/-- **C53 (coherence, partial).** For a universe of fewer than 2³¹ people the predicted reaches are
the numbers of people expected to see at least 1, 2, … impressions, rounded to whole people: they are
non-increasing, not negative and at most the universe. The weights need to add up to one only up to half
a person. Missing: universes of 2³¹ people or more, see `C53_full_is_false`. -/
theorem C53_coherent_partial (solve : Solve) (m : Dirac.Model) (ws : List ℝ) (comps : List ℚ)
    (U : Nat) (I0 : ℚ) (hm : DiracFit m ws comps U I0) (hU : U < 2 ^ 31)
    (hw : ∀ w ∈ ws, 0 ≤ w) (htot : (U : ℝ) * ws.sum < U + 1 / 2) (hc : ∀ c ∈ comps, 0 ≤ c)
    (x : ℚ) (hx : 0 ≤ x) (F : Nat) :
    ∃ pt, m.byImpressions solve [x] F = .ok (pt, m) ∧ pt.impressions = [x] ∧
      pt.kplusReaches.length = F ∧
      (∀ k, k < F → ∃ n : Nat, pt.kplusReaches.getD k 0 = n ∧
        |(n : ℝ) - U * mixtureTail ws comps (x / I0) (k + 1)| ≤ 1 / 2 ∧ n ≤ U) ∧
      (∀ k, k + 1 < F → pt.kplusReaches.getD (k + 1) 0 ≤ pt.kplusReaches.getD k 0) := by
  obtain ⟨pt, h1, h2, h3, h4, -⟩ := byImpressions_fitted solve m ws comps U I0 hm x F
  have hs : (0 : ℝ) ≤ ((x / I0 : ℚ) : ℝ) := by exact_mod_cast div_nonneg hx hm.positive.le
  have hval : ∀ k, 0 ≤ npRound ((U : ℝ) * mixtureTail ws comps ((x / I0 : ℚ) : ℝ) k) ∧
      npRound ((U : ℝ) * mixtureTail ws comps ((x / I0 : ℚ) : ℝ) k) ≤ U := by
    intro k
    obtain ⟨b0, b1⟩ := mixtureTail_bounds hw hc hs k
    refine ⟨npRound_nonneg (mul_nonneg (Nat.cast_nonneg _) b0), npRound_le ?_⟩
    calc _ ≤ (U : ℝ) * ws.sum := mul_le_mul_of_nonneg_left b1 (Nat.cast_nonneg _)
      _ < _ := by exact_mod_cast htot
  have h4' : ∀ k, k < F → pt.kplusReaches.getD k 0 =
      ((npRound ((U : ℝ) * mixtureTail ws comps ((x / I0 : ℚ) : ℝ) (k + 1)) : ℤ) : ℚ) := by
    intro k hk
    rw [h4 k hk]
    congr 1
    have e : ((U : ℚ) : ℝ) = (U : ℝ) := by push_cast; rfl
    rw [e, toInt32_of_range (hval _).1]
    have := (hval (k + 1)).2
    have hU' : (U : ℤ) < 2 ^ 31 := by exact_mod_cast hU
    omega
  refine ⟨pt, h1, h2, h3, ?_, ?_⟩
  · intro k hk
    obtain ⟨v0, v1⟩ := hval (k + 1)
    obtain ⟨n, hn⟩ := Int.eq_ofNat_of_zero_le v0
    refine ⟨n, ?_, ?_, ?_⟩
    · rw [h4' k hk, hn]; norm_cast
    · have hnear := npRound_near ((U : ℝ) * mixtureTail ws comps ((x / I0 : ℚ) : ℝ) (k + 1))
      rw [hn] at hnear
      push_cast at hnear
      exact hnear
    · rw [hn] at v1; exact_mod_cast v1
  · intro k hk
    rw [h4' k (by omega), h4' (k + 1) hk]
    have : mixtureTail ws comps ((x / I0 : ℚ) : ℝ) (k + 1 + 1) ≤
        mixtureTail ws comps ((x / I0 : ℚ) : ℝ) (k + 1) := by
      apply mixtureTail_compare hw
      intro c hcm
      exact poissonTail_antitone (mul_nonneg (by exact_mod_cast hc c hcm) hs) (by omega)
    have := npRound_mono (mul_le_mul_of_nonneg_left this (Nat.cast_nonneg (α := ℝ) U))
    exact_mod_cast this

/-- **C53 (more impressions).** More impressions never reach fewer people, at any frequency. -/
theorem C53_monotone (solve : Solve) (m : Dirac.Model) (ws : List ℝ) (comps : List ℚ)
    (U : Nat) (I0 : ℚ) (hm : DiracFit m ws comps U I0) (hU : U < 2 ^ 31) (hok : MixtureOk ws comps)
    (x y : ℚ) (hx : 0 ≤ x) (hxy : x ≤ y) (F : Nat) (px py : ReachPoint × Dirac.Model)
    (h1 : m.byImpressions solve [x] F = .ok px) (h2 : m.byImpressions solve [y] F = .ok py)
    (k : Nat) (hk : k < F) : px.1.kplusReaches.getD k 0 ≤ py.1.kplusReaches.getD k 0 := by
  obtain ⟨p, a1, -, -, a4, -⟩ := byImpressions_fitted solve m ws comps U I0 hm x F
  obtain ⟨q, b1, -, -, b4, -⟩ := byImpressions_fitted solve m ws comps U I0 hm y F
  rw [a1] at h1; rw [b1] at h2
  cases h1; cases h2
  rw [a4 k hk, b4 k hk]
  have hs : (0 : ℝ) ≤ ((x / I0 : ℚ) : ℝ) := by exact_mod_cast div_nonneg hx hm.positive.le
  have hst : ((x / I0 : ℚ) : ℝ) ≤ ((y / I0 : ℚ) : ℝ) := by
    exact_mod_cast div_le_div_of_nonneg_right hxy hm.positive.le
  have hcmp : mixtureTail ws comps ((x / I0 : ℚ) : ℝ) (k + 1) ≤
      mixtureTail ws comps ((y / I0 : ℚ) : ℝ) (k + 1) := by
    apply mixtureTail_compare hok.weights
    intro c hc
    have hc0 : (0 : ℝ) ≤ c := by exact_mod_cast hok.rates c hc
    exact poissonTail_mono (mul_nonneg hc0 hs) (mul_le_mul_of_nonneg_left hst hc0) _
  have hrange : ∀ s : ℝ, 0 ≤ s → 0 ≤ npRound (((U : ℚ) : ℝ) * mixtureTail ws comps s (k + 1)) ∧
      npRound (((U : ℚ) : ℝ) * mixtureTail ws comps s (k + 1)) < 2 ^ 31 := by
    intro s hs
    obtain ⟨b0, b1⟩ := mixtureTail_bounds hok.weights hok.rates hs (k + 1)
    have e : ((U : ℚ) : ℝ) = (U : ℝ) := by push_cast; rfl
    rw [e]
    refine ⟨npRound_nonneg (mul_nonneg (Nat.cast_nonneg _) b0), ?_⟩
    have : npRound ((U : ℝ) * mixtureTail ws comps s (k + 1)) ≤ (U : ℤ) := by
      apply npRound_le
      rw [hok.total] at b1
      calc _ ≤ (U : ℝ) * 1 := mul_le_mul_of_nonneg_left b1 (Nat.cast_nonneg _)
        _ < _ := by push_cast; linarith
    have hU' : (U : ℤ) < 2 ^ 31 := by exact_mod_cast hU
    omega
  rw [toInt32_of_range (hrange _ hs).1 (hrange _ hs).2,
    toInt32_of_range (hrange _ (le_trans hs hst)).1 (hrange _ (le_trans hs hst)).2]
  have := npRound_mono (mul_le_mul_of_nonneg_left hcmp
    (show (0 : ℝ) ≤ ((U : ℚ) : ℝ) by push_cast; exact Nat.cast_nonneg _))
  exact_mod_cast this

/-- **C53 (no impressions).** Without impressions nobody is reached. -/
theorem C53_no_impressions (solve : Solve) (m : Dirac.Model) (ws : List ℝ) (comps : List ℚ)
    (U I0 : ℚ) (hm : DiracFit m ws comps U I0) (F : Nat) :
    ∃ pt, m.byImpressions solve [0] F = .ok (pt, m) ∧
      pt.kplusReaches = List.replicate F 0 := by
  obtain ⟨pt, h1, -, h3, h4, -⟩ := byImpressions_fitted solve m ws comps U I0 hm 0 F
  refine ⟨pt, h1, ?_⟩
  rw [List.eq_replicate_iff]
  refine ⟨h3, ?_⟩
  intro b hb
  obtain ⟨k, hk, rfl⟩ := List.mem_iff_getElem.1 hb
  have hz : mixtureTail ws comps ((0 / I0 : ℚ) : ℝ) (k + 1) = 0 := by
    unfold mixtureTail
    rw [zero_div, Rat.cast_zero]
    simp only [mul_zero, poissonTail_mean_zero (k + 1) (by omega)]
    apply List.sum_eq_zero
    intro y hy
    obtain ⟨i, hi, rfl⟩ := List.mem_iff_getElem.1 hy
    rw [List.getElem_zipWith]
  rw [← List.getD_eq_getElem _ 0, h4 k (by omega), hz, mul_zero]
  have : npRound (0 : ℝ) = 0 := by simpa using npRound_intCast 0
  rw [this]
  decide

/-- **C53 (maximum frequency).** The reach at a frequency does not depend on the highest frequency
asked for. -/
theorem C53_max_frequency (solve : Solve) (m : Dirac.Model) (ws : List ℝ) (comps : List ℚ)
    (U I0 : ℚ) (hm : DiracFit m ws comps U I0) (x : ℚ) (F G : Nat) (hFG : F ≤ G)
    (pf pg : ReachPoint × Dirac.Model) (h1 : m.byImpressions solve [x] F = .ok pf)
    (h2 : m.byImpressions solve [x] G = .ok pg) :
    pf.1.kplusReaches = pg.1.kplusReaches.take F := by
  obtain ⟨p, a1, -, a3, a4, -⟩ := byImpressions_fitted solve m ws comps U I0 hm x F
  obtain ⟨q, b1, -, b3, b4, -⟩ := byImpressions_fitted solve m ws comps U I0 hm x G
  rw [a1] at h1; rw [b1] at h2
  cases h1; cases h2
  apply List.ext_getElem
  · rw [a3, List.length_take, b3]; omega
  · intro k hk1 hk2
    have hkF : k < F := by rw [← a3]; exact hk1
    rw [List.getElem_take, ← List.getD_eq_getElem _ 0, ← List.getD_eq_getElem _ 0,
      a4 k hkF, b4 k (by omega)]

/-- **C53 (spend).** A query by spend is a query for the impressions that this spend buys at the
observed cost per impression, and the spend is reported back; without a known cost it fails. -/
theorem C53_by_spend (solve : Solve) (m : Dirac.Model) (ws : List ℝ) (comps : List ℚ)
    (U I0 : ℚ) (hm : DiracFit m ws comps U I0) (s : ℚ) (F : Nat) :
    ((m.cpi = none ∨ m.cpi = some 0) → m.bySpend solve [s] F = .error .valueError) ∧
    ∀ c, m.cpi = some c → c ≠ 0 →
      m.bySpend solve [s] F = m.byImpressions solve [s / c] F ∧
      ∃ pt, m.bySpend solve [s] F = .ok (pt, m) ∧ pt.spends = some [s] := by
  constructor
  · rintro (h | h) <;> simp [Dirac.Model.bySpend, Dirac.Model.impressionsForSpend,
      Dirac.Model.truthyCpi, h, bind, Except.bind]
  · intro c hc hc0
    have ht : m.truthyCpi = some c := by simp [Dirac.Model.truthyCpi, hc, hc0]
    have he : m.bySpend solve [s] F = m.byImpressions solve [s / c] F := by
      simp [Dirac.Model.bySpend, Dirac.Model.impressionsForSpend, ht, bind, Except.bind]
    refine ⟨he, ?_⟩
    obtain ⟨pt, h1, -, -, -, h5⟩ := byImpressions_fitted solve m ws comps U I0 hm (s / c) F
    refine ⟨pt, by rw [he, h1], ?_⟩
    rw [h5, ht, Option.map_some, div_mul_cancel₀ _ hc0]

/-- **C53 (full statement, false).** Predicted reaches are between zero and the universe. -/
def C53_full : Prop :=
  ∀ (solve : Solve) (m : Dirac.Model) (ws : List ℝ) (comps : List ℚ) (U : Nat) (I0 : ℚ),
    DiracFit m ws comps U I0 → MixtureOk ws comps → ∀ (x : ℚ), 0 ≤ x → ∀ (F : Nat) pt,
    m.byImpressions solve [x] F = .ok (pt, m) → ∀ r ∈ pt.kplusReaches, 0 ≤ r ∧ r ≤ U

/-- A point with 4 billion people, 3 billion of which have seen an impression. -/
def exDiracPoint (U : ℚ) : ReachPoint := ⟨[U], [U * 3 / 4], [], none, some U⟩

/-- A model with a single component, fitted to this point. -/
noncomputable def exDirac (U : ℚ) : Dirac.Model :=
  ⟨exDiracPoint U, [U / 4, U * 3 / 4], none, 1, some ⟨[1 / 4, 3 / 4], 1, [1], some [1]⟩, true⟩

theorem exDirac_fit (U : ℚ) (hU : 0 < U) : DiracFit (exDirac U) [1] [1] U U :=
  ⟨rfl, ⟨_, _, rfl⟩, rfl, by simp, rfl, rfl, hU⟩

theorem exDirac_ok : MixtureOk [1] [1] := ⟨by simp, by simp, by simp⟩

/-- An accepted model for 1000 people: the hypotheses of the theorems above are met. -/
example : DiracFit (exDirac 1000) [1] [1] (1000 : ℕ) 1000 ∧ MixtureOk [1] [1] ∧ 1000 < 2 ^ 31 :=
  ⟨by simpa using exDirac_fit 1000 (by norm_num), exDirac_ok, by norm_num⟩

/-- With 1000 impressions for 1000 people 632 are reached. -/
example (solve : Solve) : ∃ pt, (exDirac 1000).byImpressions solve [1000] 1 = .ok (pt, exDirac 1000) ∧
    pt.kplusReaches = [632] := by
  obtain ⟨pt, h1, -, h3, h4, -⟩ := byImpressions_fitted solve (exDirac 1000) [1] [1] 1000 1000
    (exDirac_fit 1000 (by norm_num)) 1000 1
  refine ⟨pt, h1, ?_⟩
  have hv := h4 0 (by omega)
  have ht : mixtureTail [1] [1] ((1000 / 1000 : ℚ) : ℝ) 1 = 1 - Real.exp (-1) := by
    simp [mixtureTail, poissonTail]
  have he : Real.exp (-1) = (Real.exp 1)⁻¹ := Real.exp_neg 1
  have e1 := Real.exp_one_gt_d9
  have e2 := Real.exp_one_lt_d9
  have hlo : (0.3678 : ℝ) < Real.exp (-1) := by
    rw [he, lt_inv_comm₀ (by norm_num) (Real.exp_pos 1)]
    norm_num; linarith
  have hhi : Real.exp (-1) < (0.3679 : ℝ) := by
    rw [he, inv_lt_comm₀ (Real.exp_pos 1) (by norm_num)]
    norm_num; linarith
  have hf : ⌊(1000 : ℝ) * (1 - Real.exp (-1))⌋ = 632 := by
    rw [Int.floor_eq_iff]; push_cast; constructor <;> linarith
  have hr : npRound ((1000 : ℝ) * (1 - Real.exp (-1))) = 632 := by
    unfold npRound
    rw [hf, if_pos (by push_cast; linarith)]
  rw [ht] at hv
  push_cast at hv
  rw [hr] at hv
  match hl : pt.kplusReaches, h3 with
  | [a], _ =>
    rw [hl] at hv
    simp only [List.getD_cons_zero] at hv
    rw [hv]
    decide +kernel

theorem C53_full_is_false : ¬ C53_full := by
  intro h
  have hfit := exDirac_fit 4000000000 (by norm_num)
  obtain ⟨pt, h1, -, h3, h4, -⟩ := byImpressions_fitted (fun _ _ => .ok []) (exDirac 4000000000)
    [1] [1] 4000000000 4000000000 hfit 4000000000 1
  have hb := h (fun _ _ => .ok []) (exDirac 4000000000) [1] [1] 4000000000 4000000000
    (by simpa using hfit) exDirac_ok 4000000000 (by norm_num) 1 pt h1
  have hv := h4 0 (by omega)
  have ht : mixtureTail [1] [1] ((4000000000 / 4000000000 : ℚ) : ℝ) 1 = 1 - Real.exp (-1) := by
    simp [mixtureTail, poissonTail]
  have he : Real.exp (-1) = (Real.exp 1)⁻¹ := Real.exp_neg 1
  have hhi : Real.exp (-1) < (0.4 : ℝ) := by
    rw [he, inv_lt_comm₀ (Real.exp_pos 1) (by norm_num)]
    have := Real.exp_one_gt_d9
    norm_num; linarith
  have hr : 2 ^ 31 ≤ npRound ((4000000000 : ℝ) * (1 - Real.exp (-1))) := by
    have h5 := npRound_mono (show ((2 ^ 31 : ℤ) : ℝ) ≤ (4000000000 : ℝ) * (1 - Real.exp (-1)) by
      push_cast; linarith)
    rwa [npRound_intCast] at h5
  rw [ht] at hv
  push_cast at hv
  have hneg : toInt32 (npRound ((4000000000 : ℝ) * (1 - Real.exp (-1)))) = -2 ^ 31 := by
    unfold toInt32
    rw [if_neg (by omega)]
  rw [hneg] at hv
  match hl : pt.kplusReaches, h3 with
  | [a], _ =>
    rw [hl] at hv hb
    simp only [List.getD_cons_zero] at hv
    have := (hb a List.mem_cons_self).1
    rw [hv] at this
    norm_num at this

/-! ## C77: the components -/

theorem pyRound_near (x : ℚ) : |(pyRound x : ℚ) - x| ≤ 1 / 2 := by
  have h1 := Rat.floor_le x
  have h2 : x < (x.floor : ℚ) + 1 := by exact_mod_cast Rat.lt_floor_add_one x
  unfold pyRound
  split_ifs with h3 h4 h5
  · rw [abs_le]; constructor <;> linarith
  · rw [abs_le]; push_cast; constructor <;> linarith
  · rw [abs_le]; constructor <;> linarith [not_lt.1 h3, not_lt.1 h4]
  · rw [abs_le]; push_cast; constructor <;> linarith [not_lt.1 h3, not_lt.1 h4]

theorem pyRound_nonneg {x : ℚ} (h : 0 ≤ x) : 0 ≤ pyRound x := by
  have := pyRound_near x
  rw [abs_le] at this
  have h2 : (-1 : ℚ) < (pyRound x : ℤ) := by linarith [this.1]
  have h3 : (-1 : ℤ) < pyRound x := by exact_mod_cast h2
  omega

theorem linspaceUnit_mem {f n : Nat} {c : ℚ} (h : c ∈ linspaceUnit f n) : (f : ℚ) ≤ c ∧ c < f + 1 := by
  unfold linspaceUnit at h
  obtain ⟨i, hi, rfl⟩ := List.mem_map.1 h
  have hi' : i < n := List.mem_range.1 hi
  have hn : (0 : ℚ) < n := by exact_mod_cast (by omega : 0 < n)
  have h1 : (0 : ℚ) ≤ (i : ℚ) / n := by positivity
  have h2 : (i : ℚ) / n < 1 := by rw [div_lt_one hn]; exact_mod_cast hi'
  constructor <;> linarith

theorem linspaceUnit_sorted (f n : Nat) : (linspaceUnit f n).Pairwise (· < ·) := by
  unfold linspaceUnit
  rw [List.pairwise_map]
  refine List.Pairwise.imp_of_mem ?_ List.pairwise_lt_range
  intro a b _ hb hab
  have hn : (0 : ℚ) < n := by
    have := List.mem_range.1 hb
    exact_mod_cast (by omega : 0 < n)
  have : (a : ℚ) / n < b / n := by
    apply div_lt_div_of_pos_right _ hn
    exact_mod_cast hab
  linarith

theorem linspaceUnit_length (f n : Nat) : (linspaceUnit f n).length = n := by simp [linspaceUnit]

theorem linspaceUnit_zero (f : Nat) : linspaceUnit f 0 = [] := rfl

theorem inBoundLoop_mem (n : Nat) (pmf : List ℚ) : ∀ (f : Nat) (nLeft : ℤ) (c : ℚ),
    c ∈ inBoundLoop n f nLeft pmf → (f : ℚ) ≤ c ∧ c < f + pmf.length + 1 := by
  induction pmf with
  | nil =>
    intro f nLeft c h
    unfold inBoundLoop at h
    split at h
    · have := linspaceUnit_mem h
      simpa using this
    · cases h
  | cons p pmf ih =>
    intro f nLeft c h
    unfold inBoundLoop at h
    split at h
    · rcases List.mem_append.1 h with h | h
      · obtain ⟨h1, h2⟩ := linspaceUnit_mem h
        refine ⟨h1, ?_⟩
        have : (0 : ℚ) ≤ ((p :: pmf).length : ℚ) := Nat.cast_nonneg _
        linarith
      · obtain ⟨h1, h2⟩ := ih _ _ _ h
        rw [List.length_cons]
        push_cast at h1 h2 ⊢
        constructor <;> linarith
    · cases h

theorem inBoundLoop_sorted (n : Nat) (pmf : List ℚ) : ∀ (f : Nat) (nLeft : ℤ),
    (inBoundLoop n f nLeft pmf).Pairwise (· < ·) := by
  induction pmf with
  | nil =>
    intro f nLeft
    unfold inBoundLoop
    split
    · exact linspaceUnit_sorted _ _
    · exact List.Pairwise.nil
  | cons p pmf ih =>
    intro f nLeft
    unfold inBoundLoop
    split
    · rw [List.pairwise_append]
      refine ⟨linspaceUnit_sorted _ _, ih _ _, ?_⟩
      intro a ha b hb
      have h1 := (linspaceUnit_mem ha).2
      have h2 := (inBoundLoop_mem _ _ _ _ _ hb).1
      push_cast at h2
      linarith
    · exact List.Pairwise.nil

/-- The number of components drawn for the frequencies of `pmf`, if there is room for all of them. -/
def gridCounts (n : Nat) (pmf : List ℚ) : List Nat := pmf.map (fun p => (pyRound (n * p)).toNat)

theorem inBoundLoop_length (n : Nat) (pmf : List ℚ) : ∀ (f : Nat) (nLeft : ℤ),
    nLeft ≤ (inBoundLoop n f nLeft pmf).length ∧
    ((inBoundLoop n f nLeft pmf).length : ℤ) ≤ max nLeft ((gridCounts n pmf).sum : Nat) := by
  induction pmf with
  | nil =>
    intro f nLeft
    unfold inBoundLoop gridCounts
    split
    · rw [linspaceUnit_length]
      constructor
      · omega
      · exact le_max_of_le_left (by omega)
    · simp; omega
  | cons p pmf ih =>
    intro f nLeft
    unfold inBoundLoop
    split
    · rename_i h
      obtain ⟨h1, h2⟩ := ih (f + 1) (nLeft - ((pyRound (n * p)).toNat : ℤ))
      have hs : (gridCounts n (p :: pmf)).sum =
          (pyRound (n * p)).toNat + (gridCounts n pmf).sum := by simp [gridCounts]
      simp only
      rw [List.length_append, linspaceUnit_length, hs]
      rw [Nat.cast_add, Nat.cast_add]
      omega
    · rename_i h
      refine ⟨by simpa using h, ?_⟩
      apply le_max_of_le_right
      rw [List.length_nil]
      exact Nat.cast_le.2 (Nat.zero_le _)

theorem filter_none_of_ge (l : List ℚ) (i : Nat) (h : ∀ c ∈ l, (i : ℚ) + 1 ≤ c) :
    l.filter (fun c => decide ((i : ℚ) ≤ c ∧ c < i + 1)) = [] := by
  rw [List.filter_eq_nil_iff]
  intro c hc
  have := h c hc
  simp only [decide_eq_true_eq, not_and, not_lt]
  intro _; exact this

theorem filter_linspace (f n : Nat) :
    (linspaceUnit f n).filter (fun c => decide ((f : ℚ) ≤ c ∧ c < f + 1)) = linspaceUnit f n := by
  rw [List.filter_eq_self]
  intro c hc
  simpa using linspaceUnit_mem hc

theorem inBoundLoop_filter (n : Nat) (pmf : List ℚ) : ∀ (f : Nat) (nLeft : ℤ) (i : Nat),
    i < pmf.length →
    (inBoundLoop n f nLeft pmf).filter
        (fun c => decide (((f + i : Nat) : ℚ) ≤ c ∧ c < ((f + i : Nat) : ℚ) + 1)) =
      if (((gridCounts n pmf).take i).sum : ℤ) < nLeft then
        linspaceUnit (f + i) ((gridCounts n pmf).getD i 0) else [] := by
  induction pmf with
  | nil => intro _ _ i hi; simp at hi
  | cons p pmf ih =>
    intro f nLeft i hi
    unfold inBoundLoop
    split
    · rename_i h
      simp only
      rw [List.filter_append]
      cases i with
      | zero =>
        rw [Nat.add_zero, filter_linspace, filter_none_of_ge _ f (by
          intro c hc
          have := (inBoundLoop_mem _ _ _ _ _ hc).1
          push_cast at this
          exact this)]
        simp [gridCounts, h]
      | succ i =>
        have h1 := ih (f + 1) (nLeft - ((pyRound (n * p)).toNat : ℤ)) i (by simpa using hi)
        have h2 : (linspaceUnit f (pyRound (n * p)).toNat).filter
            (fun c => decide (((f + (i + 1) : Nat) : ℚ) ≤ c ∧ c < ((f + (i + 1) : Nat) : ℚ) + 1)) =
            [] := by
          rw [List.filter_eq_nil_iff]
          intro c hc
          have := (linspaceUnit_mem hc).2
          simp only [decide_eq_true_eq, not_and]
          intro h3
          exfalso
          push_cast at h3
          have : (0 : ℚ) ≤ i := Nat.cast_nonneg _
          linarith
        rw [h2, List.nil_append, show f + (i + 1) = f + 1 + i by omega, h1]
        simp only [gridCounts, List.map_cons, List.take_succ_cons, List.sum_cons,
          List.getD_cons_succ]
        congr 1
        push_cast
        rw [eq_iff_iff]
        constructor <;> intro h5 <;> linarith
    · rename_i h
      rw [if_neg (by have : (0 : ℤ) ≤ (((gridCounts n (p :: pmf)).take i).sum : Nat) := by positivity
                     omega)]
      rfl

/-- A vector of probabilities. -/
structure IsPmf (pmf : List ℚ) : Prop where
  nonneg : ∀ p ∈ pmf, 0 ≤ p
  total : pmf.sum = 1

theorem dilute_eq (pmf : List ℚ) (d : ℚ) (hd : 0 ≤ d) :
    dilute pmf d = pmf.map (fun p => (1 - d) * p + d / pmf.length) := by
  unfold dilute
  split
  · apply List.map_congr_left; intros; ring
  · have : d = 0 := le_antisymm (not_lt.1 (by assumption)) hd
    subst this
    simp

theorem sum_map_affine (l : List ℚ) (a b : ℚ) :
    (l.map (fun p => a * p + b)).sum = a * l.sum + l.length * b := by
  induction l with
  | nil => simp
  | cons x l ih => simp only [List.map_cons, List.sum_cons, ih, List.length_cons]; push_cast; ring

theorem dilute_pmf {pmf : List ℚ} (h : IsPmf pmf) {d : ℚ} (h0 : 0 ≤ d) (h1 : d ≤ 1) :
    IsPmf (dilute pmf d) := by
  rw [dilute_eq pmf d h0]
  have hne : pmf ≠ [] := by rintro rfl; have := h.total; simp at this
  have hl : (0 : ℚ) < pmf.length := by exact_mod_cast List.length_pos_iff.2 hne
  constructor
  · intro p hp
    obtain ⟨q, hq, rfl⟩ := List.mem_map.1 hp
    exact add_nonneg (mul_nonneg (by linarith) (h.nonneg q hq)) (div_nonneg h0 hl.le)
  · rw [sum_map_affine, h.total, mul_div_cancel₀ _ hl.ne']
    ring

theorem gridCounts_sum_le (n : Nat) (pmf : List ℚ) (h : ∀ p ∈ pmf, 0 ≤ p) :
    (((gridCounts n pmf).sum : Nat) : ℚ) ≤ n * pmf.sum + pmf.length / 2 := by
  induction pmf with
  | nil => simp [gridCounts]
  | cons p pmf ih =>
    have hp := h p List.mem_cons_self
    have i1 := ih (fun q hq => h q (List.mem_cons_of_mem _ hq))
    have hr := pyRound_nonneg (mul_nonneg (Nat.cast_nonneg (α := ℚ) n) hp)
    have hn := pyRound_near (n * p)
    rw [abs_le] at hn
    have hc : (((pyRound (n * p)).toNat : Nat) : ℚ) = ((pyRound (n * p) : ℤ) : ℚ) := by
      rw [← Int.cast_natCast (R := ℚ), Int.toNat_of_nonneg hr]
    have hs : (gridCounts n (p :: pmf)).sum = (pyRound (n * p)).toNat + (gridCounts n pmf).sum := by
      simp [gridCounts]
    rw [hs, List.sum_cons, List.length_cons, Nat.cast_add, hc, Nat.cast_add, Nat.cast_one]
    linarith [hn.2]

/-- **C77 (components).** The components are different, in increasing order, not negative and below the
number of entries of the histogram plus one; there are at least as many as asked for, and at most half
an additional one for each entry. -/
theorem C77_components (n : Nat) (pmf : List ℚ) (h : IsPmf pmf) (d : ℚ) (h0 : 0 ≤ d) (h1 : d ≤ 1) :
    (inBoundGrid n pmf d).Pairwise (· < ·) ∧
    (∀ c ∈ inBoundGrid n pmf d, 0 ≤ c ∧ c < pmf.length + 1) ∧
    n ≤ (inBoundGrid n pmf d).length ∧
    2 * (inBoundGrid n pmf d).length ≤ 2 * n + pmf.length := by
  unfold inBoundGrid
  have hl : (dilute pmf d).length = pmf.length := by rw [dilute_eq _ _ h0]; simp
  refine ⟨inBoundLoop_sorted _ _ _ _, ?_, ?_, ?_⟩
  · intro c hc
    have := inBoundLoop_mem _ _ _ _ _ hc
    rw [hl] at this
    simpa using this
  · exact_mod_cast (inBoundLoop_length n (dilute pmf d) 0 n).1
  · have hm := (inBoundLoop_length n (dilute pmf d) 0 n).2
    have hs := gridCounts_sum_le n (dilute pmf d) (dilute_pmf h h0 h1).nonneg
    rw [(dilute_pmf h h0 h1).total, hl] at hs
    have hs2 : 2 * (gridCounts n (dilute pmf d)).sum ≤ 2 * n + pmf.length := by
      have : (2 * (((gridCounts n (dilute pmf d)).sum : Nat) : ℚ)) ≤ 2 * n + pmf.length := by linarith
      exact_mod_cast this
    omega

/-- **C77 (components of a frequency).** The components in `[f, f + 1)` are equally spaced, as many as
the number asked for times the (diluted) probability of `f`, rounded; there are none once enough
components have been drawn for smaller frequencies. -/
theorem C77_per_frequency (n : Nat) (pmf : List ℚ) (d : ℚ) (h0 : 0 ≤ d) (f : Nat)
    (hf : f < pmf.length) :
    let count : Nat → Nat := fun g =>
      (pyRound (n * ((1 - d) * pmf.getD g 0 + d / pmf.length))).toNat
    (inBoundGrid n pmf d).filter (fun c => decide ((f : ℚ) ≤ c ∧ c < f + 1)) =
      if ∑ g ∈ Finset.range f, count g < n then
        (List.range (count f)).map (fun i : Nat => (f : ℚ) + i / (count f)) else [] := by
  intro count
  unfold inBoundGrid
  have hl : (dilute pmf d).length = pmf.length := by rw [dilute_eq _ _ h0]; simp
  have hcount : ∀ g, g < pmf.length → (gridCounts n (dilute pmf d)).getD g 0 = count g := by
    intro g hg
    rw [dilute_eq _ _ h0]
    unfold gridCounts
    rw [List.getD_eq_getElem _ _ (by simpa using hg)]
    simp only [List.getElem_map, count]
    rw [List.getD_eq_getElem _ _ hg]
  have hlen : (gridCounts n (dilute pmf d)).length = pmf.length := by simp [gridCounts, hl]
  have hsum : ((gridCounts n (dilute pmf d)).take f).sum = ∑ g ∈ Finset.range f, count g := by
    have : ∀ k, k ≤ pmf.length → ((gridCounts n (dilute pmf d)).take k).sum =
        ∑ g ∈ Finset.range k, count g := by
      intro k
      induction k with
      | zero => simp
      | succ k ih =>
        intro hk
        rw [List.take_add_one, List.sum_append, ih (by omega), Finset.sum_range_succ,
          ← hcount k (by omega), List.getD_eq_getElem _ _ (by omega),
          List.getElem?_eq_getElem (by omega)]
        simp
    exact this f hf.le
  have := inBoundLoop_filter n (dilute pmf d) 0 n f (by omega)
  rw [hsum, hcount f hf] at this
  simp only [Nat.zero_add] at this
  rw [this]
  congr 1
  rw [eq_iff_iff]
  exact_mod_cast Iff.rfl

/-- **C77 (whole numbers).** If the number of components times each probability is a whole number,
exactly that many are drawn for each frequency, as in the documented example. -/
theorem C77_exact (n : Nat) (pmf : List ℚ) (h : IsPmf pmf) (ks : List Nat)
    (hk : pmf.map ((n : ℚ) * ·) = ks.map (fun k : Nat => (k : ℚ))) (f : Nat) (hf : f < pmf.length) :
    (purelyWeightedGrid n pmf).length = n ∧
    (purelyWeightedGrid n pmf).filter (fun c => decide ((f : ℚ) ≤ c ∧ c < f + 1)) =
      (List.range (ks.getD f 0)).map (fun i : Nat => (f : ℚ) + i / (ks.getD f 0 : ℕ)) := by
  have hcounts : gridCounts n pmf = ks := by
    have hround : ∀ k : Nat, (pyRound (k : ℚ)).toNat = k := by
      intro k
      have := pyRound_intCast (k : ℤ)
      rw [Int.cast_natCast] at this
      rw [this, Int.toNat_natCast]
    have : (pmf.map ((n : ℚ) * ·)).map (fun x => (pyRound x).toNat) = ks := by
      rw [hk, List.map_map]
      conv_rhs => rw [← List.map_id ks]
      apply List.map_congr_left
      intro k _
      exact hround k
    rw [List.map_map] at this
    exact this
  have hlen : ks.length = pmf.length := by rw [← hcounts]; simp [gridCounts]
  have hsum : ks.sum = n := by
    have h1 : (pmf.map ((n : ℚ) * ·)).sum = n * pmf.sum := by
      rw [List.sum_map_mul_left, List.map_id']
    rw [hk, h.total, mul_one] at h1
    have h2 : (ks.map (fun k : Nat => (k : ℚ))).sum = ((ks.sum : Nat) : ℚ) := by
      clear * -
      induction ks with
      | nil => simp
      | cons a l ih => rw [List.map_cons, List.sum_cons, List.sum_cons, ih, Nat.cast_add]
    rw [h2] at h1
    exact_mod_cast h1
  have hdil : dilute pmf 0 = pmf := by simp [dilute]
  unfold purelyWeightedGrid inBoundGrid
  rw [hdil]
  constructor
  · have := inBoundLoop_length n pmf 0 n
    rw [hcounts, hsum] at this
    have h3 := this.2
    have h4 := this.1
    simp only [max_self] at h3
    omega
  · have := inBoundLoop_filter n pmf 0 n f hf
    rw [hcounts] at this
    simp only [Nat.zero_add] at this
    rw [this]
    split
    · rfl
    · rename_i hge
      have htake : (ks.take f).sum + (ks.drop f).sum = ks.sum := List.sum_take_add_sum_drop ks f
      have hz : (ks.drop f).sum = 0 := by
        have : (n : ℤ) ≤ ((ks.take f).sum : Nat) := not_lt.1 (by exact_mod_cast hge)
        omega
      have hfk : ks.getD f 0 = 0 := by
        rw [List.drop_eq_getElem_cons (by omega), List.sum_cons] at hz
        rw [List.getD_eq_getElem _ _ (by omega)]
        omega
      rw [hfk]
      rfl

/-- The documented example: 5 components in [0, 1), 3 in [1, 2), none in [2, 3) and 2 in [3, 4). -/
example : purelyWeightedGrid 10 [1 / 2, 3 / 10, 0, 1 / 5] =
    [0, 1 / 5, 2 / 5, 3 / 5, 4 / 5, 1, 4 / 3, 5 / 3, 3, 7 / 2] ∧
    [(1 : ℚ) / 2, 3 / 10, 0, 1 / 5].map (((10 : Nat) : ℚ) * ·) =
      [5, 3, 0, 2].map (fun k : Nat => (k : ℚ)) := by decide +kernel

example : IsPmf [1 / 2, 3 / 10, 0, 1 / 5] := ⟨by decide +kernel, by decide +kernel⟩

/-- **C77 (full statement, false).** No component is beyond the maximum frequency of the histogram, as
documented. -/
def C77_bound_full : Prop :=
  ∀ (n : Nat) (pmf : List ℚ), IsPmf pmf → ∀ c ∈ purelyWeightedGrid n pmf, c ≤ pmf.length - 1

theorem C77_bound_full_is_false : ¬ C77_bound_full := by
  intro h
  have := h 3 [1 / 3, 1 / 3, 1 / 3] ⟨by decide +kernel, by decide +kernel⟩
  have h2 := h 4 [1 / 2, 1 / 2] ⟨by decide +kernel, by decide +kernel⟩ (3 / 2) (by decide +kernel)
  revert h2
  decide +kernel

/-- **C77 (bound, partial).** Components are below the maximum frequency plus two; if nothing is left
over after rounding, below the maximum frequency plus one. Missing: the documented bound by the maximum
frequency itself. -/
theorem C77_bound_partial (n : Nat) (pmf : List ℚ) (h : IsPmf pmf) :
    (∀ c ∈ purelyWeightedGrid n pmf, c < (pmf.length - 1 : ℚ) + 2) ∧
    (n ≤ ∑ g ∈ Finset.range pmf.length, (pyRound (n * pmf.getD g 0)).toNat →
      ∀ c ∈ purelyWeightedGrid n pmf, c < (pmf.length - 1 : ℚ) + 1) := by
  have hdil : dilute pmf 0 = pmf := by simp [dilute]
  constructor
  · intro c hc
    have := ((C77_components n pmf h 0 le_rfl zero_le_one).2.1 c hc).2
    linarith
  · intro hn c hc
    unfold purelyWeightedGrid inBoundGrid at hc
    rw [hdil] at hc
    have key : ∀ (pmf : List ℚ) (f : Nat) (nLeft : ℤ), nLeft ≤ ((gridCounts n pmf).sum : Nat) →
        ∀ c ∈ inBoundLoop n f nLeft pmf, c < (f : ℚ) + pmf.length := by
      intro pmf
      induction pmf with
      | nil =>
        intro f nLeft hle c hc
        unfold inBoundLoop at hc
        rw [if_neg (by simpa [gridCounts] using hle)] at hc
        cases hc
      | cons p pmf ih =>
        intro f nLeft hle c hc
        unfold inBoundLoop at hc
        split at hc
        · rcases List.mem_append.1 hc with hc | hc
          · have := (linspaceUnit_mem hc).2
            have hl : (1 : ℚ) ≤ ((p :: pmf).length : ℚ) := by
              exact_mod_cast (by simp : 1 ≤ (p :: pmf).length)
            linarith
          · have := ih (f + 1) _ (by
              have : (gridCounts n (p :: pmf)).sum =
                (pyRound (n * p)).toNat + (gridCounts n pmf).sum := by simp [gridCounts]
              rw [this] at hle
              push_cast at hle ⊢
              linarith) c hc
            rw [List.length_cons]
            push_cast at this ⊢
            linarith
        · cases hc
    have hs : (gridCounts n pmf).sum =
        ∑ g ∈ Finset.range pmf.length, (pyRound (n * pmf.getD g 0)).toNat := by
      clear * -
      unfold gridCounts
      induction pmf with
      | nil => simp
      | cons p pmf ih =>
        rw [List.map_cons, List.sum_cons, ih, List.length_cons, Finset.sum_range_succ']
        simp [add_comm]
    have := key pmf 0 n (by rw [hs]; exact_mod_cast hn) c hc
    push_cast at this
    linarith

/-- Ten components for three equally likely frequencies: one is left over and drawn beyond. -/
example : purelyWeightedGrid 10 [1 / 3, 1 / 3, 1 / 3] =
    [0, 1 / 3, 2 / 3, 1, 4 / 3, 5 / 3, 2, 7 / 3, 8 / 3, 3] := by decide +kernel

/-! ## C78: fitting -/

/-- The optimization of the weights for `n` components (specification). -/
noncomputable def diracAttempt (solve : Solve) (hist : List ℚ) (n : Nat) : Except PyErr (List ℝ) :=
  solve (hist.map (· / hist.sum))
    ((purelyWeightedGrid n (hist.map (· / hist.sum))).map
      (fun c : ℚ => poissonVec c (hist.length - 1)))

/-- A histogram that can be fitted. -/
structure ValidHist (hist : List ℚ) : Prop where
  length : 2 ≤ hist.length
  nonneg : ∀ x ∈ hist, 0 ≤ x
  total : 0 < hist.sum

theorem validate_iff (hist : List ℚ) :
    (ValidHist hist → validateFrequencyHistogram hist = .ok ()) ∧
    (¬ ValidHist hist → validateFrequencyHistogram hist = .error .valueError) := by
  unfold validateFrequencyHistogram
  constructor
  · intro h
    rw [if_neg (by have := h.length; omega), if_neg, if_neg (not_le.2 h.total)]
    rw [not_not, List.all_eq_true]
    intro x hx
    exact decide_eq_true (h.nonneg x hx)
  · intro h
    by_cases h1 : hist.length < 2
    · rw [if_pos h1]
    rw [if_neg h1]
    by_cases h2 : hist.all (fun x => decide (0 ≤ x)) = true
    · rw [if_neg (not_not.2 h2)]
      by_cases h3 : hist.sum ≤ 0
      · rw [if_pos h3]
      · exfalso
        apply h
        rw [List.all_eq_true] at h2
        exact ⟨by omega, fun x hx => of_decide_eq_true (h2 x hx), not_le.1 h3⟩
    · rw [if_pos h2]

theorem hist_pmf {hist : List ℚ} (h : ValidHist hist) : IsPmf (hist.map (· / hist.sum)) := by
  constructor
  · intro p hp
    obtain ⟨x, hx, rfl⟩ := List.mem_map.1 hp
    exact div_nonneg (h.nonneg x hx) h.total.le
  · have : (hist.map (· / hist.sum)).sum = hist.sum / hist.sum := by
      simp only [div_eq_mul_inv]
      rw [List.sum_map_mul_right, List.map_id']
    rw [this, div_self h.total.ne']

/-- A fitted optimizer. -/
noncomputable def diracOptimizer (hist : List ℚ) (n : Nat) (ws : Option (List ℝ)) : Optimizer :=
  ⟨hist.map (· / hist.sum), hist.length - 1, purelyWeightedGrid n (hist.map (· / hist.sum)), ws⟩

theorem optimizer_new_ok {hist : List ℚ} (h : ValidHist hist) (n : Nat) :
    Optimizer.new hist n = .ok (diracOptimizer hist n none) := by
  unfold Optimizer.new
  rw [(validate_iff hist).1 h]
  rfl

theorem optimizer_fit_eq (solve : Solve) (hist : List ℚ) (n : Nat) :
    (diracOptimizer hist n none).fit solve =
      (diracAttempt solve hist n).map (fun ws => diracOptimizer hist n (some ws)) := by
  unfold Optimizer.fit diracAttempt diracOptimizer
  have := mapM_truncated (purelyWeightedGrid n (hist.map (· / hist.sum))) 1 (hist.length - 1)
  simp only [mul_one] at this
  simp only [this, bind, Except.bind, pure, Except.pure]
  cases solve (hist.map (· / hist.sum)) ((purelyWeightedGrid n (hist.map (· / hist.sum))).map
    (fun c : ℚ => poissonVec c (hist.length - 1))) <;> rfl

/-- What the loop does. -/
theorem diracFitLoop_spec (solve : Solve) (hist : List ℚ) (hv : ValidHist hist) :
    ∀ (fuel n : Nat) (o : Option Optimizer), n ≤ fuel →
    (∃ j ws, n / 2 ^ j ≠ 0 ∧ diracAttempt solve hist (n / 2 ^ j) = .ok ws ∧
      (∀ i, i < j → ∃ e, diracAttempt solve hist (n / 2 ^ i) = .error e) ∧
      fitLoop solve hist fuel n o = .ok (n / 2 ^ j, some (diracOptimizer hist (n / 2 ^ j) (some ws)))) ∨
    ((∀ i, n / 2 ^ i ≠ 0 → ∃ e, diracAttempt solve hist (n / 2 ^ i) = .error e) ∧
      fitLoop solve hist fuel n o =
        .ok (0, if n = 0 then o else some (diracOptimizer hist 1 none)) ∧
      (n ≠ 0 → ∃ e, diracAttempt solve hist 1 = .error e)) := by
  intro fuel
  induction fuel with
  | zero =>
    intro n o hn
    have : n = 0 := by omega
    subst this
    right
    refine ⟨?_, rfl, fun h => absurd rfl h⟩
    intro i hi
    simp at hi
  | succ fuel ih =>
    intro n o hn
    by_cases h0 : n = 0
    · subst h0
      right
      refine ⟨?_, rfl, fun h => absurd rfl h⟩
      intro i hi
      simp at hi
    · have hstep : fitLoop solve hist (fuel + 1) n o =
          (match diracAttempt solve hist n with
            | .ok ws => .ok (n, some (diracOptimizer hist n (some ws)))
            | .error _ => fitLoop solve hist fuel (n / 2) (some (diracOptimizer hist n none))) := by
        rw [fitLoop, if_neg h0, optimizer_new_ok hv]
        simp only [bind, Except.bind, optimizer_fit_eq]
        cases diracAttempt solve hist n <;> rfl
      rw [hstep]
      cases ha : diracAttempt solve hist n with
      | ok ws =>
        left
        refine ⟨0, ws, by simpa using h0, by simpa using ha, by intro i hi; omega, ?_⟩
        simp
      | error e =>
        simp only
        have hpow : ∀ j, n / 2 / 2 ^ j = n / 2 ^ (j + 1) := by
          intro j
          rw [Nat.div_div_eq_div_mul, pow_succ, mul_comm]
        rcases ih (n / 2) (some (diracOptimizer hist n none)) (by omega) with
          ⟨j, ws, h1, h2, h3, h4⟩ | ⟨h1, h2, h3⟩
        · left
          rw [hpow] at h1 h2 h4
          refine ⟨j + 1, ws, h1, h2, ?_, h4⟩
          intro i hi
          cases i with
          | zero => exact ⟨e, by simpa using ha⟩
          | succ i => rw [← hpow]; exact h3 i (by omega)
        · right
          refine ⟨?_, ?_, ?_⟩
          · intro i hi
            cases i with
            | zero => exact ⟨e, by simpa using ha⟩
            | succ i => rw [← hpow] at hi ⊢; exact h1 i hi
          · rw [h2, if_neg h0]
            by_cases h5 : n / 2 = 0
            · have : n = 1 := by omega
              subst this
              rw [if_pos h5]
            · rw [if_neg h5]
          · intro _
            by_cases h5 : n / 2 = 0
            · have : n = 1 := by omega
              subst this
              exact ⟨e, ha⟩
            · exact h3 h5

/-- **C78 (retries).** Fitting a new model tries the number of components asked for, then half as many,
and so on, and keeps the weights of the first attempt that does not fail; if all fail, every query fails
with the exception of the attempt with a single component. -/
theorem C78_retries (solve : Solve) (m : Dirac.Model) (hm : m.fitComputed = false)
    (hv : ValidHist m.hist) (hn : m.ncomponents ≠ 0) :
    (∃ j ws, m.ncomponents / 2 ^ j ≠ 0 ∧
      diracAttempt solve m.hist (m.ncomponents / 2 ^ j) = .ok ws ∧
      (∀ i, i < j → ∃ e, diracAttempt solve m.hist (m.ncomponents / 2 ^ i) = .error e) ∧
      ∃ m' o, m.fit solve = .ok m' ∧ m'.fitComputed = true ∧ m'.point = m.point ∧ m'.cpi = m.cpi ∧
        m'.ncomponents = m.ncomponents / 2 ^ j ∧ m'.optimizer = some o ∧ o.ws = some ws ∧
        o.components = purelyWeightedGrid (m.ncomponents / 2 ^ j)
          (m.hist.map (· / m.hist.sum))) ∨
    ((∀ i, m.ncomponents / 2 ^ i ≠ 0 →
        ∃ e, diracAttempt solve m.hist (m.ncomponents / 2 ^ i) = .error e) ∧
      ∃ e, diracAttempt solve m.hist 1 = .error e ∧ ∀ x F I0, m.point.impressions[0]? = some I0 →
        m.byImpressions solve [x] F = .error e) := by
  rcases diracFitLoop_spec solve m.hist hv m.ncomponents m.ncomponents m.optimizer le_rfl with
    ⟨j, ws, h1, h2, h3, h4⟩ | ⟨h1, h2, h3⟩
  · left
    refine ⟨j, ws, h1, h2, h3, ?_⟩
    unfold Dirac.Model.fit
    rw [hm, h4]
    exact ⟨_, _, rfl, rfl, rfl, rfl, rfl, rfl, rfl, rfl⟩
  · right
    refine ⟨h1, ?_⟩
    obtain ⟨e, he⟩ := h3 hn
    refine ⟨e, he, ?_⟩
    intro x F I0 hI
    have hi : pyIndex m.point.impressions 0 = .ok I0 := (pyIndex_ok_iff _ 0 _).2 hI
    unfold Dirac.Model.byImpressions Dirac.Model.fit
    rw [hm, h2, if_neg hn]
    have hp : (diracOptimizer m.hist 1 none).predict solve ((x / I0 : ℚ) : ℝ) F = .error e := by
      unfold Optimizer.predict
      rw [optimizer_fit_eq, he]
      rfl
    rw [if_neg (by simp)]
    simp only [bind, Except.bind, pure, Except.pure, hi, hp]

/-- **C78 (fitted once).** A fitted model is not fitted again. -/
theorem C78_fitted_once (solve solve' : Solve) (m m' : Dirac.Model) (h : m.fit solve = .ok m') :
    m'.fitComputed = true ∧ m'.fit solve' = .ok m' := by
  have hc : m'.fitComputed = true := by
    unfold Dirac.Model.fit at h
    split at h
    · cases h; assumption
    · rcases hx : fitLoop solve m.hist m.ncomponents m.ncomponents m.optimizer with e | r
      · rw [hx] at h; cases h
      · rw [hx] at h; cases h; rfl
  refine ⟨hc, ?_⟩
  unfold Dirac.Model.fit
  rw [if_pos hc]

/-- **C78 (unusable).** Histograms that cannot be fitted are only noticed by the first query. -/
theorem C78_unusable (solve : Solve) (m : Dirac.Model) (hm : m.fitComputed = false)
    (hv : ¬ ValidHist m.hist) (hn : m.ncomponents ≠ 0) (x : ℚ) (F : Int) :
    m.byImpressions solve [x] F = .error .valueError := by
  have hl : ∀ o, fitLoop solve m.hist m.ncomponents m.ncomponents o = .error .valueError := by
    intro o
    obtain ⟨k, hk⟩ := Nat.exists_eq_add_of_le' (Nat.pos_of_ne_zero hn)
    rw [hk, fitLoop, if_neg (by omega)]
    unfold Optimizer.new
    rw [(validate_iff m.hist).2 hv]
    rfl
  unfold Dirac.Model.byImpressions Dirac.Model.fit
  rw [hm, hl]
  rfl

/-- What scipy and cvxpy promise: the optimization does not fail and finds a distribution. -/
def SolveOk (solve : Solve) : Prop :=
  ∀ obs pmfs, pmfs ≠ [] → ∃ ws, solve obs pmfs = .ok ws ∧ ws.length = pmfs.length ∧
    (∀ w ∈ ws, 0 ≤ w) ∧ ws.sum = 1

/-- A solver that puts all weight on the first component. -/
def exSolve : Solve := fun _ pmfs =>
  match pmfs with
  | [] => .ok []
  | _ :: l => .ok (1 :: List.replicate l.length 0)

theorem exSolve_ok : SolveOk exSolve := by
  intro obs pmfs h
  cases pmfs with
  | nil => exact absurd rfl h
  | cons p l =>
    refine ⟨_, rfl, by simp, ?_, by simp⟩
    intro w hw
    rcases List.mem_cons.1 hw with rfl | hw
    · exact zero_le_one
    · rw [List.eq_of_mem_replicate hw]

theorem pyIndex_neg_one' {l : List ℚ} {x : ℚ} (h : pyIndex l (-1) = .ok x) :
    ∃ hne : l ≠ [], l.getLast hne = x := by
  have hne : l ≠ [] := by rintro rfl; cases h
  refine ⟨hne, ?_⟩
  rw [pyIndex_neg_one l hne] at h
  cases h
  rfl

/-- What the constructor accepts. -/
theorem dirac_new_ok {pt : ReachPoint} {n : Nat} {m : Dirac.Model}
    (h : Dirac.Model.new [pt] n = .ok m) :
    ∃ I0 R U last, pt.impressions[0]? = some I0 ∧ 1 / 1000 ≤ I0 ∧ pt.kplusReaches[0]? = some R ∧
      R ≤ I0 ∧ pt.universeSize? = some U ∧ pyIndex pt.kplusReaches (-1) = .ok last ∧
      m.hist = (U - R) :: (pt.frequencies ++ [last]) ∧ m.point = pt ∧ m.ncomponents = n ∧
      m.fitComputed = false := by
  unfold Dirac.Model.new at h
  simp only at h
  rcases hi : pyIndex pt.impressions 0 with e | I0
  · rw [hi] at h; cases h
  rw [hi] at h
  simp only [bind, Except.bind, pure, Except.pure] at h
  split at h
  · cases h
  rename_i h1
  rcases hr : pt.reach 1 with e | R
  · rw [hr] at h; cases h
  rw [hr] at h
  simp only at h
  split at h
  · cases h
  rename_i h2
  rcases hz : pt.zeroIncludedHistogram with e | hist
  · rw [hz] at h; cases h
  rw [hz] at h
  simp only at h
  have hz' := hz
  unfold ReachPoint.zeroIncludedHistogram at hz'
  cases hu : pt.universeSize? with
  | none => rw [hu] at hz'; cases hz'
  | some U =>
    have hus : pt.universeSize = .ok U := by unfold ReachPoint.universeSize; rw [hu]
    rw [hu] at hz'
    simp only [hus, hr, bind, Except.bind, pure, Except.pure] at hz'
    unfold ReachPoint.frequenciesWithKplusBucket at hz'
    rcases hl : pyIndex pt.kplusReaches (-1) with e | last
    · rw [hl] at hz'; cases hz'
    rw [hl] at hz'
    simp only [bind, Except.bind, pure, Except.pure] at hz'
    cases hz'
    rw [hus] at h
    refine ⟨I0, R, U, last, (pyIndex_ok_iff _ 0 _).1 hi, not_lt.1 h1,
      (reachPoint_reach_one _ _).1 hr, not_lt.1 h2, rfl, rfl, ?_⟩
    split at h <;> (cases h; exact ⟨rfl, rfl, rfl, rfl⟩)

/-- **C78 (full statement, false).** Every model that can be constructed answers queries. -/
def C78_answers_full : Prop :=
  ∀ (solve : Solve) (pt : ReachPoint) (n : Nat) (m : Dirac.Model), SolveOk solve → 0 < n →
    Dirac.Model.new [pt] n = .ok m → ∀ x, 0 ≤ x → ∀ F : Nat,
    ∃ r, m.byImpressions solve [x] F = .ok r

/-- A point that claims to have reached 3 out of 2 people. -/
def exDiracBad : ReachPoint := ⟨[5], [3], [], none, some 2⟩

theorem C78_answers_full_is_false : ¬ C78_answers_full := by
  intro h
  obtain ⟨r, hr⟩ := h exSolve exDiracBad 10 ⟨exDiracBad, [-1, 3], none, 10, none, false⟩ exSolve_ok
    (by norm_num) (by
      unfold Dirac.Model.new
      have h1 : pyIndex exDiracBad.impressions 0 = .ok 5 := rfl
      have h2 : exDiracBad.reach 1 = .ok 3 := by decide +kernel
      have h3 : exDiracBad.zeroIncludedHistogram = .ok [-1, 3] := by decide +kernel
      have h4 : exDiracBad.universeSize = .ok 2 := rfl
      simp only [h1, h2, h3, h4, bind, Except.bind, pure, Except.pure]
      rw [if_neg (by norm_num), if_neg (by norm_num)]
      rfl) 1 (by norm_num) 1
  rw [C78_unusable exSolve _ rfl (fun hv => absurd (hv.nonneg (-1) (by simp)) (by norm_num))
    (by norm_num)] at hr
  cases hr

/-- **C78 (answers, partial).** If a model can be constructed from a point whose reaches are
non-increasing, not negative and at most the universe size (below 2³¹), and the optimization does not
fail, then the first query and all others are answered with coherent reaches. Missing: points with more
people reached than there are, which the constructor accepts. -/
theorem C78_answers_partial (solve : Solve) (hsolve : SolveOk solve) (imps ks : List ℚ)
    (sp : Option (List ℚ)) (U : Nat) (pt : ReachPoint)
    (hp : ReachPoint.new imps ks sp (some (U : ℚ)) = .ok pt) (n : Nat) (hn : 0 < n)
    (hU : U < 2 ^ 31) (hsorted : ks.Pairwise (· ≥ ·)) (hnn : ∀ k ∈ ks, 0 ≤ k) (hle : ∀ k ∈ ks, k ≤ U)
    (hU0 : 0 < U) (m : Dirac.Model) (hm : Dirac.Model.new [pt] n = .ok m) (x : ℚ) (hx : 0 ≤ x)
    (F : Nat) :
    ∃ q m', m.byImpressions solve [x] F = .ok (q, m') ∧ q.impressions = [x] ∧
      q.kplusReaches.length = F ∧
      (∀ k, k < F → ∃ r : Nat, q.kplusReaches.getD k 0 = r ∧ r ≤ U) ∧
      (∀ k, k + 1 < F → q.kplusReaches.getD (k + 1) 0 ≤ q.kplusReaches.getD k 0) ∧
      ∀ y, 0 ≤ y → ∃ q', m'.byImpressions solve [y] F = .ok (q', m') ∧
        (x ≤ y → ∀ k, k < F → q.kplusReaches.getD k 0 ≤ q'.kplusReaches.getD k 0) := by
  obtain ⟨I0, R, U', last, h1, h2, h3, h4, h5, h6, h7, h8, h9, h10⟩ := dirac_new_ok hm
  have hpt : pt.kplusReaches = ks ∧ pt.frequencies = ReachPoint.successiveDifferences ks ∧
      pt.universeSize? = some (U : ℚ) := by
    unfold ReachPoint.new at hp
    split at hp
    · cases hp
    · cases hp; exact ⟨rfl, rfl, rfl⟩
  rw [hpt.2.2] at h5
  cases h5
  have hRmem : R ∈ ks := by rw [← hpt.1]; exact List.mem_of_getElem? h3
  have hlast : last ∈ ks := by
    rw [← hpt.1]
    obtain ⟨hne, hl⟩ := pyIndex_neg_one' h6
    rw [← hl]
    exact List.getLast_mem hne
  have hfr : ∀ d ∈ ReachPoint.successiveDifferences ks, 0 ≤ d := by
    clear * - hsorted
    unfold ReachPoint.successiveDifferences
    induction ks with
    | nil => simp
    | cons a l ih =>
      cases l with
      | nil => simp
      | cons b l =>
        rw [List.pairwise_cons] at hsorted
        intro d hd
        rw [List.tail_cons, List.zipWith_cons_cons, List.mem_cons] at hd
        rcases hd with rfl | hd
        · have := hsorted.1 b List.mem_cons_self
          linarith
        · exact ih hsorted.2 d (by simpa using hd)
  have hsum : m.hist.sum = U := by
    obtain ⟨hne, hl⟩ := pyIndex_neg_one' h6
    rw [h7, hpt.2.1, List.sum_cons]
    have htel : ∀ (l : List ℚ) (R : ℚ), l[0]? = some R → ∀ (hne : l ≠ []),
        (ReachPoint.successiveDifferences l ++ [l.getLast hne]).sum = R := by
      intro l
      unfold ReachPoint.successiveDifferences
      induction l with
      | nil => intro R h; simp at h
      | cons a l ih =>
        intro R hR hne
        simp at hR
        subst hR
        cases l with
        | nil => simp
        | cons b l =>
          have := ih b (by simp) (by simp)
          rw [List.tail_cons, List.zipWith_cons_cons, List.cons_append, List.sum_cons,
            List.getLast_cons (by simp)]
          rw [List.tail_cons] at this
          rw [this]
          ring
    have hne' : ks ≠ [] := by rw [← hpt.1]; exact hne
    have hlast' : last = ks.getLast hne' := by
      rw [← hl]
      congr 1
      exact hpt.1
    rw [hlast', htel ks R (by rw [← hpt.1]; exact h3) hne']
    ring
  have hvalid : ValidHist m.hist := by
    refine ⟨by rw [h7]; simp, ?_, by rw [hsum]; exact_mod_cast hU0⟩
    intro y hy
    rw [h7, hpt.2.1] at hy
    rcases List.mem_cons.1 hy with rfl | hy
    · linarith [hle R hRmem]
    · rcases List.mem_append.1 hy with hy | hy
      · exact hfr y hy
      · rw [List.mem_singleton.1 hy]; exact hnn _ hlast
  have hgrid := C77_components n (m.hist.map (· / m.hist.sum)) (hist_pmf hvalid) 0 le_rfl zero_le_one
  have hgne : purelyWeightedGrid n (m.hist.map (· / m.hist.sum)) ≠ [] := by
    intro he
    have := hgrid.2.2.1
    unfold purelyWeightedGrid at he
    rw [he] at this
    simp at this
    omega
  obtain ⟨ws, hw1, hw2, hw3, hw4⟩ := hsolve (m.hist.map (· / m.hist.sum))
    ((purelyWeightedGrid n (m.hist.map (· / m.hist.sum))).map
      (fun c : ℚ => poissonVec c (m.hist.length - 1))) (by simpa using hgne)
  have hatt : diracAttempt solve m.hist n = .ok ws := hw1
  rcases C78_retries solve m h10 hvalid (by omega) with
    ⟨j, ws', j1, j2, j3, m', o, j4, j5, j6, j7, j8, j9, j10, j11⟩ | ⟨j1, -⟩
  · have hj : j = 0 := by
      by_contra hj
      obtain ⟨e, he⟩ := j3 0 (by omega)
      rw [pow_zero, Nat.div_one, h9, hatt] at he
      cases he
    subst hj
    rw [pow_zero, Nat.div_one, h9] at j2 j11
    rw [hatt] at j2
    cases j2
    have hfit : DiracFit m' ws (purelyWeightedGrid n (m.hist.map (· / m.hist.sum))) (U : ℚ) I0 := by
      refine ⟨j5, ?_, by rw [hw2, List.length_map], hgne, by rw [j6, h8]; exact hpt.2.2,
        by rw [j6, h8]; exact h1, by linarith⟩
      obtain ⟨a, b, c, d⟩ := o
      simp only at j10 j11
      subst j10 j11
      exact ⟨a, b, j9⟩
    have hrates : ∀ c ∈ purelyWeightedGrid n (m.hist.map (· / m.hist.sum)), 0 ≤ c :=
      fun c hc => (hgrid.2.1 c hc).1
    have hmix : MixtureOk ws (purelyWeightedGrid n (m.hist.map (· / m.hist.sum))) :=
      ⟨hw3, hw4, hrates⟩
    have htot : (U : ℝ) * ws.sum < U + 1 / 2 := by rw [hw4]; linarith
    have hfirst : m.byImpressions solve [x] F = m'.byImpressions solve [x] F := by
      have hm2 := (C78_fitted_once solve solve m m' j4).2
      unfold Dirac.Model.byImpressions
      simp only [j4, hm2]
    obtain ⟨q, q1, q2, q3, q4, q5⟩ := C53_coherent_partial solve m' ws _ U I0 hfit hU hw3 htot hrates
      x hx F
    refine ⟨q, m', by rw [hfirst, q1], q2, q3, ?_, q5, ?_⟩
    · intro k hk
      obtain ⟨r, r1, -, r3⟩ := q4 k hk
      exact ⟨r, r1, r3⟩
    · intro y hy
      obtain ⟨q', q1', -⟩ := C53_coherent_partial solve m' ws _ U I0 hfit hU hw3 htot hrates y hy F
      refine ⟨q', q1', ?_⟩
      intro hxy k hk
      exact C53_monotone solve m' ws _ U I0 hfit hU hmix x y hx hxy F _ _ q1 q1' k hk
  · obtain ⟨e, he⟩ := j1 0 (by simp; omega)
    rw [pow_zero, Nat.div_one, h9, hatt] at he
    cases he

/-- A point that can be fitted: 200 impressions for 100 of 1000 people, 40 of them reached twice. -/
example : ∃ pt m, ReachPoint.new [200] [100, 40] (some [5]) (some ((1000 : Nat) : ℚ)) = .ok pt ∧
    Dirac.Model.new [pt] 200 = .ok m ∧ [(100 : ℚ), 40].Pairwise (· ≥ ·) ∧
    m.hist = [900, 60, 40] :=
  ⟨⟨[200], [100, 40], [60], some [5], some 1000⟩,
    ⟨⟨[200], [100, 40], [60], some [5], some 1000⟩, [900, 60, 40], some (1 / 40), 200, none, false⟩,
    by decide +kernel, by
      unfold Dirac.Model.new
      have h1 : pyIndex [(200 : ℚ)] 0 = .ok 200 := rfl
      have h2 : (⟨[200], [100, 40], [60], some [5], some 1000⟩ : ReachPoint).reach 1 = .ok 100 := by
        decide +kernel
      have h3 : (⟨[200], [100, 40], [60], some [5], some 1000⟩ : ReachPoint).zeroIncludedHistogram =
        .ok [900, 60, 40] := by decide +kernel
      simp only [h1, h2, h3, bind, Except.bind, pure, Except.pure, ReachPoint.universeSize]
      norm_num, by simp; norm_num, rfl⟩

/-- **C53 (single publisher).** A query for any number of publishers other than one is refused with a
`ValueError`, whatever the state of the model. -/
theorem C53_refused (solve : Solve) (m : Dirac.Model) (xs : List ℚ) (h : xs.length ≠ 1) (F : Int) :
    m.byImpressions solve xs F = .error .valueError ∧ m.bySpend solve xs F = .error .valueError := by
  match xs, h with
  | [], _ => exact ⟨rfl, rfl⟩
  | _ :: _ :: _, _ => exact ⟨rfl, rfl⟩

example : ([3, 4] : List ℚ).length ≠ 1 := by decide

/-- **C53 (defaults).** Without a frequency the reach at frequency one is returned. -/
theorem C53_defaults (solve : Solve) (m : Dirac.Model) (xs : List ℚ) :
    m.byImpressions solve xs = m.byImpressions solve xs 1 ∧
    m.bySpend solve xs = m.bySpend solve xs 1 := ⟨rfl, rfl⟩

/-- **C77 (the uniform grid).** With the grid that the model uses to spread its components evenly, the
number of components between two frequencies does not depend on the data. -/
theorem C77_uniform (n : Nat) (pmf pmf' : List ℚ) (hl : pmf.length = pmf'.length) :
    uniformGrid n pmf = uniformGrid n pmf' := by
  unfold uniformGrid inBoundGrid
  have : ∀ l : List ℚ, dilute l 1 = List.replicate l.length (1 / (l.length : ℚ)) := by
    intro l
    rw [dilute_eq l 1 (by norm_num), List.eq_replicate_iff]
    refine ⟨by simp, ?_⟩
    intro x hx
    obtain ⟨y, -, rfl⟩ := List.mem_map.1 hx
    ring
  rw [this, this, hl]

example : ([1/2, 1/2, 0] : List ℚ).length = ([1/10, 1/5, 7/10] : List ℚ).length := rfl

/-- `n` is the whole number nearest to `x`, the even one of two equally near (specification of the
rounding of Python and numpy). -/
def NearestEven (x : ℝ) (n : ℤ) : Prop :=
  |(n : ℝ) - x| < 1 / 2 ∨ (|(n : ℝ) - x| = 1 / 2 ∧ Even n)

theorem nearestEven_unique {x : ℝ} {m n : ℤ} (hm : NearestEven x m) (hn : NearestEven x n) : m = n := by
  have key : ∀ {a b : ℤ}, NearestEven x a → NearestEven x b → a < b → False := by
    intro a b ha hb hab
    have h1 : (a : ℝ) + 1 ≤ b := by exact_mod_cast hab
    have ha' : x - a ≤ 1 / 2 := by
      rcases ha with h | h
      · have := (abs_lt.1 h).1; linarith
      · have := (abs_le.1 h.1.le).1; linarith
    have hb' : (b : ℝ) - x ≤ 1 / 2 := by
      rcases hb with h | h
      · exact (abs_lt.1 h).2.le
      · exact (abs_le.1 h.1.le).2
    have e1 : x - a = 1 / 2 := by linarith
    have e2 : (b : ℝ) - x = 1 / 2 := by linarith
    have e3 : b = a + 1 := by
      have : (b : ℝ) = ((a + 1 : ℤ) : ℝ) := by push_cast; linarith
      exact_mod_cast this
    have a2 : Even a := by
      rcases ha with h | h
      · rw [abs_sub_comm, e1] at h; norm_num at h
      · exact h.2
    have b2 : Even b := by
      rcases hb with h | h
      · rw [e2] at h; norm_num at h
      · exact h.2
    rw [e3] at b2
    exact (Int.even_add_one.1 b2) a2
  rcases lt_trichotomy m n with h | h | h
  · exact (key hm hn h).elim
  · exact h
  · exact (key hn hm h).elim

/-- **C77 (rounding).** The numbers of components and the predicted reaches are rounded to the nearest
whole number, halves to the even one. -/
theorem C77_rounding (x : ℚ) (y : ℝ) (n : ℤ) :
    (pyRound x = n ↔ NearestEven x n) ∧ (npRound y = n ↔ NearestEven y n) := by
  have hnp : ∀ y : ℝ, NearestEven y (npRound y) := by
    intro y
    have h0 := Int.floor_le y
    have h1 := Int.lt_floor_add_one y
    unfold npRound
    split
    · left; rw [abs_lt]; constructor <;> linarith
    · split
      · left; push_cast; rw [abs_lt]; constructor <;> linarith
      · have he : y - ⌊y⌋ = 1 / 2 := by linarith
        split
        · rename_i hev
          right
          exact ⟨by rw [abs_sub_comm, he]; norm_num, Int.even_iff.2 hev⟩
        · rename_i hev
          right
          refine ⟨?_, ?_⟩
          · have : ((⌊y⌋ + 1 : ℤ) : ℝ) - y = 1 / 2 := by push_cast; linarith
            rw [this]; norm_num
          · rw [Int.even_add_one, Int.even_iff]; exact hev
  have hpy : pyRound x = npRound (x : ℝ) := by
    unfold pyRound npRound
    have hfl : ⌊(x : ℝ)⌋ = x.floor := by rw [Rat.floor_cast]; rfl
    rw [hfl]
    have h1 : (x - x.floor < 1 / 2) ↔ ((x : ℝ) - x.floor < 1 / 2) := by
      rw [← Rat.cast_lt (K := ℝ)]; push_cast; rfl
    have h2 : (1 / 2 < x - x.floor) ↔ (1 / 2 < (x : ℝ) - x.floor) := by
      rw [← Rat.cast_lt (K := ℝ)]; push_cast; rfl
    simp only [h1, h2]
  refine ⟨?_, ?_⟩
  · rw [hpy]
    exact ⟨fun h => h ▸ hnp _, fun h => nearestEven_unique (hnp _) h⟩
  · exact ⟨fun h => h ▸ hnp _, fun h => nearestEven_unique (hnp _) h⟩

example : pyRound (5 / 2) = 2 ∧ pyRound (7 / 2) = 4 ∧ pyRound (-1 / 3) = 0 := by decide +kernel

end Verif
