import Verif.Props.DataSet
import Verif.Props.ReachCurve
import Verif.Props.Dirac
import Verif.Props.Laws

/-!
# C07, C28, C53: frequencies add up to impressions

* The k+ reaches of a data set add up to the impressions delivered.
* The k+ reaches of the Goerg model add up to the impressions asked for; they are those of a Poisson
  number of impressions with an exponentially distributed rate.
* Scaling the means of a Dirac mixture is showing every impression with the same probability.
-/

namespace Verif

open Verif.Spec

/-! ## Data sets -/

/-- Counting people by the number of their impressions counts the impressions. -/
theorem sum_kPlusReach (t : Int → Nat) (U : Finset Int) (hU : ∀ u, 1 ≤ t u → u ∈ U) (K : Nat)
    (hK : ∀ u, t u ≤ K) :
    ∑ k ∈ Finset.range K, kPlusReach t (k + 1) = ∑ u ∈ U, t u := by
  have h1 : ∀ k, kPlusReach t (k + 1) = ∑ u ∈ U, if k < t u then 1 else 0 := by
    intro k
    rw [← Finset.card_filter]
    unfold kPlusReach
    rw [← Set.ncard_coe_finset]
    congr 1
    ext u
    simp only [Set.mem_ofPred_eq, Finset.coe_filter]
    exact ⟨fun h => ⟨hU u (by omega), by omega⟩, fun h => by omega⟩
  simp only [h1]
  rw [Finset.sum_comm]
  refine Finset.sum_congr rfl (fun u _ => ?_)
  rw [← Finset.card_filter]
  have : (Finset.range K).filter (fun k => k < t u) = Finset.range (t u) := by
    ext k
    simp only [Finset.mem_filter, Finset.mem_range]
    have := hK u
    omega
  rw [this, Finset.card_range]

theorem sum_count_users (l : List Int) (U : Finset Int) (hU : ∀ u ∈ l, u ∈ U) :
    ∑ u ∈ U, l.countP (fun x => x = u) = l.length := by
  induction l with
  | nil => simp
  | cons a l ih =>
    have h1 : ∀ u, (a :: l).countP (fun x => decide (x = u)) =
        l.countP (fun x => decide (x = u)) + if a = u then 1 else 0 := by
      intro u
      rw [List.countP_cons]
      simp
    simp only [h1]
    rw [Finset.sum_add_distrib, ih (fun u hu => hU u (by simp [hu])), Finset.sum_ite_eq,
      if_pos (hU a (by simp)), List.length_cons]

theorem sum_exposuresAtSpend (log : RawLog) (s : ℚ) (U : Finset Int)
    (hU : ∀ u ∈ users log, u ∈ U) : ∑ u ∈ U, exposuresAtSpend log s u = affordable log s := by
  have h1 : ∀ u, exposuresAtSpend log s u =
      ((log.filter (fun e => decide (e.2 ≤ s))).map (·.1)).countP (fun x => x = u) := by
    intro u
    unfold exposuresAtSpend
    rw [List.countP_map, List.countP_filter]
    congr 1
    funext e
    simp
  simp only [h1]
  rw [sum_count_users _ U, List.length_map]
  · unfold affordable
    rw [List.countP_eq_length_filter]
  · intro u hu
    obtain ⟨e, he, rfl⟩ := List.mem_map.1 hu
    exact hU _ ⟨e, (List.mem_filter.1 he).1, rfl⟩

theorem sum_exposuresAtImpressions (log : RawLog) (n : Nat) (U : Finset Int)
    (hU : ∀ u ∈ users log, u ∈ U) :
    ∑ u ∈ U, exposuresAtImpressions log n u = min n log.length := by
  have h1 : ∀ u, exposuresAtImpressions log n u =
      (((sortBySpend log).take n).map (·.1)).countP (fun x => x = u) := by
    intro u
    rw [← take_sort_count, List.count_eq_countP]
    congr 1
  simp only [h1]
  rw [sum_count_users _ U, List.length_map, List.length_take, (sortBySpend_perm log).length_eq]
  intro u hu
  obtain ⟨e, he, rfl⟩ := List.mem_map.1 hu
  exact hU _ ⟨e, (sortBySpend_perm log).subset (List.mem_of_mem_take he), rfl⟩

theorem sum_list_sum {α : Type} (l : List α) (f : α → Int → Nat) (U : Finset Int) :
    ∑ u ∈ U, (l.map (fun a => f a u)).sum = (l.map (fun a => ∑ u ∈ U, f a u)).sum := by
  induction l with
  | nil => simp
  | cons a l ih => simp only [List.map_cons, List.sum_cons, Finset.sum_add_distrib, ih]

/-- **C07** No impression is lost or counted twice: if enough frequencies are asked for, the k+
reaches add up to the impressions delivered, which are those bought or all there are. -/
theorem C07_impressions_add_up (ds : DataSet) (logs : List Log)
    (hb : List.Forall₂ Built logs ds.data) (v : List Nat) (hv : v.length = logs.length)
    (F : Nat) (hF : 1 ≤ F) (hmax : ((logs.zip v).map (fun lv => min lv.2 lv.1.length)).sum ≤ F) :
    ∃ r, ∃ x : Nat → ℚ, ds.reachByImpressions (v.map (fun n : Nat => (n : Int))) F = .ok r ∧
      (∀ k : Nat, k < F → r.reach ((k + 1 : Nat) : Int) = .ok (x k)) ∧
      ∑ k ∈ Finset.range F, x k =
        (((logs.zip v).map (fun lv => min lv.2 lv.1.length)).sum : Nat) := by
  obtain ⟨r, h1, -, -, h3, -⟩ := C07_reach_by_impressions ds logs hb v hv F hF
  refine ⟨r, fun k => (kPlusReach (totalAtImpressions logs v) (k + 1) : ℚ), h1,
    fun k hk => h3 (k + 1) (by omega) (by omega), ?_⟩
  obtain ⟨U, hU⟩ : ∃ U : Finset Int, (U : Set Int) = allUsers logs :=
    ⟨(allUsers_finite logs).toFinset, by simp⟩
  have hmem : ∀ u, u ∈ allUsers logs → u ∈ U := fun u hu => by
    rw [← hU] at hu; exact_mod_cast hu
  have hs : ∑ u ∈ U, totalAtImpressions logs v u =
      ((logs.zip v).map (fun lv => min lv.2 lv.1.length)).sum := by
    unfold totalAtImpressions
    rw [sum_list_sum (logs.zip v) (fun lv u => exposuresAtImpressions lv.1 lv.2 u) U]
    congr 1
    refine List.map_congr_left (fun lv hlv => ?_)
    exact sum_exposuresAtImpressions lv.1 lv.2 U
      (fun u hu => hmem u ⟨lv.1, (List.of_mem_zip hlv).1, hu⟩)
  have hpos : ∀ u, 1 ≤ totalAtImpressions logs v u → u ∈ U := by
    intro u hu
    obtain ⟨lv, hlv, hp⟩ := exists_pos_of_sum (logs.zip v)
      (fun lv => exposuresAtImpressions lv.1 lv.2 u) hu
    exact hmem u ⟨lv.1, (List.of_mem_zip hlv).1, exposuresAtImpressions_mem _ _ _ hp⟩
  have hle : ∀ u, totalAtImpressions logs v u ≤ F := by
    intro u
    by_cases hu : u ∈ U
    · exact (Finset.single_le_sum (f := totalAtImpressions logs v) (fun _ _ => Nat.zero_le _) hu).trans
        (hs.le.trans hmax)
    · have : ¬ 1 ≤ totalAtImpressions logs v u := fun h => hu (hpos u h)
      omega
  rw [← hs, ← sum_kPlusReach _ U hpos F hle]
  push_cast
  rfl

example : List.Forall₂ Built exLogs exDataSet.data ∧ ([2, 1] : List Nat).length = exLogs.length ∧
    ((exLogs.zip [2, 1]).map (fun lv => min lv.2 lv.1.length)).sum = 3 ∧
    (exDataSet.reachByImpressions [2, 1] 3).toOption.map (·.kplusReaches) = some [2, 1, 0] :=
  ⟨exBuilt, rfl, by decide +kernel, by decide +kernel⟩

/-- **C08** The same with spends: the k+ reaches add up to the affordable impressions, which are the
impressions of the point. -/
theorem C08_impressions_add_up (ds : DataSet) (logs : List Log)
    (hb : List.Forall₂ Built logs ds.data) (s : List ℚ) (hs : s.length = logs.length)
    (F : Nat) (hF : 1 ≤ F) (hmax : ((logs.zip s).map (fun ls => affordable ls.1 ls.2)).sum ≤ F) :
    ∃ r, ∃ x : Nat → ℚ, ds.reachBySpend s F = .ok r ∧
      (∀ k : Nat, k < F → r.reach ((k + 1 : Nat) : Int) = .ok (x k)) ∧
      ∑ k ∈ Finset.range F, x k = r.impressions.sum := by
  obtain ⟨r, h1, h2, -, -, h3, -⟩ := C08_reach_by_spend ds logs hb s hs F hF
  refine ⟨r, fun k => (kPlusReach (totalAtSpend logs s) (k + 1) : ℚ), h1,
    fun k hk => h3 (k + 1) (by omega) (by omega), ?_⟩
  obtain ⟨U, hU⟩ : ∃ U : Finset Int, (U : Set Int) = allUsers logs :=
    ⟨(allUsers_finite logs).toFinset, by simp⟩
  have hmem : ∀ u, u ∈ allUsers logs → u ∈ U := fun u hu => by
    rw [← hU] at hu; exact_mod_cast hu
  have hsum : ∑ u ∈ U, totalAtSpend logs s u =
      ((logs.zip s).map (fun ls => affordable ls.1 ls.2)).sum := by
    unfold totalAtSpend
    rw [sum_list_sum (logs.zip s) (fun ls u => exposuresAtSpend ls.1 ls.2 u) U]
    congr 1
    refine List.map_congr_left (fun ls hls => ?_)
    exact sum_exposuresAtSpend ls.1 ls.2 U
      (fun u hu => hmem u ⟨ls.1, (List.of_mem_zip hls).1, hu⟩)
  have hpos : ∀ u, 1 ≤ totalAtSpend logs s u → u ∈ U := by
    intro u hu
    obtain ⟨ls, hls, hp⟩ := exists_pos_of_sum (logs.zip s)
      (fun ls => exposuresAtSpend ls.1 ls.2 u) hu
    exact hmem u ⟨ls.1, (List.of_mem_zip hls).1, exposuresAtSpend_mem _ _ _ hp⟩
  have hle : ∀ u, totalAtSpend logs s u ≤ F := by
    intro u
    by_cases hu : u ∈ U
    · exact (Finset.single_le_sum (f := totalAtSpend logs s) (fun _ _ => Nat.zero_le _) hu).trans
        (hsum.le.trans hmax)
    · have : ¬ 1 ≤ totalAtSpend logs s u := fun h => hu (hpos u h)
      omega
  have hcast : r.impressions.sum =
      ((((logs.zip s).map (fun ls => affordable ls.1 ls.2)).sum : Nat) : ℚ) := by
    rw [h2, Nat.cast_list_sum, List.map_map]
    rfl
  rw [hcast, ← hsum, ← sum_kPlusReach _ U hpos F hle]
  push_cast
  rfl

example : ((exLogs.zip [2, 1]).map (fun ls => affordable ls.1 ls.2)).sum = 5 ∧
    (exDataSet.reachBySpend [2, 1] 5).toOption.map (fun r => (r.kplusReaches, r.impressions))
      = some ([3, 1, 1, 0, 0], [3, 2]) := by decide +kernel

/-! ## Goerg model -/

/-- **C28** For a model fitted to a positive reach, the k+ reaches for `x` impressions add up to `x`
over all frequencies: the people of the model see exactly the impressions asked for. -/
theorem C28_impressions_add_up (data : List ReachPoint) (m : GoergModel)
    (hm : GoergModel.new data = .ok m) (hr : 0 < m.reach) (x : ℚ) (hx : 0 ≤ x) :
    ∃ y : Nat → ℚ, (∀ F k : Nat, k < F → ∃ pt, m.byImpressions [x] F = .ok pt ∧
        pt.reach ((k + 1 : Nat) : Int) = .ok (y k)) ∧
      HasSum (fun k => (y k : ℝ)) x := by
  obtain ⟨hrho, hb⟩ := goerg_rho_pos data m hm hr
  refine ⟨fun k => m.rho * (x / (x + m.rho)) ^ (k + 1), fun F k hk => ?_, ?_⟩
  · obtain ⟨pt, p1, _, _, _, p5⟩ := goerg_byImpressions_ok m x F (by rw [hb]; positivity)
    refine ⟨pt, p1, ?_⟩
    rw [p5 (k + 1) (by omega) (by omega), hb]
  · obtain ⟨t0, t1, -⟩ := goerg_ratio m.rho x hrho hx
    have t0' : (0 : ℝ) ≤ ((x / (x + m.rho) : ℚ) : ℝ) := by exact_mod_cast t0
    have t1' : ((x / (x + m.rho) : ℚ) : ℝ) < 1 := by exact_mod_cast t1
    have h := (hasSum_geometric_of_lt_one t0' t1').mul_left
      ((m.rho : ℝ) * ((x / (x + m.rho) : ℚ) : ℝ))
    have he : (fun k : ℕ => ((m.rho * (x / (x + m.rho)) ^ (k + 1) : ℚ) : ℝ)) = fun k : ℕ =>
        (m.rho : ℝ) * ((x / (x + m.rho) : ℚ) : ℝ) * ((x / (x + m.rho) : ℚ) : ℝ) ^ k := by
      funext k
      push_cast
      ring
    rw [he]
    have hv : (m.rho : ℝ) * ((x / (x + m.rho) : ℚ) : ℝ) *
        (1 - ((x / (x + m.rho) : ℚ) : ℝ))⁻¹ = x := by
      have h1 : (0 : ℝ) < (m.rho : ℝ) := by exact_mod_cast hrho
      have h2 : (0 : ℝ) ≤ (x : ℝ) := by exact_mod_cast hx
      have h3 : (x : ℝ) + m.rho ≠ 0 := by positivity
      push_cast
      rw [show (1 : ℝ) - x / (x + m.rho) = m.rho / (x + m.rho) by field_simp; ring]
      field_simp
    rwa [hv] at h

example : GoergModel.new [exGoergPoint] = .ok exGoerg ∧ 0 < exGoerg.reach ∧
    (exGoerg.byImpressions [25] 4).toOption.map (·.kplusReaches) =
      some [25 / 2, 25 / 4, 25 / 8, 25 / 16] := by
  refine ⟨by decide +kernel, by decide +kernel, by decide +kernel⟩

/-- **C28** The law behind the Goerg model: every one of the `max_reach` people sees a Poisson number of
impressions whose rate is exponentially distributed with mean `x / max_reach`.  (The heterogeneous
generator adds one to this number.) -/
theorem C28_law (data : List ReachPoint) (m : GoergModel)
    (hm : GoergModel.new data = .ok m) (hr : 0 < m.reach) (x : ℚ) (hx : 0 < x) (F k : Nat)
    (hk : k < F) :
    ∃ pt, ∃ y : ℚ, m.byImpressions [x] F = .ok pt ∧ pt.reach ((k + 1 : Nat) : Int) = .ok y ∧
      (y : ℝ) = (m.maxReach : ℝ) *
        (1 - ∑ n ∈ Finset.range (k + 1), heterogeneousLaw 1 ((x : ℝ) / m.maxReach) (n + 1)) := by
  obtain ⟨hrho, hb⟩ := goerg_rho_pos data m hm hr
  obtain ⟨pt, p1, _, _, _, p5⟩ := goerg_byImpressions_ok m x F (by rw [hb]; positivity)
  refine ⟨pt, _, p1, p5 (k + 1) (by omega) (by omega), ?_⟩
  have h1 : (0 : ℝ) < (m.rho : ℝ) := by exact_mod_cast hrho
  have h2 : (0 : ℝ) < (x : ℝ) := by exact_mod_cast hx
  have hs : 0 < (x : ℝ) / m.rho := by positivity
  have ht := C54_exponential_tail ((x : ℝ) / m.rho) hs.le (k + 1)
  rw [Finset.sum_range_succ', show gammaPoissonPmf 1 ((x : ℝ) / m.rho) 0 = 0 from rfl, add_zero] at ht
  have he : ∀ n ∈ Finset.range (k + 1), heterogeneousLaw 1 ((x : ℝ) / m.maxReach) (n + 1) =
      gammaPoissonPmf 1 ((x : ℝ) / m.rho) (n + 1) :=
    fun n _ => C44_heterogeneous_law 1 _ one_pos hs (n + 1)
  rw [Finset.sum_congr rfl he, ht, hb]
  unfold GoergModel.maxReach
  push_cast
  congr 2
  field_simp
  ring

/-! ## Dirac mixtures -/

/-- Showing every impression of a Poisson number with the same probability gives a Poisson number. -/
theorem shown_poisson (lam p : ℝ) (k : ℕ) :
    HasSum (fun n : ℕ => (n.choose k : ℝ) * p ^ k * (1 - p) ^ (n - k) * poissonLaw lam n)
      (poissonLaw (lam * p) k) := by
  have hk : ∀ j : ℕ, ((j + k).choose k : ℝ) * p ^ k * (1 - p) ^ (j + k - k) * poissonLaw lam (j + k) =
      Real.exp (-lam) * (lam * p) ^ k / Nat.factorial k *
        (((1 - p) * lam) ^ j / (Nat.factorial j : ℝ)) := by
    intro j
    unfold poissonLaw
    have hc : ((j + k).choose k : ℝ) * (Nat.factorial k) * (Nat.factorial j) =
        ((Nat.factorial (j + k) : ℕ) : ℝ) := by
      have := Nat.add_choose_mul_factorial_mul_factorial j k
      rw [← this]
      push_cast
      ring
    have f1 : ((Nat.factorial k : ℕ) : ℝ) ≠ 0 := by exact_mod_cast Nat.factorial_ne_zero k
    have f2 : ((Nat.factorial j : ℕ) : ℝ) ≠ 0 := by exact_mod_cast Nat.factorial_ne_zero j
    have f3 : ((j + k).choose k : ℝ) ≠ 0 := by
      exact_mod_cast (Nat.choose_pos (Nat.le_add_left k j)).ne'
    rw [← hc, Nat.add_sub_cancel, mul_pow, mul_pow, pow_add]
    field_simp
  have hsum := (NormedSpace.expSeries_div_hasSum_exp (𝔸 := ℝ) ((1 - p) * lam)).mul_left
    (Real.exp (-lam) * (lam * p) ^ k / Nat.factorial k)
  rw [← Real.exp_eq_exp_ℝ] at hsum
  have h0 : ∀ n ∈ Finset.range k,
      (n.choose k : ℝ) * p ^ k * (1 - p) ^ (n - k) * poissonLaw lam n = 0 := by
    intro n hn
    rw [Nat.choose_eq_zero_of_lt (Finset.mem_range.1 hn)]
    simp
  have htot : HasSum (fun n : ℕ => (n.choose k : ℝ) * p ^ k * (1 - p) ^ (n - k) * poissonLaw lam n)
      (Real.exp (-lam) * (lam * p) ^ k / Nat.factorial k * Real.exp ((1 - p) * lam)) := by
    rw [← hasSum_nat_add_iff' k, Finset.sum_eq_zero h0, sub_zero]
    simp only [hk]
    exact hsum
  have hv : Real.exp (-lam) * (lam * p) ^ k / Nat.factorial k * Real.exp ((1 - p) * lam) =
      poissonLaw (lam * p) k := by
    unfold poissonLaw
    rw [show -(lam * p) = -lam + (1 - p) * lam by ring, Real.exp_add]
    ring
  rwa [hv] at htot

/-- The number of impressions per person in a mixture of Poisson laws with the given weights and
means. -/
noncomputable def mixtureLaw (ws : List ℝ) (comps : List ℚ) (n : ℕ) : ℝ :=
  (List.zipWith (fun w (c : ℚ) => w * (Real.exp (-(c : ℝ)) * (c : ℝ) ^ n / n.factorial)) ws comps).sum

theorem shown_mixture (ws : List ℝ) (comps : List ℚ) (p : ℝ) (k : ℕ) :
    HasSum (fun n : ℕ => (n.choose k : ℝ) * p ^ k * (1 - p) ^ (n - k) * mixtureLaw ws comps n)
      (List.zipWith (fun w (c : ℚ) => w * poissonLaw (c * p) k) ws comps).sum := by
  unfold mixtureLaw
  induction ws generalizing comps with
  | nil => simp
  | cons w ws ih =>
    cases comps with
    | nil => simp
    | cons c comps =>
      have h := ((shown_poisson (c : ℝ) p k).mul_left w).add (ih comps)
      simp only [List.zipWith_cons_cons, List.sum_cons]
      have he : (fun n : ℕ => (n.choose k : ℝ) * p ^ k * (1 - p) ^ (n - k) *
          (w * (Real.exp (-(c : ℝ)) * (c : ℝ) ^ n / n.factorial) +
            (List.zipWith (fun w (c : ℚ) => w * (Real.exp (-(c : ℝ)) * (c : ℝ) ^ n / n.factorial))
              ws comps).sum)) = fun n : ℕ =>
          w * ((n.choose k : ℝ) * p ^ k * (1 - p) ^ (n - k) * poissonLaw (c : ℝ) n) +
          (n.choose k : ℝ) * p ^ k * (1 - p) ^ (n - k) *
            (List.zipWith (fun w (c : ℚ) => w * (Real.exp (-(c : ℝ)) * (c : ℝ) ^ n / n.factorial))
              ws comps).sum := by
        funext n
        unfold poissonLaw
        ring
      rw [he]
      exact h

/-- **C53** Predicting fewer impressions is thinning: if every impression of the fitted mixture is kept
with probability `s`, independently of the others, the numbers of impressions that are left have exactly
the predicted probabilities.  (For `s` outside of [0, 1] the equation holds, but has no such meaning.) -/
theorem C53_thinning (solve : Dirac.Solve) (obs : List ℚ) (F0 : Nat) (comps : List ℚ) (ws : List ℝ)
    (hl : ws.length = comps.length) (hne : comps ≠ []) (s : ℝ) (F : Nat) :
    ∃ v, (⟨obs, F0, comps, some ws⟩ : Dirac.Optimizer).predict solve s F = .ok v ∧
      ∀ f, f < F → v.getD f 0 = Shown (mixtureLaw ws comps) s f := by
  obtain ⟨v, h1, -, h3, -⟩ := predict_fitted solve obs F0 comps ws hl hne s F
  refine ⟨v, h1, fun f hf => ?_⟩
  unfold Shown
  rw [(shown_mixture ws comps s f).tsum_eq, h3 f]
  congr 2
  funext w c
  rw [poissonVec_getD, if_pos hf]
  rfl

/-- Half of the impressions of a mixture of 30 % people who see none and 70 % who see two on average:
the mixture of those who see none and those who see one. -/
example (solve : Dirac.Solve) :
    ∃ v, (⟨[1], 1, [0, 2], some [3 / 10, 7 / 10]⟩ : Dirac.Optimizer).predict solve (1 / 2) 3 = .ok v ∧
      v.getD 1 0 = 7 / 10 * Real.exp (-1) ∧
      v.getD 1 0 = Shown (mixtureLaw [3 / 10, 7 / 10] [0, 2]) (1 / 2) 1 := by
  obtain ⟨v, h1, h2⟩ := C53_thinning solve [1] 1 [0, 2] [3 / 10, 7 / 10] rfl (by simp) (1 / 2) 3
  obtain ⟨v', h1', -, h3, -⟩ := predict_fitted solve [1] 1 [0, 2] [3 / 10, 7 / 10] rfl (by simp) (1 / 2) 3
  obtain rfl : v = v' := by rw [h1] at h1'; injection h1'
  refine ⟨v, h1, ?_, h2 1 (by norm_num)⟩
  rw [h3 1]
  simp only [poissonVec_getD]
  simp [Dirac.poissonPmf]

end Verif
