import Verif.Model.DiracSolve
import Verif.Lemmas.Likelihood
import Verif.Props.Dirac

/-!
# C53, C78: what the fit of the Dirac mixture model achieves

For exact solutions of the optimization: they exist, a simple condition characterizes them, and the
probabilities of all observed frequencies are determined.  The reach at the training impressions is
never overestimated; it is reproduced if the observed histogram is a mixture of the components, but not
in general.
-/

namespace Verif

open Dirac Likelihood

/-! ## Lists and sums -/

theorem zipWith_sum_range {α β : Type} (g : α → β → ℝ) (a0 : α) (b0 : β) (as : List α) (bs : List β)
    (n : Nat) (ha : as.length = n) (hb : bs.length = n) :
    (List.zipWith g as bs).sum = ∑ i ∈ Finset.range n, g (as.getD i a0) (bs.getD i b0) := by
  subst ha
  induction as generalizing bs with
  | nil => simp
  | cons a as ih =>
    cases bs with
    | nil => simp at hb
    | cons b bs =>
      rw [List.zipWith_cons_cons, List.sum_cons, List.length_cons, Finset.sum_range_succ',
        ih bs (by simpa using hb)]
      simp [add_comm]

theorem sum_eq_range (ws : List ℝ) (n : Nat) (h : ws.length = n) :
    ws.sum = ∑ i ∈ Finset.range n, ws.getD i 0 := by
  subst h
  induction ws with
  | nil => simp
  | cons w ws ih =>
    rw [List.sum_cons, List.length_cons, Finset.sum_range_succ', ih]
    simp [add_comm]

/-- The components as a function. -/
def pmfAt (pmfs : List (List ℝ)) (i f : Nat) : ℝ := (pmfs.getD i []).getD f 0

/-- The observed shares as a function. -/
noncomputable def obsAt (obs : List ℚ) (f : Nat) : ℝ := ((obs.getD f 0 : ℚ) : ℝ)

theorem feasible_weights {pmfs : List (List ℝ)} {ws : List ℝ} (h : Feasible pmfs ws) :
    Weights pmfs.length (fun i => ws.getD i 0) := by
  obtain ⟨h1, h2, h3⟩ := h
  constructor
  · intro i hi
    beta_reduce
    rw [List.getD_eq_getElem _ _ (by omega)]
    exact h2 _ (List.getElem_mem _)
  · rw [← h3, sum_eq_range ws _ h1]

theorem weights_feasible {pmfs : List (List ℝ)} {w : Nat → ℝ} (h : Weights pmfs.length w) :
    Feasible pmfs ((List.range pmfs.length).map w) := by
  refine ⟨by simp, ?_, ?_⟩
  · intro x hx
    obtain ⟨i, hi, rfl⟩ := List.mem_map.1 hx
    exact h.1 i (List.mem_range.1 hi)
  · rw [sum_eq_range _ pmfs.length (by simp), ← h.2]
    refine Finset.sum_congr rfl (fun i hi => ?_)
    rw [List.getD_eq_getElem _ _ (by simpa using hi)]
    simp

theorem weightedSum_mixed {pmfs : List (List ℝ)} (hne : pmfs ≠ []) {L : Nat}
    (hL : ∀ p ∈ pmfs, p.length = L) {ws : List ℝ} (hws : ws.length = pmfs.length) :
    ∃ v, weightedSum ws pmfs = .ok v ∧ v.length = L ∧
      ∀ f, v.getD f 0 = mixed pmfs.length (pmfAt pmfs) (fun i => ws.getD i 0) f := by
  obtain ⟨v, h1, h2, h3⟩ := weightedSum_ok ws pmfs L hws hne hL
  refine ⟨v, h1, h2, fun f => ?_⟩
  rw [h3 f, zipWith_sum_range (fun w p => w * List.getD p f 0) 0 [] ws pmfs pmfs.length hws rfl]
  rfl

theorem mixed_of_map {pmfs : List (List ℝ)} (w : Nat → ℝ) (f : Nat) :
    mixed pmfs.length (pmfAt pmfs) (fun i => ((List.range pmfs.length).map w).getD i 0) f =
      mixed pmfs.length (pmfAt pmfs) w f := by
  unfold mixed
  refine Finset.sum_congr rfl (fun i hi => ?_)
  beta_reduce
  rw [List.getD_eq_getElem _ _ (by simpa using hi)]
  simp

theorem crossEntropy_logLik {obs : List ℚ} {pmfs : List (List ℝ)} {v : List ℝ} {w : Nat → ℝ}
    (hv : v.length = obs.length)
    (h : ∀ f, v.getD f 0 = mixed pmfs.length (pmfAt pmfs) w f) :
    crossEntropy obs v =
      -logLik pmfs.length obs.length (obsAt obs) (pmfAt pmfs) (1 / 10 ^ 200) w := by
  unfold crossEntropy logLik
  rw [zipWith_sum_range _ 0 0 obs v obs.length rfl hv]
  congr 1
  refine Finset.sum_congr rfl (fun f _ => ?_)
  rw [h f]
  rfl

/-- Solutions have the greatest likelihood. -/
theorem solution_iff {obs : List ℚ} {pmfs : List (List ℝ)} (hne : pmfs ≠ [])
    (hL : ∀ p ∈ pmfs, p.length = obs.length) (ws : List ℝ) :
    Solution obs pmfs ws ↔ Feasible pmfs ws ∧ ∀ w, Weights pmfs.length w →
      logLik pmfs.length obs.length (obsAt obs) (pmfAt pmfs) (1 / 10 ^ 200) w ≤
        logLik pmfs.length obs.length (obsAt obs) (pmfAt pmfs) (1 / 10 ^ 200)
          (fun i => ws.getD i 0) := by
  constructor
  · rintro ⟨hf, v, h1, h2⟩
    refine ⟨hf, fun w hw => ?_⟩
    obtain ⟨v0, a1, a2, a3⟩ := weightedSum_mixed hne hL hf.1
    rw [h1] at a1
    cases a1
    obtain ⟨v', b1, b2, b3⟩ := weightedSum_mixed hne hL (weights_feasible hw).1
    have := h2 _ _ (weights_feasible hw) b1
    rw [crossEntropy_logLik a2 a3,
      crossEntropy_logLik (w := w) b2 (fun f => by rw [b3 f, mixed_of_map])] at this
    linarith
  · rintro ⟨hf, h⟩
    obtain ⟨v, a1, a2, a3⟩ := weightedSum_mixed hne hL hf.1
    refine ⟨hf, v, a1, fun ws' v' hf' h' => ?_⟩
    obtain ⟨v0, b1, b2, b3⟩ := weightedSum_mixed hne hL hf'.1
    rw [h'] at b1
    cases b1
    rw [crossEntropy_logLik a2 a3, crossEntropy_logLik b2 b3]
    have := h _ (feasible_weights hf')
    linarith

theorem pmfAt_nonneg {pmfs : List (List ℝ)} (h : ∀ p ∈ pmfs, ∀ x ∈ p, 0 ≤ x) (i f : Nat) :
    0 ≤ pmfAt pmfs i f := by
  unfold pmfAt
  by_cases hi : i < pmfs.length
  · rw [List.getD_eq_getElem _ _ hi]
    by_cases hf : f < (pmfs[i]).length
    · rw [List.getD_eq_getElem _ _ hf]
      exact h _ (List.getElem_mem _) _ (List.getElem_mem _)
    · rw [List.getD_eq_default _ _ (by omega)]
  · rw [List.getD_eq_default _ _ (by omega : pmfs.length ≤ i)]
    simp

theorem obsAt_nonneg {obs : List ℚ} (h : ∀ o ∈ obs, 0 ≤ o) (f : Nat) : 0 ≤ obsAt obs f := by
  unfold obsAt
  by_cases hf : f < obs.length
  · rw [List.getD_eq_getElem _ _ hf]
    exact_mod_cast h _ (List.getElem_mem _)
  · rw [List.getD_eq_default _ _ (by omega)]
    simp

theorem obsAt_sum (obs : List ℚ) : ∑ f ∈ Finset.range obs.length, obsAt obs f = (obs.sum : ℚ) := by
  unfold obsAt
  induction obs with
  | nil => simp
  | cons o obs ih =>
    rw [List.length_cons, Finset.sum_range_succ', List.sum_cons]
    simp only [List.getD_cons_succ, List.getD_cons_zero, ih]
    push_cast
    ring

theorem cast_list_sum (l : List ℚ) : ((l.sum : ℚ) : ℝ) = (l.map (fun q : ℚ => (q : ℝ))).sum := by
  induction l with
  | nil => simp
  | cons a l ih =>
    rw [List.sum_cons, List.map_cons, List.sum_cons, ← ih]
    push_cast
    rfl

theorem eps_pos : (0 : ℝ) < 1 / 10 ^ 200 := by positivity

/-! ## C78: solutions -/

/-- **C78 (solutions exist).** The optimization has a solution for all components of the length of the
histogram. -/
theorem C78_solution_exists (obs : List ℚ) (pmfs : List (List ℝ)) (hne : pmfs ≠ [])
    (hL : ∀ p ∈ pmfs, p.length = obs.length ∧ ∀ x ∈ p, 0 ≤ x) : ∃ ws, Solution obs pmfs ws := by
  obtain ⟨w, hw, hmax⟩ := optimal_exists (n := pmfs.length) (L := obs.length) (o := obsAt obs)
    (p := pmfAt pmfs) eps_pos (fun i _ f _ => pmfAt_nonneg (fun p hp => (hL p hp).2) i f)
    (List.length_pos_iff.2 hne)
  refine ⟨(List.range pmfs.length).map w,
    (solution_iff hne (fun p hp => (hL p hp).1) _).2 ⟨weights_feasible hw, fun v hv => ?_⟩⟩
  have he : logLik pmfs.length obs.length (obsAt obs) (pmfAt pmfs) (1 / 10 ^ 200)
      (fun i => ((List.range pmfs.length).map w).getD i 0) =
      logLik pmfs.length obs.length (obsAt obs) (pmfAt pmfs) (1 / 10 ^ 200) w := by
    unfold logLik
    refine Finset.sum_congr rfl (fun f _ => ?_)
    rw [mixed_of_map]
  rw [he]
  exact hmax v hv

/-- A solver that finds solutions. -/
noncomputable def exactSolve : Solve := fun obs pmfs =>
  open Classical in
  if h : ∃ ws, Solution obs pmfs ws then .ok h.choose else .error .valueError

/-- There are solvers that keep the documented promise. -/
theorem exactSolve_exact : Exact exactSolve := by
  intro obs pmfs hne hL
  have h := C78_solution_exists obs pmfs hne hL
  refine ⟨h.choose, ?_, h.choose_spec⟩
  unfold exactSolve
  rw [dif_pos h]

/-- **C78 (solutions recognized).** Weights solve the optimization exactly if no component is
underrated: with `v` the mixture (and the constant 10⁻²⁰⁰ added to it), the sum of
`observed * p / v` over the frequencies is for no component `p` larger than for the mixture itself. -/
theorem C78_solution_iff (obs : List ℚ) (hobs : ∀ o ∈ obs, 0 ≤ o) (pmfs : List (List ℝ))
    (hne : pmfs ≠ []) (hL : ∀ p ∈ pmfs, p.length = obs.length ∧ ∀ x ∈ p, 0 ≤ x) (ws : List ℝ)
    (hws : Feasible pmfs ws) :
    ∃ v, weightedSum ws pmfs = .ok v ∧ (Solution obs pmfs ws ↔ ∀ p ∈ pmfs,
      ∑ f ∈ Finset.range obs.length, (obs.getD f 0 : ℝ) * p.getD f 0 / (v.getD f 0 + 1 / 10 ^ 200) ≤
      ∑ f ∈ Finset.range obs.length,
        (obs.getD f 0 : ℝ) * v.getD f 0 / (v.getD f 0 + 1 / 10 ^ 200)) := by
  obtain ⟨v, h1, h2, h3⟩ := weightedSum_mixed hne (fun p hp => (hL p hp).1) hws.1
  refine ⟨v, h1, ?_⟩
  rw [solution_iff hne (fun p hp => (hL p hp).1), and_iff_right hws,
    optimal_iff eps_pos (fun f _ => obsAt_nonneg hobs f)
      (fun i _ f _ => pmfAt_nonneg (fun p hp => (hL p hp).2) i f) (feasible_weights hws), sum_gain]
  have hg : ∀ i, gain pmfs.length obs.length (obsAt obs) (pmfAt pmfs) (1 / 10 ^ 200)
      (fun i => ws.getD i 0) i = ∑ f ∈ Finset.range obs.length,
        (obs.getD f 0 : ℝ) * (pmfs.getD i []).getD f 0 / (v.getD f 0 + 1 / 10 ^ 200) := by
    intro i
    unfold gain
    simp only [← h3]
    rfl
  simp only [hg, ← h3]
  constructor
  · intro h p hp
    obtain ⟨i, hi, rfl⟩ := List.mem_iff_getElem.1 hp
    have := h i hi
    rwa [List.getD_eq_getElem _ _ hi] at this
  · intro h i hi
    have := h _ (List.getElem_mem hi)
    rwa [List.getD_eq_getElem _ _ hi]

/-- **C78 (solutions determined).** All solutions give the same probability to every frequency that was
observed. -/
theorem C78_solution_unique (obs : List ℚ) (hobs : ∀ o ∈ obs, 0 ≤ o) (pmfs : List (List ℝ))
    (hne : pmfs ≠ []) (hL : ∀ p ∈ pmfs, p.length = obs.length ∧ ∀ x ∈ p, 0 ≤ x) (ws ws' : List ℝ)
    (h : Solution obs pmfs ws) (h' : Solution obs pmfs ws') :
    ∃ v v', weightedSum ws pmfs = .ok v ∧ weightedSum ws' pmfs = .ok v' ∧
      ∀ f, 0 < obs.getD f 0 → v.getD f 0 = v'.getD f 0 := by
  have hL1 := fun p hp => (hL p hp).1
  obtain ⟨v, a1, -, a3⟩ := weightedSum_mixed hne hL1 h.1.1
  obtain ⟨v', b1, -, b3⟩ := weightedSum_mixed hne hL1 h'.1.1
  refine ⟨v, v', a1, b1, fun f hf => ?_⟩
  have hfl : f < obs.length := by
    by_contra hcon
    rw [List.getD_eq_default _ _ (by omega)] at hf
    exact lt_irrefl _ hf
  rw [a3 f, b3 f]
  exact (optimal_unique (L := obs.length) (o := obsAt obs) eps_pos (fun f _ => obsAt_nonneg hobs f)
    (fun i _ f _ => pmfAt_nonneg (fun p hp => (hL p hp).2) i f) (feasible_weights h.1)
    (feasible_weights h'.1) ((solution_iff hne hL1 ws).1 h).2 ((solution_iff hne hL1 ws').1 h').2 hfl
    (by unfold obsAt; exact_mod_cast hf)).symm

/-! ## Fitted models -/

/-- The components handed to the optimization. -/
noncomputable def fitPmfs (n F : Nat) (obs : List ℚ) : List (List ℝ) :=
  (purelyWeightedGrid n obs).map (fun c : ℚ => poissonVec c F)

theorem fitPmfs_ok {n F : Nat} {obs : List ℚ} (h : IsPmf obs) :
    ∀ p ∈ fitPmfs n F obs, p.length = F + 1 ∧ ∀ x ∈ p, 0 ≤ x := by
  intro p hp
  obtain ⟨c, hc, rfl⟩ := List.mem_map.1 hp
  refine ⟨poissonVec_length _ _, fun x hx => ?_⟩
  have hc0 := ((C77_components n obs h 0 le_rfl zero_le_one).2.1 c hc).1
  obtain ⟨f, hf, rfl⟩ := List.mem_iff_getElem.1 hx
  rw [← List.getD_eq_getElem _ 0]
  exact poissonVec_nonneg (by exact_mod_cast hc0) F f

theorem fit_mixed {comps : List ℚ} {ws : List ℝ} (h : ws.length = comps.length) (F f : Nat) :
    (List.zipWith (fun w (c : ℚ) => w * (poissonVec (c * 1) F).getD f 0) ws comps).sum =
      mixed (comps.map (fun c : ℚ => poissonVec c F)).length
        (pmfAt (comps.map (fun c : ℚ => poissonVec c F))) (fun i => ws.getD i 0) f := by
  rw [zipWith_sum_range _ 0 0 ws comps comps.length h rfl]
  unfold mixed pmfAt
  rw [List.length_map]
  refine Finset.sum_congr rfl (fun i hi => ?_)
  have hi' := Finset.mem_range.1 hi
  rw [List.getD_eq_getElem (comps.map _) _ (by simpa using hi'), List.getElem_map,
    List.getD_eq_getElem comps _ hi', mul_one]

theorem mixtureTail_mixed {comps : List ℚ} {ws : List ℝ} (h : ws.length = comps.length)
    (hne : comps ≠ []) (F k : Nat) (hk : k ≤ F) :
    mixtureTail ws comps 1 k = ∑ f ∈ Finset.Ico k (F + 1),
      mixed (comps.map (fun c : ℚ => poissonVec c F)).length
        (pmfAt (comps.map (fun c : ℚ => poissonVec c F))) (fun i => ws.getD i 0) f := by
  obtain ⟨v, -, h2, h3, h4⟩ := predict_fitted exSolve [] 0 comps ws h hne 1 F
  rw [← h4 k hk, sum_drop_eq v k _ h2]
  refine Finset.sum_congr rfl (fun f _ => ?_)
  rw [h3 f, fit_mixed h]

/-- The k+ reach observed, as a tail of the histogram. -/
theorem telescope_drop : ∀ (l : List ℚ) (hne : l ≠ []) (k : Nat), k < l.length →
    ((ReachPoint.successiveDifferences l ++ [l.getLast hne]).drop k).sum = l.getD k 0 := by
  intro l
  unfold ReachPoint.successiveDifferences
  induction l with
  | nil => intro h; exact absurd rfl h
  | cons a l ih =>
    intro hne k hk
    cases l with
    | nil =>
      have : k = 0 := by simpa using hk
      subst this
      simp
    | cons b l =>
      have hi := ih (by simp)
      rw [List.tail_cons, List.zipWith_cons_cons, List.cons_append, List.getLast_cons (by simp)]
      rw [List.tail_cons] at hi
      cases k with
      | zero =>
        have := hi 0 (by simp)
        rw [List.drop_zero] at this ⊢
        rw [List.sum_cons, this]
        simp
      | succ k =>
        rw [List.drop_succ_cons, hi k (by simpa using hk)]
        simp

/-- What is known about a coherent training point and the models built from it. -/
structure CoherentPoint (imps ks : List ℚ) (sp : Option (List ℚ)) (U : Nat) (pt : ReachPoint) :
    Prop where
  point : ReachPoint.new imps ks sp (some (U : ℚ)) = .ok pt
  small : U < 2 ^ 31
  positive : 0 < U
  sorted : ks.Pairwise (· ≥ ·)
  nonneg : ∀ k ∈ ks, 0 ≤ k
  bounded : ∀ k ∈ ks, k ≤ U

theorem coherent_fit {imps ks : List ℚ} {sp : Option (List ℚ)} {U : Nat} {pt : ReachPoint}
    (hc : CoherentPoint imps ks sp U pt) {n : Nat} (hn : 0 < n) {m : Dirac.Model}
    (hm : Dirac.Model.new [pt] n = .ok m) :
    ∃ I0 : ℚ, ∃ hne : ks ≠ [], imps[0]? = some I0 ∧ 0 < I0 ∧
      m.hist = (U - ks.getD 0 0) :: (ReachPoint.successiveDifferences ks ++ [ks.getLast hne]) ∧
      m.hist.length = ks.length + 1 ∧ m.hist.sum = U ∧ ValidHist m.hist ∧
      purelyWeightedGrid n (m.hist.map (· / m.hist.sum)) ≠ [] ∧
      ∀ (solve : Solve) (ws : List ℝ),
        solve (m.hist.map (· / m.hist.sum)) (fitPmfs n ks.length (m.hist.map (· / m.hist.sum))) = .ok ws →
        ws.length = (fitPmfs n ks.length (m.hist.map (· / m.hist.sum))).length →
        ∃ m', DiracFit m' ws (purelyWeightedGrid n (m.hist.map (· / m.hist.sum))) (U : ℚ) I0 ∧
          ∀ x F, m.byImpressions solve [x] F = m'.byImpressions solve [x] F := by
  obtain ⟨hp, -, hU0, hsorted, hnn, hle⟩ := hc
  obtain ⟨I0, R, U', last, h1, h2, h3, h4, h5, h6, h7, h8, h9, h10⟩ := dirac_new_ok hm
  have hpt : pt.kplusReaches = ks ∧ pt.frequencies = ReachPoint.successiveDifferences ks ∧
      pt.universeSize? = some (U : ℚ) ∧ pt.impressions = imps := by
    unfold ReachPoint.new at hp
    split at hp
    · cases hp
    · cases hp; exact ⟨rfl, rfl, rfl, rfl⟩
  rw [hpt.2.2.1] at h5
  cases h5
  rw [hpt.1] at h3 h6
  obtain ⟨hne, hl⟩ := pyIndex_neg_one' h6
  have hRD : ks.getD 0 0 = R := by rw [List.getD_eq_getElem?_getD, h3]; rfl
  have hhist : m.hist = (U - ks.getD 0 0) ::
      (ReachPoint.successiveDifferences ks ++ [ks.getLast hne]) := by
    rw [h7, hpt.2.1, hRD, hl]
  have hlen : m.hist.length = ks.length + 1 := by
    have : 0 < ks.length := List.length_pos_iff.2 hne
    rw [hhist]
    simp [ReachPoint.successiveDifferences]
    omega
  have hRmem : R ∈ ks := List.mem_of_getElem? h3
  have hfr : ∀ d ∈ ReachPoint.successiveDifferences ks, 0 ≤ d := by
    clear * - hsorted
    unfold ReachPoint.successiveDifferences
    induction ks with
    | nil => simp
    | cons a l ih =>
      cases l with
      | nil => simp
      | cons b l =>
        rw [List.pairwise_cons] at hsorted
        intro d hd
        rw [List.tail_cons, List.zipWith_cons_cons, List.mem_cons] at hd
        rcases hd with rfl | hd
        · have := hsorted.1 b List.mem_cons_self
          linarith
        · exact ih hsorted.2 d (by simpa using hd)
  have hsum : m.hist.sum = U := by
    have := telescope_drop ks hne 0 (List.length_pos_iff.2 hne)
    rw [List.drop_zero] at this
    rw [hhist, List.sum_cons, this]
    ring
  have hvalid : ValidHist m.hist := by
    refine ⟨by rw [hhist]; simp, ?_, by rw [hsum]; exact_mod_cast hU0⟩
    intro y hy
    rw [hhist] at hy
    rcases List.mem_cons.1 hy with rfl | hy
    · rw [hRD]; linarith [hle R hRmem]
    · rcases List.mem_append.1 hy with hy | hy
      · exact hfr y hy
      · rw [List.mem_singleton.1 hy]; exact hnn _ (List.getLast_mem hne)
  have hgrid := C77_components n (m.hist.map (· / m.hist.sum)) (hist_pmf hvalid) 0 le_rfl zero_le_one
  have hgne : purelyWeightedGrid n (m.hist.map (· / m.hist.sum)) ≠ [] := by
    intro he
    have := hgrid.2.2.1
    unfold purelyWeightedGrid at he
    rw [he] at this
    simp at this
    omega
  refine ⟨I0, hne, by rw [← hpt.2.2.2]; exact h1, by linarith, hhist, hlen, hsum, hvalid, hgne, ?_⟩
  intro solve ws hws hwl
  have hatt : diracAttempt solve m.hist n = .ok ws := by
    unfold diracAttempt
    rw [show m.hist.length - 1 = ks.length by omega]
    exact hws
  rcases C78_retries solve m h10 hvalid (by omega) with
    ⟨j, ws', j1, j2, j3, m', o, j4, j5, j6, j7, j8, j9, j10, j11⟩ | ⟨j1, -⟩
  · have hj : j = 0 := by
      by_contra hj
      obtain ⟨e, he⟩ := j3 0 (by omega)
      rw [pow_zero, Nat.div_one, h9, hatt] at he
      cases he
    subst hj
    rw [pow_zero, Nat.div_one, h9] at j2 j11
    rw [hatt] at j2
    cases j2
    refine ⟨m', ⟨j5, ?_, by rw [hwl, fitPmfs, List.length_map], hgne,
      by rw [j6, h8]; exact hpt.2.2.1, by rw [j6, h8]; exact h1, by linarith⟩, fun x F => ?_⟩
    · obtain ⟨a, b, c, d⟩ := o
      simp only at j10 j11
      subst j10 j11
      exact ⟨a, b, j9⟩
    · have hm2 := (C78_fitted_once solve solve m m' j4).2
      unfold Dirac.Model.byImpressions
      simp only [j4, hm2]
  · obtain ⟨e, he⟩ := j1 0 (by simp; omega)
    rw [pow_zero, Nat.div_one, h9, hatt] at he
    cases he

/-- Zero is among the components if the share of people who are not reached is large enough. -/
theorem grid_zero {n : Nat} {p : ℚ} {pmf : List ℚ} (h : 1 / 2 < n * p) :
    (0 : ℚ) ∈ purelyWeightedGrid n (p :: pmf) := by
  have hdil : dilute (p :: pmf) 0 = p :: pmf := by simp [dilute]
  have hn : 0 < n := by
    rcases Nat.eq_zero_or_pos n with h0 | h0
    · subst h0; norm_num at h
    · exact h0
  have hr : 0 < (pyRound (n * p)).toNat := by
    have := abs_le.1 (pyRound_near (n * p))
    have h2 : (0 : ℚ) < (pyRound (n * p) : ℚ) := by linarith [this.1]
    have h3 : 0 < pyRound (n * p) := by exact_mod_cast h2
    omega
  unfold purelyWeightedGrid inBoundGrid
  rw [hdil]
  unfold inBoundLoop
  rw [if_pos (by exact_mod_cast hn)]
  refine List.mem_append_left _ ?_
  unfold linspaceUnit
  exact List.mem_map.2 ⟨0, List.mem_range.2 hr, by simp⟩

theorem mixtureTail_zero {ws : List ℝ} {comps : List ℚ} (h : ws.length = comps.length) (s : ℝ) :
    mixtureTail ws comps s 0 = ws.sum := by
  unfold mixtureTail
  simp only [poissonTail_zero, mul_one]
  induction ws generalizing comps with
  | nil => simp
  | cons w ws ih =>
    cases comps with
    | nil => simp at h
    | cons c comps =>
      rw [List.zipWith_cons_cons, List.sum_cons, List.sum_cons, ih (by simpa using h)]

/-- Fitting with an exact solver: the fitted model and what is known about its weights. -/
theorem exact_fit {solve : Solve} (hs : Exact solve) {imps ks : List ℚ} {sp : Option (List ℚ)}
    {U : Nat} {pt : ReachPoint} (hc : CoherentPoint imps ks sp U pt) {n : Nat} (hn : 0 < n)
    {m : Dirac.Model} (hm : Dirac.Model.new [pt] n = .ok m) :
    ∃ (I0 : ℚ) (hne : ks ≠ []) (ws : List ℝ) (m' : Dirac.Model) (comps : List ℚ),
      comps = purelyWeightedGrid n (m.hist.map (· / m.hist.sum)) ∧
      imps[0]? = some I0 ∧ 0 < I0 ∧
      m.hist = (U - ks.getD 0 0) :: (ReachPoint.successiveDifferences ks ++ [ks.getLast hne]) ∧
      m.hist.length = ks.length + 1 ∧ m.hist.sum = U ∧ IsPmf (m.hist.map (· / m.hist.sum)) ∧
      (∀ c ∈ comps, 0 ≤ c ∧ c < ks.length + 2) ∧
      MixtureOk ws comps ∧ DiracFit m' ws comps U I0 ∧
      (∀ x F, m.byImpressions solve [x] F = m'.byImpressions solve [x] F) ∧
      solve (m.hist.map (· / m.hist.sum)) (fitPmfs n ks.length (m.hist.map (· / m.hist.sum))) = .ok ws ∧
      Solution (m.hist.map (· / m.hist.sum)) (comps.map (fun c : ℚ => poissonVec c ks.length)) ws := by
  obtain ⟨I0, hne, h1, h2, h3, h4, h5, h6, h7, h8⟩ := coherent_fit hc hn hm
  have hpmf := hist_pmf h6
  have hok := fitPmfs_ok (n := n) (F := ks.length) hpmf
  obtain ⟨ws, w1, w2⟩ := hs (m.hist.map (· / m.hist.sum))
    (fitPmfs n ks.length (m.hist.map (· / m.hist.sum))) (by unfold fitPmfs; simpa using h7)
    (fun p hp => ⟨by rw [(hok p hp).1, List.length_map, h4], (hok p hp).2⟩)
  obtain ⟨m', f1, f2⟩ := h8 solve ws w1 w2.1.1
  have hg : ∀ c ∈ purelyWeightedGrid n (m.hist.map (· / m.hist.sum)), 0 ≤ c ∧ c < ks.length + 2 := by
    intro c hcc
    obtain ⟨a, b⟩ := (C77_components n (m.hist.map (· / m.hist.sum)) hpmf 0 le_rfl zero_le_one).2.1 c hcc
    refine ⟨a, ?_⟩
    rw [List.length_map, h4] at b
    push_cast at b
    linarith
  exact ⟨I0, hne, ws, m', _, rfl, h1, h2, h3, h4, h5, hpmf, hg,
    ⟨w2.1.2.1, w2.1.2.2, fun c hcc => (hg c hcc).1⟩, f1, f2, w1, w2⟩

/-! ## C53: the training point -/

/-- **C53 (never overestimated).** If the optimization is solved exactly and not all but a tiny share of
the people are reached (more than half a component falls on those who are not), then up to the training
impressions the predicted reach is at most the observed one. -/
theorem C53_never_overestimates (solve : Solve) (hs : Exact solve) (imps ks : List ℚ)
    (sp : Option (List ℚ)) (U : Nat) (pt : ReachPoint) (hc : CoherentPoint imps ks sp U pt) (n : Nat)
    (m : Dirac.Model) (hm : Dirac.Model.new [pt] n = .ok m) (R : Nat) (hR : ks[0]? = some (R : ℚ))
    (hz : U < 2 * n * (U - R)) (I0 : ℚ) (hI : imps[0]? = some I0) (x : ℚ) (hx : 0 ≤ x) (hxI : x ≤ I0)
    (F : Nat) (hF : 1 ≤ F) :
    ∃ q m', m.byImpressions solve [x] F = .ok (q, m') ∧ q.kplusReaches.length = F ∧
      q.kplusReaches.getD 0 0 ≤ R := by
  have hn : 0 < n := by
    rcases Nat.eq_zero_or_pos n with h0 | h0
    · subst h0; simp at hz
    · exact h0
  obtain ⟨I0', hne, ws, m', comps, hcomps, a1, a2, a3, a4, a5, a6, a7, a8, a9, a10, -, a11⟩ :=
    exact_fit hs hc hn hm
  rw [hI] at a1
  cases a1
  have hRD : ks.getD 0 0 = R := by rw [List.getD_eq_getElem?_getD, hR]; rfl
  have hRU : R ≤ U := by
    have := hc.bounded _ (List.mem_of_getElem? hR)
    exact_mod_cast this
  have hU0 : (0 : ℚ) < U := by exact_mod_cast hc.positive
  have hU0' : (0 : ℝ) < U := by exact_mod_cast hc.positive
  set obs := m.hist.map (· / m.hist.sum) with hobs
  have hol : obs.length = ks.length + 1 := by rw [hobs, List.length_map, a4]
  have ho : obs = (((U : ℚ) - R) / U) ::
      (ReachPoint.successiveDifferences ks ++ [ks.getLast hne]).map (· / m.hist.sum) := by
    rw [hobs, a3, List.map_cons, ← a3, a5, hRD]
  have hzero : (0 : ℚ) ∈ comps := by
    rw [hcomps, ho]
    refine grid_zero ?_
    have h1 : (U : ℚ) < 2 * n * (U - R) := by
      have h2 : ((U : ℕ) : ℚ) < ((2 * n * (U - R) : ℕ) : ℚ) := by exact_mod_cast hz
      rw [Nat.cast_mul, Nat.cast_mul, Nat.cast_sub hRU] at h2
      simpa using h2
    rw [← mul_div_assoc, lt_div_iff₀ hU0]
    linarith
  obtain ⟨i, hi, hi0⟩ := List.mem_iff_getElem.1 hzero
  set pmfs := comps.map (fun c : ℚ => poissonVec c ks.length) with hpm
  have hpne : pmfs ≠ [] := by
    rw [hpm]
    simpa using a9.nonempty
  have hpl : ∀ p ∈ pmfs, p.length = obs.length := by
    intro p hp
    obtain ⟨c, -, rfl⟩ := List.mem_map.1 hp
    rw [poissonVec_length, hol]
  have hpn : ∀ p ∈ pmfs, ∀ y ∈ p, 0 ≤ y := by
    intro p hp y hy
    rw [hpm, hcomps] at hp
    exact (fitPmfs_ok a6 p hp).2 y hy
  have hk1 : 0 < ks.length := List.length_pos_iff.2 hne
  have hmix := optimal_ge (L := obs.length) (o := obsAt obs) (g := 0) eps_pos
    (fun f _ => obsAt_nonneg a6.nonneg f) (by rw [obsAt_sum, a6.total]; norm_num)
    (fun i _ f _ => pmfAt_nonneg hpn i f) (feasible_weights a11.1)
    ((solution_iff hpne hpl ws).1 a11).2 (i := i) (by rw [hpm, List.length_map]; exact hi)
    (by omega) (by
      unfold pmfAt
      rw [List.getD_eq_getElem pmfs _ (by rw [hpm, List.length_map]; exact hi)]
      simp only [hpm, List.getElem_map, hi0]
      rw [poissonVec_getD, if_pos hk1]
      simp [poissonPmf])
  have htail : mixtureTail ws comps 1 1 ≤ R / U + 1 / 10 ^ 200 := by
    have t0 := mixtureTail_mixed a9.lengths a9.nonempty ks.length 0 (Nat.zero_le _)
    have t1 := mixtureTail_mixed a9.lengths a9.nonempty ks.length 1 hk1
    rw [mixtureTail_zero a9.lengths, a8.total, Finset.sum_eq_sum_Ico_succ_bot (by omega), ← t1] at t0
    have ho0 : obsAt obs 0 = 1 - R / U := by
      unfold obsAt
      rw [ho, List.getD_cons_zero]
      push_cast
      field_simp
    rw [ho0] at hmix
    linarith
  obtain ⟨q, q1, -, q3, q4, -⟩ := byImpressions_fitted solve m' ws comps U I0 a9 x F
  refine ⟨q, m', by rw [a10, q1], q3, ?_⟩
  rw [q4 0 hF]
  have hs0 : (0 : ℝ) ≤ ((x / I0 : ℚ) : ℝ) := by exact_mod_cast div_nonneg hx a2.le
  have hs1 : ((x / I0 : ℚ) : ℝ) ≤ 1 := by
    have : x / I0 ≤ 1 := (div_le_one a2).2 hxI
    exact_mod_cast this
  have hmono : mixtureTail ws comps ((x / I0 : ℚ) : ℝ) (0 + 1) ≤ mixtureTail ws comps 1 1 := by
    refine mixtureTail_compare a8.weights (fun c hcc => ?_)
    have c0 : (0 : ℝ) ≤ c := by exact_mod_cast a8.rates c hcc
    exact poissonTail_mono (mul_nonneg c0 hs0) (mul_le_mul_of_nonneg_left hs1 c0) _
  have hnn := (mixtureTail_bounds a8.weights a8.rates hs0 (0 + 1)).1
  have hUs : (U : ℝ) < 2 ^ 31 := by exact_mod_cast hc.small
  have hle : npRound ((((U : ℕ) : ℚ) : ℝ) * mixtureTail ws comps ((x / I0 : ℚ) : ℝ) (0 + 1)) ≤ (R : ℤ) := by
    refine npRound_le ?_
    have h1 : (U : ℝ) * mixtureTail ws comps ((x / I0 : ℚ) : ℝ) (0 + 1) ≤
        U * (R / U + 1 / 10 ^ 200) :=
      mul_le_mul_of_nonneg_left (hmono.trans htail) hU0'.le
    have h2 : (U : ℝ) * (R / U + 1 / 10 ^ 200) = R + U / 10 ^ 200 := by
      field_simp
    have h3 : (U : ℝ) / 10 ^ 200 < 1 / 2 := by
      rw [div_lt_iff₀ (by positivity)]
      norm_num at hUs ⊢
      linarith
    rw [Rat.cast_natCast, Int.cast_natCast]
    linarith
  have h0 : 0 ≤ npRound ((((U : ℕ) : ℚ) : ℝ) * mixtureTail ws comps ((x / I0 : ℚ) : ℝ) (0 + 1)) :=
    npRound_nonneg (mul_nonneg (by positivity) hnn)
  rw [toInt32_of_range h0 (by have := hc.small; omega)]
  exact_mod_cast hle

/-- **C53 (ceiling).** Whatever weights are found, components lie below the number of frequencies plus
two, so predicted reaches stay below those of people who all see impressions at that rate. -/
theorem C53_ceiling (solve : Solve) (hs : Exact solve) (imps ks : List ℚ)
    (sp : Option (List ℚ)) (U : Nat) (pt : ReachPoint) (hc : CoherentPoint imps ks sp U pt) (n : Nat)
    (hn : 0 < n) (m : Dirac.Model) (hm : Dirac.Model.new [pt] n = .ok m) (I0 : ℚ)
    (hI : imps[0]? = some I0) (x : ℚ) (hx : 0 ≤ x) (F : Nat) (hF : 1 ≤ F) :
    ∃ q m', m.byImpressions solve [x] F = .ok (q, m') ∧ q.kplusReaches.length = F ∧
      ((q.kplusReaches.getD 0 0 : ℚ) : ℝ) ≤
        U * (1 - Real.exp (-((ks.length + 2) * (x / I0)))) + 1 / 2 := by
  obtain ⟨I0', hne, ws, m', comps, hcomps, a1, a2, a3, a4, a5, a6, a7, a8, a9, a10, -, a11⟩ :=
    exact_fit hs hc hn hm
  rw [hI] at a1
  cases a1
  have hs0 : (0 : ℝ) ≤ ((x / I0 : ℚ) : ℝ) := by exact_mod_cast div_nonneg hx a2.le
  obtain ⟨q, q1, -, q3, q4, -⟩ := byImpressions_fitted solve m' ws comps U I0 a9 x F
  refine ⟨q, m', by rw [a10, q1], q3, ?_⟩
  obtain ⟨b0, b1⟩ := mixtureTail_bounds a8.weights a8.rates hs0 (0 + 1)
  rw [a8.total] at b1
  have hmain : mixtureTail ws comps ((x / I0 : ℚ) : ℝ) (0 + 1) ≤
      1 - Real.exp (-((ks.length + 2) * (x / I0))) := by
    have hcmp : mixtureTail ws comps ((x / I0 : ℚ) : ℝ) (0 + 1) ≤
        (ws.map (fun w => w * (1 - Real.exp (-((ks.length + 2) * (x / I0)))))).sum := by
      have hl := a9.lengths
      have hw := a8.weights
      unfold mixtureTail
      clear * - hl hw a7 hs0
      induction ws generalizing comps with
      | nil => simp
      | cons w ws ih =>
        cases comps with
        | nil => simp at hl
        | cons c comps =>
          rw [List.zipWith_cons_cons, List.sum_cons, List.map_cons, List.sum_cons]
          refine add_le_add (mul_le_mul_of_nonneg_left ?_ (hw w List.mem_cons_self))
            (ih comps (fun c hc => a7 c (List.mem_cons_of_mem _ hc)) (by simpa using hl)
              (fun w hw' => hw w (List.mem_cons_of_mem _ hw')))
          have hcr : (c : ℝ) ≤ ks.length + 2 := by
            have := (a7 c List.mem_cons_self).2.le
            exact_mod_cast this
          have hexp : Real.exp (-((ks.length + 2) * (x / I0))) ≤ Real.exp (-(c * ((x / I0 : ℚ) : ℝ))) := by
            refine Real.exp_le_exp.2 (neg_le_neg ?_)
            have := mul_le_mul_of_nonneg_right hcr hs0
            push_cast at this ⊢
            exact this
          rw [poissonTail_succ, poissonTail_zero]
          unfold poissonPmf
          simp only [pow_zero, Nat.factorial_zero, Nat.cast_one, mul_one, div_one]
          linarith
    rwa [List.sum_map_mul_right, List.map_id', a8.total, one_mul] at hcmp
  rw [q4 0 hF]
  have hU0' : (0 : ℝ) ≤ U := by positivity
  have h0 : 0 ≤ npRound ((((U : ℕ) : ℚ) : ℝ) * mixtureTail ws comps ((x / I0 : ℚ) : ℝ) (0 + 1)) :=
    npRound_nonneg (mul_nonneg (by positivity) b0)
  have hle : npRound ((((U : ℕ) : ℚ) : ℝ) * mixtureTail ws comps ((x / I0 : ℚ) : ℝ) (0 + 1)) ≤ (U : ℤ) := by
    refine npRound_le ?_
    have := mul_le_mul_of_nonneg_left b1 hU0'
    rw [Rat.cast_natCast, Int.cast_natCast]
    linarith
  rw [toInt32_of_range h0 (by have := hc.small; omega)]
  have hnear := (abs_le.1 (npRound_near
    ((((U : ℕ) : ℚ) : ℝ) * mixtureTail ws comps ((x / I0 : ℚ) : ℝ) (0 + 1)))).2
  have h5 := mul_le_mul_of_nonneg_left hmain hU0'
  push_cast at hnear h5 ⊢
  linarith

/-- **C53 (full statement, false).** At the training impressions an exactly fitted model predicts the
observed reaches. -/
def C53_reproduces_full : Prop :=
  ∀ (solve : Solve), Exact solve → ∀ (imps ks : List ℚ) (sp : Option (List ℚ)) (U : Nat)
    (pt : ReachPoint), CoherentPoint imps ks sp U pt → ∀ (n : Nat), 0 < n → ∀ m : Dirac.Model,
    Dirac.Model.new [pt] n = .ok m → ∀ I0, imps[0]? = some I0 → ∀ q m',
    m.byImpressions solve [I0] ks.length = .ok (q, m') → q.kplusReaches = ks

/-- **C53 (reproduced, partial).** If the observed histogram is a mixture of the components, an exactly
fitted model predicts the observed reaches at the training impressions.  Missing: histograms that are not,
such as those with one frequency in which more than 95 % of the people are reached, see
`C53_reproduces_full_is_false`. -/
theorem C53_reproduces_partial (solve : Solve) (hs : Exact solve) (imps ks : List ℚ)
    (sp : Option (List ℚ)) (U : Nat) (pt : ReachPoint) (hc : CoherentPoint imps ks sp U pt)
    (hwhole : ∀ k ∈ ks, ∃ r : Nat, k = r) (hlen : ks.length < 10 ^ 40) (n : Nat) (hn : 0 < n)
    (m : Dirac.Model) (hm : Dirac.Model.new [pt] n = .ok m) (I0 : ℚ) (hI : imps[0]? = some I0)
    (ws0 v0 : List ℝ) (hf0 : Feasible (fitPmfs n ks.length (m.hist.map (· / m.hist.sum))) ws0)
    (hv0 : weightedSum ws0 (fitPmfs n ks.length (m.hist.map (· / m.hist.sum))) = .ok v0)
    (hmix : ∀ f, v0.getD f 0 = (((m.hist.map (· / m.hist.sum)).getD f 0 : ℚ) : ℝ)) :
    ∃ q m', m.byImpressions solve [I0] ks.length = .ok (q, m') ∧ q.kplusReaches = ks := by
  obtain ⟨I0', hne, ws, m', comps, hcomps, a1, a2, a3, a4, a5, a6, a7, a8, a9, a10, -, a11⟩ :=
    exact_fit hs hc hn hm
  rw [hI] at a1
  cases a1
  have hU0 : (0 : ℚ) < U := by exact_mod_cast hc.positive
  have hU0' : (0 : ℝ) < U := by exact_mod_cast hc.positive
  have hUs : (U : ℝ) < 2 ^ 31 := by exact_mod_cast hc.small
  set obs := m.hist.map (· / m.hist.sum) with hobs
  have hol : obs.length = ks.length + 1 := by rw [hobs, List.length_map, a4]
  have hpmE : fitPmfs n ks.length obs = comps.map (fun c : ℚ => poissonVec c ks.length) := by
    rw [hcomps]; rfl
  rw [hpmE] at hf0 hv0
  set pmfs := comps.map (fun c : ℚ => poissonVec c ks.length) with hpm
  have hpne : pmfs ≠ [] := by
    rw [hpm]
    simpa using a9.nonempty
  have hpl : ∀ p ∈ pmfs, p.length = obs.length := by
    intro p hp
    obtain ⟨c, -, rfl⟩ := List.mem_map.1 hp
    rw [poissonVec_length, hol]
  have hpn : ∀ p ∈ pmfs, ∀ y ∈ p, 0 ≤ y := by
    intro p hp y hy
    rw [← hpmE] at hp
    exact (fitPmfs_ok a6 p hp).2 y hy
  obtain ⟨v0', b1, -, b3⟩ := weightedSum_mixed hpne hpl hf0.1
  rw [hv0] at b1
  cases b1
  have hps : ∀ i < pmfs.length, ∑ f ∈ Finset.range obs.length, pmfAt pmfs i f = 1 := by
    intro i hi
    unfold pmfAt
    rw [List.getD_eq_getElem pmfs _ hi]
    have hi' : i < comps.length := by rw [hpm, List.length_map] at hi; exact hi
    have h1 : pmfs[i] = poissonVec (comps[i] : ℚ) ks.length := by simp [hpm]
    have h2 := poissonVec_drop_sum (comps[i] : ℚ) ks.length 0 (Nat.zero_le _)
    rw [List.drop_zero, poissonTail_zero, sum_eq_range _ _ (poissonVec_length _ _)] at h2
    rw [h1, hol, h2]
  have hLr : ((ks.length : ℝ) + 1) ≤ 10 ^ 40 := by
    have : ks.length + 1 ≤ 10 ^ 40 := hlen
    exact_mod_cast this
  have hLe : (obs.length : ℝ) * (1 / 10 ^ 200) ≤ 1 / 10 ^ 160 := by
    rw [hol]
    push_cast
    calc ((ks.length : ℝ) + 1) * (1 / 10 ^ 200) ≤ 10 ^ 40 * (1 / 10 ^ 200) :=
          mul_le_mul_of_nonneg_right hLr (by positivity)
      _ = 1 / 10 ^ 160 := by norm_num
  have hsqrt : Real.sqrt ((obs.length : ℝ) * (1 / 10 ^ 200)) ≤ 1 / 10 ^ 80 := by
    rw [Real.sqrt_le_left (by positivity)]
    refine hLe.trans (le_of_eq ?_)
    norm_num
  have hnear : ∀ f < obs.length,
      |mixed pmfs.length (pmfAt pmfs) (fun i => ws.getD i 0) f - obsAt obs f| ≤ 3 / 10 ^ 80 := by
    intro f hf
    refine (optimal_near (L := obs.length) (o := obsAt obs) eps_pos
      (fun f _ => obsAt_nonneg a6.nonneg f) (by rw [obsAt_sum, a6.total]; norm_num)
      (fun i _ f _ => pmfAt_nonneg hpn i f) hps (feasible_weights a11.1)
      ((solution_iff hpne hpl ws).1 a11).2 (feasible_weights hf0)
      (fun f _ => by rw [← b3 f, hmix f]; rfl) (hLe.trans (by norm_num)) hf).trans ?_
    calc 3 * Real.sqrt ((obs.length : ℝ) * (1 / 10 ^ 200)) ≤ 3 * (1 / 10 ^ 80) :=
          mul_le_mul_of_nonneg_left hsqrt (by norm_num)
      _ = 3 / 10 ^ 80 := by norm_num
  have htailobs : ∀ k < ks.length, ∑ f ∈ Finset.Ico (k + 1) (ks.length + 1), obsAt obs f =
      ((ks.getD k 0 / U : ℚ) : ℝ) := by
    intro k hk
    have h1 := telescope_drop ks hne k hk
    have h2 : (m.hist.drop (k + 1)).sum = ks.getD k 0 := by
      rw [a3, List.drop_succ_cons, h1]
    have h3 : (obs.drop (k + 1)).sum = ks.getD k 0 / U := by
      rw [hobs, ← List.map_drop, a5]
      simp only [div_eq_mul_inv]
      rw [List.sum_map_mul_right, List.map_id', h2]
    rw [← h3]
    have h4 := sum_drop_eq (obs.map (fun q : ℚ => (q : ℝ))) (k + 1) (ks.length + 1) (by simp [hol])
    have h5 : ((obs.drop (k + 1)).sum : ℚ) = ((obs.map (fun q : ℚ => (q : ℝ))).drop (k + 1)).sum := by
      rw [cast_list_sum, List.map_drop]
    rw [h5, h4]
    refine Finset.sum_congr rfl (fun f hf => ?_)
    have hf' : f < obs.length := by rw [hol]; exact (Finset.mem_Ico.1 hf).2
    unfold obsAt
    rw [List.getD_eq_getElem _ _ hf', List.getD_eq_getElem _ _ (by simpa using hf')]
    simp
  have htail : ∀ k < ks.length, |mixtureTail ws comps 1 (k + 1) - ((ks.getD k 0 / U : ℚ) : ℝ)| ≤
      3 / 10 ^ 40 := by
    intro k hk
    rw [mixtureTail_mixed a9.lengths a9.nonempty ks.length (k + 1) (by omega), ← htailobs k hk,
      ← Finset.sum_sub_distrib]
    refine (Finset.abs_sum_le_sum_abs _ _).trans ?_
    calc ∑ f ∈ Finset.Ico (k + 1) (ks.length + 1),
          |mixed pmfs.length (pmfAt pmfs) (fun i => ws.getD i 0) f - obsAt obs f|
        ≤ ∑ f ∈ Finset.Ico (k + 1) (ks.length + 1), (3 / 10 ^ 80 : ℝ) :=
          Finset.sum_le_sum (fun f hf => hnear f (by rw [hol]; exact (Finset.mem_Ico.1 hf).2))
      _ = ((ks.length + 1 - (k + 1) : ℕ) : ℝ) * (3 / 10 ^ 80) := by
          rw [Finset.sum_const, Nat.card_Ico, nsmul_eq_mul]
      _ ≤ 10 ^ 40 * (3 / 10 ^ 80) := by
          refine mul_le_mul_of_nonneg_right ?_ (by positivity)
          have : ks.length + 1 - (k + 1) ≤ 10 ^ 40 := by omega
          exact_mod_cast this
      _ = 3 / 10 ^ 40 := by norm_num
  obtain ⟨q, q1, -, q3, q4, -⟩ := byImpressions_fitted solve m' ws comps U I0 a9 I0 ks.length
  refine ⟨q, m', by rw [a10, q1], ?_⟩
  refine List.ext_getElem q3 (fun k h1 h2 => ?_)
  obtain ⟨r, hr⟩ := hwhole _ (List.getElem_mem h2)
  have hq := q4 k h2
  rw [List.getD_eq_getElem _ _ h1, div_self a2.ne', Rat.cast_one] at hq
  have ht := htail k h2
  rw [List.getD_eq_getElem _ _ h2, hr] at ht
  have hrU : r ≤ U := by
    have := hc.bounded _ (List.getElem_mem h2)
    rw [hr] at this
    exact_mod_cast this
  have hround : npRound ((((U : ℕ) : ℚ) : ℝ) * mixtureTail ws comps 1 (k + 1)) = (r : ℤ) := by
    have h5 : |(U : ℝ) * mixtureTail ws comps 1 (k + 1) - r| < 1 / 2 := by
      have h6 : (U : ℝ) * mixtureTail ws comps 1 (k + 1) - r =
          U * (mixtureTail ws comps 1 (k + 1) - ((((r : ℕ) : ℚ) / U : ℚ) : ℝ)) := by
        push_cast
        field_simp
      rw [h6, abs_mul, abs_of_pos hU0']
      calc (U : ℝ) * |mixtureTail ws comps 1 (k + 1) - ((((r : ℕ) : ℚ) / U : ℚ) : ℝ)|
          ≤ 2 ^ 31 * (3 / 10 ^ 40) := mul_le_mul hUs.le ht (abs_nonneg _) (by positivity)
        _ < 1 / 2 := by norm_num
    have hn1 := npRound_near ((((U : ℕ) : ℚ) : ℝ) * mixtureTail ws comps 1 (k + 1))
    push_cast at hn1
    rw [abs_lt] at h5
    rw [abs_le] at hn1
    have l1 : ((npRound ((((U : ℕ) : ℚ) : ℝ) * mixtureTail ws comps 1 (k + 1)) : ℤ) : ℝ) < ((r + 1 : ℤ) : ℝ) := by
      push_cast
      linarith [hn1.2]
    have l2 : ((r - 1 : ℤ) : ℝ) < ((npRound ((((U : ℕ) : ℚ) : ℝ) * mixtureTail ws comps 1 (k + 1)) : ℤ) : ℝ) := by
      push_cast
      linarith [hn1.1]
    have l3 := Int.cast_lt.1 l1
    have l4 := Int.cast_lt.1 l2
    omega
  rw [hq, hround, toInt32_of_range (by omega) (by have := hc.small; omega), hr]
  push_cast
  rfl

/-! ## Examples and counterexamples -/

/-- One frequency: `R` of 1000 people reached by 5000 impressions. -/
def exCeilingPoint (R : ℚ) : ReachPoint := ⟨[5000], [R], [], none, some 1000⟩

theorem exCeiling_coherent (R : Nat) (h : R ≤ 1000) :
    CoherentPoint [5000] [(R : ℚ)] none 1000 (exCeilingPoint R) := by
  refine ⟨?_, by norm_num, by norm_num, by simp, by simp, by simpa using h⟩
  rfl

theorem exCeiling_new (R : Nat) (h : R ≤ 1000) (n : Nat) : Dirac.Model.new [exCeilingPoint R] n =
    .ok ⟨exCeilingPoint R, [1000 - R, R], none, n, none, false⟩ := by
  have hR : (R : ℚ) ≤ 5000 := by
    have : (R : ℚ) ≤ 1000 := by exact_mod_cast h
    linarith
  have h1 : pyIndex (exCeilingPoint R).impressions 0 = .ok 5000 := rfl
  have h2 : (exCeilingPoint R).reach 1 = .ok (R : ℚ) := rfl
  have h3 : (exCeilingPoint R).zeroIncludedHistogram = .ok [1000 - (R : ℚ), R] := rfl
  have h4 : (exCeilingPoint R).universeSize = .ok 1000 := rfl
  unfold Dirac.Model.new
  simp only [h1, h2, h3, h4, bind, Except.bind, pure, Except.pure]
  rw [if_neg (by norm_num), if_neg (not_lt.2 hR)]
  rfl

/-- If 990 of 1000 people are reached, at most 951 are predicted. -/
theorem C53_reproduces_full_is_false : ¬ C53_reproduces_full := by
  intro h
  have hc := exCeiling_coherent 990 (by norm_num)
  have hm := exCeiling_new 990 (by norm_num) 200
  obtain ⟨q, m', q1, q2, q3⟩ := C53_ceiling exactSolve exactSolve_exact _ _ _ _ _ hc 200 (by norm_num)
    _ hm 5000 rfl 5000 (by norm_num) 1 le_rfl
  have hq := h exactSolve exactSolve_exact _ _ _ _ _ hc 200 (by norm_num) _ hm 5000 rfl q m' q1
  rw [hq] at q3
  have he : Real.exp 3 < 21 := by
    have h1 := Real.exp_one_lt_d9
    have h2 : Real.exp 3 = Real.exp 1 ^ 3 := by
      rw [← Real.exp_nat_mul]
      norm_num
    rw [h2]
    calc Real.exp 1 ^ 3 ≤ 2.7182818286 ^ 3 :=
          pow_le_pow_left₀ (Real.exp_pos 1).le h1.le 3
      _ < 21 := by norm_num
  have he2 : 1 / 21 < Real.exp (-3) := by
    rw [Real.exp_neg, ← one_div]
    exact one_div_lt_one_div_of_lt (Real.exp_pos 3) he
  simp only [List.getD_cons_zero, List.length_cons, List.length_nil] at q3
  norm_num at q3
  linarith

example : CoherentPoint [5000] [((600 : Nat) : ℚ)] none 1000 (exCeilingPoint (600 : Nat)) ∧
    (∃ m, Dirac.Model.new [exCeilingPoint (600 : Nat)] 200 = .ok m) ∧
    1000 < 2 * 200 * (1000 - 600) :=
  ⟨exCeiling_coherent 600 (by norm_num), ⟨_, exCeiling_new 600 (by norm_num) 200⟩, by norm_num⟩

/-- **C53 (full statement, false).** The predictions of an exactly fitted model do not depend on the
solver. -/
def C53_determined_full : Prop :=
  ∀ (solve solve' : Solve), Exact solve → Exact solve' → ∀ (imps ks : List ℚ) (sp : Option (List ℚ))
    (U : Nat) (pt : ReachPoint), CoherentPoint imps ks sp U pt → ∀ (n : Nat), 0 < n →
    ∀ m : Dirac.Model, Dirac.Model.new [pt] n = .ok m → ∀ x, 0 ≤ x → ∀ F q m' q' m'',
    m.byImpressions solve [x] F = .ok (q, m') → m.byImpressions solve' [x] F = .ok (q', m'') →
    q.kplusReaches = q'.kplusReaches

/-- **C53 (determined, partial).** At the training impressions the predictions of an exactly fitted model
do not depend on the solver, if every frequency was observed.  Missing: other impressions, see
`C53_determined_full_is_false`. -/
theorem C53_determined_partial (solve solve' : Solve) (hs : Exact solve) (hs' : Exact solve')
    (imps ks : List ℚ) (sp : Option (List ℚ)) (U : Nat) (pt : ReachPoint)
    (hc : CoherentPoint imps ks sp U pt) (n : Nat) (hn : 0 < n) (m : Dirac.Model)
    (hm : Dirac.Model.new [pt] n = .ok m) (hpos : ∀ y ∈ m.hist, 0 < y) (I0 : ℚ)
    (hI : imps[0]? = some I0) (F : Nat) (hF : F ≤ ks.length) :
    ∃ q m' q' m'', m.byImpressions solve [I0] F = .ok (q, m') ∧
      m.byImpressions solve' [I0] F = .ok (q', m'') ∧ q.kplusReaches = q'.kplusReaches := by
  obtain ⟨I1, hne, ws, m1, comps, hcomps, a1, a2, a3, a4, a5, a6, a7, a8, a9, a10, -, a11⟩ :=
    exact_fit hs hc hn hm
  obtain ⟨I2, -, ws', m2, comps', hcomps', b1, b2, -, -, -, -, -, b8, b9, b10, -, b11⟩ :=
    exact_fit hs' hc hn hm
  rw [hI] at a1 b1
  cases a1
  cases b1
  subst hcomps
  subst hcomps'
  set obs := m.hist.map (· / m.hist.sum) with hobs
  set comps := purelyWeightedGrid n obs with hcomps
  set pmfs := comps.map (fun c : ℚ => poissonVec c ks.length) with hpm
  have hol : obs.length = ks.length + 1 := by rw [hobs, List.length_map, a4]
  have hpne : pmfs ≠ [] := by
    rw [hpm]
    simpa using a9.nonempty
  have hpl : ∀ p ∈ pmfs, p.length = obs.length := by
    intro p hp
    obtain ⟨c, -, rfl⟩ := List.mem_map.1 hp
    rw [poissonVec_length, hol]
  have hpn : ∀ p ∈ pmfs, ∀ y ∈ p, 0 ≤ y := fun p hp y hy => (fitPmfs_ok a6 p hp).2 y hy
  have hU0 : (0 : ℚ) < U := by exact_mod_cast hc.positive
  have hsame : ∀ f < obs.length,
      mixed pmfs.length (pmfAt pmfs) (fun i => ws.getD i 0) f =
      mixed pmfs.length (pmfAt pmfs) (fun i => ws'.getD i 0) f := by
    intro f hf
    refine (optimal_unique (L := obs.length) (o := obsAt obs) eps_pos
      (fun f _ => obsAt_nonneg a6.nonneg f) (fun i _ f _ => pmfAt_nonneg hpn i f)
      (feasible_weights a11.1) (feasible_weights b11.1) ((solution_iff hpne hpl ws).1 a11).2
      ((solution_iff hpne hpl ws').1 b11).2 hf ?_).symm
    unfold obsAt
    rw [List.getD_eq_getElem _ _ hf]
    have : 0 < obs[f] := by
      simp only [hobs, List.getElem_map]
      exact div_pos (hpos _ (List.getElem_mem _)) (by rw [a5]; exact hU0)
    exact_mod_cast this
  have htail : ∀ k, k ≤ ks.length → mixtureTail ws comps 1 k = mixtureTail ws' comps 1 k := by
    intro k hk
    rw [mixtureTail_mixed a9.lengths a9.nonempty ks.length k hk,
      mixtureTail_mixed b9.lengths b9.nonempty ks.length k hk]
    exact Finset.sum_congr rfl (fun f hf => hsame f (by rw [hol]; exact (Finset.mem_Ico.1 hf).2))
  obtain ⟨q, q1, -, q3, q4, -⟩ := byImpressions_fitted solve m1 ws comps U I0 a9 I0 F
  obtain ⟨q', r1, -, r3, r4, -⟩ := byImpressions_fitted solve' m2 ws' comps U I0 b9 I0 F
  refine ⟨q, m1, q', m2, by rw [a10, q1], by rw [b10, r1], ?_⟩
  refine List.ext_getElem (by rw [q3, r3]) (fun k h1 h2 => ?_)
  have hk : k < F := by omega
  have e1 := q4 k hk
  have e2 := r4 k hk
  rw [List.getD_eq_getElem _ _ h1, div_self a2.ne', Rat.cast_one] at e1
  rw [List.getD_eq_getElem _ _ h2, div_self a2.ne', Rat.cast_one] at e2
  rw [e1, e2, htail (k + 1) (by omega)]

theorem poissonVec_one (c : ℝ) : poissonVec c 1 = [Real.exp (-c), 1 - Real.exp (-c)] := by
  unfold poissonVec poissonSf
  simp [poissonPmf]

/-- The components for 500 of 1000 people and four components. -/
theorem exHalf_pmfs : fitPmfs 4 1 [1 / 2, 1 / 2] =
    [poissonVec ((0 : ℚ) : ℝ) 1, poissonVec ((1 / 2 : ℚ) : ℝ) 1, poissonVec ((1 : ℚ) : ℝ) 1,
      poissonVec ((3 / 2 : ℚ) : ℝ) 1] := by
  unfold fitPmfs
  rw [show purelyWeightedGrid 4 [1 / 2, 1 / 2] = [0, 1 / 2, 1, 3 / 2] by decide +kernel]
  rfl

/-- Weights that mix to one half solve the problem. -/
theorem half_solution {pmfs : List (List ℝ)} (hne : pmfs ≠ [])
    (hL : ∀ p ∈ pmfs, p.length = 2 ∧ (∀ x ∈ p, 0 ≤ x) ∧ p.getD 0 0 + p.getD 1 0 = 1) {ws : List ℝ}
    (hf : Feasible pmfs ws) (hv : weightedSum ws pmfs = .ok [1 / 2, 1 / 2]) :
    Solution [1 / 2, 1 / 2] pmfs ws := by
  obtain ⟨v, h1, h2⟩ := C78_solution_iff [1 / 2, 1 / 2] (by norm_num) pmfs hne
    (fun p hp => ⟨(hL p hp).1, (hL p hp).2.1⟩) ws hf
  rw [hv] at h1
  cases h1
  rw [h2]
  intro p hp
  have := (hL p hp).2.2
  simp only [List.length_cons, List.length_nil, Finset.sum_range_succ, Finset.sum_range_zero,
    List.getD_cons_zero, List.getD_cons_succ, zero_add]
  refine le_of_eq ?_
  rw [← add_div, ← add_div]
  congr 1
  push_cast
  linear_combination this / 2

/-- Exact solvers that prefer one solution of this problem. -/
noncomputable def preferSolve (pmfs0 : List (List ℝ)) (ws0 : List ℝ) : Solve := fun obs pmfs =>
  open Classical in
  if obs = [1 / 2, 1 / 2] ∧ pmfs = pmfs0 then .ok ws0 else exactSolve obs pmfs

theorem preferSolve_exact {pmfs0 : List (List ℝ)} {ws0 : List ℝ}
    (h : Solution [1 / 2, 1 / 2] pmfs0 ws0) : Exact (preferSolve pmfs0 ws0) := by
  intro obs pmfs hne hL
  unfold preferSolve
  by_cases hc : obs = [1 / 2, 1 / 2] ∧ pmfs = pmfs0
  · rw [if_pos hc, hc.1, hc.2]
    exact ⟨ws0, rfl, h⟩
  · rw [if_neg hc]
    exact exactSolve_exact obs pmfs hne hL

theorem exp_neg_bounds : (9 / 25 : ℝ) < Real.exp (-1) ∧ Real.exp (-1) < 1 / 2 ∧
    Real.exp (-(3 / 2)) < 1 / 4 := by
  have h1 := Real.exp_one_lt_d9
  have h2 := Real.exp_one_gt_d9
  have h3 : (4 : ℝ) < Real.exp (3 / 2) := by
    have h4 : Real.exp (3 / 2) ^ 2 = Real.exp 1 ^ 3 := by
      rw [← Real.exp_nat_mul, ← Real.exp_nat_mul]
      norm_num
    have h5 : (16 : ℝ) < Real.exp 1 ^ 3 := by
      calc (16 : ℝ) < 2.7182818283 ^ 3 := by norm_num
        _ ≤ Real.exp 1 ^ 3 := pow_le_pow_left₀ (by norm_num) h2.le 3
    nlinarith [Real.exp_pos (3 / 2)]
  refine ⟨?_, ?_, ?_⟩
  · rw [Real.exp_neg, ← one_div, lt_div_iff₀ (Real.exp_pos 1)]
    linarith
  · rw [Real.exp_neg, ← one_div]
    exact one_div_lt_one_div_of_lt (by norm_num) (by linarith)
  · rw [Real.exp_neg, ← one_div]
    exact one_div_lt_one_div_of_lt (by norm_num) h3

theorem exHalf_ok : ∀ p ∈ fitPmfs 4 1 [1 / 2, 1 / 2],
    p.length = 2 ∧ (∀ x ∈ p, 0 ≤ x) ∧ p.getD 0 0 + p.getD 1 0 = 1 := by
  intro p hp
  have h := fitPmfs_ok (n := 4) (F := 1) (obs := [1 / 2, 1 / 2])
    ⟨by decide +kernel, by decide +kernel⟩ p hp
  refine ⟨h.1, h.2, ?_⟩
  obtain ⟨c, -, rfl⟩ := List.mem_map.1 hp
  rw [poissonVec_one]
  simp

/-- With 500 of 1000 people reached and four components, twice the impressions reach 680 or more people
according to one solution and 625 or fewer according to another. -/
theorem C53_determined_full_is_false : ¬ C53_determined_full := by
  intro h
  obtain ⟨e1, e2, e3⟩ := exp_neg_bounds
  have e0 := Real.exp_pos (-1)
  have e0' := Real.exp_pos (-(3 / 2 : ℝ))
  set pm := fitPmfs 4 1 [1 / 2, 1 / 2] with hpm
  have hne : pm ≠ [] := by rw [hpm, exHalf_pmfs]; simp
  set a := 1 / 2 / (1 - Real.exp (-1)) with ha
  set b := 1 / 2 / (1 - Real.exp (-(3 / 2))) with hb
  have d1 : (0 : ℝ) < 1 - Real.exp (-1) := by linarith
  have d2 : (0 : ℝ) < 1 - Real.exp (-(3 / 2)) := by linarith
  have ha1 : a * (1 - Real.exp (-1)) = 1 / 2 := by rw [ha]; field_simp
  have hb1 : b * (1 - Real.exp (-(3 / 2))) = 1 / 2 := by rw [hb]; field_simp
  have ha0 : 0 < a := by rw [ha]; positivity
  have hb0 : 0 < b := by rw [hb]; positivity
  have ha2 : a ≤ 1 := by nlinarith
  have hb2 : b ≤ 1 := by nlinarith
  have f1 : Feasible pm [1 - a, 0, a, 0] := by
    refine ⟨by rw [hpm, exHalf_pmfs]; rfl, ?_, by simp⟩
    intro w hw
    simp only [List.mem_cons, List.not_mem_nil, or_false] at hw
    rcases hw with rfl | rfl | rfl | rfl <;> linarith
  have f2 : Feasible pm [1 - b, 0, 0, b] := by
    refine ⟨by rw [hpm, exHalf_pmfs]; rfl, ?_, by simp⟩
    intro w hw
    simp only [List.mem_cons, List.not_mem_nil, or_false] at hw
    rcases hw with rfl | rfl | rfl | rfl <;> linarith
  have s1 : Solution [1 / 2, 1 / 2] pm [1 - a, 0, a, 0] := by
    refine half_solution hne exHalf_ok f1 ?_
    rw [hpm, exHalf_pmfs]
    simp only [poissonVec_one, weightedSum, List.zipWith_cons_cons, List.zipWith_nil_right,
      List.map_cons, List.map_nil, List.foldl_cons, List.foldl_nil]
    norm_num
    constructor <;> linarith
  have s2 : Solution [1 / 2, 1 / 2] pm [1 - b, 0, 0, b] := by
    refine half_solution hne exHalf_ok f2 ?_
    rw [hpm, exHalf_pmfs]
    simp only [poissonVec_one, weightedSum, List.zipWith_cons_cons, List.zipWith_nil_right,
      List.map_cons, List.map_nil, List.foldl_cons, List.foldl_nil]
    norm_num
    constructor <;> linarith
  have hc := exCeiling_coherent 500 (by norm_num)
  have hm := exCeiling_new 500 (by norm_num) 4
  have hobs : ([1000 - ((500 : ℕ) : ℚ), ((500 : ℕ) : ℚ)].map
      (· / [1000 - ((500 : ℕ) : ℚ), ((500 : ℕ) : ℚ)].sum)) = [1 / 2, 1 / 2] := by norm_num
  have key : ∀ ws, Solution [1 / 2, 1 / 2] pm ws → ∃ q m', (⟨exCeilingPoint (500 : ℕ),
      [1000 - ((500 : ℕ) : ℚ), ((500 : ℕ) : ℚ)], none, 4, none, false⟩ : Dirac.Model).byImpressions
        (preferSolve pm ws) [10000] 1 = .ok (q, m') ∧ q.kplusReaches.length = 1 ∧
      |((q.kplusReaches.getD 0 0 : ℚ) : ℝ) - 1000 * mixtureTail ws [0, 1 / 2, 1, 3 / 2] 2 1| ≤ 1 / 2 := by
    intro ws hsol
    obtain ⟨I0, hne', ws', m', comps, hcomps, a1, a2, -, -, -, -, a7, a8, a9, a10, a11, -⟩ :=
      exact_fit (preferSolve_exact hsol) hc (by norm_num) hm
    simp only at a11 hcomps
    rw [hobs] at a11 hcomps
    have hw : ws' = ws := by
      have h1 : preferSolve pm ws [1 / 2, 1 / 2] pm = .ok ws := by
        unfold preferSolve
        rw [if_pos ⟨rfl, rfl⟩]
      have h2 : preferSolve pm ws [1 / 2, 1 / 2] pm = .ok ws' := a11
      rw [h1] at h2
      cases h2
      rfl
    subst hw
    have hI : I0 = 5000 := by simpa using a1.symm
    subst hI
    have hcg : comps = [0, 1 / 2, 1, 3 / 2] := by
      rw [hcomps]
      decide +kernel
    subst hcg
    obtain ⟨q, q1, q2, q3, q4, q5⟩ := C53_coherent_partial (preferSolve pm ws') m' ws' _ 1000 5000 a9
      (by norm_num) a8.weights (by rw [a8.total]; norm_num) a8.rates 10000 (by norm_num) 1
    refine ⟨q, m', by rw [a10]; exact q1, q3, ?_⟩
    obtain ⟨r, r1, r2, -⟩ := q4 0 (by norm_num)
    rw [r1]
    norm_num at r2 ⊢
    exact r2
  obtain ⟨q, m', q1, q2, q3⟩ := key _ s1
  obtain ⟨q', m'', r1, r2, r3⟩ := key _ s2
  have hq := h _ _ (preferSolve_exact s1) (preferSolve_exact s2) _ _ _ _ _ hc 4 (by norm_num) _ hm
    10000 (by norm_num) 1 q m' q' m'' q1 r1
  rw [← hq] at r3
  have t1 : mixtureTail [1 - a, 0, a, 0] [0, 1 / 2, 1, 3 / 2] 2 1 = 1 / 2 * (1 + Real.exp (-1)) := by
    have hx : Real.exp (-2) = Real.exp (-1) * Real.exp (-1) := by rw [← Real.exp_add]; norm_num
    simp only [mixtureTail, poissonTail, List.zipWith_cons_cons, List.zipWith_nil_right, List.sum_cons,
      List.sum_nil, Finset.sum_range_one, pow_zero, Nat.factorial_zero, Nat.cast_one, mul_one, div_one]
    norm_num
    rw [hx, ← ha1]
    ring
  have t2 : mixtureTail [1 - b, 0, 0, b] [0, 1 / 2, 1, 3 / 2] 2 1 =
      1 / 2 * (1 + Real.exp (-(3 / 2))) := by
    have hx : Real.exp (-3) = Real.exp (-(3 / 2)) * Real.exp (-(3 / 2)) := by
      rw [← Real.exp_add]; norm_num
    simp only [mixtureTail, poissonTail, List.zipWith_cons_cons, List.zipWith_nil_right, List.sum_cons,
      List.sum_nil, Finset.sum_range_one, pow_zero, Nat.factorial_zero, Nat.cast_one, mul_one, div_one]
    norm_num
    rw [hx, ← hb1]
    ring
  rw [t1, abs_le] at q3
  rw [t2, abs_le] at r3
  linarith [q3.1, q3.2, r3.1, r3.2]

/-- These four components meet the hypotheses of `C78_solution_exists`, `C78_solution_iff` and
`C78_solution_unique`, and have solutions. -/
example : fitPmfs 4 1 [1 / 2, 1 / 2] ≠ [] ∧
    (∀ p ∈ fitPmfs 4 1 [1 / 2, 1 / 2], p.length = ([1 / 2, 1 / 2] : List ℚ).length ∧ ∀ x ∈ p, 0 ≤ x) ∧
    ∃ ws, Solution [1 / 2, 1 / 2] (fitPmfs 4 1 [1 / 2, 1 / 2]) ws := by
  have h1 : fitPmfs 4 1 [1 / 2, 1 / 2] ≠ [] := by rw [exHalf_pmfs]; simp
  have h2 : ∀ p ∈ fitPmfs 4 1 [1 / 2, 1 / 2],
      p.length = ([1 / 2, 1 / 2] : List ℚ).length ∧ ∀ x ∈ p, 0 ≤ x :=
    fun p hp => ⟨(exHalf_ok p hp).1, (exHalf_ok p hp).2.1⟩
  exact ⟨h1, h2, C78_solution_exists _ _ h1 h2⟩

/-- The histogram of that point is a mixture of its components, and every frequency was observed: the
hypotheses of `C53_reproduces_partial` and `C53_determined_partial`. -/
example : ∃ ws0 v0, Feasible (fitPmfs 4 1 [1 / 2, 1 / 2]) ws0 ∧
    weightedSum ws0 (fitPmfs 4 1 [1 / 2, 1 / 2]) = .ok v0 ∧
    (∀ f, v0.getD f 0 = ((([1 / 2, 1 / 2] : List ℚ).getD f 0 : ℚ) : ℝ)) ∧
    CoherentPoint [5000] [((500 : Nat) : ℚ)] none 1000 (exCeilingPoint (500 : Nat)) := by
  obtain ⟨e1, e2, e3⟩ := exp_neg_bounds
  have d1 : (0 : ℝ) < 1 - Real.exp (-1) := by linarith
  have h0 : (0 : ℝ) < 1 / 2 / (1 - Real.exp (-1)) := by positivity
  have h1 : 1 / 2 / (1 - Real.exp (-1)) * (1 - Real.exp (-1)) = 1 / 2 := by field_simp
  have h2 : 1 / 2 / (1 - Real.exp (-1)) ≤ 1 := by nlinarith
  refine ⟨[1 - 1 / 2 / (1 - Real.exp (-1)), 0, 1 / 2 / (1 - Real.exp (-1)), 0], [1 / 2, 1 / 2],
    ⟨by rw [exHalf_pmfs]; rfl, ?_, by simp⟩, ?_, ?_, exCeiling_coherent 500 (by norm_num)⟩
  · intro w hw
    simp only [List.mem_cons, List.not_mem_nil, or_false] at hw
    rcases hw with rfl | rfl | rfl | rfl <;> linarith
  · rw [exHalf_pmfs]
    simp only [poissonVec_one, weightedSum, List.zipWith_cons_cons, List.zipWith_nil_right,
      List.map_cons, List.map_nil, List.foldl_cons, List.foldl_nil]
    norm_num
    norm_num at h1
    constructor <;> linarith
  · intro f
    match f with
    | 0 => norm_num
    | 1 => norm_num
    | f + 2 => simp

end Verif
