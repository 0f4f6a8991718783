import Verif.Lemmas.Dp
import Verif.Props.PrivacyTracker

/-!
# C90: the report of the privacy tracker is a guarantee of differential privacy
-/

namespace Verif

open Verif.Spec

section

variable {User Record O : Type}

theorem userLoss_cons_touches {e : NoisingEvent ℚ} {es : List (NoisingEvent ℚ)} {x : ℚ}
    (c : NoisingEvent ℚ → ℚ) (h : Touches e x) : userLoss c (e :: es) x = c e + userLoss c es x := by
  classical
  unfold userLoss
  rw [List.filter_cons_of_pos (by simpa using h), List.map_cons, List.sum_cons]

theorem userLoss_cons_not {e : NoisingEvent ℚ} {es : List (NoisingEvent ℚ)} {x : ℚ}
    (c : NoisingEvent ℚ → ℚ) (h : ¬ Touches e x) : userLoss c (e :: es) x = userLoss c es x := by
  classical
  unfold userLoss
  rw [List.filter_cons_of_neg (by simpa using h)]

theorem userLoss_nonneg {es : List (NoisingEvent ℚ)} (c : NoisingEvent ℚ → ℚ)
    (hc : ∀ e ∈ es, 0 ≤ c e) (x : ℚ) : 0 ≤ userLoss c es x := by
  classical
  unfold userLoss
  apply List.sum_nonneg
  intro y hy
  obtain ⟨e, he, rfl⟩ := List.mem_map.1 hy
  exact hc e (List.mem_of_mem_filter he)

/-- C90 (a): for every sequence of noisy computations that keep the promises of their events - each
may depend on all results before it - the whole record of results protects a user with the sum of
the budgets of the events that sample this user. -/
theorem C90_user (qs : List (Query User Record O)) (position : User → ℚ)
    (hq : ∀ q ∈ qs, q.KeepsPromise position) (hv : ∀ q ∈ qs, ValidEvent q.event) (u : User)
    (D D' : User → Record) (hD : DifferAt u D D') (past : List O) :
    DpClose ((userLoss (·.budget.epsilon) (qs.map (·.event)) (position u) : ℚ) : ℝ)
      ((userLoss (·.budget.delta) (qs.map (·.event)) (position u) : ℚ) : ℝ)
      (transcript D qs past) (transcript D' qs past) := by
  induction qs generalizing past with
  | nil =>
    simp only [List.map_nil, transcript]
    exact DpClose.refl (by simp [userLoss]) _
  | cons q qs ih =>
    have hv0 := hv q (by simp)
    have hih := ih (fun r hr => hq r (by simp [hr])) (fun r hr => hv r (by simp [hr]))
    obtain ⟨h1, h2⟩ := hq q (by simp) u D D' past hD
    rw [List.map_cons]
    simp only [transcript]
    have hnn : (0 : ℝ) ≤ ((userLoss (·.budget.delta) (qs.map (·.event)) (position u) : ℚ) : ℝ) := by
      exact_mod_cast userLoss_nonneg _ (fun e he => by
        obtain ⟨r, hr, rfl⟩ := List.mem_map.1 he
        exact (hv r (by simp [hr])).2.2.2.2.2) _
    by_cases ht : Touches q.event (position u)
    · rw [userLoss_cons_touches _ ht, userLoss_cons_touches _ ht]
      push_cast
      exact DpClose.bind (by exact_mod_cast hv0.2.2.2.2.2) hnn (h1 ht) (fun o => hih _)
    · rw [userLoss_cons_not _ ht, userLoss_cons_not _ ht, h2 ht]
      have := DpClose.bind (le_refl (0 : ℝ)) hnn
        (DpClose.refl (le_refl (0 : ℝ)) (q.law D' past)) (fun o => hih (past ++ [o]))
      simpa using this

/-- C90 (b): the consumption reported by the tracker protects every user, and the consumption
reported for a sampling bucket protects the users of that bucket. -/
theorem C90_reported (qs : List (Query User Record O)) (position : User → ℚ)
    (hpos : ∀ u, 0 ≤ position u ∧ position u < 1)
    (hq : ∀ q ∈ qs, q.KeepsPromise position) (hv : ∀ q ∈ qs, ValidEvent q.event) (u : User)
    (D D' : User → Record) (hD : DifferAt u D D') :
    let t := PrivacyTracker.run (qs.map (·.event))
    DpClose ((t.consumptionForBucket (position u)).epsilon : ℝ)
      ((t.consumptionForBucket (position u)).delta : ℝ)
      (transcript D qs []) (transcript D' qs []) ∧
    DpClose (t.privacyConsumption.epsilon : ℝ) (t.privacyConsumption.delta : ℝ)
      (transcript D qs []) (transcript D' qs []) := by
  intro t
  have hve : ∀ e ∈ qs.map (·.event), ValidEvent e := by
    intro e he
    obtain ⟨r, hr, rfl⟩ := List.mem_map.1 he
    exact hv r hr
  have h := C90_user qs position hq hv u D D' hD []
  obtain ⟨b1, b2⟩ := C16_per_bucket _ hve (position u) (hpos u).1 (hpos u).2
  obtain ⟨⟨_, g1⟩, ⟨_, g2⟩⟩ := C16_worst_case_user _ hve
  constructor
  · rw [b1, b2]; exact h
  · refine h.mono ?_ ?_
    · exact_mod_cast g1 ⟨_, (hpos u).1, (hpos u).2, rfl⟩
    · exact_mod_cast g2 ⟨_, (hpos u).1, (hpos u).2, rfl⟩

end

/-! ## The report can not be lowered -/

/-- Randomised response: tell one's bit with probability `exp ε / (1 + exp ε)`. -/
noncomputable def randomisedResponse (ε : ℝ) (b : Bool) : PMF Bool :=
  PMF.ofFintype (fun o => if o = b then ENNReal.ofReal (Real.exp ε / (1 + Real.exp ε))
      else ENNReal.ofReal (1 / (1 + Real.exp ε))) (by
    have hpos := Real.exp_pos ε
    have e : ENNReal.ofReal (Real.exp ε / (1 + Real.exp ε)) + ENNReal.ofReal (1 / (1 + Real.exp ε)) = 1 := by
      rw [← ENNReal.ofReal_add (by positivity) (by positivity), ← add_div, add_comm (Real.exp ε),
        div_self (by positivity), ENNReal.ofReal_one]
    cases b
    · rw [Fintype.sum_bool]; simpa [add_comm] using e
    · rw [Fintype.sum_bool]; simpa using e)

theorem randomisedResponse_ratio (ε : ℝ) :
    randomisedResponse ε true true
      = ENNReal.ofReal (Real.exp ε) * randomisedResponse ε false true := by
  simp only [randomisedResponse, PMF.ofFintype_apply, if_true, Bool.true_eq_false, if_false]
  rw [← ENNReal.ofReal_mul (Real.exp_nonneg _), mul_one_div]

theorem randomisedResponse_close {ε : ℝ} (hε : 0 ≤ ε) (b b' : Bool) :
    DpClose ε 0 (randomisedResponse ε b) (randomisedResponse ε b') := by
  apply DpClose.of_pointwise
  intro o
  have h1 := Real.one_le_exp hε
  have hpos := Real.exp_pos ε
  have key : ENNReal.ofReal (Real.exp ε / (1 + Real.exp ε))
      = ENNReal.ofReal (Real.exp ε) * ENNReal.ofReal (1 / (1 + Real.exp ε)) := by
    rw [← ENNReal.ofReal_mul (Real.exp_nonneg _), mul_one_div]
  have hone : (1 : ENNReal) ≤ ENNReal.ofReal (Real.exp ε) := by
    rw [← ENNReal.ofReal_one]; exact ENNReal.ofReal_le_ofReal h1
  simp only [randomisedResponse, PMF.ofFintype_apply]
  rw [key]
  generalize ENNReal.ofReal (1 / (1 + Real.exp ε)) = x
  generalize ENNReal.ofReal (Real.exp ε) = c at hone
  have hx : x ≤ c * x := le_mul_of_one_le_left (zero_le) hone
  split <;> split
  · exact le_mul_of_one_le_left (zero_le) hone
  · exact le_refl _
  · exact le_trans hx (le_mul_of_one_le_left (zero_le) hone)
  · exact hx

open Classical in
/-- The computation for event `e` on a database with one user, at position `x`: if the event samples
the user, the answer is the randomised response of this user, else it is constant. -/
noncomputable def responseQuery (x : ℚ) (e : NoisingEvent ℚ) : Query Unit Bool Bool :=
  { event := e
    law := fun D _ =>
      if Touches e x then randomisedResponse (e.budget.epsilon : ℝ) (D ()) else PMF.pure true }

theorem transcript_prefix {User Record O : Type} (D : User → Record) :
    ∀ (qs : List (Query User Record O)) (past l : List O), ¬ past <+: l → transcript D qs past l = 0 := by
  intro qs
  induction qs with
  | nil =>
    intro past l h
    simp only [transcript]
    rw [PMF.pure_apply, if_neg]
    rintro rfl
    exact h (List.prefix_refl _)
  | cons q qs ih =>
    intro past l h
    simp only [transcript, PMF.bind_apply]
    rw [ENNReal.tsum_eq_zero]
    intro o
    rw [ih (past ++ [o]) l (fun hp => h ((List.prefix_append past [o]).trans hp)), mul_zero]

/-- Probability that the answer is yes. -/
noncomputable def yes (x : ℚ) (b : Bool) (e : NoisingEvent ℚ) : ENNReal :=
  (responseQuery x e).law (fun _ => b) [] true

theorem transcript_response (x : ℚ) (b : Bool) : ∀ (es : List (NoisingEvent ℚ)) (past : List Bool),
    transcript (fun _ => b) (es.map (responseQuery x)) past (past ++ List.replicate es.length true)
      = (es.map (yes x b)).prod := by
  intro es
  induction es with
  | nil => intro past; simp [transcript]
  | cons ε es ih =>
    intro past
    simp only [List.map_cons, transcript, List.prod_cons, PMF.bind_apply]
    rw [tsum_bool]
    have e : past ++ List.replicate (ε :: es).length true
        = (past ++ [true]) ++ List.replicate es.length true := by
      rw [List.length_cons, List.replicate_succ, List.append_assoc, List.singleton_append]
    rw [e, ih, transcript_prefix, mul_zero, zero_add]
    · rfl
    · intro hp
      rw [List.append_assoc, List.prefix_append_right_inj] at hp
      simp at hp

theorem yes_touches {x : ℚ} {e : NoisingEvent ℚ} (b : Bool) (h : Touches e x) :
    yes x b e = randomisedResponse (e.budget.epsilon : ℝ) b true := by
  simp [yes, responseQuery, h]

theorem yes_not {x : ℚ} {e : NoisingEvent ℚ} (b : Bool) (h : ¬ Touches e x) : yes x b e = 1 := by
  simp [yes, responseQuery, h]

theorem yes_ne_zero (x : ℚ) (e : NoisingEvent ℚ) : yes x false e ≠ 0 := by
  by_cases h : Touches e x
  · rw [yes_touches _ h]
    intro hx
    have := Real.exp_pos (e.budget.epsilon : ℝ)
    simp only [randomisedResponse, PMF.ofFintype_apply, Bool.true_eq_false, if_false] at hx
    rw [ENNReal.ofReal_eq_zero] at hx
    have : (0 : ℝ) < 1 / (1 + Real.exp e.budget.epsilon) := by positivity
    linarith
  · rw [yes_not _ h]; exact one_ne_zero

theorem yes_prod (x : ℚ) (es : List (NoisingEvent ℚ)) : (es.map (yes x true)).prod
    = ENNReal.ofReal (Real.exp ((userLoss (·.budget.epsilon) es x : ℚ) : ℝ))
      * (es.map (yes x false)).prod := by
  induction es with
  | nil => simp [userLoss]
  | cons e es ih =>
    rw [List.map_cons, List.prod_cons, ih, List.map_cons, List.prod_cons]
    by_cases h : Touches e x
    · rw [userLoss_cons_touches _ h, yes_touches _ h, yes_touches _ h, randomisedResponse_ratio,
        Rat.cast_add, Real.exp_add, ENNReal.ofReal_mul (Real.exp_nonneg _)]
      ring
    · rw [userLoss_cons_not _ h, yes_not _ h, yes_not _ h]
      ring

/-- C90 (c): for every list of valid events there are computations that keep the promises of these
events, and two databases of a single user, for which no number smaller than the reported epsilon
would do. -/
theorem C90_tight (es : List (NoisingEvent ℚ)) (hes : ∀ e ∈ es, ValidEvent e) :
    ∃ (qs : List (Query Unit Bool Bool)) (position : Unit → ℚ) (D D' : Unit → Bool),
      qs.map (·.event) = es ∧ (∀ u, 0 ≤ position u ∧ position u < 1) ∧
      (∀ q ∈ qs, q.KeepsPromise position) ∧ DifferAt () D D' ∧
      ∀ ε : ℝ, DpClose ε 0 (transcript D qs []) (transcript D' qs []) →
        (((PrivacyTracker.run es).privacyConsumption.epsilon : ℚ) : ℝ) ≤ ε := by
  obtain ⟨⟨⟨x, hx0, hx1, hx⟩, _⟩, _⟩ := C16_worst_case_user es hes
  refine ⟨es.map (responseQuery x), fun _ => x, fun _ => true, fun _ => false, ?_,
    fun _ => ⟨hx0, hx1⟩, ?_, ?_, ?_⟩
  · rw [List.map_map]
    exact List.map_id es
  · intro q hq
    obtain ⟨e, he, rfl⟩ := List.mem_map.1 hq
    obtain ⟨_, _, _, _, h5, h6⟩ := hes e he
    intro u D D' past _
    refine ⟨fun ht => ?_, fun hn => ?_⟩
    · have := randomisedResponse_close (ε := (e.budget.epsilon : ℝ)) (by exact_mod_cast h5)
        (D ()) (D' ())
      have ht' : Touches e x := ht
      have := this.mono (le_refl _) (show (0 : ℝ) ≤ (e.budget.delta : ℝ) by exact_mod_cast h6)
      simpa [responseQuery, ht'] using this
    · have hn' : ¬ Touches e x := hn
      simp [responseQuery, hn']
  · intro v hv
    exact absurd rfl hv
  · intro ε hclose
    rw [hx]
    have hp := hclose.pointwise ([] ++ List.replicate es.length true)
    rw [transcript_response, transcript_response, yes_prod] at hp
    have hne : (es.map (yes x false)).prod ≠ 0 := by
      intro h0
      rw [List.prod_eq_zero_iff, List.mem_map] at h0
      obtain ⟨e, _, he⟩ := h0
      exact yes_ne_zero x e he
    have hnt : (es.map (yes x false)).prod ≠ ⊤ := by
      have hle1 : ∀ l : List (NoisingEvent ℚ), (l.map (yes x false)).prod ≤ 1 := by
        intro l
        induction l with
        | nil => simp
        | cons x l ih =>
          rw [List.map_cons, List.prod_cons]
          exact mul_le_one' (PMF.coe_le_one _ _) ih
      exact ne_top_of_le_ne_top ENNReal.one_ne_top (hle1 es)
    rw [ENNReal.mul_le_mul_iff_left hne hnt, ENNReal.ofReal_le_ofReal_iff (Real.exp_nonneg _),
      Real.exp_le_exp] at hp
    exact hp

/-- Three events, one wrapping around: computations that keep their promises exist, so neither
theorem is empty. -/
example : ∃ (qs : List (Query Unit Bool Bool)) (position : Unit → ℚ),
    qs.map (·.event) = exEvents ∧ (∀ u, 0 ≤ position u ∧ position u < 1) ∧
    (∀ q ∈ qs, q.KeepsPromise position) ∧ (∀ e ∈ exEvents, ValidEvent e) := by
  have hv : ∀ e ∈ exEvents, ValidEvent e := by
    intro e he
    fin_cases he <;> simp only [ValidEvent] <;> norm_num
  obtain ⟨qs, pos, _, _, h1, h2, h3, _⟩ := C90_tight exEvents hv
  exact ⟨qs, pos, h1, h2, h3, hv⟩

end Verif
