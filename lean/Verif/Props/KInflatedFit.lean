import Verif.Props.KInflated
import Verif.Props.ExpPoisson

/-!
# C56 and C73: fitting the k-inflated gamma-Poisson model on demand
-/

namespace Verif

open Finset KInflated

/-! ## C73 -/

/-- What is assumed of scipy: the exponential-Poisson probabilities are probabilities; the optimizer
keeps the number of parameters and returns a positive population, non-negative inflation values, and
parameters at which the negative binomial probabilities are probabilities. -/
def SolverOk (S : Solver) : Prop :=
  (∀ b, 0 ≤ b → IsTail (S.gp 1 b)) ∧
  ∀ h I Imin N alpha beta a, 0 < N → (∀ y ∈ a, 0 ≤ y) →
    let x := S.minimize h I Imin (N, alpha, beta, a)
    0 < x.1 ∧ IsTail (S.gp x.2.1 x.2.2.1) ∧ (∀ y ∈ x.2.2.2, 0 ≤ y) ∧
      x.2.2.2.length = a.length

/-- What holds of every intermediate fit. -/
def FitInv (M : Nat) (nd : ℚ × Dist) : Prop :=
  GoodFit ⟨nd.1, nd.2⟩ ∧ (∀ y ∈ nd.2.a, 0 ≤ y) ∧ nd.2.pmf.length = max M (nd.2.a.length + 1)

theorem head?_getD {l : List ℚ} (h : l.head? = some 0) : l.getD 0 0 = 0 := by
  cases l with
  | nil => rfl
  | cons x l => simpa using h

theorem fitInv_new {M : Nat} (hM : 2 ≤ M) {gp : ℚ → ℚ → Nat → ℚ} {N alpha beta : ℚ} {a : List ℚ}
    (hN : 0 < N) (hg : IsTail (gp alpha beta)) (ha : ∀ x ∈ a, 0 ≤ x) :
    FitInv M (N, Dist.new M gp alpha beta a) ∧ (Dist.new M gp alpha beta a).a.length = a.length := by
  obtain ⟨h1, h2, h3⟩ := C39_distribution M hM gp alpha beta a hg ha
  have hl : (Dist.new M gp alpha beta a).a.length = a.length := scaleDown_length a
  refine ⟨⟨⟨hN, h1, head?_getD h3⟩, (scaleDown_spec ha).1, ?_⟩, hl⟩
  rw [hl]; exact h2

theorem fitFixedLength_inv {S : Solver} (hS : SolverOk S) {M : Nat} (hM : 2 ≤ M) (h : List ℚ)
    (I Imin : ℚ) {N alpha beta : ℚ} {a : List ℚ} (hN : 0 < N) (ha : ∀ x ∈ a, 0 ≤ x) :
    FitInv M (fitFixedLength S M h I Imin (N, alpha, beta, a)) ∧
    (fitFixedLength S M h I Imin (N, alpha, beta, a)).2.a.length = a.length := by
  obtain ⟨h1, h2, h3, h4⟩ := hS.2 h I Imin N alpha beta a hN ha
  obtain ⟨h5, h6⟩ := fitInv_new hM h1 h2 h3
  exact ⟨h5, h6.trans h4⟩

theorem inflateLoop_spec {S : Solver} (hS : SolverOk S) {M kmax : Nat} (hM : 2 ≤ M) (hk : kmax < M)
    (h : List ℚ) (I Imin : ℚ) : ∀ (fuel : Nat) (nd : ℚ × Dist), FitInv M nd →
    nd.2.a.length ≤ kmax → kmax ≤ nd.2.a.length + fuel →
    ∃ N d, inflateLoop S M kmax h I Imin fuel nd = .ok (N, d) ∧ FitInv M (N, d) ∧
      d.a.length ≤ kmax ∧ (S.poor h I N d = false ∨ d.a.length = kmax) := by
  intro fuel
  induction fuel with
  | zero =>
    intro nd hi h1 h2
    exact ⟨nd.1, nd.2, rfl, hi, h1, Or.inr (by omega)⟩
  | succ fuel ih =>
    intro nd hi h1 h2
    unfold inflateLoop
    by_cases hc : S.poor h I nd.1 nd.2 = true ∧ nd.2.a.length < kmax
    · rw [if_pos hc]
      obtain ⟨⟨hN, ⟨hp, -⟩, -⟩, ha, hl⟩ := hi
      have hlt : nd.2.a.length + 1 < nd.2.pmf.length := by rw [hl]; omega
      have hx : pyIndex nd.2.pmf ((nd.2.a.length : Int) + 1) =
          .ok (nd.2.pmf[nd.2.a.length + 1]) := by
        have := (pyIndex_ok_iff nd.2.pmf (nd.2.a.length + 1) (nd.2.pmf[nd.2.a.length + 1])).2
          (List.getElem?_eq_getElem hlt)
        simpa using this
      simp only [hx, bind, Except.bind]
      have ha' : ∀ y ∈ nd.2.a ++ [nd.2.pmf[nd.2.a.length + 1]], 0 ≤ y := by
        intro y hy
        rcases List.mem_append.1 hy with hy | hy
        · exact ha y hy
        · rw [List.mem_singleton.1 hy]
          exact hp _ (List.getElem_mem _)
      obtain ⟨h5, h6⟩ := fitFixedLength_inv hS hM h I Imin (alpha := nd.2.alpha)
        (beta := nd.2.beta) hN ha'
      rw [List.length_append, List.length_singleton] at h6
      exact ih _ h5 (by rw [h6]; omega) (by rw [h6]; omega)
    · rw [if_neg hc]
      refine ⟨nd.1, nd.2, rfl, hi, h1, ?_⟩
      by_cases hp : S.poor h I nd.1 nd.2 = true
      · right
        by_contra hne
        exact hc ⟨hp, by omega⟩
      · left; simpa using hp

/-- **C73 (fit).** For every accepted point and minimal inventory, if scipy keeps its promises then a
fit is found: its population is positive, its probabilities are probabilities with nothing on zero
impressions, at most `kmax` of them are inflated, and the search for more inflated values stops only
when the fit is good or `kmax` of them are used. -/
theorem C73_fit (S : Solver) (hS : SolverOk S) (M kmax : Nat) (hM : 2 ≤ M) (hk : kmax < M)
    (point : ReachPoint) (i r Imin : ℚ) (hi : point.impressions[0]? = some i)
    (hr : point.kplusReaches[0]? = some r) (hi0 : 1 / 1000 ≤ i) (hr0 : 0 ≤ r) (hri : r ≤ i)
    (hne : 1 < point.frequencies.length → min r (max i Imin - 1) ≠ 0) :
    ∃ N d, fitPoint S M kmax point Imin = .ok (N, d) ∧
      0 < N ∧ IsDistribution d.pmf ∧ d.pmf.head? = some 0 ∧ d.a.length ≤ kmax ∧
      (1 < point.kplusReaches.length → ∀ k, point.kplusReaches.getLast? = some k →
        S.poor (point.frequencies ++ [k]) i N d = false ∨ d.a.length = kmax) := by
  obtain ⟨N, b, h1, h2, h3, -, -⟩ := C72_terminates point i r Imin hi hr hi0 hr0 hri hne
  have hne' : point.kplusReaches ≠ [] := by
    intro h; rw [h] at hr; simp at hr
  have hlast : point.kplusReaches.getLast? = some (point.kplusReaches.getLast hne') :=
    List.getLast?_eq_getLast_of_ne_nil hne'
  have hb : point.frequenciesWithKplusBucket =
      .ok (point.frequencies ++ [point.kplusReaches.getLast hne']) := by
    unfold ReachPoint.frequenciesWithKplusBucket
    rw [pyIndex_neg_one _ hne']; rfl
  have hix : pyIndex point.impressions 0 = .ok i := (pyIndex_ok_iff _ 0 _).2 hi
  obtain ⟨h4, h5⟩ := fitInv_new hM h2 (hS.1 b h3) (a := []) (by simp)
  unfold fitPoint
  simp only [h1, hb, hix, bind, Except.bind]
  have hhead : ∀ {N : ℚ} {d : Dist}, FitInv M (N, d) → d.pmf.head? = some 0 := by
    intro N d hinv
    have := hinv.1.2.2
    have hl := hinv.2.2
    simp only at this hl
    cases hp : d.pmf with
    | nil => rw [hp] at hl; simp at hl; omega
    | cons x l => rw [hp] at this; simpa using this
  by_cases hf : point.maxFrequency = 1
  · rw [if_pos hf]
    refine ⟨N, _, rfl, h2, h4.1.2.1, hhead h4, ?_, ?_⟩
    · rw [h5]; simp
    · intro hl
      unfold ReachPoint.maxFrequency at hf
      omega
  · rw [if_neg hf]
    obtain ⟨h6, h7⟩ := fitFixedLength_inv hS hM
      (point.frequencies ++ [point.kplusReaches.getLast hne']) i Imin (N := N)
      (alpha := (Dist.new M S.gp 1 b []).alpha) (beta := (Dist.new M S.gp 1 b []).beta)
      (a := []) h2 (by simp)
    obtain ⟨N', d', h8, h9, h10, h11⟩ := inflateLoop_spec hS hM hk
      (point.frequencies ++ [point.kplusReaches.getLast hne']) i Imin kmax _ h6
      (by rw [h7]; simp) (by omega)
    refine ⟨N', d', h8, h9.1.1, h9.1.2.1, hhead h9, h10, ?_⟩
    intro _ k hk'
    rw [hlast] at hk'
    cases hk'
    exact h11

/-- What the class accepts. -/
theorem model_new_ok {point : ReachPoint} {kmax : Nat} {e : ℚ} {m : Model}
    (h : Model.new [point] kmax e = .ok m) :
    ∃ i r, point.impressions[0]? = some i ∧ point.kplusReaches[0]? = some r ∧ 1 / 1000 ≤ i ∧ r ≤ i ∧
      m.point = point ∧ m.kmax = kmax ∧ m.fitted = none ∧ m.extrapolationValue = e * i := by
  unfold Model.new at h
  simp only at h
  rcases hi : pyIndex point.impressions 0 with err | i
  · rw [hi] at h; cases h
  · simp only [hi, bind, Except.bind] at h
    split at h
    · cases h
    · rename_i h1
      rcases hr : point.reach 1 with err | r
      · rw [hr] at h; cases h
      · simp only [hr] at h
        split at h
        · cases h
        · rename_i h2
          rcases hc : GoergModel.costPerImpression point.spends i with err | c
          · rw [hc] at h; cases h
          · simp only [hc, pure, Except.pure] at h
            cases h
            exact ⟨i, r, (pyIndex_ok_iff _ 0 _).1 hi, (reachPoint_reach_one point r).1 hr,
              not_lt.1 h1, not_lt.1 h2, rfl, rfl, rfl, rfl⟩

theorem toPoint_ok (m : Model) (I : ℚ) (l : List ℚ) :
    ∃ p, m.toPoint I (some l) = .ok (some p) ∧ p.kplusReaches = l ∧ p.impressions = [I] := by
  unfold Model.toPoint
  simp only
  split
  · refine ⟨_, rfl, rfl, rfl⟩
  · refine ⟨_, rfl, rfl, rfl⟩

theorem fit_ok {S : Solver} {M : Nat} {m : Model} (hm : m.fitted = none) {Imin N : ℚ} {d : Dist}
    (h : fitPoint S M m.kmax m.point Imin = .ok (N, d)) :
    m.fit S M (some Imin) = .ok { m with fitted := some ⟨N, d⟩ } := by
  unfold Model.fit
  rw [hm]
  simp only [Option.getD_some, h, bind, Except.bind, pure, Except.pure]

/-- **C73 (answers).** A query to a new model (for a point that reached somebody) fits the model and
returns `F` k+ reaches that do not increase and lie between zero and the population of the fit. -/
theorem C73_answers (S : Solver) (hS : SolverOk S) (M kmax : Nat) (hM : 2 ≤ M) (hk : kmax < M)
    (point : ReachPoint) (e r : ℚ) (m : Model) (hm : Model.new [point] kmax e = .ok m)
    (hr : point.kplusReaches[0]? = some r) (hr0 : 0 < r) (I : ℚ) (hI : 0 < I) (F : Nat)
    (hF : 1 ≤ F) :
    ∃ m' f p, m.byImpressions S M [I] F = .ok (m', some p) ∧ m'.fitted = some f ∧
      p.impressions = [I] ∧ p.kplusReaches.length = F ∧
      p.kplusReaches.Pairwise (fun x y => y ≤ x) ∧
      ∀ x ∈ p.kplusReaches, 0 ≤ x ∧ x ≤ f.maxReach := by
  obtain ⟨i, r', h1, h2, h3, h4, h5, h6, h7, -⟩ := model_new_ok hm
  rw [hr] at h2
  cases h2
  obtain ⟨N, d, h8, h9, h10, h11, -, -⟩ := C73_fit S hS M kmax hM hk point i r (I + 1) h1 hr h3
    hr0.le h4 (fun _ => by
      have : 0 < min r (max i (I + 1) - 1) :=
        lt_min hr0 (by linarith [le_max_right i (I + 1)])
      exact this.ne')
  rw [← h5, ← h6] at h8
  have hfit := fit_ok h7 h8
  have hg : GoodFit ⟨N, d⟩ := ⟨h9, h10, head?_getD h11⟩
  obtain ⟨l, h12, h13, h14, h15⟩ := C40_bounds ⟨N, d⟩ hg I hI.le F hF
  obtain ⟨p, h16, h17, h18⟩ := toPoint_ok { m with fitted := some ⟨N, d⟩ } I l
  refine ⟨{ m with fitted := some ⟨N, d⟩ }, ⟨N, d⟩, p, ?_, rfl, h18, ?_, ?_, ?_⟩
  · unfold Model.byImpressions
    simp only [hfit, h12, h16, bind, Except.bind, pure, Except.pure]
  · rw [h17]; exact h13
  · rw [h17]; exact h14
  · rw [h17]; exact h15

/-! ## C40: the returned point -/

/-- **C40 (point).** The point returned for a query carries the impressions asked for and, if the cost
per impression is known and not zero, what they cost. -/
theorem C40_point (S : Solver) (M : Nat) (m m' : Model) (I : ℚ) (F : Int) (p : ReachPoint)
    (h : m.byImpressions S M [I] F = .ok (m', some p)) :
    p.impressions = [I] ∧ m'.cpi = m.cpi ∧
    (∀ c, m.cpi = some c → c ≠ 0 → p.spends = some [I * c]) ∧
    (m.cpi = none ∨ m.cpi = some 0 → p.spends = none) ∧
    ∃ f l, m'.fitted = some f ∧ predict f I F = .ok (some l) ∧ p.kplusReaches = l := by
  unfold Model.byImpressions at h
  simp only at h
  rcases hf : m.fit S M (some (I + 1)) with e | m1
  · rw [hf] at h; cases h
  · have hc1 : m1.cpi = m.cpi := by
      unfold Model.fit at hf
      split at hf
      · cases hf; rfl
      · rcases hp : fitPoint S M m.kmax m.point ((some (I + 1)).getD m.extrapolationValue) with e | nd
        · rw [hp] at hf; cases hf
        · rw [hp] at hf; cases hf; rfl
    simp only [hf, bind, Except.bind] at h
    split at h
    · cases h
    · rename_i f hff
      rcases hp : predict f I F with e | l
      · rw [hp] at h; cases h
      · simp only [hp] at h
        cases l with
        | none => simp only [Model.toPoint, pure, Except.pure] at h; cases h
        | some l =>
          unfold Model.toPoint Model.truthyCpi at h
          rw [hc1] at h
          cases hc : m.cpi with
          | none =>
            simp only [hc] at h
            cases h
            exact ⟨rfl, hc1.trans hc, by simp, fun _ => rfl, f, l, hff, hp, rfl⟩
          | some c =>
            simp only [hc] at h
            by_cases hz : c = 0
            · rw [if_pos hz] at h
              cases h
              refine ⟨rfl, hc1.trans hc, ?_, fun _ => rfl, f, l, hff, hp, rfl⟩
              intro c' hc' hne
              cases hc'
              exact absurd hz hne
            · rw [if_neg hz] at h
              cases h
              refine ⟨rfl, hc1.trans hc, ?_, ?_, f, l, hff, hp, rfl⟩
              · intro c' hc' _
                cases hc'; rfl
              · rintro (h' | h')
                · cases h'
                · cases h'; exact absurd rfl hz

/-- **C40 (spend).** With a known cost, `by_spend` is `by_impressions` at the spend divided by the cost
per impression; without one it fails. -/
theorem C40_by_spend (S : Solver) (M : Nat) (m : Model) (s : ℚ) (F : Int) :
    (∀ c, m.cpi = some c → c ≠ 0 → m.bySpend S M [s] F = m.byImpressions S M [s / c] F) ∧
    ((m.cpi = none ∨ m.cpi = some 0) → m.bySpend S M [s] F = .error .valueError) := by
  constructor
  · intro c hc hc0
    unfold Model.bySpend Model.impressionsForSpend Model.truthyCpi
    simp only [hc, if_neg hc0, bind, Except.bind]
  · rintro (hc | hc) <;>
    · unfold Model.bySpend Model.impressionsForSpend Model.truthyCpi
      simp [hc, bind, Except.bind]

/-! ## C73: the rounds -/

/-- `nd` is what the optimizer makes of `start` (specification). -/
def Refit (S : Solver) (M : Nat) (h : List ℚ) (I Imin : ℚ) (start : ℚ × ℚ × ℚ × List ℚ)
    (nd : ℚ × Dist) : Prop :=
  ∃ alpha beta a, S.minimize h I Imin start = (nd.1, alpha, beta, a) ∧
    nd.2 = Dist.new M S.gp alpha beta a

/-- `nd'` is the fit of the round after `nd`: `nd` was poor, and one more value is inflated, starting
from its probability in `nd` (specification). -/
def NextRound (S : Solver) (M kmax : Nat) (h : List ℚ) (I Imin : ℚ) (nd nd' : ℚ × Dist) : Prop :=
  S.poor h I nd.1 nd.2 = true ∧ nd.2.a.length < kmax ∧
  ∃ x, nd.2.pmf[nd.2.a.length + 1]? = some x ∧
    Refit S M h I Imin (nd.1, nd.2.alpha, nd.2.beta, nd.2.a ++ [x]) nd'

theorem inflateLoop_chain {S : Solver} {M kmax : Nat} (h : List ℚ) (I Imin : ℚ) :
    ∀ (fuel : Nat) (nd r : ℚ × Dist), inflateLoop S M kmax h I Imin fuel nd = .ok r →
    ∃ l, (nd :: l).IsChain (NextRound S M kmax h I Imin) ∧ (nd :: l).getLast? = some r := by
  intro fuel
  induction fuel with
  | zero =>
    intro nd r hr
    cases hr
    exact ⟨[], List.isChain_singleton _, rfl⟩
  | succ fuel ih =>
    intro nd r hr
    unfold inflateLoop at hr
    split at hr
    · rename_i hc
      rcases hx : pyIndex nd.2.pmf ((nd.2.a.length : Int) + 1) with e | x
      · rw [hx] at hr; cases hr
      · rw [hx] at hr
        simp only [bind, Except.bind] at hr
        obtain ⟨l, h1, h2⟩ := ih _ _ hr
        refine ⟨_ :: l, List.isChain_cons_cons.2 ⟨⟨hc.1, hc.2, x, ?_, ?_⟩, h1⟩, ?_⟩
        · exact (pyIndex_ok_iff _ (nd.2.a.length + 1) _).1 (by push_cast; exact hx)
        · exact ⟨_, _, _, rfl, rfl⟩
        · rw [List.getLast?_cons_cons]; exact h2
    · cases hr
      exact ⟨[], List.isChain_singleton _, rfl⟩

/-- **C73 (rounds).** A fit to a point with several frequencies is the result of the last of a sequence
of optimizations: the first starts from the exponential-Poisson fit without inflated values, every other
one from the result of the one before, with one more inflated value. -/
theorem C73_rounds (S : Solver) (M kmax : Nat) (point : ReachPoint) (i Imin N b : ℚ) (k : ℚ)
    (hi : point.impressions[0]? = some i) (hk : point.kplusReaches.getLast? = some k)
    (hl : 1 < point.kplusReaches.length)
    (hexp : fitExponentialPoisson point (some Imin) = .ok (N, b)) (r : ℚ × Dist)
    (hr : fitPoint S M kmax point Imin = .ok r) :
    ∃ first l, Refit S M (point.frequencies ++ [k]) i Imin (N, 1, b, []) first ∧
      (first :: l).IsChain (NextRound S M kmax (point.frequencies ++ [k]) i Imin) ∧
      (first :: l).getLast? = some r := by
  have hne : point.kplusReaches ≠ [] := by
    intro h; rw [h] at hl; simp at hl
  have hb : point.frequenciesWithKplusBucket = .ok (point.frequencies ++ [k]) := by
    unfold ReachPoint.frequenciesWithKplusBucket
    rw [List.getLast?_eq_getLast_of_ne_nil hne] at hk
    cases hk
    rw [pyIndex_neg_one _ hne]; rfl
  have hix : pyIndex point.impressions 0 = .ok i := (pyIndex_ok_iff _ 0 _).2 hi
  have hf : ¬ point.maxFrequency = 1 := by
    unfold ReachPoint.maxFrequency
    omega
  unfold fitPoint at hr
  simp only [hexp, hb, hix, bind, Except.bind] at hr
  rw [if_neg hf] at hr
  obtain ⟨l, h1, h2⟩ := inflateLoop_chain _ _ _ _ _ _ hr
  exact ⟨_, l, ⟨_, _, _, rfl, rfl⟩, h1, h2⟩

/-- The exponential-Poisson probabilities, which are scipy's at `alpha = 1` (also used at other values
of `alpha` in the examples). -/
def geomTail (_ beta : ℚ) (n : Nat) : ℚ :=
  if n = 0 then 0 else 1 / (1 + max beta 0) * (max beta 0 / (1 + max beta 0)) ^ (n - 1)

theorem geomTail_isTail (alpha beta : ℚ) : IsTail (geomTail alpha beta) := by
  have hb : (0 : ℚ) ≤ max beta 0 := le_max_right _ _
  have h : ∀ m, ∑ n ∈ Finset.range m, geomTail alpha beta (1 + n) =
      1 - (max beta 0 / (1 + max beta 0)) ^ m := by
    intro m
    induction m with
    | zero => simp
    | succ m ih =>
      rw [Finset.sum_range_succ, ih]
      unfold geomTail
      rw [if_neg (by omega), Nat.add_sub_cancel_left, pow_succ]
      have : (1 : ℚ) / (1 + max beta 0) = 1 - max beta 0 / (1 + max beta 0) := by
        field_simp; ring
      rw [this]; ring
  constructor
  · intro n _
    unfold geomTail
    split
    · exact le_refl _
    · positivity
  · intro m
    rw [sum_Icc_one, h]
    have : (0 : ℚ) ≤ (max beta 0 / (1 + max beta 0)) ^ m := by positivity
    linarith

/-- A solver that returns where it started and is content with two inflated values. -/
def lazySolver : Solver :=
  { gp := geomTail, minimize := fun _ _ _ x => x, poor := fun _ _ _ d => d.a.length < 2 }

theorem lazySolver_ok : SolverOk lazySolver :=
  ⟨fun b _ => geomTail_isTail 1 b,
    fun _ _ _ _ alpha beta _ hN ha => ⟨hN, geomTail_isTail alpha beta, ha, rfl⟩⟩

/-- 60 impressions reached 40 people, 15 of them twice and 5 three times. -/
def exKPoint : ReachPoint :=
  { impressions := [60], kplusReaches := [40, 15, 5], frequencies := [25, 10], spends := some [6],
    universeSize? := none }

/-- A query of 6 impressions: two values are inflated. -/
example : (fitPoint lazySolver 6 3 exKPoint 7).map (fun x => x.2.a.length) = .ok 2 ∧
    exKPoint.impressions[0]? = some 60 ∧ exKPoint.kplusReaches[0]? = some 40 ∧
    exKPoint.kplusReaches.getLast? = some 5 := by decide +kernel

/-- The rounds start from the exponential-Poisson fit with 45 people and rate 3/5; a query for a spend
of 3 is one for 30 impressions. -/
example : fitExponentialPoisson exKPoint (some 7) = .ok (45, 3 / 5) ∧
    (fitPoint lazySolver 6 3 exKPoint 7).isOk ∧
    ((Model.new [exKPoint] 3 1 >>= fun m => m.bySpend lazySolver 6 [3] 2).map
      (fun x => x.2.map (fun p => (p.impressions, p.spends)))) = .ok (some ([30], some [3])) := by
  decide +kernel

/-- The minimal inventory of a fit, as documented: "The expected number of impressions of this pair
will be at least Imin". -/
def C73_full : Prop :=
  ∀ (S : Solver), SolverOk S → ∀ (kmax : Nat), kmax < maxComputationalFrequency →
    ∀ (point : ReachPoint) (e Imin N : ℚ) (m : Model) (d : Dist), Model.new [point] kmax e = .ok m →
    fitPoint S maxComputationalFrequency kmax point Imin = .ok (N, d) →
    Imin ≤ N * ∑ n ∈ Finset.range d.pmf.length, (n : ℚ) * d.pmf.getD n 0

theorem inventory_le {f : Fitted} (hf : GoodFit f) (L : Nat) (hl : f.dist.pmf.length = L + 1) :
    inventory f ≤ f.maxReach * L := by
  obtain ⟨hN, ⟨h0, h1⟩, -⟩ := hf
  unfold inventory
  apply mul_le_mul_of_nonneg_left _ hN.le
  calc ∑ n ∈ Finset.range f.dist.pmf.length, (n : ℚ) * f.dist.pmf.getD n 0
      ≤ ∑ n ∈ Finset.range f.dist.pmf.length, (L : ℚ) * f.dist.pmf.getD n 0 := by
        apply Finset.sum_le_sum
        intro n hn
        apply mul_le_mul_of_nonneg_right _ (getD_nonneg h0 n)
        have := Finset.mem_range.1 hn
        exact_mod_cast (by omega : n ≤ L)
    _ = (L : ℚ) := by rw [← Finset.mul_sum, ← list_sum_getD, h1, mul_one]

/-- The fit of a point with one frequency. -/
theorem fitPoint_single {S : Solver} {M kmax : Nat} {point : ReachPoint} {Imin N b : ℚ}
    (h1 : point.kplusReaches.length = 1) (hi : point.impressions ≠ [])
    (h : fitExponentialPoisson point (some Imin) = .ok (N, b)) :
    fitPoint S M kmax point Imin = .ok (N, Dist.new M S.gp 1 b []) := by
  have hne : point.kplusReaches ≠ [] := by
    intro h; rw [h] at h1; simp at h1
  obtain ⟨i, t, hit⟩ := List.exists_cons_of_ne_nil hi
  have hix : pyIndex point.impressions 0 = .ok i := (pyIndex_ok_iff _ 0 _).2 (by rw [hit]; rfl)
  have hb : point.frequenciesWithKplusBucket =
      .ok (point.frequencies ++ [point.kplusReaches.getLast hne]) := by
    unfold ReachPoint.frequenciesWithKplusBucket
    rw [pyIndex_neg_one _ hne]; rfl
  unfold fitPoint
  simp only [h, hb, hix, bind, Except.bind]
  rw [if_pos (show point.maxFrequency = 1 from h1)]

theorem fitExp_exExpPoint_small : fitExponentialPoisson exExpPoint (some 11) = .ok (200 / 3, 2) := by
  decide +kernel

theorem fitExp_exExpPoint_large :
    fitExponentialPoisson exExpPoint (some 100001) = .ok (14995150 / 299853, 299903 / 100) := by
  decide +kernel

theorem exExpPoint_model : Model.new [exExpPoint] 10 1 =
    .ok ⟨exExpPoint, 10, 100, some (1 / 10), none⟩ := by decide +kernel

theorem C73_full_is_false : ¬ C73_full := by
  intro h
  have h1 := fitPoint_single (S := lazySolver) (M := maxComputationalFrequency) (kmax := 10)
    (by decide +kernel) (by decide +kernel) fitExp_exExpPoint_large
  have h2 := h lazySolver lazySolver_ok 10 (by decide) exExpPoint 1 100001 _ _ _ exExpPoint_model h1
  obtain ⟨⟨h3, -, h4⟩, -⟩ := fitInv_new (M := maxComputationalFrequency) (by decide)
    (N := 14995150 / 299853) (by norm_num) (geomTail_isTail 1 (299903 / 100)) (a := []) (by simp)
  have h5 := inventory_le h3 999 h4
  have h6 := le_trans h2 h5
  norm_num at h6

/-- **C73 (inventory, partial).** The rate and population found for a point with a single frequency
promise the minimal inventory. Missing: the probabilities are cut off at the maximal computational
frequency, which lowers the expected number of impressions, and for several frequencies the optimizer
only penalizes a smaller inventory. -/
theorem C73_inventory_partial (S : Solver) (M kmax : Nat) (point : ReachPoint) (i r Imin : ℚ)
    (hi : point.impressions[0]? = some i) (hr : point.kplusReaches[0]? = some r)
    (hi0 : 1 / 1000 ≤ i) (hr0 : 0 ≤ r) (hri : r ≤ i) (h1 : point.kplusReaches.length = 1)
    (hf : point.frequencies.length ≤ 1) :
    ∃ N d, fitPoint S M kmax point Imin = .ok (N, d) ∧ d.alpha = 1 ∧ d.a = [] ∧
      Imin ≤ N * (1 + d.alpha * d.beta) := by
  obtain ⟨N, b, h2, -, -, -, h3⟩ := C72_terminates point i r Imin hi hr hi0 hr0 hri
    (fun h => by omega)
  refine ⟨N, _, fitPoint_single h1 (by intro h; rw [h] at hi; simp at hi) h2, rfl, ?_, ?_⟩
  · simp [Dist.new, scaleDown]
  · simp only [Dist.new]
    linarith

example : exExpPoint.kplusReaches.length = 1 ∧ exExpPoint.frequencies.length ≤ 1 := by
  decide +kernel

/-! ## C56 -/

/-- The answer to the query `by_impressions([I], F)`. -/
def answer (S : Solver) (M : Nat) (m : Model) (q : ℚ × Int) : Except PyErr (Option ReachPoint) :=
  (m.byImpressions S M [q.1] q.2).map (·.2)

/-- **C56 (full statement, false).** The answer to a query does not depend on the queries made
before. -/
def C56_full : Prop :=
  ∀ (S : Solver), SolverOk S → ∀ (point : ReachPoint) (kmax : Nat) (e : ℚ) (m : Model),
    Model.new [point] kmax e = .ok m → ∀ (history : List (ℚ × Int)) (q : ℚ × Int),
    answer S maxComputationalFrequency (history.foldl (Model.after S maxComputationalFrequency) m) q =
      answer S maxComputationalFrequency m q

/-- The state described by `Model.after` is the one left behind by a successful query. -/
theorem C56_state (S : Solver) (M : Nat) (m m' : Model) (I : ℚ) (F : Int) (r : Option ReachPoint)
    (h : m.byImpressions S M [I] F = .ok (m', r)) : m.after S M (I, F) = m' := by
  unfold Model.byImpressions at h
  simp only at h
  unfold Model.after
  rcases hf : m.fit S M (some (I + 1)) with e | m1
  · rw [hf] at h; cases h
  · simp only [hf, bind, Except.bind] at h
    split at h
    · cases h
    · rename_i f _
      rcases hp : predict f I F with e | l
      · rw [hp] at h; cases h
      · simp only [hp] at h
        rcases ht : m1.toPoint I l with e | p
        · rw [ht] at h; cases h
        · simp only [ht, pure, Except.pure] at h
          cases h
          rfl

/-- When the inventory is used up, everybody is reached. -/
theorem answer_saturated {S : Solver} {M : Nat} {m m' : Model} {f : Fitted} {I : ℚ}
    (h1 : m.fit S M (some (I + 1)) = .ok m') (h2 : m'.fitted = some f) (hf : GoodFit f)
    (hI : inventory f ≤ I) :
    ∃ p, answer S M m (I, 1) = .ok (some p) ∧ p.kplusReaches.head? = some f.maxReach := by
  obtain ⟨l, h3, h4, -⟩ := (C40_ends f hf 1 (le_refl _)).2 I hI
  obtain ⟨p, h5, h6, -⟩ := toPoint_ok m' I l
  refine ⟨p, ?_, by rw [h6]; exact h4⟩
  unfold answer Model.byImpressions
  have h3' : predict f I 1 = .ok (some l) := h3
  simp only [h1, h2, h3', h5, bind, Except.bind, pure, Except.pure, Except.map]

/-- **C56 (counterexample).** Asking for 10 impressions first changes the answer for 100000
impressions from about 50 to about 67 people. -/
theorem C56_full_is_false : ¬ C56_full := by
  intro h
  have hlen : ∀ {N b : ℚ}, 0 < N →
      GoodFit ⟨N, Dist.new maxComputationalFrequency lazySolver.gp 1 b []⟩ ∧
      inventory ⟨N, Dist.new maxComputationalFrequency lazySolver.gp 1 b []⟩ ≤ N * 999 := by
    intro N b hN
    obtain ⟨⟨h3, -, h4⟩, -⟩ := fitInv_new (M := maxComputationalFrequency) (by decide)
      hN (geomTail_isTail 1 b) (a := []) (by simp)
    have := inventory_le h3 999 h4
    exact ⟨h3, le_trans this (le_of_eq (by norm_num))⟩
  have hs := fit_ok (S := lazySolver) (M := maxComputationalFrequency)
    (m := ⟨exExpPoint, 10, 100, some (1 / 10), none⟩) rfl
    (fitPoint_single (by decide +kernel) (by decide +kernel) fitExp_exExpPoint_small)
  have hl := fit_ok (S := lazySolver) (M := maxComputationalFrequency)
    (m := ⟨exExpPoint, 10, 100, some (1 / 10), none⟩) rfl
    (fitPoint_single (by decide +kernel) (by decide +kernel) fitExp_exExpPoint_large)
  obtain ⟨g1, i1⟩ := hlen (N := 200 / 3) (b := 2) (by norm_num)
  obtain ⟨g2, i2⟩ := hlen (N := 14995150 / 299853) (b := 299903 / 100) (by norm_num)
  have hq := h lazySolver lazySolver_ok exExpPoint 10 1 _ exExpPoint_model [(10, 1)] (100000, 1)
  have hafter : [((10 : ℚ), (1 : Int))].foldl (Model.after lazySolver maxComputationalFrequency)
      ⟨exExpPoint, 10, 100, some (1 / 10), none⟩ =
      ⟨exExpPoint, 10, 100, some (1 / 10),
        some ⟨200 / 3, Dist.new maxComputationalFrequency lazySolver.gp 1 2 []⟩⟩ := by
    simp only [List.foldl_cons, List.foldl_nil, Model.after]
    rw [show (10 : ℚ) + 1 = 11 by norm_num, hs]
  rw [hafter] at hq
  obtain ⟨p1, a1, b1⟩ := answer_saturated (S := lazySolver) (M := maxComputationalFrequency)
    (m := ⟨exExpPoint, 10, 100, some (1 / 10),
        some ⟨200 / 3, Dist.new maxComputationalFrequency lazySolver.gp 1 2 []⟩⟩)
    (I := 100000) rfl rfl g1 (le_trans i1 (by norm_num))
  obtain ⟨p2, a2, b2⟩ := answer_saturated (S := lazySolver) (M := maxComputationalFrequency)
    (m := ⟨exExpPoint, 10, 100, some (1 / 10), none⟩)
    (I := 100000) (by rw [show (100000 : ℚ) + 1 = 100001 by norm_num]; exact hl) rfl g2
    (le_trans i2 (by norm_num))
  rw [a1, a2] at hq
  cases hq
  rw [b1] at b2
  have := Option.some.inj b2
  norm_num at this

theorem after_fitted (S : Solver) (M : Nat) {m : Model} (h : m.fitted ≠ none) (q : ℚ × Int) :
    m.after S M q = m := by
  unfold Model.after Model.fit
  cases hf : m.fitted with
  | none => exact absurd hf h
  | some f => rfl

theorem foldl_after_fitted (S : Solver) (M : Nat) {m : Model} (h : m.fitted ≠ none) :
    ∀ history : List (ℚ × Int), history.foldl (Model.after S M) m = m := by
  intro history
  induction history with
  | nil => rfl
  | cons q l ih => rw [List.foldl_cons, after_fitted S M h, ih]

/-- **C56 (once fitted).** Once the model is fitted, no query changes it, so all further answers are
independent of the queries made before. -/
theorem C56_once_fitted (S : Solver) (M : Nat) (m : Model) (h : m.fitted ≠ none)
    (history : List (ℚ × Int)) (q : ℚ × Int) :
    answer S M (history.foldl (Model.after S M) m) q = answer S M m q := by
  rw [foldl_after_fitted S M h]

theorem fit_fitted {S : Solver} {M : Nat} {m m' : Model} {Imin : Option ℚ}
    (h : m.fit S M Imin = .ok m') : m'.fitted ≠ none := by
  unfold Model.fit at h
  cases hf : m.fitted with
  | some f => rw [hf] at h; cases h; rw [hf]; simp
  | none =>
    rw [hf] at h
    simp only at h
    rcases hp : fitPoint S M m.kmax m.point (Imin.getD m.extrapolationValue) with e | nd
    · rw [hp] at h; cases h
    · simp only [hp, bind, Except.bind, pure, Except.pure] at h
      cases h
      simp

/-- **C56 (first query).** Only the first answered query matters: two histories that start with the
same answered query lead to the same answers. -/
theorem C56_first_query (S : Solver) (M : Nat) (m : Model) (q0 : ℚ × Int) (r : Option ReachPoint)
    (h : answer S M m q0 = .ok r) (history history' : List (ℚ × Int)) (q : ℚ × Int) :
    answer S M ((q0 :: history).foldl (Model.after S M) m) q =
      answer S M ((q0 :: history').foldl (Model.after S M) m) q := by
  unfold answer at h
  rcases hb : m.byImpressions S M [q0.1] q0.2 with e | ⟨m', r'⟩
  · rw [hb] at h; cases h
  · have h1 := C56_state S M m m' q0.1 q0.2 r' hb
    rw [List.foldl_cons, List.foldl_cons, h1]
    have h2 : m'.fitted ≠ none := by
      unfold Model.after at h1
      rcases hf : m.fit S M (some (q0.1 + 1)) with e | m1
      · exfalso
        unfold Model.byImpressions at hb
        simp only [hf, bind, Except.bind] at hb
        cases hb
      · simp only [hf] at h1
        subst h1
        exact fit_fitted hf
    rw [foldl_after_fitted S M h2, foldl_after_fitted S M h2]

/-- The fit of a point with one frequency does not depend on a minimal inventory below the observed
number of impressions. -/
theorem fitPoint_below {S : Solver} {M kmax : Nat} {point : ReachPoint} {i r : ℚ}
    (hi : point.impressions[0]? = some i) (hr : point.kplusReaches[0]? = some r)
    (h1 : point.kplusReaches.length = 1) {x y : ℚ} (hx : x ≤ i) (hy : y ≤ i) :
    fitPoint S M kmax point x = fitPoint S M kmax point y := by
  unfold fitPoint
  rw [fitExponentialPoisson_eq x hi hr, fitExponentialPoisson_eq y hi hr, max_eq_left hx,
    max_eq_left hy]
  have hm : point.maxFrequency = 1 := h1
  simp only [hm, if_true]

/-- **C56 (partial).** For a point with a single frequency, if every query asks for at least one
impression less than was observed, the answers do not depend on the order of the queries. Missing:
queries above the observed number of impressions and points with several frequencies, where the
statement is false. -/
theorem C56_no_extrapolation_partial (S : Solver) (M : Nat) (point : ReachPoint) (kmax : Nat)
    (e i : ℚ) (m : Model) (hm : Model.new [point] kmax e = .ok m)
    (hi : point.impressions[0]? = some i) (h1 : point.kplusReaches.length = 1)
    (history : List (ℚ × Int)) (q : ℚ × Int) (hh : ∀ q' ∈ history, q'.1 + 1 ≤ i)
    (hq : q.1 + 1 ≤ i) :
    answer S M (history.foldl (Model.after S M) m) q = answer S M m q := by
  obtain ⟨i', r, hi', hr, -, -, hp, hk, hf, -⟩ := model_new_ok hm
  rw [hi] at hi'
  cases hi'
  have hfit : ∀ x y, x ≤ i → y ≤ i → m.fit S M (some x) = m.fit S M (some y) := by
    intro x y hx hy
    unfold Model.fit
    rw [hf]
    simp only [Option.getD_some]
    rw [hp, fitPoint_below hi hr h1 hx hy]
  rcases hc : m.fit S M (some (q.1 + 1)) with err | m1
  · have : ∀ l : List (ℚ × Int), (∀ q' ∈ l, q'.1 + 1 ≤ i) → l.foldl (Model.after S M) m = m := by
      intro l
      induction l with
      | nil => intro _; rfl
      | cons a l ih =>
        intro hl
        have ha : m.after S M a = m := by
          unfold Model.after
          rw [hfit (a.1 + 1) (q.1 + 1) (hl a (List.mem_cons_self ..)) hq, hc]
        rw [List.foldl_cons, ha]
        exact ih (fun q' h => hl q' (List.mem_cons_of_mem _ h))
    rw [this history hh]
  · cases history with
    | nil => rfl
    | cons a l =>
      have ha : m.after S M a = m1 := by
        unfold Model.after
        rw [hfit (a.1 + 1) (q.1 + 1) (hh a (List.mem_cons_self ..)) hq, hc]
      have h2 := fit_fitted hc
      rw [List.foldl_cons, ha, foldl_after_fitted S M h2]
      have h3 : m1.fit S M (some (q.1 + 1)) = .ok m1 := by
        unfold Model.fit
        cases hx : m1.fitted with
        | none => exact absurd hx h2
        | some f => rfl
      unfold answer Model.byImpressions
      simp only [hc, h3]

/-- A query of 20 impressions to a new model and to one that was asked about 90 before. -/
example :
    let m : Model := ⟨exExpPoint, 10, 100, some (1 / 10), none⟩
    Model.new [exExpPoint] = .ok m ∧
    (answer lazySolver 6 m (20, 2)).isOk ∧
    answer lazySolver 6 (m.after lazySolver 6 (90, 1)) (20, 2) =
      answer lazySolver 6 m (20, 2) := by decide +kernel

/-- **C40 (single publisher).** A query for any number of publishers other than one is refused with a
`ValueError`, whatever the state of the model. -/
theorem C40_refused (S : Solver) (M : Nat) (m : Model) (xs : List ℚ) (h : xs.length ≠ 1) (F : Int) :
    m.byImpressions S M xs F = .error .valueError ∧ m.bySpend S M xs F = .error .valueError := by
  match xs, h with
  | [], _ => exact ⟨rfl, rfl⟩
  | _ :: _ :: _, _ => exact ⟨rfl, rfl⟩

example : ([3, 4] : List ℚ).length ≠ 1 := by decide

/-- **C40 (training data).** A training point of one publisher, with or without a spend, is accepted
exactly if it has at least a thousandth of an impression and its reach is at most its impressions;
any other number of points is refused. All refusals are `ValueError`s. -/
theorem C40_accepted (ks : List ℚ) (i r : ℚ) (s : Option ℚ) (point : ReachPoint)
    (hnew : ReachPoint.new [i] ks (s.map (fun x => [x])) = .ok point)
    (hr : ks.head? = some r) (kmax : Nat) (e : ℚ) :
    ((∃ m, Model.new [point] kmax e = .ok m) ↔ 1 / 1000 ≤ i ∧ r ≤ i) ∧
    (¬ (1 / 1000 ≤ i ∧ r ≤ i) → Model.new [point] kmax e = .error .valueError) ∧
    ∀ data : List ReachPoint, data.length ≠ 1 → Model.new data kmax e = .error .valueError := by
  have hks : ∃ l, ks = r :: l := by
    cases ks with
    | nil => cases hr
    | cons a l => cases hr; exact ⟨l, rfl⟩
  obtain ⟨l, rfl⟩ := hks
  have hpt : point.impressions = [i] ∧ point.kplusReaches = r :: l ∧
      point.spends = s.map (fun x => [x]) := by
    unfold ReachPoint.new at hnew
    cases s <;> simp [ReachPoint.truthySpends] at hnew <;> subst hnew <;> exact ⟨rfl, rfl, rfl⟩
  obtain ⟨p1, p2, p3⟩ := hpt
  have hx : pyIndex point.impressions 0 = .ok i := (pyIndex_ok_iff _ 0 _).2 (by rw [p1]; rfl)
  have hreach : point.reach 1 = .ok r := by
    unfold ReachPoint.reach
    rw [p2, if_pos (by simp)]
    exact (pyIndex_ok_iff _ 0 _).2 rfl
  have hcpi : ∃ c, GoergModel.costPerImpression point.spends i = .ok c := by
    rw [p3]
    cases s with
    | none => exact ⟨none, rfl⟩
    | some x => exact ⟨some (x / i), rfl⟩
  obtain ⟨c, hcpi⟩ := hcpi
  have hbad : ¬ (1 / 1000 ≤ i ∧ r ≤ i) → Model.new [point] kmax e = .error .valueError := by
    intro hn
    unfold Model.new
    simp only [hx, hreach, hcpi, bind, Except.bind]
    by_cases h1 : i < 1 / 1000
    · rw [if_pos h1]
    · rw [if_neg h1, if_pos]
      by_contra h2
      exact hn ⟨not_lt.1 h1, not_lt.1 h2⟩
  refine ⟨⟨?_, ?_⟩, hbad, ?_⟩
  · rintro ⟨m, hm⟩
    by_contra hn
    rw [hbad hn] at hm
    cases hm
  · rintro ⟨h1, h2⟩
    unfold Model.new
    simp only [hx, hreach, hcpi, bind, Except.bind, if_neg (not_lt.2 h1), if_neg (not_lt.2 h2),
      pure, Except.pure]
    exact ⟨_, rfl⟩
  · intro data hd
    match data, hd with
    | [], _ => rfl
    | _ :: _ :: _, _ => rfl

/-- A point with 10 impressions reaching 8 people, 3 of them twice, meets the hypotheses. -/
example : ∃ point, ReachPoint.new [10] [8, 3] ((some 5 : Option ℚ).map (fun x => [x])) = .ok point ∧
    ([8, 3] : List ℚ).head? = some 8 := ⟨_, rfl, rfl⟩

/-- **C40 (defaults).** Without further arguments ten frequencies are inflated, nothing is extrapolated
beyond the observed impressions, and reaches at one frequency are returned. -/
theorem C40_defaults (data : List ReachPoint) (S : Solver) (M : Nat) (m : Model) (xs : List ℚ) :
    Model.new data = Model.new data 10 1 ∧
    m.byImpressions S M xs = m.byImpressions S M xs 1 ∧
    m.bySpend S M xs = m.bySpend S M xs 1 := ⟨rfl, rfl, rfl⟩

end Verif
