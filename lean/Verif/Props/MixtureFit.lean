import Verif.Model.MixtureFit
import Verif.Props.Mixture
import Verif.Props.MultiStart
import Mathlib.Tactic.LinearCombination

/-!
# C88: the alternating fit of the generalized mixture surface
-/

namespace Verif

open Verif.Spec Finset

/-! ## Specification -/

/-- The program solved when the current weights are `w`: its linear forms belong to the thetas of
`w`. -/
def nextProgram (s : MixtureSurface) (rs : List (List ℚ)) (ys : List ℚ) (w : Option (List ℚ)) :
    Option MixtureSurface.Program :=
  (w.bind (fun x => s.updateTheta x rs)).map (fun th => s.program th rs ys)

/-- The weights after `k` rounds: every round replaces the weights by the solution of the program
that belongs to them. -/
def weightsAfter (s : MixtureSurface) (solve : Option MixtureSurface.Program → Option (List ℚ))
    (rs : List (List ℚ)) (ys : List ℚ) (a : List ℚ) : Nat → Option (List ℚ)
  | 0 => some a
  | k + 1 => solve (nextProgram s rs ys (weightsAfter s solve rs ys a k))

/-- The loss after `k` rounds: that of the new weights in the program they solve.  Before the first
round it is a large number. -/
def lossAfter (s : MixtureSurface) (solve : Option MixtureSurface.Program → Option (List ℚ))
    (rs : List (List ℚ)) (ys : List ℚ) (a : List ℚ) : Nat → Option ℚ
  | 0 => some 9999999999
  | k + 1 =>
    (nextProgram s rs ys (weightsAfter s solve rs ys a k)).bind (fun prog =>
      (weightsAfter s solve rs ys a (k + 1)).map (fun x =>
        MixtureSurface.loss (s.p * s.c) prog.P prog.q x))

/-- The loss with which the loss after `k` rounds is compared. -/
def lossBefore (s : MixtureSurface) (solve : Option MixtureSurface.Program → Option (List ℚ))
    (rs : List (List ℚ)) (ys : List ℚ) (a : List ℚ) : Nat → Option ℚ
  | 0 => some 10000000000
  | k + 1 => lossAfter s solve rs ys a k

/-- `y` is less than `x` by more than `d`; both are numbers. -/
def ImprovesBy (d : ℚ) (x y : Option ℚ) : Prop := ∃ u v, x = some u ∧ y = some v ∧ v < u - d

/-- The answer `x` is what `solvers.qp` is documented to return: among all weight vectors it has the
least objective. -/
structure SolvesMixture (s : MixtureSurface) (prog : MixtureSurface.Program) (x : List ℚ) : Prop where
  length : x.length = s.p * s.c
  weights : MixtureWeights s.p s.c (mixtureMatrix { s with a := x })
  least : ∀ y : List ℚ, y.length = s.p * s.c →
    MixtureWeights s.p s.c (mixtureMatrix { s with a := y }) →
    qpObjective (s.p * s.c) prog.P prog.q (fun k => x.getD k 0)
      ≤ qpObjective (s.p * s.c) prog.P prog.q (fun k => y.getD k 0)

/-- A solver that only returns solutions. -/
def CorrectSolver (s : MixtureSurface) (solve : Option MixtureSurface.Program → Option (List ℚ)) :
    Prop :=
  ∀ prog x, solve (some prog) = some x → SolvesMixture s prog x

/-! ## The loop -/

section

variable (s : MixtureSurface) (solve : Option MixtureSurface.Program → Option (List ℚ))
  (rs : List (List ℚ)) (ys : List ℚ) (a : List ℚ)

theorem altLoop_spec (mi : ℚ) (left n : Nat) (prev : ℚ)
    (hp : lossBefore s solve rs ys a n = some prev) :
    ∃ m, n ≤ m ∧ m ≤ n + left ∧
      MixtureSurface.altLoop s solve mi rs ys left (weightsAfter s solve rs ys a n)
        ((weightsAfter s solve rs ys a n).bind (fun x => s.updateTheta x rs)) prev
        (lossAfter s solve rs ys a n) n
        = ⟨weightsAfter s solve rs ys a m, lossAfter s solve rs ys a m,
            ((lossBefore s solve rs ys a m).any (fun p =>
              MixtureSurface.noImprovement mi p (lossAfter s solve rs ys a m))), m⟩ ∧
      (∃ p, lossBefore s solve rs ys a m = some p) ∧
      (∀ k, n ≤ k → k < m →
        ImprovesBy mi (lossBefore s solve rs ys a k) (lossAfter s solve rs ys a k)) ∧
      (m < n + left →
        ¬ ImprovesBy mi (lossBefore s solve rs ys a m) (lossAfter s solve rs ys a m)) := by
  induction left generalizing n prev with
  | zero =>
    refine ⟨n, le_refl _, le_refl _, ?_, ⟨prev, hp⟩, by omega, by omega⟩
    simp [MixtureSurface.altLoop, hp]
  | succ left ih =>
    cases hc : lossAfter s solve rs ys a n with
    | none =>
      refine ⟨n, le_refl _, by omega, ?_, ⟨prev, hp⟩, by omega, fun _ => ?_⟩
      · simp [MixtureSurface.altLoop, hc, hp, MixtureSurface.noImprovement]
      · rintro ⟨u, v, _, h2, _⟩
        rw [hc] at h2
        cases h2
    | some c =>
      unfold MixtureSurface.altLoop
      simp only
      by_cases h : c < prev - mi
      · rw [if_pos h]
        have hl : s.roundLoss
            (((weightsAfter s solve rs ys a n).bind (fun x => s.updateTheta x rs)).map
              (fun th => s.program th rs ys))
            (solve (((weightsAfter s solve rs ys a n).bind (fun x => s.updateTheta x rs)).map
              (fun th => s.program th rs ys)))
            = lossAfter s solve rs ys a (n + 1) := by
          rw [lossAfter, weightsAfter]
          unfold nextProgram
          cases ((weightsAfter s solve rs ys a n).bind (fun x => s.updateTheta x rs)).map
              (fun th => s.program th rs ys) with
          | none => rfl
          | some prog =>
            simp only [Option.bind_some]
            cases solve (some prog) <;> rfl
        obtain ⟨m, m1, m2, m3, m4, m5, m6⟩ := ih (n + 1) c (by rw [lossBefore]; exact hc)
        refine ⟨m, by omega, by omega, ?_, m4, ?_, fun hm => m6 (by omega)⟩
        · rw [hl]
          exact m3
        · intro k hk hkm
          rcases Nat.eq_or_lt_of_le hk with rfl | hk
          · exact ⟨prev, c, hp, hc, h⟩
          · exact m5 k hk hkm
      · rw [if_neg h]
        refine ⟨n, le_refl _, by omega, ?_, ⟨prev, hp⟩, by omega, fun _ => ?_⟩
        · simp [hc, hp]
        · rintro ⟨u, v, h1, h2, h3⟩
          rw [hp] at h1
          rw [hc] at h2
          obtain rfl := Option.some.inj h1
          obtain rfl := Option.some.inj h2
          exact h h3

/-- C88 (a): a run performs at most the configured number of rounds; it returns the weights of its
last round with their loss; it performs another round exactly as long as the last one improved the
loss by more than the configured amount (and the loss is a number); and it reports convergence
exactly if its last round did not. -/
theorem C88_run_partial (mi : ℚ) (maxRounds : Nat) :
    ∃ run, s.fitOneInit solve mi maxRounds rs ys a = run ∧ run.rounds ≤ maxRounds ∧
      run.a = weightsAfter s solve rs ys a run.rounds ∧
      run.loss = lossAfter s solve rs ys a run.rounds ∧
      (∀ k < run.rounds,
        ImprovesBy mi (lossBefore s solve rs ys a k) (lossAfter s solve rs ys a k)) ∧
      (run.rounds < maxRounds → ¬ ImprovesBy mi (lossBefore s solve rs ys a run.rounds)
        (lossAfter s solve rs ys a run.rounds)) ∧
      (run.converge = true ↔ ∃ u v, lossBefore s solve rs ys a run.rounds = some u ∧
        lossAfter s solve rs ys a run.rounds = some v ∧ u - mi ≤ v) := by
  obtain ⟨m, m1, m2, m3, ⟨p, m4⟩, m5, m6⟩ := altLoop_spec s solve rs ys a mi maxRounds 0 10000000000 rfl
  have e0 : s.fitOneInit solve mi maxRounds rs ys a
      = MixtureSurface.altLoop s solve mi rs ys maxRounds (weightsAfter s solve rs ys a 0)
        ((weightsAfter s solve rs ys a 0).bind (fun x => s.updateTheta x rs)) 10000000000
        (lossAfter s solve rs ys a 0) 0 := by
    unfold MixtureSurface.fitOneInit
    have : (some (10000000000 - 1 : ℚ)) = lossAfter s solve rs ys a 0 := by
      rw [lossAfter]; norm_num
    rw [this]
    rfl
  have e := e0.trans m3
  refine ⟨_, e, by simpa using m2, rfl, rfl, fun k hk => m5 k (Nat.zero_le _) hk,
    fun h => m6 (by simpa using h), ?_⟩
  simp only [m4, Option.any_some]
  cases hl : lossAfter s solve rs ys a m with
  | none => simp [MixtureSurface.noImprovement]
  | some v => simp [MixtureSurface.noImprovement]

/-- C88 (b): with the default criteria at least one round is performed. -/
theorem C88_one_round_partial (mi : ℚ) (hmi : mi < 1) (maxRounds : Nat) (hmax : 0 < maxRounds) :
    0 < (s.fitOneInit solve mi maxRounds rs ys a).rounds := by
  obtain ⟨run, h, _, _, _, _, h6, _⟩ := C88_run_partial s solve rs ys a mi maxRounds
  rw [h]
  rcases Nat.eq_zero_or_pos run.rounds with h0 | h0
  · exfalso
    apply h6 (by omega)
    rw [h0]
    exact ⟨10000000000, 9999999999, rfl, rfl, by linarith⟩
  · exact h0

end

/-- The thetas of all training points. -/
theorem mapM_length {α β : Type} (f : α → Option β) (l : List α) (r : List β) (h : l.mapM f = some r) :
    r.length = l.length := by
  induction l generalizing r with
  | nil => simp at h; subst h; rfl
  | cons x l ih =>
    rw [List.mapM_cons] at h
    cases hx : f x with
    | none => rw [hx] at h; cases h
    | some y =>
      cases hl : l.mapM f with
      | none => rw [hx, hl] at h; cases h
      | some t =>
        rw [hx, hl] at h
        obtain rfl : y :: t = r := by simpa using h
        simp [ih t hl]

/-- C88 (c): if the solver solves the programs it is given, the weights of a run that ends with a
number satisfy the documented constraints; and among all weights satisfying them, they have the least
sum of squared errors of the linear forms that belong to the weights of the round before. -/
theorem C88_weights_partial (s : MixtureSurface)
    (solve : Option MixtureSurface.Program → Option (List ℚ))
    (hsolve : CorrectSolver s solve) (rs : List (List ℚ)) (ys : List ℚ) (hlen : rs.length = ys.length)
    (a : List ℚ) (mi : ℚ) (hmi : mi < 1) (maxRounds : Nat) (hmax : 0 < maxRounds) (l : ℚ)
    (h : (s.fitOneInit solve mi maxRounds rs ys a).loss = some l) :
    ∃ x w th, (s.fitOneInit solve mi maxRounds rs ys a).a = some x ∧ x.length = s.p * s.c ∧
      MixtureWeights s.p s.c (mixtureMatrix { s with a := x }) ∧
      weightsAfter s solve rs ys a ((s.fitOneInit solve mi maxRounds rs ys a).rounds - 1) = some w ∧
      s.updateTheta w rs = some th ∧
      ∀ y : List ℚ, y.length = s.p * s.c → MixtureWeights s.p s.c (mixtureMatrix { s with a := y }) →
        squaredError (ys.map (· / s.N)) ((th.zip rs).map (fun tr =>
            linearForm (s.p * s.c) x (s.zFromTheta tr.1 tr.2)))
          ≤ squaredError (ys.map (· / s.N)) ((th.zip rs).map (fun tr =>
            linearForm (s.p * s.c) y (s.zFromTheta tr.1 tr.2))) := by
  have hpos := C88_one_round_partial s solve rs ys a mi hmi maxRounds hmax
  obtain ⟨run, hr, _, h3, h4, _⟩ := C88_run_partial s solve rs ys a mi maxRounds
  rw [hr] at h hpos ⊢
  obtain ⟨n, hn⟩ : ∃ n, run.rounds = n + 1 := ⟨run.rounds - 1, by omega⟩
  rw [hn] at h3 h4 ⊢
  rw [h, lossAfter] at h4
  rw [h3, Nat.add_sub_cancel]
  cases hprog : nextProgram s rs ys (weightsAfter s solve rs ys a n) with
  | none => rw [hprog] at h4; cases h4
  | some prog =>
    rw [hprog] at h4
    cases hx : weightsAfter s solve rs ys a (n + 1) with
    | none => rw [hx] at h4; cases h4
    | some x =>
      have hw : ∃ w th, weightsAfter s solve rs ys a n = some w ∧ s.updateTheta w rs = some th ∧
          s.program th rs ys = prog := by
        unfold nextProgram at hprog
        cases hww : weightsAfter s solve rs ys a n with
        | none => rw [hww] at hprog; cases hprog
        | some w =>
          rw [hww] at hprog
          cases ht : s.updateTheta w rs with
          | none => simp [ht] at hprog
          | some th =>
            refine ⟨w, th, rfl, ht, ?_⟩
            simpa [ht] using hprog
      obtain ⟨w, th, hw1, hw2, hw3⟩ := hw
      rw [weightsAfter, hprog] at hx
      have hs := hsolve prog x hx
      refine ⟨x, w, th, rfl, hs.length, hs.weights, hw1, hw2, ?_⟩
      intro y hy1 hy2
      have := hs.least y hy1 hy2
      have hth : th.length = rs.length := mapM_length _ _ _ hw2
      have hz : ((th.zip rs).map (fun tr => s.zFromTheta tr.1 tr.2)).length = ys.length := by
        simp [hth, hlen]
      rw [← hw3] at this
      unfold MixtureSurface.program at this
      simp only at this
      rw [C38_objective s _ _ ys hz, C38_objective s _ _ ys hz] at this
      simp only [List.map_map, Function.comp_def] at this
      linarith

/-! ## The whole fit -/

/-- C88 (d): fitting performs ten runs.  If one of them ends with a number, the fitted weights are
those of the first run with the least loss; the fitted surface satisfies the documented constraints
and differs from the unfitted one in nothing else.  Otherwise there are no weights. -/
theorem C88_fit_partial (s : MixtureSurface)
    (solve : Option MixtureSurface.Program → Option (List ℚ)) (hsolve : CorrectSolver s solve)
    (inits : Nat → List ℚ) (rs : List (List ℚ)) (ys : List ℚ)
    (hr : s.data.mapM (fun pt => PairwiseSurface.getReachVector s.curves pt.impressions) = .ok rs)
    (hy : s.data.mapM (fun pt => pt.reach 1) = .ok ys) :
    (∃ a i l, s.fit solve inits = .ok (some { s with a := a }) ∧ a.length = s.p * s.c ∧
      MixtureWeights s.p s.c (mixtureMatrix { s with a := a }) ∧ i < 10 ∧
      (s.fitOneInit solve (1 / 1000) 1000 rs ys (inits i)).a = some a ∧
      (s.fitOneInit solve (1 / 1000) 1000 rs ys (inits i)).loss = some l ∧
      (∀ j < 10, ∀ x, (s.fitOneInit solve (1 / 1000) 1000 rs ys (inits j)).loss = some x → l ≤ x) ∧
      (∀ j < i, ∀ x, (s.fitOneInit solve (1 / 1000) 1000 rs ys (inits j)).loss = some x → l < x)) ∨
    (s.fit solve inits = .ok none ∧
      ∀ i < 10, (s.fitOneInit solve (1 / 1000) 1000 rs ys (inits i)).loss = none) := by
  have hlen : rs.length = ys.length := by
    rw [mapM_ok_iff] at hr hy
    rw [← hr.length_eq, ← hy.length_eq]
  set runs : Nat → StartRun (Option (List ℚ)) := fun n =>
    (s.fitOneInit solve MixtureSurface.defaultMinImprovement MixtureSurface.defaultMaxRounds rs ys
      (inits n)).start with hruns
  obtain ⟨res, h1, _, _, _, _, _, _, _, h9, h10⟩ :=
    C36_multi_start mixtureCriteria (by decide) (by norm_num [mixtureCriteria]) (by decide) runs
  obtain ⟨res', h1', hten⟩ := C36_mixture_always_ten runs
  rw [h1] at h1'
  obtain rfl : res = res' := by simpa using h1'
  rw [hten] at h9 h10
  have hfit : s.fit solve inits = match res.best with
      | some (some a, _) => .ok (some { s with a := a })
      | _ => .ok none := by
    unfold MixtureSurface.fit
    rw [hr, hy]
    simp only [bind, Except.bind]
    rw [← hruns, h1]
    rfl
  have hl : ∀ i, (runs i).loss = (s.fitOneInit solve (1 / 1000) 1000 rs ys (inits i)).loss :=
    fun _ => rfl
  have ha : ∀ i, (runs i).fit = (s.fitOneInit solve (1 / 1000) 1000 rs ys (inits i)).a :=
    fun _ => rfl
  cases hb : res.best with
  | none =>
    right
    rw [hfit, hb]
    exact ⟨rfl, fun i hi => by rw [← hl]; exact h10 hb i hi⟩
  | some b =>
    obtain ⟨fit, l⟩ := b
    obtain ⟨i, i1, i2, i3, i4, i5⟩ := h9 fit l hb
    rw [hl] at i3
    obtain ⟨x, w, th, x1, x2, x3, _⟩ := C88_weights_partial s solve hsolve rs ys hlen (inits i)
      (1 / 1000) (by norm_num) 1000 (by norm_num) l i3
    rw [ha, x1] at i2
    left
    refine ⟨x, i, l, ?_, x2, x3, i1, x1, i3, fun j hj y hy => ?_, fun j hj y hy => ?_⟩
    · rw [hfit, hb, ← i2]
    · exact i4 j hj y (by rw [hl]; exact hy)
    · exact i5 j hj y (by rw [hl]; exact hy)

/-- C88 (e): so the fitted surface predicts plausible union reaches. -/
theorem C88_prediction_partial (s : MixtureSurface) (hc : s.curves.length = s.p) (hN : 0 < s.N)
    (solve : Option MixtureSurface.Program → Option (List ℚ)) (hsolve : CorrectSolver s solve)
    (inits : Nat → List ℚ) (s' : MixtureSurface) (h : s.fit solve inits = .ok (some s'))
    (v : List ℚ) (hv : v.length = s.p) (r : List ℚ)
    (hr : PairwiseSurface.getReachVector s.curves v = .ok r) (hrange : MixtureReaches s r) :
    ∃ pt u, s'.byImpressions v = .ok pt ∧ pt.reach 1 = .ok u ∧ (∀ x ∈ r, x ≤ u) ∧ u ≤ r.sum := by
  have hrs : ∃ rs, s.data.mapM (fun pt => PairwiseSurface.getReachVector s.curves pt.impressions)
      = .ok rs := by
    unfold MixtureSurface.fit at h
    rcases hx : s.data.mapM (fun pt => PairwiseSurface.getReachVector s.curves pt.impressions)
      with e | rs
    · rw [hx] at h; cases h
    · exact ⟨rs, hx⟩
  obtain ⟨rs, hrs⟩ := hrs
  have hys : ∃ ys, s.data.mapM (fun pt => pt.reach 1) = .ok ys := by
    unfold MixtureSurface.fit at h
    rw [hrs] at h
    rcases hx : s.data.mapM (fun pt => pt.reach 1) with e | ys
    · rw [hx] at h; cases h
    · exact ⟨ys, hx⟩
  obtain ⟨ys, hys⟩ := hys
  rcases C88_fit_partial s solve hsolve inits rs ys hrs hys with ⟨a, i, l, h1, h2, h3, _⟩ | ⟨h1, _⟩
  · rw [h1] at h
    obtain rfl : ({ s with a := a } : MixtureSurface) = s' := by simpa using h
    obtain ⟨pt, u, p1, p2, p3, p4, _⟩ := C37_bounds_partial { s with a := a } ⟨hc, h2, hN⟩ h3 v hv r hr
      hrange
    exact ⟨pt, u, p1, p2, p3, p4⟩
  · rw [h1] at h
    cases h

/-! ## A training point at which nobody is reached -/

theorem mapM_none_of_mem {α β : Type} (f : α → Option β) (l : List α) (x : α) (hx : x ∈ l)
    (h : f x = none) : l.mapM f = none := by
  induction l with
  | nil => cases hx
  | cons y l ih =>
    rw [List.mapM_cons]
    rcases List.mem_cons.1 hx with rfl | hx
    · rw [h]; rfl
    · rw [ih hx]
      cases f y <;> rfl

/-- C88 (f): a single training point at which no publisher reaches anybody makes every run end with
`nan`, whatever the solver returns: the fit leaves the surface without weights. -/
theorem C88_zero_point (s : MixtureSurface) (hc : 0 < s.c)
    (solve : Option MixtureSurface.Program → Option (List ℚ))
    (inits : Nat → List ℚ) (rs : List (List ℚ)) (ys : List ℚ)
    (hr : s.data.mapM (fun pt => PairwiseSurface.getReachVector s.curves pt.impressions) = .ok rs)
    (hy : s.data.mapM (fun pt => pt.reach 1) = .ok ys)
    (r : List ℚ) (hmem : r ∈ rs) (hzero : ∀ x ∈ r, x = 0) :
    s.fit solve inits = .ok none := by
  have hx : ∀ a j i, s.getX a r j i = 0 := by
    intro a j i
    have : r.getD i 0 = 0 := by
      rw [List.getD_eq_getElem?_getD]
      cases hi : r[i]? with
      | none => rfl
      | some x => exact hzero x (List.mem_of_getElem? hi)
    unfold MixtureSurface.getX
    rw [this]
    simp
  have hth : ∀ a, s.updateTheta a rs = none := by
    intro a
    apply mapM_none_of_mem _ _ r hmem
    apply mapM_none_of_mem _ _ 0 (List.mem_range.2 hc)
    unfold MixtureSurface.getTheta
    rw [if_pos]
    rw [show s.getX a r 0 = fun _ => 0 from funext (hx a 0)]
    simp
  have hrun : ∀ i, (s.fitOneInit solve (1 / 1000) 1000 rs ys (inits i)).loss = none := by
    intro i
    have hpos := C88_one_round_partial s solve rs ys (inits i) (1 / 1000) (by norm_num) 1000 (by norm_num)
    obtain ⟨run, h, _, _, h4, _⟩ := C88_run_partial s solve rs ys (inits i) (1 / 1000) 1000
    rw [h] at hpos ⊢
    obtain ⟨n, hn'⟩ : ∃ n, run.rounds = n + 1 := ⟨run.rounds - 1, by omega⟩
    rw [h4, hn', lossAfter]
    have : nextProgram s rs ys (weightsAfter s solve rs ys (inits i) n) = none := by
      unfold nextProgram
      cases weightsAfter s solve rs ys (inits i) n with
      | none => rfl
      | some w => simp [hth w]
    rw [this]
    rfl
  set runs : Nat → StartRun (Option (List ℚ)) := fun n =>
    (s.fitOneInit solve MixtureSurface.defaultMinImprovement MixtureSurface.defaultMaxRounds rs ys
      (inits n)).start with hruns
  obtain ⟨res, h1, _, _, _, _, _, _, _, h9, _⟩ :=
    C36_multi_start mixtureCriteria (by decide) (by norm_num [mixtureCriteria]) (by decide) runs
  have hb : res.best = none := by
    cases hb : res.best with
    | none => rfl
    | some b =>
      obtain ⟨i, _, _, i3, _⟩ := h9 b.1 b.2 hb
      have e : (runs i).loss = none := hrun i
      rw [e] at i3
      cases i3
  unfold MixtureSurface.fit
  rw [hr, hy]
  simp only [bind, Except.bind]
  rw [← hruns, h1]
  simp only [hb]

/-! ## The fit is not a descent -/

/-- The union reaches the surface would predict with weights `a` at the training points, divided by
the universe size. -/
def mixturePredictions (s : MixtureSurface) (a : List ℚ) (rs : List (List ℚ)) : List ℚ :=
  rs.map (fun r => mixtureUnion s.N s.p s.c (mixtureMatrix { s with a := a }) (fun i => r.getD i 0)
    / s.N)

/-- C88, as stated: with a correct solver, a run ends with weights satisfying the constraints whose
sum of squared prediction errors at the training points is at most that of the start. -/
def C88_full : Prop :=
  ∀ (s : MixtureSurface), 0 < s.N → ∀ solve, CorrectSolver s solve →
    ∀ (rs : List (List ℚ)) (ys : List ℚ), rs.length = ys.length →
    (∀ r ∈ rs, r.length = s.p ∧ MixtureReaches s r) →
    ∀ (a : List ℚ), a.length = s.p * s.c → MixtureWeights s.p s.c (mixtureMatrix { s with a := a }) →
    ∀ x, (s.fitOneInit solve (1 / 1000) 1000 rs ys a).a = some x →
    MixtureWeights s.p s.c (mixtureMatrix { s with a := x }) ∧
    squaredError (ys.map (· / s.N)) (mixturePredictions s x rs)
      ≤ squaredError (ys.map (· / s.N)) (mixturePredictions s a rs)

/-- Two publishers with at most ten people each, two clusters. -/
def exAlt : MixtureSurface :=
  { curves := List.replicate 2 ⟨10, fun x => .ok (min x 10)⟩, p := 2, c := 2, N := 20,
    data := [⟨[10, 11], [20], [], none, none⟩], a := [] }

/-- Equal weights. -/
def exHalf : List ℚ := [1 / 2, 1 / 2, 1 / 2, 1 / 2]

/-- The start: each publisher prefers its own cluster. -/
def exApart : List ℚ := [3 / 4, 1 / 4, 1 / 4, 3 / 4]

open Classical in
/-- A correct solver: it returns equal weights if they are optimal. -/
noncomputable def exAltSolve : Option MixtureSurface.Program → Option (List ℚ)
  | none => none
  | some prog => if SolvesMixture exAlt prog exHalf then some exHalf else none

theorem exAltSolve_correct : CorrectSolver exAlt exAltSolve := by
  intro prog x h
  unfold exAltSolve at h
  simp only at h
  split at h
  · rename_i hs
    obtain rfl := Option.some.inj h
    exact hs
  · cases h

theorem exHalf_weights : MixtureWeights 2 2 (mixtureMatrix { exAlt with a := exHalf }) :=
  ⟨by decide +kernel, by decide +kernel⟩

theorem exApart_weights : MixtureWeights 2 2 (mixtureMatrix { exAlt with a := exApart }) :=
  ⟨by decide +kernel, by decide +kernel⟩

/-- If both clusters have the same theta, all weights are optimal. -/
theorem exAlt_solves (t : ℚ) :
    SolvesMixture exAlt (exAlt.program [[t, t]] [[10, 10]] [20]) exHalf := by
  refine ⟨rfl, exHalf_weights, ?_⟩
  intro y hy1 hy2
  have hz : ([exAlt.zFromTheta [t, t] [10, 10]]).length = ([20] : List ℚ).length := rfl
  have key : ∀ x : List ℚ, MixtureWeights exAlt.p exAlt.c (mixtureMatrix { exAlt with a := x }) →
      linearForm (exAlt.p * exAlt.c) x (exAlt.zFromTheta [t, t] [10, 10]) = t := by
    intro x hx
    have t0 := hx.total 0 (by decide)
    have t1 := hx.total 1 (by decide)
    simp only [exAlt, mixtureMatrix, Finset.sum_range_succ, Finset.sum_range_zero] at t0 t1
    norm_num at t0 t1
    have e : exAlt.zFromTheta [t, t] [10, 10]
        = [10 * t / 20, 10 * t / 20, 10 * t / 20, 10 * t / 20] := rfl
    rw [e]
    simp only [linearForm, exAlt, Finset.sum_range_succ, Finset.sum_range_zero]
    norm_num
    linear_combination (t / 2) * t0 + (t / 2) * t1
  have e : exAlt.program [[t, t]] [[10, 10]] [20]
      = ⟨MixtureSurface.quadraticTerm [exAlt.zFromTheta [t, t] [10, 10]],
          exAlt.linearTerm [exAlt.zFromTheta [t, t] [10, 10]] [20]⟩ := rfl
  rw [e]
  simp only
  rw [C38_objective exAlt _ _ _ hz, C38_objective exAlt _ _ _ hz]
  simp only [List.map_cons, List.map_nil]
  rw [key exHalf exHalf_weights, key y hy2]

/-- The run on the example: three rounds, the last of which changes nothing. -/
theorem exAlt_run :
    exAlt.fitOneInit exAltSolve (1 / 1000) 1000 [[10, 10]] [20] exApart
      = ⟨some exHalf, some (-7 / 64), true, 3⟩ := by
  have t0 : exAlt.updateTheta exApart [[10, 10]] = some [[29 / 32, 29 / 32]] := by decide +kernel
  have t1 : exAlt.updateTheta exHalf [[10, 10]] = some [[7 / 8, 7 / 8]] := by decide +kernel
  have s0 : ∀ t, exAltSolve (some (exAlt.program [[t, t]] [[10, 10]] [20])) = some exHalf := by
    intro t
    unfold exAltSolve
    simp only
    rw [if_pos (exAlt_solves t)]
  have l0 : exAlt.roundLoss (some (exAlt.program [[29 / 32, 29 / 32]] [[10, 10]] [20])) (some exHalf)
      = some (-87 / 1024) := by decide +kernel
  have l1 : exAlt.roundLoss (some (exAlt.program [[7 / 8, 7 / 8]] [[10, 10]] [20])) (some exHalf)
      = some (-7 / 64) := by decide +kernel
  unfold MixtureSurface.fitOneInit
  rw [t0]
  unfold MixtureSurface.altLoop
  simp only [Option.map_some]
  rw [if_pos (by norm_num), s0, l0, Option.bind_some, t1]
  unfold MixtureSurface.altLoop
  simp only [Option.map_some]
  rw [if_pos (by norm_num), s0, l1, Option.bind_some, t1]
  unfold MixtureSurface.altLoop
  simp only [Option.map_some]
  rw [if_pos (by norm_num), s0, l1, Option.bind_some, t1]
  unfold MixtureSurface.altLoop
  simp only
  rw [if_neg (by norm_num)]
  norm_num [MixtureSurface.noImprovement]

/-- False: the start predicts 18.125 of the observed 20 people, the fitted weights 17.5, although
every program was solved exactly.  (The comparison between rounds uses a loss that is not the error,
and a new program belongs to different thetas.) -/
theorem C88_full_is_false : ¬ C88_full := by
  intro h
  have := (h exAlt (by norm_num [exAlt]) exAltSolve exAltSolve_correct [[10, 10]] [20] rfl
    (by unfold MixtureReaches; decide +kernel) exApart rfl exApart_weights exHalf
    (by rw [exAlt_run])).2
  revert this
  decide +kernel

/-- The same example meets the hypotheses of the theorems on single runs. -/
example : (exAlt.fitOneInit exAltSolve (1 / 1000) 1000 [[10, 10]] [20] exApart).loss
    = some (-7 / 64) := by rw [exAlt_run]

/-- And those of the theorems on the whole fit. -/
example : exAlt.data.mapM (fun pt => PairwiseSurface.getReachVector exAlt.curves pt.impressions)
      = .ok [[10, 10]] ∧
    exAlt.data.mapM (fun pt => pt.reach 1) = .ok [20] ∧
    exAlt.curves.length = exAlt.p ∧ 0 < exAlt.N ∧
    PairwiseSurface.getReachVector exAlt.curves [3, 40] = .ok [3, 10] ∧
    MixtureReaches exAlt [3, 10] ∧
    ∃ s', exAlt.fit exAltSolve (fun _ => exApart) = .ok (some s') := by
  have h1 : exAlt.data.mapM
      (fun pt => PairwiseSurface.getReachVector exAlt.curves pt.impressions) = .ok [[10, 10]] := by
    decide +kernel
  have h2 : exAlt.data.mapM (fun pt => pt.reach 1) = .ok [20] := by decide +kernel
  refine ⟨h1, h2, rfl, by norm_num [exAlt], by decide +kernel,
    by unfold MixtureReaches; decide +kernel, ?_⟩
  rcases C88_fit_partial exAlt exAltSolve exAltSolve_correct (fun _ => exApart) _ _ h1 h2 with
    ⟨a, _, _, h, _⟩ | ⟨_, h⟩
  · exact ⟨_, h⟩
  · have := h 0 (by norm_num)
    rw [exAlt_run] at this
    cases this

/-- A training point without reach. -/
example : ({ exAlt with data := [⟨[10, 11], [20], [], none, none⟩, ⟨[0, 0], [0], [], none, none⟩] } :
    MixtureSurface).fit exAltSolve (fun _ => exApart) = .ok none :=
  C88_zero_point _ (by decide) _ _ [[10, 10], [0, 0]] [20, 0] (by decide +kernel) (by decide +kernel)
    [0, 0] (by simp) (by simp)

end Verif
