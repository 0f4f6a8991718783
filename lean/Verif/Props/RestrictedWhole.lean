import Verif.Model.RestrictedFit
import Verif.Props.RestrictedFit
import Verif.Props.MultiStart

/-!
# C89: the fitted restricted surface
-/

namespace Verif

open Verif.Spec Finset

/-- Training data for which the fit is meant: as many curves as coordinates, positive maximum
reaches, no negative single reaches, and one training point at which at least two publishers show
impressions and every publisher reaches somebody. -/
structure RestrictedData (s : PairwiseSurface) : Prop where
  curves : s.curves.length = s.p
  positive : ∀ c ∈ s.curves, 0 < c.maxReach
  dims : ∀ pt ∈ s.data, pt.impressions.length = s.p
  reaches : ∀ pt ∈ s.data, ∃ r y, PairwiseSurface.getReachVector s.curves pt.impressions = .ok r ∧
    pt.reach 1 = .ok y ∧ ∀ x ∈ r, 0 ≤ x
  informative : ∃ pt ∈ s.data, pt.impressions.count 0 + 1 < s.p ∧
    ∃ r, PairwiseSurface.getReachVector s.curves pt.impressions = .ok r ∧ ∀ x ∈ r, 0 < x

/-- A starting point: feasible, coordinates at most one (`np.random.rand`), at least two of them
positive. -/
structure RestrictedStart (p : Nat) (lbd : Nat → ℚ) : Prop where
  feasible : FeasibleLambda p lbd
  le_one : ∀ j < p, lbd j ≤ 1
  two : ∃ j < p, ∃ k < p, j ≠ k ∧ 0 < lbd j ∧ 0 < lbd k

theorem RestrictedStart.good {p : Nat} {lbd : Nat → ℚ} (h : RestrictedStart p lbd) (hp : p ≤ 1000000) :
    GoodStart p lbd := by
  refine ⟨h.feasible, fun j hj => ⟨le_trans (h.le_one j hj) (by norm_num), ?_⟩⟩
  calc ∑ k ∈ (range p).erase j, lbd k ≤ ∑ _k ∈ (range p).erase j, (1 : ℚ) :=
        Finset.sum_le_sum (fun k hk => h.le_one k (Finset.mem_range.1 (Finset.mem_of_mem_erase hk)))
    _ = (((range p).erase j).card : ℚ) := by simp
    _ ≤ ((range p).card : ℚ) := by exact_mod_cast Finset.card_le_card (Finset.erase_subset _ _)
    _ ≤ 1000000 := by rw [Finset.card_range]; exact_mod_cast hp

theorem mapM_total {α β : Type} (f : α → Except PyErr β) (l : List α) (h : ∀ x ∈ l, ∃ y, f x = .ok y) :
    ∃ r, l.mapM f = .ok r := by
  induction l with
  | nil => exact ⟨[], rfl⟩
  | cons x l ih =>
    obtain ⟨y, hy⟩ := h x (by simp)
    obtain ⟨r, hr⟩ := ih (fun z hz => h z (by simp [hz]))
    exact ⟨y :: r, by rw [List.mapM_cons, hy, hr]; rfl⟩

/-- What the set-up makes of such data. -/
theorem setup_spec (s : PairwiseSurface) (hd : RestrictedData s) :
    ∃ pts, Restricted.setup s = .ok pts ∧ SymmetricPoints s.p pts ∧ PositiveData s.p pts := by
  have hpt : ∀ pt ∈ s.data, ∃ o, Restricted.setupPoint s pt = .ok o := by
    intro pt h
    obtain ⟨r, y, h1, h2, _⟩ := hd.reaches pt h
    unfold Restricted.setupPoint
    split
    · rw [h1, h2]; exact ⟨_, rfl⟩
    · exact ⟨_, rfl⟩
  obtain ⟨opts, ho⟩ := mapM_total _ _ hpt
  have hset : Restricted.setup s = .ok (opts.filterMap id) := by
    unfold Restricted.setup
    rw [ho]
    rfl
  have hf := (mapM_ok_iff _ _ _).1 ho
  have hmem : ∀ q ∈ opts.filterMap id, ∃ pt ∈ s.data, ∃ r,
      PairwiseSurface.getReachVector s.curves pt.impressions = .ok r ∧
      q.D = Restricted.constructD r (s.curves.map (·.maxReach)) := by
    intro q hq
    simp only [List.mem_filterMap, id, exists_eq_right] at hq
    obtain ⟨n, hn, hqn⟩ := List.getElem_of_mem hq
    have hlen := hf.length_eq
    have := (List.forall₂_iff_get.1 hf).2 n (by omega) hn
    simp only [List.get_eq_getElem, hqn] at this
    refine ⟨s.data[n]'(by omega), List.getElem_mem _, ?_⟩
    obtain ⟨r, y, h1, h2, _⟩ := hd.reaches (s.data[n]'(by omega)) (List.getElem_mem _)
    unfold Restricted.setupPoint at this
    split at this
    · rw [h1, h2] at this
      simp only [bind, Except.bind, pure, Except.pure, Except.ok.injEq, Option.some.injEq] at this
      exact ⟨r, h1, by rw [← this]⟩
    · cases this
  have hmax : ∀ i < s.p, 0 < (s.curves.map (·.maxReach)).getD i 0 := by
    intro i hi
    have hi' : i < s.curves.length := by rw [hd.curves]; exact hi
    rw [List.getD_eq_getElem?_getD, List.getElem?_map, List.getElem?_eq_getElem hi']
    exact hd.positive _ (List.getElem_mem _)
  refine ⟨_, hset, ?_, ?_, ?_, ?_⟩
  · intro q hq j _ k _
    obtain ⟨pt, _, r, _, hD⟩ := hmem q hq
    rw [hD]
    exact constructD_symm r _ j k
  · exact setup_response_pos s _ hset
  · intro q hq j hj k hk
    obtain ⟨pt, hpt, r, hr, hD⟩ := hmem q hq
    obtain ⟨r', y, h1, _, h3⟩ := hd.reaches pt hpt
    rw [hr] at h1
    obtain rfl := Except.ok.inj h1
    have hnn : ∀ i, 0 ≤ r.getD i 0 := by
      intro i
      rw [List.getD_eq_getElem?_getD]
      cases hi : r[i]? with
      | none => exact le_refl _
      | some x => exact h3 x (List.mem_of_getElem? hi)
    rw [hD]
    unfold Restricted.constructD
    exact div_nonneg (div_nonneg (mul_nonneg (hnn _) (hnn _)) (by norm_num))
      (le_trans (hmax k hk).le (le_max_left _ _))
  · obtain ⟨pt, hpt, hz, r, hr, hpos⟩ := hd.informative
    obtain ⟨r', y, h1, h2, _⟩ := hd.reaches pt hpt
    rw [hr] at h1
    obtain rfl := Except.ok.inj h1
    have hrl : r.length = s.p := by
      rw [reachVector_length _ _ _ hr, hd.curves, hd.dims pt hpt, min_self]
    have e : Restricted.setupPoint s pt = .ok (some
        { y := max (1 / 10000) (r.sum - y),
          D := Restricted.constructD r (s.curves.map (·.maxReach)) }) := by
      unfold Restricted.setupPoint
      rw [if_pos (by omega), hr, h2]
      rfl
    refine ⟨{ y := max (1 / 10000) (r.sum - y),
              D := Restricted.constructD r (s.curves.map (·.maxReach)) }, ?_, ?_⟩
    · simp only [List.mem_filterMap, id, exists_eq_right]
      obtain ⟨n, hn, hqn⟩ := List.getElem_of_mem hpt
      have hlen := hf.length_eq
      have := (List.forall₂_iff_get.1 hf).2 n hn (by omega)
      simp only [List.get_eq_getElem, hqn] at this
      rw [e] at this
      rw [Except.ok.inj this]
      exact List.getElem_mem _
    · intro j hj k hk _
      have hp' : ∀ i < s.p, 0 < r.getD i 0 := by
        intro i hi
        rw [List.getD_eq_getElem?_getD, List.getElem?_eq_getElem (by omega)]
        exact hpos _ (List.getElem_mem _)
      unfold Restricted.constructD
      exact div_pos (div_pos (mul_pos (hp' j hj) (hp' k hk)) (by norm_num))
        (lt_of_lt_of_le (hmax k hk) (le_max_left _ _))

/-- C89 (a): from feasible starting points, whatever the random orders, the fit succeeds.  Its
parameters are built from a feasible lambda vector whose loss is at most that of each of the first
thirty starting points. -/
theorem C89_fit (s : PairwiseSurface) (hd : RestrictedData s) (hp : s.p ≤ 1000000)
    (starts : Nat → Nat → ℚ) (hstart : ∀ n, RestrictedStart s.p (starts n))
    (orders : Nat → Nat → List Nat) (ho : ∀ n k, ∀ i ∈ orders n k, i < s.p) :
    ∃ pts lbd, Restricted.setup s = .ok pts ∧
      Restricted.fit s starts orders = .ok (some { s with a := Restricted.constructA s.p lbd }) ∧
      FeasibleLambda s.p lbd ∧
      ∀ j < 30, Restricted.loss s.p pts lbd ≤ Restricted.loss s.p pts (starts j) := by
  obtain ⟨pts, hset, hsym, hpos⟩ := setup_spec s hd
  have hrun : ∀ n, ∃ f, Restricted.fitOneInit s.p pts Restricted.defaultMinImprovement
      Restricted.defaultMaxRounds (orders n) (starts n) = some f ∧ FeasibleLambda s.p f.lbd ∧
      f.loss = Restricted.loss s.p pts f.lbd ∧
      Restricted.loss s.p pts f.lbd ≤ Restricted.loss s.p pts (starts n) := by
    intro n
    have hg := (hstart n).good hp
    obtain ⟨f, hf⟩ := C33_run_is_a_number s.p pts hsym hpos Restricted.defaultMinImprovement
      Restricted.defaultMaxRounds (orders n) (ho n) (starts n) hg (hstart n).two
    obtain ⟨h1, h2, _, h4⟩ := C33_run_partial s.p pts hsym Restricted.defaultMinImprovement
      (by norm_num [Restricted.defaultMinImprovement]) Restricted.defaultMaxRounds (orders n) (ho n)
      (starts n) hg f hf
    exact ⟨f, hf, h1, h4 (by decide), h2⟩
  set runs : Nat → StartRun (Option (Nat → ℚ)) := fun n => Restricted.startRun pts
    (Restricted.fitOneInit s.p pts Restricted.defaultMinImprovement Restricted.defaultMaxRounds
      (orders n) (starts n)) with hruns
  obtain ⟨res, h1, h2, _, h4, _, _, _, _, h9, h10⟩ :=
    C36_multi_start restrictedCriteria (by decide) (by norm_num [restrictedCriteria]) (by decide) runs
  have hmin : 30 ≤ res.numInit := h4 (by decide)
  have hfit : Restricted.fit s starts orders = match res.best with
      | none => .error .attributeError
      | some (none, _) => .ok none
      | some (some lbd, _) => .ok (some { s with a := Restricted.constructA s.p lbd }) := by
    unfold Restricted.fit
    rw [hset]
    simp only [bind, Except.bind]
    rw [← hruns, h1]
    rfl
  have hr : ∀ n, ∃ f : Restricted.LocalFit, runs n = ⟨some f.lbd, some f.loss, f.converge⟩ ∧ FeasibleLambda s.p f.lbd ∧
      f.loss = Restricted.loss s.p pts f.lbd ∧
      Restricted.loss s.p pts f.lbd ≤ Restricted.loss s.p pts (starts n) := by
    intro n
    obtain ⟨f, hf, h⟩ := hrun n
    exact ⟨f, by rw [hruns]; simp only [hf, Restricted.startRun], h⟩
  cases hb : res.best with
  | none =>
    have := h10 hb 0 h2
    obtain ⟨f, hf, _⟩ := hr 0
    rw [hf] at this
    cases this
  | some b =>
    obtain ⟨bf, bl⟩ := b
    obtain ⟨i, _, i2, i3, i4, _⟩ := h9 bf bl hb
    obtain ⟨f, hf, f1, f2, _⟩ := hr i
    rw [hf] at i2 i3
    refine ⟨pts, f.lbd, hset, ?_, f1, ?_⟩
    · rw [hfit, hb, ← i2]
    · intro j hj
      obtain ⟨g, hg, _, g2, g3⟩ := hr j
      have := i4 j (by omega) g.loss (by rw [hg])
      rw [← f2, Option.some.inj i3]
      linarith

/-- C89 (b): so, if no observed overlap lies below the floor of 0.0001, the sum of squared
prediction errors over the training points with at least two active publishers is at most that of
the surface built from any of the first thirty starting points. -/
theorem C89_error (s : PairwiseSurface) (hd : RestrictedData s) (hp : s.p ≤ 1000000)
    (starts : Nat → Nat → ℚ) (hstart : ∀ n, RestrictedStart s.p (starts n))
    (orders : Nat → Nat → List Nat) (ho : ∀ n k, ∀ i ∈ orders n k, i < s.p)
    (hfloor : ∀ pt ∈ multiPublisherPoints s, ∀ r y,
      PairwiseSurface.getReachVector s.curves pt.impressions = .ok r →
      pt.reach 1 = .ok y → 1 / 10000 ≤ r.sum - y) (j : Nat) (hj : j < 30) :
    ∃ (s' : PairwiseSurface) (obs preds preds' : List ℚ),
      Restricted.fit s starts orders = .ok (some s') ∧
      (multiPublisherPoints s).mapM (fun pt => pt.reach 1) = .ok obs ∧
      (multiPublisherPoints s).mapM (fun pt => do
        let prediction ← s'.byImpressions pt.impressions
        prediction.reach 1) = .ok preds ∧
      (multiPublisherPoints s).mapM (fun pt => do
        let prediction ← ({ s with a := Restricted.constructA s.p (starts j) } :
          PairwiseSurface).byImpressions pt.impressions
        prediction.reach 1) = .ok preds' ∧
      squaredError obs preds ≤ squaredError obs preds' := by
  obtain ⟨pts, lbd, h1, h2, _, h4⟩ := C89_fit s hd hp starts hstart orders ho
  have hw : WellFormed { s with a := Restricted.constructA s.p lbd } :=
    ⟨hd.curves, by simp [Restricted.constructA], hd.positive⟩
  have hdim : ∀ pt ∈ multiPublisherPoints s, pt.impressions.length = s.p :=
    fun pt h => hd.dims pt (List.mem_of_mem_filter h)
  obtain ⟨obs, preds, a1, a2, a3⟩ := C32_loss_is_squared_error
    { s with a := Restricted.constructA s.p lbd } hw hdim pts h1 lbd hfloor
  obtain ⟨obs', preds', b1, b2, b3⟩ := C32_loss_is_squared_error
    { s with a := Restricted.constructA s.p lbd } hw hdim pts h1 (starts j) hfloor
  rw [a1] at b1
  obtain rfl := Except.ok.inj b1
  refine ⟨_, obs, preds, preds', h2, a1, a2, b2, ?_⟩
  have := h4 j hj
  have e1 : Restricted.loss s.p pts lbd = squaredError obs preds := a3
  have e2 : Restricted.loss s.p pts (starts j) = squaredError obs preds' := b3
  rw [← e1, ← e2]
  exact this

/-- C89 (c): and the fitted surface predicts plausible union reaches. -/
theorem C89_prediction (s : PairwiseSurface) (hd : RestrictedData s) (hp : s.p ≤ 1000000)
    (starts : Nat → Nat → ℚ) (hstart : ∀ n, RestrictedStart s.p (starts n))
    (orders : Nat → Nat → List Nat) (ho : ∀ n k, ∀ i ∈ orders n k, i < s.p)
    (v : List ℚ) (hv : v.length = s.p) (r : List ℚ)
    (hr : PairwiseSurface.getReachVector s.curves v = .ok r) (hrange : ReachesInRange s r) :
    ∃ s' pt u, Restricted.fit s starts orders = .ok (some s') ∧ s'.byImpressions v = .ok pt ∧
      pt.reach 1 = .ok u ∧ (∀ x ∈ r, x ≤ u) ∧ 2999999 / 4000000 * r.sum ≤ u ∧ u ≤ r.sum := by
  obtain ⟨pts, lbd, _, h2, h3, _⟩ := C89_fit s hd hp starts hstart orders ho
  have hw : WellFormed { s with a := Restricted.constructA s.p lbd } :=
    ⟨hd.curves, by simp [Restricted.constructA], hd.positive⟩
  have hcheck : Restricted.checkFeasibility s.p lbd Restricted.defaultTol = true := by
    unfold Restricted.checkFeasibility
    rw [List.all_eq_true]
    intro j hj
    have hj := List.mem_range.1 hj
    obtain ⟨c1, c2⟩ := h3 j hj
    rw [total_sub s.p lbd j hj]
    simp only [gt_iff_lt, Bool.decide_or, Bool.not_or, Bool.and_eq_true, Bool.not_eq_eq_eq_not,
      Bool.not_true, decide_eq_false_iff_not, not_lt]
    exact ⟨c1, by have := defaultTol_pos; linarith⟩
  obtain ⟨pt, u, p1, p2, p3, p4⟩ := C35_union_reach { s with a := Restricted.constructA s.p lbd } hw lbd
    hcheck v hv r hr hrange
  obtain ⟨pt', u', q1, q2, q3⟩ := C60_at_least_three_quarters
    { s with a := Restricted.constructA s.p lbd } hw lbd hcheck v hv r hr hrange
  rw [p1] at q1
  obtain rfl := Except.ok.inj q1
  rw [p2] at q2
  obtain rfl := Except.ok.inj q2
  refine ⟨_, pt, u, h2, p1, p2, p3, ?_, p4⟩
  have e : (3 - Restricted.defaultTol) / 4 = 2999999 / 4000000 := by norm_num [Restricted.defaultTol]
  rw [e] at q3
  exact q3

/-- C89 (d): if no training point has two active publishers - in particular with a single
publisher - the fitted parameters are `nan`. -/
theorem C89_single_points (s : PairwiseSurface) (hp : 0 < s.p)
    (hsingle : ∀ pt ∈ s.data, s.p ≤ pt.impressions.count 0 + 1)
    (starts : Nat → Nat → ℚ) (orders : Nat → Nat → List Nat)
    (ho : ∀ n k, (orders n k).Perm (List.range s.p)) :
    Restricted.fit s starts orders = .ok none := by
  have hset : Restricted.setup s = .ok [] := by
    unfold Restricted.setup
    have : s.data.mapM (Restricted.setupPoint s) = .ok (s.data.map (fun _ => none)) := by
      rw [mapM_ok_iff, List.forall₂_map_right_iff, List.forall₂_same]
      intro pt hpt
      have := hsingle pt hpt
      unfold Restricted.setupPoint
      rw [if_neg (by omega)]
    rw [this]
    simp only [bind, Except.bind, pure, Except.pure, Except.ok.injEq, List.filterMap_map]
    rw [List.filterMap_eq_nil_iff]
    intro _ _
    rfl
  have hrun : ∀ n, Restricted.fitOneInit s.p [] Restricted.defaultMinImprovement
      Restricted.defaultMaxRounds (orders n) (starts n) = none := by
    intro n
    unfold Restricted.fitOneInit Restricted.defaultMaxRounds
    unfold Restricted.fitLoop
    rw [if_pos (by norm_num [Restricted.defaultMinImprovement])]
    have : Restricted.round s.p [] (starts n) (orders n 0) = none := by
      cases h : orders n 0 with
      | nil =>
        have := (ho n 0).length_eq
        rw [h, List.length_range] at this
        simp at this
        omega
      | cons i l =>
        unfold Restricted.round
        have : Restricted.step s.p [] (starts n) i = none := by simp [Restricted.step]
        rw [this]
    rw [this]
  set runs : Nat → StartRun (Option (Nat → ℚ)) := fun n => Restricted.startRun []
    (Restricted.fitOneInit s.p [] Restricted.defaultMinImprovement Restricted.defaultMaxRounds
      (orders n) (starts n)) with hruns
  have hr : ∀ n, runs n = ⟨none, some 0, true⟩ := by
    intro n
    rw [hruns]
    simp only [hrun n, Restricted.startRun, List.isEmpty_nil, if_true]
  obtain ⟨res, h1, h2, _, _, _, _, _, _, h9, h10⟩ :=
    C36_multi_start restrictedCriteria (by decide) (by norm_num [restrictedCriteria]) (by decide) runs
  unfold Restricted.fit
  rw [hset]
  simp only [bind, Except.bind]
  rw [← hruns, h1]
  simp only
  cases hb : res.best with
  | none =>
    have := h10 hb 0 h2
    rw [hr] at this
    cases this
  | some b =>
    obtain ⟨bf, bl⟩ := b
    obtain ⟨i, _, i2, _⟩ := h9 bf bl hb
    rw [hr] at i2
    simp only at i2
    subst i2
    rfl

/-- C89 (e): if some training point has two active publishers, but at every such point no publisher
reaches anybody, then no run ends with a number and the fit raises `AttributeError`. -/
theorem C89_nobody_reached (s : PairwiseSurface) (hp : 0 < s.p) (pts : List RestrictedPoint)
    (hset : Restricted.setup s = .ok pts)
    (hsome : ∃ pt ∈ s.data, pt.impressions.count 0 + 1 < s.p)
    (hzero : ∀ pt ∈ s.data, pt.impressions.count 0 + 1 < s.p → ∀ r,
      PairwiseSurface.getReachVector s.curves pt.impressions = .ok r → ∀ x ∈ r, x = 0)
    (starts : Nat → Nat → ℚ) (orders : Nat → Nat → List Nat)
    (ho : ∀ n k, (orders n k).Perm (List.range s.p)) :
    Restricted.fit s starts orders = .error .attributeError := by
  obtain ⟨opts, hopts, hpts⟩ : ∃ opts, s.data.mapM (Restricted.setupPoint s) = .ok opts ∧
      pts = opts.filterMap id := by
    unfold Restricted.setup at hset
    rcases hx : s.data.mapM (Restricted.setupPoint s) with e | opts
    · rw [hx] at hset; cases hset
    · rw [hx] at hset
      exact ⟨opts, rfl, (Except.ok.inj hset).symm⟩
  have hf := (mapM_ok_iff _ _ _).1 hopts
  have hlen := hf.length_eq
  have hD : ∀ q ∈ pts, ∀ j k, q.D j k = 0 := by
    intro q hq j k
    rw [hpts, List.mem_filterMap] at hq
    obtain ⟨o, ho1, ho2⟩ := hq
    simp only [id] at ho2
    subst ho2
    obtain ⟨n, hn, hqn⟩ := List.getElem_of_mem ho1
    have := (List.forall₂_iff_get.1 hf).2 n (by omega) hn
    simp only [List.get_eq_getElem] at this
    rw [hqn] at this
    unfold Restricted.setupPoint at this
    split at this
    · rename_i hcount
      rcases hr : PairwiseSurface.getReachVector s.curves (s.data[n]'(by omega)).impressions with e | r
      · rw [hr] at this; cases this
      · have hz := hzero _ (List.getElem_mem (by omega : n < s.data.length)) (by omega) r hr
        have hzj : r.getD j 0 = 0 := by
          rw [List.getD_eq_getElem?_getD]
          cases hj : r[j]? with
          | none => rfl
          | some x => exact hz x (List.mem_of_getElem? hj)
        rw [hr] at this
        simp only [bind, Except.bind] at this
        rcases hy : (s.data[n]'(by omega)).reach 1 with e | y
        · rw [hy] at this; cases this
        · rw [hy] at this
          simp only [pure, Except.pure, Except.ok.injEq, Option.some.injEq] at this
          rw [← this]
          unfold Restricted.constructD
          simp only [hzj, zero_mul, zero_div]
    · cases this
  have hne : pts.isEmpty = false := by
    obtain ⟨pt, hpt, hcount⟩ := hsome
    obtain ⟨n, hn, hqn⟩ := List.getElem_of_mem hpt
    have := (List.forall₂_iff_get.1 hf).2 n hn (by omega)
    simp only [List.get_eq_getElem] at this
    rw [hqn] at this
    unfold Restricted.setupPoint at this
    rw [if_pos (by omega)] at this
    rcases hr : PairwiseSurface.getReachVector s.curves pt.impressions with e | r
    · rw [hr] at this; cases this
    · rw [hr] at this
      simp only [bind, Except.bind] at this
      rcases hy : pt.reach 1 with e | y
      · rw [hy] at this; cases this
      · rw [hy] at this
        simp only [pure, Except.pure, Except.ok.injEq] at this
        have hm : (⟨max (1 / 10000) (r.sum - y),
            Restricted.constructD r (s.curves.map (·.maxReach))⟩ : RestrictedPoint) ∈ pts := by
          rw [hpts, List.mem_filterMap]
          exact ⟨opts[n]'(by omega), List.getElem_mem _, by rw [← this]; rfl⟩
        cases pts with
        | nil => cases hm
        | cons _ _ => rfl
  have hrun : ∀ n, Restricted.fitOneInit s.p pts Restricted.defaultMinImprovement
      Restricted.defaultMaxRounds (orders n) (starts n) = none := by
    intro n
    unfold Restricted.fitOneInit Restricted.defaultMaxRounds
    unfold Restricted.fitLoop
    rw [if_pos (by norm_num [Restricted.defaultMinImprovement])]
    have : Restricted.round s.p pts (starts n) (orders n 0) = none := by
      cases h : orders n 0 with
      | nil =>
        have := (ho n 0).length_eq
        rw [h, List.length_range] at this
        simp at this
        omega
      | cons i l =>
        unfold Restricted.round
        have : Restricted.step s.p pts (starts n) i = none := by
          unfold Restricted.step
          simp only
          rw [if_pos]
          apply List.sum_eq_zero
          intro x hx
          obtain ⟨q, hq, rfl⟩ := List.mem_map.1 hx
          simp [Restricted.computeV, hD q hq]
        rw [this]
    rw [this]
  set runs : Nat → StartRun (Option (Nat → ℚ)) := fun n => Restricted.startRun pts
    (Restricted.fitOneInit s.p pts Restricted.defaultMinImprovement Restricted.defaultMaxRounds
      (orders n) (starts n)) with hruns
  have hr : ∀ n, runs n = ⟨none, none, false⟩ := by
    intro n
    rw [hruns]
    simp only [hrun n, Restricted.startRun, hne]
    rfl
  obtain ⟨res, h1, h2, _, _, _, _, _, _, h9, h10⟩ :=
    C36_multi_start restrictedCriteria (by decide) (by norm_num [restrictedCriteria]) (by decide) runs
  unfold Restricted.fit
  rw [hset]
  simp only [bind, Except.bind]
  rw [← hruns, h1]
  simp only
  cases hb : res.best with
  | none => rfl
  | some b =>
    obtain ⟨bf, bl⟩ := b
    obtain ⟨i, _, _, i3, _⟩ := h9 bf bl hb
    rw [hr] at i3
    cases i3

/-! ## An example -/

/-- Two publishers, observed together once. -/
def exRestricted : PairwiseSurface :=
  { curves := [⟨20, fun x => .ok (min x 20)⟩, ⟨10, fun x => .ok (min (x / 2) 10)⟩], p := 2,
    data := [⟨[20, 0], [20], [], none, none⟩, ⟨[20, 10], [24], [], none, none⟩], a := [] }

example : RestrictedData exRestricted where
  curves := rfl
  positive := by decide +kernel
  dims := by decide +kernel
  reaches := by
    intro pt hpt
    simp only [exRestricted, List.mem_cons, List.not_mem_nil, or_false] at hpt
    rcases hpt with rfl | rfl
    · exact ⟨[20, 0], 20, by decide +kernel, by decide +kernel, by decide +kernel⟩
    · exact ⟨[20, 5], 24, by decide +kernel, by decide +kernel, by decide +kernel⟩
  informative := ⟨⟨[20, 10], [24], [], none, none⟩, by simp [exRestricted], by decide +kernel,
    [20, 5], by decide +kernel, by decide +kernel⟩

example : RestrictedStart 2 (fun j => if j = 0 then 1 / 2 else 3 / 4) :=
  ⟨by unfold FeasibleLambda; decide +kernel, by decide +kernel, by decide +kernel⟩

/-- The observed overlap is above the floor. -/
example : ∀ pt ∈ multiPublisherPoints exRestricted, ∀ r y,
    PairwiseSurface.getReachVector exRestricted.curves pt.impressions = .ok r →
    pt.reach 1 = .ok y → 1 / 10000 ≤ r.sum - y := by
  have e : multiPublisherPoints exRestricted = [⟨[20, 10], [24], [], none, none⟩] := by decide +kernel
  rw [e]
  intro pt hpt r y hr hy
  rw [List.mem_singleton] at hpt
  subst hpt
  have h1 : PairwiseSurface.getReachVector exRestricted.curves [20, 10] = .ok [20, 5] := by
    decide +kernel
  have h2 : ReachPoint.reach ⟨[20, 10], [24], [], none, none⟩ 1 = .ok 24 := by decide +kernel
  rw [h1] at hr
  rw [h2] at hy
  obtain rfl := Except.ok.inj hr
  obtain rfl := Except.ok.inj hy
  norm_num

/-- One publisher. -/
example : Restricted.fit
    { exRestricted with curves := [⟨20, fun x => .ok (min x 20)⟩], p := 1,
                        data := [⟨[20], [20], [], none, none⟩] }
    (fun _ _ => 1 / 2) (fun _ _ => [0]) = .ok none :=
  C89_single_points _ (by decide) (by decide +kernel) _ _ (fun _ _ => by decide)

/-- Both publishers show impressions that reach nobody. -/
example : Restricted.fit
    { exRestricted with
      curves := [⟨20, fun _ => .ok 0⟩, ⟨10, fun _ => .ok 0⟩],
      data := [⟨[20, 0], [20], [], none, none⟩, ⟨[20, 10], [24], [], none, none⟩] }
    (fun _ _ => 1 / 2) (fun _ _ => [1, 0]) = .error .attributeError := by
  refine C89_nobody_reached _ (by decide) _ rfl ⟨⟨[20, 10], [24], [], none, none⟩, by simp, by decide +kernel⟩ ?_ _ _
    (fun _ _ => by decide)
  intro pt hpt _ r hr x hx
  simp only [List.mem_cons, List.not_mem_nil, or_false] at hpt
  rcases hpt with rfl | rfl <;>
  · obtain rfl := Except.ok.inj hr
    simpa using hx

/-- C61 with the default criteria: a local fit of two or more rounds that reports convergence has
improved by at most a thousandth in its last round.  Missing: as in `C61_converged_partial`, whose example uses these criteria. -/
theorem C61_default_partial (p : Nat) (pts : List RestrictedPoint)
    (orders : Nat → List Nat) (lbd : Nat → ℚ) (fit fit' : Restricted.LocalFit) (n : Nat)
    (h : Restricted.fitOneInit p pts Restricted.defaultMinImprovement Restricted.defaultMaxRounds
      orders lbd = some fit)
    (hc : fit.converge = true) (hn : fit.rounds = n + 1) (hpos : 0 < n)
    (h' : Restricted.fitOneInit p pts Restricted.defaultMinImprovement n orders lbd = some fit') :
    Restricted.loss p pts fit'.lbd - Restricted.loss p pts fit.lbd ≤ 1 / 1000 := by
  have := C61_converged_partial p pts _ _ orders lbd fit fit' n h hc hn hpos h'
  have hd : Restricted.defaultMinImprovement = 1 / 1000 := rfl
  rw [hd] at this
  linarith

end Verif
