import Verif.Props.DataSet
import Verif.Props.ReachCurve
import Verif.Props.Dirac
import Verif.Props.KInflated
import Verif.Props.Designs
import Verif.Props.MultiStart
import Verif.Props.CloudStorage
import Verif.Props.Mixture

/-!
# Further results on C07, C36, C37, C41, C42, C53, C81, C95: the inputs that are refused, and how

The theorems elsewhere say what is computed; these name the exceptions of what is not.
-/

namespace Verif

/-! ## C07: data sets -/

/-- C07, the constructor: only the empty name is refused, with a `NameError` (the module forgets to
import `randint`); otherwise publishers and name are stored as given, and so is the universe size if
there is one. -/
theorem C07_constructor (pubs : List PublisherData) (name : String) (u : Option Int) :
    (name = "" → DataSet.new pubs name u = .error .nameError) ∧
    (name ≠ "" → ∃ ds, DataSet.new pubs name u = .ok ds ∧ ds.data = pubs ∧ ds.name = name ∧
      ∀ n, u = some n → ds.universeSize = n) := by
  constructor
  · rintro rfl; rfl
  · intro h
    refine ⟨_, by unfold DataSet.new; rw [if_neg h], rfl, rfl, ?_⟩
    rintro n rfl
    rfl

example : DataSet.new [] "" (some 7) = .error .nameError ∧
    ∃ ds, DataSet.new [] "x" (some 7) = .ok ds ∧ ds.universeSize = 7 :=
  ⟨rfl, _, rfl, rfl⟩

/-! ## C42: indices -/

/-- **C42, the index**: the ground truth curve of publisher `i` exists exactly for
`-n ≤ i < n`, where `n` is the number of publishers; every other index is an `IndexError`. A
negative index counts from the end. -/
theorem C42_index (ds : DataSet) (i : Int) :
    ((i < -(ds.data.length : Int) ∨ (ds.data.length : Int) ≤ i) →
      GroundTruthCurve.new ds i = .error .indexError) ∧
    (∀ k : Nat, (h : k < ds.data.length) → (i = k ∨ i = (k : Int) - ds.data.length) →
      ∃ m, GroundTruthCurve.new ds i = .ok m ∧ m.maxReach = ds.data[k].maxReach ∧
        m.publisherIndex = i) := by
  constructor
  · intro h
    have : pyIndex ds.data i = .error .indexError := by
      unfold pyIndex
      dsimp only
      rcases h with h | h
      · rw [if_pos (show i < 0 by omega), if_pos (by omega)]
      · rw [if_neg (show ¬ i < 0 by omega), if_neg (by omega),
          List.getElem?_eq_none (by omega)]
    unfold GroundTruthCurve.new
    rw [this]
    rfl
  · intro k hk h
    have : pyIndex ds.data i = .ok ds.data[k] := by
      unfold pyIndex
      dsimp only
      rcases h with h | h
      · rw [if_neg (show ¬ i < 0 by omega), if_neg (by omega)]
        have : i.toNat = k := by omega
        rw [this, List.getElem?_eq_getElem hk]
      · rw [if_pos (show i < 0 by omega), if_neg (by omega)]
        have : (i + ds.data.length).toNat = k := by omega
        rw [this, List.getElem?_eq_getElem hk]
    refine ⟨⟨ds, i, ds.data[k].maxReach⟩, ?_, rfl, rfl⟩
    unfold GroundTruthCurve.new
    rw [this]
    rfl

/-- A data set of one publisher: `-1` and `0` are its indices, `-2` and `1` are not. -/
example (p : PublisherData) :
    (∃ m, GroundTruthCurve.new ⟨[p], 3, "x", 6⟩ (-1) = .ok m ∧ m.maxReach = p.maxReach ∧
      m.publisherIndex = -1) ∧
    GroundTruthCurve.new ⟨[p], 3, "x", 6⟩ (-2) = .error .indexError ∧
    GroundTruthCurve.new ⟨[p], 3, "x", 6⟩ 1 = .error .indexError :=
  ⟨(C42_index _ _).2 0 (by simp) (Or.inr (by simp)), (C42_index _ _).1 (Or.inl (by simp)),
    (C42_index _ _).1 (Or.inr (by simp))⟩

/-! ## C53: the Dirac mixture -/

/-- C53, refused predictions of a fitted optimizer: without components the sum is not an array
(`TypeError`), with components a negative maximum frequency is an `IndexError`. -/
theorem C53_refused_frequency (solve : Dirac.Solve) (obs : List ℚ) (F0 : Nat) (comps : List ℚ) (ws : List ℝ)
    (scale : ℝ) (F : Int) :
    (comps = [] → Dirac.Optimizer.predict solve ⟨obs, F0, comps, some ws⟩ scale F
      = .error .typeError) ∧
    (comps ≠ [] → F < 0 → Dirac.Optimizer.predict solve ⟨obs, F0, comps, some ws⟩ scale F
      = .error .indexError) := by
  constructor
  · rintro rfl
    show Dirac.weightedSum ws [] = _
    unfold Dirac.weightedSum
    rw [List.zipWith_nil_right]
  · intro h hF
    cases comps with
    | nil => exact absurd rfl h
    | cons c cs =>
      have : Dirac.truncatedPoissonPmfVec ((c : ℝ) * scale) F = .error .indexError := by
        unfold Dirac.truncatedPoissonPmfVec
        rw [if_pos hF]
      unfold Dirac.Optimizer.predict
      simp only [Dirac.Optimizer.fit, bind, Except.bind, List.mapM_cons, this]

example (solve : Dirac.Solve) :
    Dirac.Optimizer.predict solve ⟨[1 / 2, 1 / 2], 1, [0, 1 / 2], some [1 / 2, 1 / 2]⟩ 2 (-1)
      = .error .indexError :=
  (C53_refused_frequency solve _ _ _ _ _ _).2 (by simp) (by decide)

/-! ## C41: the exponential Poisson curve -/

/-- C41, refused parameters: an audience for a scale factor below one (`ValueError`), and an audience
for the rate `-1` unless the impressions are (almost) the reach (`ZeroDivisionError`). -/
theorem C41_refused (I R scale beta : ℚ) :
    (scale < 1 → KInflated.expN I R scale = .error .valueError) ∧
    (1 ≤ scale → ∃ N, KInflated.expN I R scale = .ok N) ∧
    (R + 1 / 1000 ≤ I → beta = -1 → KInflated.expNFromBeta I R beta = .error .zeroDivision) ∧
    (I < R + 1 / 1000 ∨ beta ≠ -1 → ∃ N, KInflated.expNFromBeta I R beta = .ok N) := by
  refine ⟨?_, ?_, ?_, ?_⟩
  · intro h
    unfold KInflated.expN
    rw [if_pos h]
  · intro h
    unfold KInflated.expN
    rw [if_neg (not_lt.2 h)]
    split_ifs <;> exact ⟨_, rfl⟩
  · rintro h rfl
    unfold KInflated.expNFromBeta
    rw [if_neg (not_lt.2 h), if_pos (by ring)]
  · intro h
    unfold KInflated.expNFromBeta
    by_cases hI : I < R + 1 / 1000
    · rw [if_pos hI]; exact ⟨_, rfl⟩
    · rw [if_neg hI, if_neg]
      · exact ⟨_, rfl⟩
      · have hb : beta ≠ -1 := h.resolve_left hI
        refine mul_ne_zero (fun h0 => hb (by linarith)) ?_
        have : R + 1 / 1000 ≤ I := not_lt.1 hI
        intro h0
        linarith

example : KInflated.expN 100 50 (1 / 2) = .error .valueError ∧
    KInflated.expNFromBeta 100 50 (-1) = .error .zeroDivision :=
  ⟨(C41_refused 100 50 (1 / 2) 0).1 (by norm_num), (C41_refused 100 50 1 (-1)).2.2.1 (by norm_num) rfl⟩

/-- **C41, no rate**: if even with unlimited frequency the reach cannot be produced (the audience is at
least `I R / (I - R)`), then the rate is 1000, and only then can the returned rate be anything but the
solution of `R (N + β (N + I)) = N I (β + 1)`. -/
theorem C41_no_rate (I N R : ℚ) :
    (I * R ≤ N * (I - R) → KInflated.expBeta I N R = 1000) ∧
    (N * (I - R) < I * R →
      R * (N + KInflated.expBeta I N R * (N + I)) = N * I * (KInflated.expBeta I N R + 1)) := by
  constructor
  · intro h
    unfold KInflated.expBeta
    rw [if_pos (by linarith)]
  · intro h
    unfold KInflated.expBeta
    rw [if_neg (by linarith)]
    have h0 : I * R - N * (I - R) ≠ 0 := by
      intro h0; linarith
    have hb := div_mul_cancel₀ (N * (I - R)) h0
    linear_combination hb

example : KInflated.expBeta 100 200 50 = 1000 ∧ KInflated.expBeta 100 75 50 = 3 :=
  ⟨(C41_no_rate 100 200 50).1 (by norm_num), by norm_num [KInflated.expBeta]⟩

/-! ## C81: the ratio of the largest publisher -/

/-- C81, refused arguments of the independent overlap generator: without the ratio or the random
generator a `KeyError`, with a ratio that is no number a `TypeError`, with the ratio 0 a
`ZeroDivisionError`; everything else is accepted. -/
theorem C81_refused (T : FloatText) (largest : Int) (o : GeneratorParams)
    (hname : o.name = "Independent".toList) :
    (("largest_pub_to_universe_ratio".toList ∉ o.params.map (·.1) ∨
        "random_generator".toList ∉ o.params.map (·.1)) →
      m3Overlap T largest o = .error .keyError) ∧
    (∀ text generator, dictLookup o.params "largest_pub_to_universe_ratio".toList = .ok text →
      dictLookup o.params "random_generator".toList = .ok generator →
      (T.parse text = none → m3Overlap T largest o = .error .typeError) ∧
      (T.parse text = some 0 → m3Overlap T largest o = .error .zeroDivision) ∧
      (∀ r, T.parse text = some r → r ≠ 0 → ∃ o', m3Overlap T largest o = .ok o')) := by
  have hlook : ∀ (d : Dict Text Text) (k : Text), k ∉ d.map (·.1) → dictLookup d k = .error .keyError := by
    intro d k hk
    induction d with
    | nil => rfl
    | cons e d ih =>
      obtain ⟨k', v⟩ := e
      rw [dictLookup, if_neg (fun h => hk (by rw [h]; exact List.mem_cons_self ..)),
        ih (fun h => hk (List.mem_cons_of_mem _ h))]
  have herr : ∀ (d : Dict Text Text) (k : Text), dictLookup d k = .error .keyError ∨
      ∃ v, dictLookup d k = .ok v := by
    intro d k
    induction d with
    | nil => exact Or.inl rfl
    | cons e d ih =>
      obtain ⟨k', v⟩ := e
      rw [dictLookup]
      split_ifs
      · exact Or.inr ⟨_, rfl⟩
      · exact ih
  constructor
  · rintro (h | h)
    · unfold m3Overlap
      rw [if_pos hname, hlook _ _ h]
      rfl
    · unfold m3Overlap
      rw [if_pos hname, hlook _ _ h]
      rcases herr o.params "largest_pub_to_universe_ratio".toList with h1 | ⟨v, h1⟩
      · rw [h1]; rfl
      · rw [h1]; rfl
  · intro text generator h1 h2
    refine ⟨fun h => ?_, fun h => ?_, fun r h hr => ?_⟩
    · unfold m3Overlap
      rw [if_pos hname, h1, h2]
      simp only [bind, Except.bind, h]
    · unfold m3Overlap
      rw [if_pos hname, h1, h2]
      simp only [bind, Except.bind, h, if_true]
    · unfold m3Overlap
      rw [if_pos hname, h1, h2]
      simp only [bind, Except.bind, h, if_neg hr]
      exact ⟨_, rfl⟩

example (T : FloatText) :
    m3Overlap T 10 ⟨"Independent".toList, 7, [("random_generator".toList, [])]⟩
      = .error .keyError :=
  (C81_refused T 10 ⟨"Independent".toList, 7, [("random_generator".toList, [])]⟩ rfl).1
    (Or.inl (by decide +kernel))

/-! ## C36: the wall -/

/-- C36, a wall of no points: the largest of no losses is a `ValueError`, however many runs come
first (unless no run is allowed at all, when there is no last run to report: `NameError` or, if the
wall is looked at before, the same `ValueError`). -/
theorem C36_no_wall {α : Type} (c : StartCriteria) (h0 : c.numNear = 0) (hmax : 0 < c.maxInit)
    (runs : Nat → StartRun α) : MultiStart.fit c runs = .error .valueError := by
  have hclose : ∀ heap, MultiStart.closeEnough c heap = .error .valueError := by
    intro heap
    unfold MultiStart.closeEnough
    rw [if_pos h0]
  have hloop : ∀ (left : Nat) (s : StartState α), (0 < left ∨ s.converge ≠ none) →
      MultiStart.loop c runs left s = .error .valueError ∨
      ∃ s', MultiStart.loop c runs left s = .ok s' ∧ s'.converge ≠ none := by
    intro left
    induction left with
    | zero =>
      intro s hs
      unfold MultiStart.loop
      split_ifs with h
      · exact Or.inr ⟨s, rfl, hs.resolve_left (lt_irrefl _)⟩
      · rw [hclose]; exact Or.inl rfl
    | succ n ih =>
      intro s hs
      unfold MultiStart.loop
      split_ifs with h
      · exact ih _ (Or.inr (by simp [MultiStart.body]))
      · rw [hclose]; exact Or.inl rfl
  unfold MultiStart.fit
  rcases hloop c.maxInit ⟨0, [], none, none⟩ (Or.inl hmax) with h | ⟨s', h, hc⟩
  · rw [h]; rfl
  · rw [h]
    obtain ⟨b, hb⟩ := Option.ne_none_iff_exists'.1 hc
    simp only [bind, Except.bind, hb, hclose]

example (runs : Nat → StartRun ℚ) : MultiStart.fit ⟨1 / 100, 0, 3, 5⟩ runs = .error .valueError :=
  C36_no_wall _ rfl (by decide) runs

/-- **C36 for the default criteria of the mixture surface**: success is reported exactly if all ten
runs produced a loss and each of the ten losses is less than one percent above any other; the
reported smallest losses are all the losses. -/
theorem C36_mixture_defaults {α : Type} (runs : Nat → StartRun α) :
    ∃ res, MultiStart.fit mixtureCriteria runs = .ok res ∧ res.numInit = 10 ∧
      res.kSmallest = sortedLosses runs 10 ∧
      (res.modelSuccess.2 = true ↔ 10 ≤ (sortedLosses runs 10).length ∧
        ∀ x ∈ sortedLosses runs 10, ∀ y ∈ sortedLosses runs 10, x < 101 / 100 * y) := by
  obtain ⟨res, h1, -, -, -, -, -, h7, h8, -⟩ := C36_multi_start mixtureCriteria (by decide)
    (by norm_num [mixtureCriteria]) (by decide) runs
  obtain ⟨res', h1', hn⟩ := C36_mixture_always_ten runs
  rw [h1] at h1'
  obtain rfl : res = res' := by simpa using h1'
  have hd : (1 + mixtureCriteria.distance) = 101 / 100 := by norm_num [mixtureCriteria]
  have hlen : (sortedLosses runs 10).length ≤ 10 := by
    rw [sortedLosses, List.length_mergeSort]
    exact (List.length_filterMap_le _ _).trans (by simp)
  have htake : (sortedLosses runs 10).take 10 = sortedLosses runs 10 := List.take_of_length_le hlen
  rw [hn] at h7 h8
  refine ⟨res, h1, hn, ?_, ?_⟩
  · rw [h7]; exact htake
  · rw [h8]
    unfold WithinDistance
    rw [hd]
    show 10 ≤ _ ∧ (∀ x ∈ (sortedLosses runs 10).take 10, _) ↔ _
    rw [htake]

/-- Ten runs of loss 1: success. -/
example : ∃ res, MultiStart.fit mixtureCriteria (fun n => (⟨n, some 1, true⟩ : StartRun Nat)) = .ok res ∧
    res.modelSuccess.2 = true := by
  obtain ⟨res, h1, -, -, h4⟩ := C36_mixture_defaults (fun n => (⟨n, some 1, true⟩ : StartRun Nat))
  have e : (List.range 10).filterMap
      (fun i => ((fun n => (⟨n, some 1, true⟩ : StartRun Nat)) i).loss) = List.replicate 10 (1 : ℚ) := by
    decide +kernel
  refine ⟨res, h1, h4.2 ⟨?_, fun x hx y hy => ?_⟩⟩
  · rw [sortedLosses, List.length_mergeSort, e]; rfl
  · rw [sortedLosses, List.mem_mergeSort, e] at hx hy
    rw [List.eq_of_mem_replicate hx, List.eq_of_mem_replicate hy]
    norm_num

/-! ## C37: the mixture surface -/

/-- C37, the constructor: the training points are kept in the order given. -/
theorem C37_data (curves : List SurfaceCurve) (points : List ReachPoint) (c : Nat) (a : List ℚ)
    (s : MixtureSurface) (h : MixtureSurface.new curves points c a = .ok s) : s.data = points := by
  unfold MixtureSurface.new at h
  cases points with
  | nil => cases h
  | cons pt pts =>
    simp only [bind, Except.bind] at h
    split at h
    · cases h
    · split at h
      · cases h
      · simp only [pure, Except.pure, Except.ok.injEq] at h
        rw [← h]

example : ∃ s, MixtureSurface.new exMixture.curves
    [⟨[1, 2, 3, 4], [9], [], none, none⟩, ⟨[4, 3, 2, 1], [8], [], none, none⟩] 2 exMixture.a = .ok s ∧
      s.data = [⟨[1, 2, 3, 4], [9], [], none, none⟩, ⟨[4, 3, 2, 1], [8], [], none, none⟩] :=
  ⟨_, rfl, rfl⟩

/-! ## C95: cloud storage -/

/-- C95, refused: a path outside the cloud has no second part to join to (`IndexError`), and an object
cannot be written where there is a directory, i.e. where there is no object but some object below
(`RuntimeError`); every other object can be written. -/
theorem C95_refused (T : FloatText) (c : Cloud) :
    (∀ (ds : DataSet) (dir : String), ¬ "://".toList <:+: dir.toList →
      ds.cloudWrite T dir c = .error .indexError) ∧
    (∀ (path : String) (content : Text),
      (path ∉ c.objects.map (·.1) ∧
          (∃ k ∈ c.objects.map (·.1), path.toList ++ ['/'] <+: k.toList) →
        c.writeFile path content = .error .runtimeError) ∧
      (path ∈ c.objects.map (·.1) ∨
          (∀ k ∈ c.objects.map (·.1), ¬ path.toList ++ ['/'] <+: k.toList) →
        ∃ c', c.writeFile path content = .ok c')) := by
  refine ⟨?_, ?_⟩
  · intro ds dir h
    unfold DataSet.cloudWrite cloudJoin
    rw [splitScheme_free _ h]
    rfl
  · intro path content
    constructor
    · intro h
      unfold Cloud.writeFile
      rw [if_pos ((isDir_iff c path).2 h)]
    · intro h
      unfold Cloud.writeFile
      rw [if_neg]
      · exact ⟨_, rfl⟩
      · intro hd
        obtain ⟨h1, k, hk, h2⟩ := (isDir_iff c path).1 hd
        exact h.elim h1 (fun h => h k hk h2)

/-- A bucket with one object `gs://b/d/p`: neither `gs://b/d` nor `gs://b` can be written. -/
example (content : Text) : Cloud.writeFile ⟨[("gs://b/d/p", [])]⟩ "gs://b/d" content
    = .error .runtimeError :=
  ((C95_refused ⟨fun _ => [], fun _ => none⟩ ⟨[("gs://b/d/p", [])]⟩).2 "gs://b/d" content).1
    ⟨by decide +kernel, "gs://b/d/p", List.mem_singleton.2 rfl, by decide +kernel⟩

end Verif
