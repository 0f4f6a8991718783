import Verif.Model.Descriptor
import Verif.Lemmas.Text
import Verif.Props.PublisherFile

/-!
# C52 and C70: descriptions of trials and data sets
-/

namespace Verif

/-! ## Specification -/

/-- The characters with a meaning in descriptions. -/
def isMark (c : Char) : Bool := c == ',' || c == '(' || c == ')' || c == '='

/-- A text without marks. -/
def Plain (t : Text) : Prop := ∀ c ∈ t, isMark c = false

/-- A dictionary whose keys and values have no marks. -/
def PlainKwargs (d : Kwargs) : Prop := ∀ kv ∈ d, Plain kv.1 ∧ Plain kv.2

/-- Floats are printed so that they can be read back, as a text without marks. -/
def GoodFloats (T : FloatText) : Prop :=
  ∀ x, T.parse (T.fmt x) = some x ∧ T.fmt x ≠ [] ∧ Plain (T.fmt x)

/-- All names and arguments of a trial descriptor are free of marks. -/
def TrialDesc.PlainNames (d : TrialDesc) : Prop :=
  Plain d.strategy.strategy ∧ PlainKwargs d.strategy.strategyKwargs ∧
  Plain d.strategy.singlePub ∧ PlainKwargs d.strategy.singlePubKwargs ∧
  Plain d.strategy.multiPub ∧ PlainKwargs d.strategy.multiPubKwargs ∧
  Plain d.experiment.testPointStrategy ∧ PlainKwargs d.experiment.testPointKwargs

/-- The parameters of a trial that its description shows. -/
def TrialDesc.SameShown (d d' : TrialDesc) : Prop :=
  d.strategy = d'.strategy ∧ d.system.spends = d'.system.spends ∧
  d.system.decayRate = d'.system.decayRate ∧ d.system.sketchSize = d'.system.sketchSize ∧
  d.experiment = d'.experiment

/-! ## Unique reading -/

/-- Plain texts up to the first mark. -/
theorem plain_split : ∀ {a b x y : Text} {c e : Char}, Plain a → Plain b → isMark c = true →
    isMark e = true → a ++ c :: x = b ++ e :: y → a = b ∧ c = e ∧ x = y := by
  intro a
  induction a with
  | nil =>
    intro b x y c e _ hb hc he h
    cases b with
    | nil =>
      simp only [List.nil_append, List.cons.injEq] at h
      exact ⟨rfl, h.1, h.2⟩
    | cons z b =>
      simp only [List.nil_append, List.cons_append, List.cons.injEq] at h
      have := hb z (by simp)
      rw [← h.1, hc] at this
      cases this
  | cons z a ih =>
    intro b x y c e ha hb hc he h
    cases b with
    | nil =>
      simp only [List.nil_append, List.cons_append, List.cons.injEq] at h
      have := ha z (by simp)
      rw [h.1, he] at this
      cases this
    | cons w b =>
      simp only [List.cons_append, List.cons.injEq] at h
      obtain ⟨h1, h2, h3⟩ := ih (fun c hc => ha c (by simp [hc])) (fun c hc => hb c (by simp [hc]))
        hc he h.2
      exact ⟨by rw [h.1, h1], h2, h3⟩

theorem commaJoin_cons (a : Text) {l : List Text} (h : l ≠ []) :
    commaJoin (a :: l) = a ++ ',' :: commaJoin l := by
  cases l with
  | nil => exact absurd rfl h
  | cons b l => rfl

/-- A non-empty dictionary, closed by a parenthesis, is read in one way. -/
theorem kwargsItems_inj : ∀ {d d' : Kwargs} {r r' : Text}, PlainKwargs d → PlainKwargs d' →
    d ≠ [] → d' ≠ [] → kwargsItems d ++ ')' :: r = kwargsItems d' ++ ')' :: r' →
    d = d' ∧ r = r' := by
  intro d
  induction d with
  | nil => intro d' r r' _ _ h; exact absurd rfl h
  | cons kv d ih =>
    intro d' r r' hp hp' _ hne' h
    cases d' with
    | nil => exact absurd rfl hne'
    | cons kv' d' =>
      obtain ⟨k, v⟩ := kv
      obtain ⟨k', v'⟩ := kv'
      have hk := hp (k, v) (by simp)
      have hk' := hp' (k', v') (by simp)
      have hrest : PlainKwargs d := fun x hx => hp x (by simp [hx])
      have hrest' : PlainKwargs d' := fun x hx => hp' x (by simp [hx])
      have hone : ∀ (k v r : Text), kwargsItems [(k, v)] ++ ')' :: r = k ++ '=' :: (v ++ ')' :: r) := by
        intro k v r; simp [kwargsItems, commaJoin]
      have hmore : ∀ (k v r : Text) (d : Kwargs), d ≠ [] → kwargsItems ((k, v) :: d) ++ ')' :: r =
          k ++ '=' :: (v ++ ',' :: (kwargsItems d ++ ')' :: r)) := by
        intro k v r d hd
        unfold kwargsItems
        rw [List.map_cons, commaJoin_cons _ (by simpa using hd)]
        simp
      by_cases hd : d = []
      · by_cases hd' : d' = []
        · subst hd; subst hd'
          rw [hone, hone] at h
          obtain ⟨h1, -, h2⟩ := plain_split hk.1 hk'.1 (by decide) (by decide) h
          obtain ⟨h3, -, h4⟩ := plain_split hk.2 hk'.2 (by decide) (by decide) h2
          exact ⟨by rw [show k = k' from h1, show v = v' from h3], h4⟩
        · subst hd
          rw [hone, hmore _ _ _ _ hd'] at h
          obtain ⟨h1, -, h2⟩ := plain_split hk.1 hk'.1 (by decide) (by decide) h
          obtain ⟨-, h3, -⟩ := plain_split hk.2 hk'.2 (by decide) (by decide) h2
          exact absurd h3 (by decide)
      · by_cases hd' : d' = []
        · subst hd'
          rw [hone, hmore _ _ _ _ hd] at h
          obtain ⟨h1, -, h2⟩ := plain_split hk.1 hk'.1 (by decide) (by decide) h
          obtain ⟨-, h3, -⟩ := plain_split hk.2 hk'.2 (by decide) (by decide) h2
          exact absurd h3 (by decide)
        · rw [hmore _ _ _ _ hd, hmore _ _ _ _ hd'] at h
          obtain ⟨h1, -, h2⟩ := plain_split hk.1 hk'.1 (by decide) (by decide) h
          obtain ⟨h3, -, h4⟩ := plain_split hk.2 hk'.2 (by decide) (by decide) h2
          obtain ⟨h5, h6⟩ := ih hrest hrest' hd hd' h4
          exact ⟨by rw [show k = k' from h1, show v = v' from h3, h5], h6⟩

/-- A name with arguments, followed by a comma, is read in one way. -/
theorem dictToString_inj {s s' : Text} {d d' : Kwargs} {r r' : Text} (hs : Plain s)
    (hs' : Plain s') (hd : PlainKwargs d) (hd' : PlainKwargs d')
    (h : dictToString s d ++ ',' :: r = dictToString s' d' ++ ',' :: r') :
    s = s' ∧ d = d' ∧ r = r' := by
  unfold dictToString at h
  by_cases h1 : d = []
  · by_cases h2 : d' = []
    · rw [if_pos h1, if_pos h2] at h
      obtain ⟨e1, -, e2⟩ := plain_split hs hs' (by decide) (by decide) h
      exact ⟨e1, by rw [h1, h2], e2⟩
    · rw [if_pos h1, if_neg h2] at h
      simp only [List.append_assoc, List.cons_append] at h
      obtain ⟨-, e1, -⟩ := plain_split hs hs' (by decide) (by decide) h
      exact absurd e1 (by decide)
  · by_cases h2 : d' = []
    · rw [if_neg h1, if_pos h2] at h
      simp only [List.append_assoc, List.cons_append] at h
      obtain ⟨-, e1, -⟩ := plain_split hs hs' (by decide) (by decide) h
      exact absurd e1 (by decide)
    · rw [if_neg h1, if_neg h2] at h
      simp only [List.append_assoc, List.cons_append, List.nil_append] at h
      obtain ⟨e1, -, e2⟩ := plain_split hs hs' (by decide) (by decide) h
      obtain ⟨e3, e4⟩ := kwargsItems_inj hd hd' h1 h2 e2
      simp only [List.cons.injEq, true_and] at e4
      exact ⟨e1, e3, e4⟩

theorem dictToString_inj_end {s s' : Text} {d d' : Kwargs} (hs : Plain s)
    (hs' : Plain s') (hd : PlainKwargs d) (hd' : PlainKwargs d')
    (h : dictToString s d = dictToString s' d') : s = s' ∧ d = d' := by
  have := dictToString_inj (r := []) (r' := []) hs hs' hd hd' (by rw [h])
  exact ⟨this.1, this.2.1⟩

theorem fmt_inj {T : FloatText} (hT : GoodFloats T) {x y : ℚ} (h : T.fmt x = T.fmt y) : x = y := by
  have h1 := (hT x).1
  rw [h, (hT y).1] at h1
  exact (Option.some.inj h1).symm

theorem showInt_inj {m n : Int} (h : showInt m = showInt n) : m = n := by
  have h1 := parseInt_showInt m
  rw [h, parseInt_showInt n] at h1
  exact (Option.some.inj h1).symm

theorem showInt_plain (n : Int) : Plain (showInt n) := by
  intro c hc
  rcases showInt_chars n c hc with rfl | ⟨h1, h2⟩
  · rfl
  · by_contra h
    have hm : isMark c = true := by simpa using h
    unfold isMark at hm
    simp only [Bool.or_eq_true, beq_iff_eq] at hm
    rcases hm with ((rfl | rfl) | rfl) | rfl <;> revert h1 h2 <;> decide

/-- A list of floats, closed by a parenthesis, is read in one way. -/
theorem floats_inj {T : FloatText} (hT : GoodFloats T) : ∀ {l l' : List ℚ} {r r' : Text},
    commaJoin (l.map T.fmt) ++ ')' :: r = commaJoin (l'.map T.fmt) ++ ')' :: r' →
    l = l' ∧ r = r' := by
  have hnil : Plain ([] : Text) := by intro c hc; simp at hc
  have hone : ∀ (x : ℚ) (r : Text), commaJoin ([x].map T.fmt) ++ ')' :: r = T.fmt x ++ ')' :: r := by
    intro x r; simp [commaJoin]
  have hmore : ∀ (x : ℚ) (l : List ℚ) (r : Text), l ≠ [] →
      commaJoin ((x :: l).map T.fmt) ++ ')' :: r =
        T.fmt x ++ ',' :: (commaJoin (l.map T.fmt) ++ ')' :: r) := by
    intro x l r hl
    rw [List.map_cons, commaJoin_cons _ (by simpa using hl)]
    simp
  intro l
  induction l with
  | nil =>
    intro l' r r' h
    cases l' with
    | nil => simpa [commaJoin] using h
    | cons y l' =>
      exfalso
      by_cases hl : l' = []
      · subst hl
        rw [hone] at h
        obtain ⟨e, -, -⟩ := plain_split (a := []) hnil (hT y).2.2 (by decide) (by decide) h
        exact (hT y).2.1 e.symm
      · rw [hmore _ _ _ hl] at h
        obtain ⟨e, -, -⟩ := plain_split (a := []) hnil (hT y).2.2 (by decide) (by decide) h
        exact (hT y).2.1 e.symm
  | cons x l ih =>
    intro l' r r' h
    cases l' with
    | nil =>
      exfalso
      by_cases hl : l = []
      · subst hl
        rw [hone] at h
        obtain ⟨e, -, -⟩ := plain_split (b := []) (hT x).2.2 hnil (by decide) (by decide) h
        exact (hT x).2.1 e
      · rw [hmore _ _ _ hl] at h
        obtain ⟨e, -, -⟩ := plain_split (b := []) (hT x).2.2 hnil (by decide) (by decide) h
        exact (hT x).2.1 e
    | cons y l' =>
      by_cases hl : l = []
      · by_cases hl' : l' = []
        · subst hl; subst hl'
          rw [hone, hone] at h
          obtain ⟨e, -, e2⟩ := plain_split (hT x).2.2 (hT y).2.2 (by decide) (by decide) h
          exact ⟨by rw [fmt_inj hT e], e2⟩
        · subst hl
          rw [hone, hmore _ _ _ hl'] at h
          obtain ⟨-, e, -⟩ := plain_split (hT x).2.2 (hT y).2.2 (by decide) (by decide) h
          exact absurd e (by decide)
      · by_cases hl' : l' = []
        · subst hl'
          rw [hone, hmore _ _ _ hl] at h
          obtain ⟨-, e, -⟩ := plain_split (hT x).2.2 (hT y).2.2 (by decide) (by decide) h
          exact absurd e (by decide)
        · rw [hmore _ _ _ hl, hmore _ _ _ hl'] at h
          obtain ⟨e, -, e2⟩ := plain_split (hT x).2.2 (hT y).2.2 (by decide) (by decide) h
          obtain ⟨e3, e4⟩ := ih e2
          exact ⟨by rw [fmt_inj hT e, e3], e4⟩

/-! ## C52 -/

/-- A labelled plain field followed by a comma is read in one way. -/
theorem field_inj {l a b x y : Text} (ha : Plain a) (hb : Plain b)
    (h : l ++ (a ++ ',' :: x) = l ++ (b ++ ',' :: y)) : a = b ∧ x = y := by
  obtain ⟨e1, -, e2⟩ := plain_split ha hb (by decide) (by decide) (List.append_cancel_left h)
  exact ⟨e1, e2⟩

theorem strategy_inj {m m' : StrategyDescriptor} {r r' : Text}
    (p1 : Plain m.strategy) (p2 : PlainKwargs m.strategyKwargs)
    (p3 : Plain m.singlePub) (p4 : PlainKwargs m.singlePubKwargs)
    (p5 : Plain m.multiPub) (p6 : PlainKwargs m.multiPubKwargs)
    (q1 : Plain m'.strategy) (q2 : PlainKwargs m'.strategyKwargs)
    (q3 : Plain m'.singlePub) (q4 : PlainKwargs m'.singlePubKwargs)
    (q5 : Plain m'.multiPub) (q6 : PlainKwargs m'.multiPubKwargs)
    (h : m.str ++ ',' :: r = m'.str ++ ',' :: r') : m = m' ∧ r = r' := by
  unfold StrategyDescriptor.str at h
  simp only [List.append_assoc, List.cons_append] at h
  obtain ⟨e1, e2, h⟩ := dictToString_inj p1 q1 p2 q2 h
  obtain ⟨e3, e4, h⟩ := dictToString_inj p3 q3 p4 q4 h
  obtain ⟨e5, e6, hr⟩ := dictToString_inj p5 q5 p6 q6 h
  cases m; cases m'
  simp only at e1 e2 e3 e4 e5 e6
  subst e1; subst e2; subst e3; subst e4; subst e5; subst e6
  exact ⟨rfl, hr⟩

theorem system_inj {T : FloatText} (hT : GoodFloats T) {s s' : SystemParams} {r r' : Text}
    (h : s.str T ++ ',' :: r = s'.str T ++ ',' :: r') :
    s.spends = s'.spends ∧ s.decayRate = s'.decayRate ∧ s.sketchSize = s'.sketchSize ∧ r = r' := by
  unfold SystemParams.str at h
  generalize "spends=(".toList = l1 at h
  generalize "decay_rate=".toList = l2 at h
  generalize "sketch_size=".toList = l3 at h
  simp only [List.append_assoc, List.cons_append] at h
  obtain ⟨e1, h⟩ := floats_inj hT (List.append_cancel_left h)
  obtain ⟨e2, h⟩ := field_inj (hT _).2.2 (hT _).2.2 (List.cons.inj h).2
  obtain ⟨e3, h⟩ := field_inj (hT _).2.2 (hT _).2.2 h
  exact ⟨e1, fmt_inj hT e2, fmt_inj hT e3, h⟩

theorem experiment_inj {T : FloatText} (hT : GoodFloats T) {s s' : ExperimentParams}
    (p1 : Plain s.testPointStrategy) (p2 : PlainKwargs s.testPointKwargs)
    (q1 : Plain s'.testPointStrategy) (q2 : PlainKwargs s'.testPointKwargs)
    (h : s.str T = s'.str T) : s = s' := by
  unfold ExperimentParams.str at h
  generalize "epsilon=".toList = l1 at h
  generalize "delta=".toList = l2 at h
  generalize "replica_id=".toList = l3 at h
  generalize "max_frequency=".toList = l4 at h
  generalize "test_point_strategy=".toList = l5 at h
  obtain ⟨e1, h⟩ := field_inj (hT _).2.2 (hT _).2.2 h
  obtain ⟨e2, h⟩ := field_inj (hT _).2.2 (hT _).2.2 h
  obtain ⟨e3, h⟩ := field_inj (showInt_plain _) (showInt_plain _) h
  obtain ⟨e4, h⟩ := field_inj (showInt_plain _) (showInt_plain _) h
  obtain ⟨e5, e6⟩ := dictToString_inj_end p1 q1 p2 q2 (List.append_cancel_left h)
  replace e1 := fmt_inj hT e1
  replace e2 := fmt_inj hT e2
  replace e3 := showInt_inj e3
  replace e4 := showInt_inj e4
  obtain ⟨⟨b1, b2⟩, c3, c4, c5, c6⟩ := s
  obtain ⟨⟨b1', b2'⟩, c3', c4', c5', c6'⟩ := s'
  simp only at e1 e2 e3 e4 e5 e6
  subst e1; subst e2; subst e3; subst e4; subst e5; subst e6
  rfl

/-- Two descriptors with the same description agree in everything the description shows. -/
theorem trialDesc_inj (T : FloatText) (hT : GoodFloats T) (d d' : TrialDesc) (hd : d.PlainNames)
    (hd' : d'.PlainNames) (h : d.str T = d'.str T) : d.SameShown d' := by
  obtain ⟨p1, p2, p3, p4, p5, p6, p7, p8⟩ := hd
  obtain ⟨q1, q2, q3, q4, q5, q6, q7, q8⟩ := hd'
  unfold TrialDesc.str at h
  obtain ⟨e1, h⟩ := strategy_inj p1 p2 p3 p4 p5 p6 q1 q2 q3 q4 q5 q6 h
  obtain ⟨e2, e3, e4, h⟩ := system_inj hT h
  exact ⟨e1, e2, e3, e4, experiment_inj hT p7 p8 q7 q8 h⟩

/-- Floats printed as exact fractions: a faithful way of printing. -/
def fracText : FloatText where
  fmt x := showInt x.num ++ '/' :: showNat x.den
  parse s := do
    let n ← parseInt (s.takeWhile (fun c => c != '/'))
    let d ← parseDigits false 0 ((s.dropWhile (fun c => c != '/')).drop 1)
    pure ((n : ℚ) / (d : ℚ))

theorem digit_not_mark {c : Char} (h : 48 ≤ c.toNat ∧ c.toNat ≤ 57) : isMark c = false := by
  by_contra hn
  have hm : isMark c = true := by simpa using hn
  unfold isMark at hm
  simp only [Bool.or_eq_true, beq_iff_eq] at hm
  rcases hm with ((rfl | rfl) | rfl) | rfl <;> revert h <;> decide

/-- Faithful printing of floats exists. -/
theorem fracText_good : GoodFloats fracText := by
  intro x
  refine ⟨?_, ?_, ?_⟩
  · have hno : ∀ c ∈ showInt x.num, (c != '/') = true := by
      intro c hc
      simp only [bne_iff_ne]
      rintro rfl
      rcases showInt_chars _ _ hc with h | h <;> revert h <;> decide
    have h1 : (showInt x.num ++ '/' :: showNat x.den).takeWhile (fun c => c != '/') =
        showInt x.num := by
      rw [List.takeWhile_append_of_pos hno]; simp
    have h2 : (showInt x.num ++ '/' :: showNat x.den).dropWhile (fun c => c != '/') =
        '/' :: showNat x.den := by
      rw [List.dropWhile_append_of_pos hno]; simp
    unfold fracText
    simp only [h1, h2, parseInt_showInt, List.drop_succ_cons, List.drop_zero, parseDigits_showNat,
      Option.bind_eq_bind, Option.bind_some, Option.pure_def, Option.some.injEq]
    exact Rat.num_div_den x
  · simp [fracText]
  · intro c hc
    simp only [fracText, List.mem_append, List.mem_cons] at hc
    rcases hc with h | rfl | h
    · exact showInt_plain _ c h
    · decide
    · exact digit_not_mark (showNat_digits _ c h)

/-- **C52 (full statement, false).** Different trial descriptors have different descriptions. -/
def C52_full : Prop :=
  ∀ T : FloatText, GoodFloats T → ∀ d d' : TrialDesc, d.str T = d'.str T → d = d'

/-- **C52 (partial).** If names, keyword arguments and their values contain none of `,()=`, two
descriptors have the same description exactly if they agree in all parameters except the sketch seed
and the generator.  Missing: those two, which the description does not show, and names or arguments
with marks. -/
theorem C52_shown_partial (T : FloatText) (hT : GoodFloats T) (d d' : TrialDesc)
    (hd : d.PlainNames) (hd' : d'.PlainNames) :
    d.str T = d'.str T ↔ d.SameShown d' := by
  constructor
  · exact trialDesc_inj T hT d d' hd hd'
  · rintro ⟨h1, h2, h3, h4, h5⟩
    unfold TrialDesc.str SystemParams.str
    rw [h1, h2, h3, h4, h5]

/-- A trial for the examples. -/
def exTrialDesc (kwargs : Kwargs) (seed : Int) : TrialDesc where
  strategy := ⟨"m3".toList, [], "goerg".toList, [], "pairwise".toList,
    [("penalty".toList, "2".toList)]⟩
  system := ⟨[1, 2], 12, 100000, seed, 1⟩
  experiment := ⟨⟨1, 0⟩, 3, 10, "grid".toList, kwargs⟩

example : (exTrialDesc [("npublishers".toList, "2".toList)] 1).PlainNames := by
  unfold TrialDesc.PlainNames PlainKwargs Plain
  decide +kernel

example : (exTrialDesc [("npublishers".toList, "2".toList)] 1).str fracText =
    ("m3,goerg,pairwise(penalty=2),spends=(1/1,2/1),decay_rate=12/1,sketch_size=100000/1," ++
      "epsilon=1/1,delta=0/1,replica_id=3,max_frequency=10," ++
      "test_point_strategy=grid(npublishers=2)").toList := by
  decide +kernel

/-- The full statement fails: descriptors that differ in the sketch seed only are described alike,
and so are different dictionaries of arguments. -/
theorem C52_full_is_false : ¬ C52_full := by
  intro h
  have := h fracText fracText_good (exTrialDesc [] 1) (exTrialDesc [] 2) rfl
  revert this
  decide +kernel

/-- **C52.** Without the assumption on marks even the shown parameters are not determined: the
dictionaries `{a: "1,b=2"}` and `{a: 1, b: 2}` print alike. -/
theorem C52_marks_collide : ∀ T : FloatText, ∀ d : TrialDesc, ∃ kw kw' : Kwargs, kw ≠ kw' ∧
    TrialDesc.str T { d with experiment := { d.experiment with testPointKwargs := kw } } =
      TrialDesc.str T { d with experiment := { d.experiment with testPointKwargs := kw' } } := by
  intro T d
  refine ⟨[("a".toList, "1,b=2".toList)], [("a".toList, "1".toList), ("b".toList, "2".toList)],
    by decide, ?_⟩
  have : ∀ s, dictToString s [("a".toList, "1,b=2".toList)] =
      dictToString s [("a".toList, "1".toList), ("b".toList, "2".toList)] := by
    intro s
    unfold dictToString
    rw [if_neg (by decide), if_neg (by decide)]
    congr 2
  unfold TrialDesc.str ExperimentParams.str
  simp only [this]

/-! ## C71: filling in the data set -/

/-- **C71 (a).** Filling in a descriptor for a data set keeps everything but two items: the spend
fractions are those of the generator, if there is one, and the argument `npublishers`, if present,
becomes the number of publishers. -/
theorem C71_fill {DS : Type} (count : DS → Nat) (t : TrialTemplate DS) (ds : DS) :
    let r := (t.update count ds).desc
    r.strategy = t.desc.strategy ∧
    r.system.decayRate = t.desc.system.decayRate ∧
    r.system.sketchSize = t.desc.system.sketchSize ∧
    r.system.randomSeed = t.desc.system.randomSeed ∧
    r.system.generatorSeed = t.desc.system.generatorSeed ∧
    (∀ g, t.spendsGenerator = some g → r.system.spends = g ds) ∧
    (t.spendsGenerator = none → r.system.spends = t.desc.system.spends) ∧
    r.experiment.budget = t.desc.experiment.budget ∧
    r.experiment.replicaId = t.desc.experiment.replicaId ∧
    r.experiment.maxFrequency = t.desc.experiment.maxFrequency ∧
    r.experiment.testPointStrategy = t.desc.experiment.testPointStrategy ∧
    r.experiment.testPointKwargs.map Prod.fst = t.desc.experiment.testPointKwargs.map Prod.fst ∧
    (∀ kv, kv.1 ≠ "npublishers".toList →
      (kv ∈ r.experiment.testPointKwargs ↔ kv ∈ t.desc.experiment.testPointKwargs)) ∧
    (∀ kv ∈ r.experiment.testPointKwargs, kv.1 = "npublishers".toList →
      kv.2 = showInt (count ds)) := by
  refine ⟨rfl, rfl, rfl, rfl, rfl, ?_, ?_, rfl, rfl, rfl, rfl, ?_, ?_, ?_⟩
  · intro g hg
    simp [TrialTemplate.update, hg]
  · intro hg
    simp [TrialTemplate.update, hg]
  · simp only [TrialTemplate.update, fillPublishers, List.map_map]
    apply List.map_congr_left
    intro kv _
    simp only [Function.comp_apply]
    split <;> rfl
  · intro kv hkv
    simp only [TrialTemplate.update, fillPublishers, List.mem_map]
    constructor
    · rintro ⟨kv', h1, h2⟩
      split at h2
      · rename_i hk
        rw [← h2] at hkv
        exact absurd hk hkv
      · rw [← h2]; exact h1
    · intro h
      exact ⟨kv, h, by rw [if_neg hkv]⟩
  · intro kv hkv hk
    simp only [TrialTemplate.update, fillPublishers, List.mem_map] at hkv
    obtain ⟨kv', -, h2⟩ := hkv
    split at h2
    · rw [← h2]
      simp [showInt]
    · rename_i hn
      rw [h2] at hn
      exact absurd hk hn

/-- **C71 (b).** Filling in twice for the same data set changes nothing. -/
theorem C71_idempotent {DS : Type} (count : DS → Nat) (t : TrialTemplate DS) (ds : DS) :
    (t.update count ds).update count ds = t.update count ds := by
  have h : ∀ d : Kwargs, fillPublishers (count ds) (fillPublishers (count ds) d) =
      fillPublishers (count ds) d := by
    intro d
    unfold fillPublishers
    rw [List.map_map]
    apply List.map_congr_left
    intro kv _
    simp only [Function.comp_apply]
    by_cases hk : kv.1 = "npublishers".toList
    · rw [if_pos hk, if_pos (by exact hk)]
    · rw [if_neg hk, if_neg hk]
  simp [TrialTemplate.update, h]

/-- **C71 (full statement, false).** A descriptor filled in for one data set can be filled in for
another one, with the same result as filling in the original. -/
def C71_refill_full : Prop :=
  ∀ (DS : Type) (count : DS → Nat) (t : TrialTemplate DS) (ds ds' : DS),
    (t.update count ds).update count ds' = t.update count ds'

/-- **C71 (c, partial).** Refilling works for descriptors without a generator of spend fractions.
Missing: descriptors with a generator, which is dropped by the first filling in. -/
theorem C71_refill_partial {DS : Type} (count : DS → Nat) (t : TrialTemplate DS) (ds ds' : DS)
    (hg : t.spendsGenerator = none) :
    (t.update count ds).update count ds' = t.update count ds' := by
  have h : ∀ d : Kwargs, fillPublishers (count ds') (fillPublishers (count ds) d) =
      fillPublishers (count ds') d := by
    intro d
    unfold fillPublishers
    rw [List.map_map]
    apply List.map_congr_left
    intro kv _
    simp only [Function.comp_apply]
    by_cases hk : kv.1 = "npublishers".toList
    · rw [if_pos hk, if_pos (by exact hk), if_pos hk]
    · rw [if_neg hk, if_neg hk]
  simp [TrialTemplate.update, h, hg]

/-- A template for the examples: every publisher spends its maximum; data sets are numbers of
publishers. -/
def exTemplate : TrialTemplate Nat where
  desc := exTrialDesc [("npublishers".toList, "0".toList), ("grid_size".toList, "3".toList)] 1
  spendsGenerator := some (fun n => List.replicate n 1)

example : ((exTemplate.update id 3).desc.experiment.testPointKwargs,
    (exTemplate.update id 3).desc.system.spends) =
    ([("npublishers".toList, "3".toList), ("grid_size".toList, "3".toList)], [1, 1, 1]) := by
  decide +kernel

example : ({ exTemplate with spendsGenerator := none } : TrialTemplate Nat).spendsGenerator = none :=
  rfl

theorem C71_refill_full_is_false : ¬ C71_refill_full := by
  intro h
  have := congrArg (fun t => t.desc.system.spends) (h Nat id exTemplate 1 2)
  revert this
  decide +kernel

/-! ## C70 -/

/-- Parameters of a data set that its name shows. -/
def DataSetParams.SameShown (p p' : DataSetParams) : Prop :=
  p.numPublishers = p'.numPublishers ∧ p.largestSize = p'.largestSize ∧ p.ratio = p'.ratio ∧
  p.pricing.name = p'.pricing.name ∧ p.pricing.params = p'.pricing.params ∧
  p.impressions.name = p'.impressions.name ∧ p.impressions.params = p'.impressions.params ∧
  p.overlaps.name = p'.overlaps.name ∧ p.overlaps.params = p'.overlaps.params ∧ p.id = p'.id

/-- Names and arguments of the generators are free of marks. -/
def DataSetParams.PlainNames (p : DataSetParams) : Prop :=
  Plain p.pricing.name ∧ PlainKwargs p.pricing.params ∧ Plain p.impressions.name ∧
  PlainKwargs p.impressions.params ∧ Plain p.overlaps.name ∧ PlainKwargs p.overlaps.params

/-- **C70 (full statement, false).** Different parameters give data sets of different names. -/
def C70_full : Prop :=
  ∀ T : FloatText, GoodFloats T → ∀ p p' : DataSetParams, p.str T = p'.str T → p = p'

/-- **C70 (partial).** For parameters without an explicit name whose generator names and arguments
contain no marks, equal data set names mean equal parameters except for the generator classes.
Missing: explicit names (which hide all parameters), marks, and generator classes, which the name
does not show. -/
theorem C70_shown_partial (T : FloatText) (hT : GoodFloats T) (p p' : DataSetParams)
    (hn : p.name = []) (hn' : p'.name = []) (hp : p.PlainNames) (hp' : p'.PlainNames) :
    p.str T = p'.str T ↔ p.SameShown p' := by
  constructor
  · intro h
    obtain ⟨n, a, b, c, ⟨d1, d2, d3⟩, ⟨e1, e2, e3⟩, ⟨f1, f2, f3⟩, i⟩ := p
    obtain ⟨n', a', b', c', ⟨d1', d2', d3'⟩, ⟨e1', e2', e3'⟩, ⟨f1', f2', f3'⟩, i'⟩ := p'
    simp only at hn hn'
    subst hn; subst hn'
    obtain ⟨p1, p2, p3, p4, p5, p6⟩ := hp
    obtain ⟨q1, q2, q3, q4, q5, q6⟩ := hp'
    simp only at p1 p2 p3 p4 p5 p6 q1 q2 q3 q4 q5 q6
    simp only [DataSetParams.str, GeneratorParams.str, ne_eq, not_true_eq_false, if_false] at h
    have h := List.append_cancel_left h
    obtain ⟨g1, -, h⟩ := plain_split (showInt_plain _) (showInt_plain _) (by decide) (by decide) h
    have h := List.append_cancel_left h
    obtain ⟨g2, -, h⟩ := plain_split (showInt_plain _) (showInt_plain _) (by decide) (by decide) h
    have h := List.append_cancel_left h
    obtain ⟨g3, -, h⟩ := plain_split (hT _).2.2 (hT _).2.2 (by decide) (by decide) h
    have h := List.append_cancel_left h
    obtain ⟨g4, g5, h⟩ := dictToString_inj p1 q1 p2 q2 h
    have h := List.append_cancel_left h
    obtain ⟨g6, g7, h⟩ := dictToString_inj p3 q3 p4 q4 h
    have h := List.append_cancel_left h
    have hlast : f1 = f1' ∧ f3 = f3' ∧ i = i' := by
      have hid : ∀ j : Text, ",id=".toList ++ j = ',' :: ("id=".toList ++ j) := by
        intro j
        have : ",id=".toList = ',' :: "id=".toList := by decide
        rw [this]; rfl
      by_cases hi : i = []
      · by_cases hi' : i' = []
        · rw [if_neg (by simpa using hi), if_neg (by simpa using hi')] at h
          simp only [List.append_nil] at h
          obtain ⟨g8, g9⟩ := dictToString_inj_end p5 q5 p6 q6 h
          exact ⟨g8, g9, by rw [hi, hi']⟩
        · exfalso
          rw [if_neg (by simpa using hi), if_pos hi', List.append_nil, hid] at h
          have h2 : dictToString f1 f3 ++ ',' :: [] =
              dictToString f1' f3' ++ ',' :: ("id=".toList ++ i' ++ [',']) := by
            rw [h]; simp
          have := (dictToString_inj p5 q5 p6 q6 h2).2.2
          have hl := congrArg List.length this
          simp at hl
      · by_cases hi' : i' = []
        · exfalso
          rw [if_pos hi, if_neg (by simpa using hi'), List.append_nil, hid] at h
          have h2 : dictToString f1 f3 ++ ',' :: ("id=".toList ++ i ++ [',']) =
              dictToString f1' f3' ++ ',' :: [] := by
            rw [← h]; simp
          have := (dictToString_inj p5 q5 p6 q6 h2).2.2
          have hl := congrArg List.length this
          simp at hl
        · rw [if_pos hi, if_pos hi', hid, hid] at h
          obtain ⟨g8, g9, h⟩ := dictToString_inj p5 q5 p6 q6 h
          exact ⟨g8, g9, List.append_cancel_left h⟩
    exact ⟨showInt_inj g1, showInt_inj g2, fmt_inj hT g3, g4, g5, g6, g7, hlast⟩
  · rintro ⟨h1, h2, h3, h4, h5, h6, h7, h8, h9, h10⟩
    unfold DataSetParams.str GeneratorParams.str
    rw [h1, h2, h3, h4, h5, h6, h7, h8, h9, h10, hn, hn']

/-- A data set for the examples. -/
def exDataSetParams (name : Text) (size : Int) : DataSetParams where
  name := name
  numPublishers := 2
  largestSize := size
  ratio := 1/2
  pricing := ⟨"Fixed".toList, 0, [("cost_per_impression".toList, "0.1".toList)]⟩
  impressions := ⟨"Homogeneous".toList, 1, [("poisson_lambda".toList, "3.0".toList)]⟩
  overlaps := ⟨"FullOverlap".toList, 2, []⟩
  id := "7".toList

example : (exDataSetParams [] 100).PlainNames ∧ (exDataSetParams [] 100).name = [] := by
  unfold DataSetParams.PlainNames PlainKwargs Plain
  decide +kernel

example : (exDataSetParams [] 100).str fracText =
    ("P=2,N=100,pub_ratio=1/2,pricing=Fixed(cost_per_impression=0.1)," ++
      "impressions=Homogeneous(poisson_lambda=3.0),overlaps=FullOverlap,id=7").toList := by
  decide +kernel

/-- The full statement fails: a given name hides all parameters. -/
theorem C70_full_is_false : ¬ C70_full := by
  intro h
  have := h fracText fracText_good (exDataSetParams "a".toList 1) (exDataSetParams "a".toList 2)
    (by decide +kernel)
  revert this
  decide +kernel

/-- **C70.** A given name is used as it is. -/
theorem C70_named (T : FloatText) (p : DataSetParams) (h : p.name ≠ []) : p.str T = p.name := by
  unfold DataSetParams.str
  rw [if_pos h]

/-- **C70.** Without a given name, the class of a generator is not shown: exchanging it keeps the
name of the data set. -/
theorem C70_class_hidden (T : FloatText) (p : DataSetParams) (c : Int) :
    ({ p with pricing := { p.pricing with generator := c } } : DataSetParams).str T = p.str T := rfl

end Verif
