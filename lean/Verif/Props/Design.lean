import Verif.Props.Trial
import Verif.Lemmas.Text
import Mathlib.Data.Fintype.Basic

/-!
# Results about experimental designs (C50)
-/

namespace Verif

variable {ρ γ : Type}

/-! ## Which trials a design has -/

/-- Data set and description of a trial. -/
def trialKey (c : TrialConfig) : String × String := (c.dataSetName, c.descriptor)

/-- `kept` has one trial for each key of `all`, the first one, in the same order. -/
structure FirstOfEach {κ : Type} (key : TrialConfig → κ) (all kept : List TrialConfig) : Prop where
  order : kept.Sublist all
  once : (kept.map key).Nodup
  each : ∀ t ∈ all, key t ∈ kept.map key
  first : ∀ t ∈ kept, ∃ pre post, all = pre ++ t :: post ∧ ∀ u ∈ pre, key u ≠ key t

theorem removeDuplicatesFrom_spec (all : List TrialConfig) : ∀ seen,
    (removeDuplicatesFrom seen all).Sublist all ∧
    ((removeDuplicatesFrom seen all).map trialName).Nodup ∧
    (∀ t ∈ removeDuplicatesFrom seen all, trialName t ∉ seen ∧
      ∃ pre post, all = pre ++ t :: post ∧ ∀ u ∈ pre, trialName u ≠ trialName t) ∧
    (∀ t ∈ all, trialName t ∈ seen ∨
      trialName t ∈ (removeDuplicatesFrom seen all).map trialName) := by
  induction all with
  | nil => intro seen; simp [removeDuplicatesFrom]
  | cons a rest ih =>
    intro seen
    by_cases ha : trialName a ∈ seen
    · obtain ⟨h1, h2, h3, h4⟩ := ih seen
      simp only [removeDuplicatesFrom, if_pos ha]
      refine ⟨h1.trans (List.sublist_cons_self _ _), h2, ?_, ?_⟩
      · intro t ht
        obtain ⟨hs, pre, post, he, hp⟩ := h3 t ht
        refine ⟨hs, a :: pre, post, by rw [he]; rfl, ?_⟩
        intro u hu
        rcases List.mem_cons.1 hu with rfl | hu
        · intro e; exact hs (e ▸ ha)
        · exact hp u hu
      · intro t ht
        rcases List.mem_cons.1 ht with rfl | ht
        · exact Or.inl ha
        · exact h4 t ht
    · obtain ⟨h1, h2, h3, h4⟩ := ih (trialName a :: seen)
      simp only [removeDuplicatesFrom, if_neg ha]
      refine ⟨h1.cons_cons a, ?_, ?_, ?_⟩
      · rw [List.map_cons, List.nodup_cons]
        refine ⟨?_, h2⟩
        intro hm
        obtain ⟨t, ht, he⟩ := List.mem_map.1 hm
        exact (h3 t ht).1 (by rw [he]; simp)
      · intro t ht
        rcases List.mem_cons.1 ht with rfl | ht
        · exact ⟨ha, [], rest, rfl, by simp⟩
        · obtain ⟨hs, pre, post, he, hp⟩ := h3 t ht
          refine ⟨fun h => hs (by simp [h]), a :: pre, post, by rw [he]; rfl, ?_⟩
          intro u hu
          rcases List.mem_cons.1 hu with rfl | hu
          · intro e; exact hs (by rw [← e]; simp)
          · exact hp u hu
      · intro t ht
        rcases List.mem_cons.1 ht with rfl | ht
        · exact Or.inr (by simp)
        · rcases h4 t ht with h | h
          · rcases List.mem_cons.1 h with h | h
            · exact Or.inr (by simp [h])
            · exact Or.inl h
          · exact Or.inr (by simp only [List.map_cons, List.mem_cons]; exact Or.inr h)

theorem firstOfEach_congr {κ κ' : Type} (key : TrialConfig → κ) (key' : TrialConfig → κ')
    {all kept : List TrialConfig}
    (h : ∀ t ∈ all, ∀ u ∈ all, key t = key u ↔ key' t = key' u)
    (hk : FirstOfEach key all kept) : FirstOfEach key' all kept := by
  obtain ⟨h1, h2, h3, h4⟩ := hk
  refine ⟨h1, ?_, ?_, ?_⟩
  · rw [List.Nodup, List.pairwise_map] at h2 ⊢
    refine h2.imp_of_mem ?_
    intro a b ha hb hab e
    exact hab ((h a (h1.subset ha) b (h1.subset hb)).2 e)
  · intro t ht
    obtain ⟨u, hu, he⟩ := List.mem_map.1 (h3 t ht)
    exact List.mem_map.2 ⟨u, hu, (h u (h1.subset hu) t ht).1 he⟩
  · intro t ht
    obtain ⟨pre, post, he, hp⟩ := h4 t ht
    refine ⟨pre, post, he, ?_⟩
    intro u hu e
    refine hp u hu ((h u ?_ t ?_).2 e)
    · rw [he]; simp [hu]
    · rw [he]; simp

/-- **C50 (what de-duplication does).** The trials of a design are the first ones of each name
`data set::description`, in generation order. -/
theorem C50_by_name (dir analysisType : String) (descs : List Descriptor) (names : List String) :
    FirstOfEach trialName (names.flatMap (experimentTrials dir analysisType descs))
      (designTrials dir analysisType descs names) := by
  obtain ⟨h1, h2, h3, h4⟩ := removeDuplicatesFrom_spec
    (names.flatMap (experimentTrials dir analysisType descs)) []
  refine ⟨h1, h2, ?_, fun t ht => (h3 t ht).2⟩
  intro t ht
  rcases h4 t ht with h | h
  · simp at h
  · exact h

theorem trialName_inj {c d : TrialConfig} (hc : ':' ∉ c.dataSetName.toList)
    (hd : ':' ∉ d.dataSetName.toList) : trialName c = trialName d ↔ trialKey c = trialKey d := by
  constructor
  · intro h
    have h1 := congrArg String.toList h
    simp only [trialName, String.toList_append] at h1
    have h2 : ("::" : String).toList = [':', ':'] := by decide
    rw [h2] at h1
    simp only [List.append_assoc, List.cons_append, List.nil_append] at h1
    obtain ⟨h3, h4⟩ := append_sep_inj hc hd h1
    simp only [List.cons.injEq, true_and] at h4
    exact Prod.ext (String.toList_injective h3) (String.toList_injective h4)
  · intro h
    simp only [trialKey, Prod.mk.injEq] at h
    simp [trialName, h.1, h.2]

theorem resultsPath_inj {c d : TrialConfig} (hdir : c.experimentDir = d.experimentDir)
    (hc : '/' ∉ c.dataSetName.toList) (hd : '/' ∉ d.dataSetName.toList)
    (h : resultsPath c = resultsPath d) : trialKey c = trialKey d := by
  have h1 := congrArg String.toList h
  simp only [resultsPath, String.toList_append, hdir] at h1
  have h2 : ("/" : String).toList = ['/'] := by decide
  rw [h2] at h1
  simp only [List.append_assoc, List.cons_append, List.nil_append] at h1
  have h1 := List.append_cancel_left h1
  simp only [List.cons.injEq, true_and] at h1
  obtain ⟨h3, h4⟩ := append_sep_inj hc hd h1
  exact Prod.ext (String.toList_injective h3) (String.toList_injective (List.append_cancel_right h4))

theorem mem_generated {dir analysisType : String} {descs : List Descriptor} {names : List String}
    {t : TrialConfig} (h : t ∈ names.flatMap (experimentTrials dir analysisType descs)) :
    t.dataSetName ∈ names ∧ t.experimentDir = dir := by
  obtain ⟨n, hn, ht⟩ := List.mem_flatMap.1 h
  obtain ⟨d, _, rfl⟩ := List.mem_map.1 ht
  exact ⟨hn, rfl⟩

/-- **C50 (full statement on trials, false).** A design has one trial per distinct data set and
description. -/
def C50_trials_full : Prop :=
  ∀ (dir analysisType : String) (descs : List Descriptor) (names : List String),
    FirstOfEach trialKey (names.flatMap (experimentTrials dir analysisType descs))
      (designTrials dir analysisType descs names)

/-- The full statement fails: data sets `x` and `x::y` with descriptions `y::z` and `z`. -/
theorem C50_trials_full_is_false : ¬ C50_trials_full := by
  intro h
  have := (h "d" "" [fun _ => ("z", 0), fun _ => ("y::z", 0)] ["x", "x::y"]).each
    ⟨"d", "x::y", "z", 0, ""⟩ (by decide +kernel)
  revert this
  decide +kernel

/-- **C50 (partial, trials).** If no data set name contains a colon, a design has exactly one trial
per distinct data set and description: the first generated one, in generation order.  Missing: names
with colons, for which different trials may be taken for duplicates. -/
theorem C50_trials_partial (dir analysisType : String) (descs : List Descriptor)
    (names : List String) (hnames : ∀ n ∈ names, ':' ∉ n.toList) :
    FirstOfEach trialKey (names.flatMap (experimentTrials dir analysisType descs))
      (designTrials dir analysisType descs names) :=
  firstOfEach_congr trialName trialKey
    (fun _ ht _ hu => trialName_inj (hnames _ (mem_generated ht).1) (hnames _ (mem_generated hu).1))
    (C50_by_name dir analysisType descs names)

/-- Two data sets and three descriptors, two of which agree on the first data set. -/
def exDescs : List Descriptor :=
  [fun n => ("m,size=" ++ n, 0), fun _ => ("m,size=a", 1), fun _ => ("k", 2)]

example : (∀ n ∈ ["a", "b"], ':' ∉ n.toList) ∧
    (designTrials "d/e" "" exDescs ["a", "b"]).map trialKey =
      [("a", "m,size=a"), ("a", "k"), ("b", "m,size=b"), ("b", "m,size=a"), ("b", "k")] := by
  decide +kernel

/-! ## The rows of a design -/

theorem evaluateAll_rows (w : World ρ γ) (hw : HexDigest w) (seed : Int) (row : TrialConfig → ρ)
    (trials : List TrialConfig) : ∀ (fs : Files) (g : γ),
    (∀ t ∈ trials, ∀ g, (w.outcome t seed g).1 = .ok (row t)) →
    (∀ t ∈ trials, w.readCsv (w.toCsv (row t)) = .ok (row t)) →
    (trials.map resultsPath).Nodup →
    (∀ t ∈ trials, Recoverable w (.ok (row t)) (fs (resultsPath t))) →
    (evaluateAll w seed trials fs g).1 = .ok (trials.map row) := by
  induction trials with
  | nil => intros; rfl
  | cons t rest ih =>
    intro fs g hrow hread hnd hfs
    rw [List.map_cons, List.nodup_cons] at hnd
    obtain ⟨h1, _, h3⟩ := evaluate_recoverable w hw t seed (.ok (row t)) fs g
      (hrow t (by simp) g) (hfs t (by simp))
    have hres : (evaluate w t seed fs g).1 = .ok (row t) := by
      rcases h1 with h | ⟨r, hr1, hr2⟩
      · exact h
      · cases hr1
        rw [hr2, hread t (by simp)]
    rcases he : evaluate w t seed fs g with ⟨res, fs', g'⟩
    rw [he] at hres h3
    simp only at hres h3
    subst hres
    have hrest := ih fs' g' (fun u hu => hrow u (by simp [hu])) (fun u hu => hread u (by simp [hu]))
      hnd.2 (by
        intro u hu
        rw [h3]
        · exact hfs u (by simp [hu])
        · intro e; exact hnd.1 (List.mem_map.2 ⟨u, hu, e⟩)
        · exact path_ne_pending w hw u t)
    rcases hb : evaluateAll w seed rest fs' g' with ⟨res, fs'', g''⟩
    rw [hb] at hrest
    simp only at hrest
    subst hrest
    simp only [evaluateAll, he, hb, List.map_cons]

theorem loadSequential_rows (w : World ρ γ) (hw : HexDigest w) (seed : Int)
    (row : TrialConfig → ρ) (trials : List TrialConfig) (hne : trials ≠ []) (fs : Files) (g : γ)
    (hrow : ∀ t ∈ trials, ∀ g, (w.outcome t seed g).1 = .ok (row t))
    (hread : ∀ t ∈ trials, w.readCsv (w.toCsv (row t)) = .ok (row t))
    (hnd : (trials.map resultsPath).Nodup)
    (hfs : ∀ t ∈ trials, Recoverable w (.ok (row t)) (fs (resultsPath t))) :
    (loadSequential w trials seed fs g).1 = .ok (trials.map row) := by
  have h := evaluateAll_rows w hw seed row trials fs g hrow hread hnd hfs
  unfold loadSequential
  rcases he : evaluateAll w seed trials fs g with ⟨res, fs', g'⟩
  rw [he] at h
  simp only at h
  subst h
  cases trials with
  | nil => exact absurd rfl hne
  | cons t rest => rfl

/-- **C50 (full statement on rows, false).** Rows do not depend on whether trials were evaluated by
workers first. -/
def C50_rows_full : Prop :=
  ∀ (ρ γ : Type) (w : World ρ γ) (trials : List TrialConfig) (seed : Int) (g : γ)
    (schedule : List (Fin trials.length)),
    HexDigest w → (trials.map resultsPath).Nodup →
    (∀ r, TornUnreadable w (w.toCsv r)) → (∀ r, w.readCsv (w.toCsv r) = .ok r) →
    (∀ i, ∃ res, (runWorkers w trials seed (fun _ => none) g schedule).pc i = .done res) →
    (loadParallel w trials seed (fun _ => none) g schedule).1 =
      (loadSequential w trials seed (fun _ => none) g).1

/-- An environment whose result is the state of the shared generator. -/
def exGenWorld : World Nat Nat where
  outcome _ _ g := (.ok g, g + 1)
  toCsv n := List.replicate n 'x' ++ ['.']
  readCsv txt := if txt.getLast? = some '.' then .ok (txt.length - 1) else .error .valueError
  md5 _ := "0"
  pendingText _ := []
  buffer := 0

theorem exGenWorld_hex : HexDigest exGenWorld := by
  intro x
  refine ⟨by simp only [exGenWorld]; decide, ?_⟩
  simp only [exGenWorld]
  decide

theorem exGenWorld_read (n : Nat) : exGenWorld.readCsv (exGenWorld.toCsv n) = .ok n := by
  simp [exGenWorld]

theorem exGenWorld_torn (n : Nat) : TornUnreadable exGenWorld (exGenWorld.toCsv n) := by
  intro k hk
  refine ⟨.valueError, ?_⟩
  simp only [exGenWorld, torn, List.length_append, List.length_replicate, List.length_cons,
    List.length_nil] at hk ⊢
  rw [if_neg]
  intro h
  rw [List.take_append_of_le_length (by simp; omega), List.take_replicate] at h
  have := List.mem_of_getLast? h
  rw [List.mem_replicate] at this
  exact absurd this.2 (by decide)

/-- The full statement fails: on one core the second trial continues with the generator of the
first, a worker starts with a copy of the original one. -/
theorem C50_rows_full_is_false : ¬ C50_rows_full := by
  intro h
  have := h _ _ exGenWorld [exTrial, exTrial2] 1 0
    [0, 0, 0, 0, 0, 0, 0, 1, 1, 1, 1, 1, 1, 1] exGenWorld_hex (by decide +kernel)
    exGenWorld_torn exGenWorld_read (by
      intro i
      have : i = 0 ∨ i = 1 := by
        revert i; decide
      rcases this with rfl | rfl
      · exact ⟨.ok 0, rfl⟩
      · exact ⟨.ok 0, rfl⟩)
  revert this
  decide +kernel

/-- **C50 (partial, rows).** If the result of a trial does not depend on the state of the shared
generators, is read back unchanged, and no partly written result can be read, then loading a design
gives the row of every trial in order: on one core, and with any interleaving of any number
of workers, also if earlier runs were interrupted and left unreadable or complete result files.
Missing: results depending on the shared generators (`C50_rows_full_is_false`). -/
theorem C50_schedule_partial (w : World ρ γ) (hw : HexDigest w) (trials : List TrialConfig)
    (hne : trials ≠ []) (seed : Int) (row : TrialConfig → ρ)
    (hrow : ∀ t ∈ trials, ∀ g, (w.outcome t seed g).1 = .ok (row t))
    (hread : ∀ t ∈ trials, w.readCsv (w.toCsv (row t)) = .ok (row t))
    (htorn : ∀ t ∈ trials, TornUnreadable w (w.toCsv (row t)))
    (hnd : (trials.map resultsPath).Nodup) (fs : Files)
    (hfs : ∀ t ∈ trials, Recoverable w (.ok (row t)) (fs (resultsPath t))) (g : γ)
    (schedule : List (Fin trials.length)) :
    (loadSequential w trials seed fs g).1 = .ok (trials.map row) ∧
    (loadParallel w trials seed fs g schedule).1 = .ok (trials.map row) := by
  refine ⟨loadSequential_rows w hw seed row trials hne fs g hrow hread hnd hfs, ?_⟩
  have hmem : ∀ i : Fin trials.length, trials[i] ∈ trials := fun i => List.getElem_mem _
  have hinv : SysInv w (fun i : Fin trials.length => trials[i]) (fun _ _ => True)
      (fun i => .ok (row trials[i])) (runWorkers w trials seed fs g schedule) := by
    refine sysRun_inv w hw _ seed ?_ _ _ (fun i g _ => hrow _ (hmem i) g) ?_ _ _ ?_ ?_
    · intro i j h
      have h2 : (trials.map resultsPath)[(i : Nat)]'(by simp) =
          (trials.map resultsPath)[(j : Nat)]'(by simp) := by simpa using h
      exact Fin.ext ((List.Nodup.getElem_inj_iff hnd).1 h2)
    · intro i r h
      cases h
      exact htorn _ (hmem i)
    · intro i
      exact ⟨trivial, hfs _ (hmem i)⟩
    · intro ev h
      obtain ⟨i, _, rfl⟩ := List.mem_map.1 h
      trivial
  have hraise : (List.finRange trials.length).findSome?
      (fun i => ((runWorkers w trials seed fs g schedule).pc i).raised) = none := by
    rw [List.findSome?_eq_none_iff]
    intro i _
    have hi := hinv i
    rcases hp : (runWorkers w trials seed fs g schedule).pc i with _ | _ | _ | _ | _ | _ | _ | res
    <;> try rfl
    rw [hp] at hi
    rcases res with e | r
    · exfalso
      rcases hi.1 with h | ⟨r, hr1, hr2⟩
      · cases h
      · cases hr1
        rw [hread _ (hmem i)] at hr2
        cases hr2
    · rfl
  unfold loadParallel
  simp only [hraise]
  refine loadSequential_rows w hw seed row trials hne _ g hrow hread hnd ?_
  intro t ht
  obtain ⟨n, hn, rfl⟩ := List.mem_iff_getElem.1 ht
  exact (hinv ⟨n, hn⟩).recoverable

/-- **C50 (no trials).** Loading a design without trials is refused, on any number of cores. -/
theorem C50_no_trials (w : World ρ γ) (seed : Int) (fs : Files) (g : γ)
    (schedule : List (Fin ([] : List TrialConfig).length)) :
    (loadSequential w [] seed fs g).1 = .error .valueError ∧
    (loadParallel w [] seed fs g schedule).1 = .error .valueError := by
  refine ⟨rfl, ?_⟩
  cases schedule with
  | nil => rfl
  | cons i _ => exact i.elim0

/-- **C50 (partial, whole design).** For data set names without colons and slashes, loading a design
on any number of cores gives exactly one row per distinct data set and description, in generation
order. -/
theorem C50_design_partial (w : World ρ γ) (hw : HexDigest w) (dir analysisType : String)
    (descs : List Descriptor) (names : List String)
    (hnames : ∀ n ∈ names, ':' ∉ n.toList ∧ '/' ∉ n.toList) (hne : names ≠ []) (hd : descs ≠ [])
    (seed : Int) (row : TrialConfig → ρ) (hrow : ∀ t g, (w.outcome t seed g).1 = .ok (row t))
    (hread : ∀ t, w.readCsv (w.toCsv (row t)) = .ok (row t))
    (htorn : ∀ t, TornUnreadable w (w.toCsv (row t))) (g : γ) :
    let trials := designTrials dir analysisType descs names
    FirstOfEach trialKey (names.flatMap (experimentTrials dir analysisType descs)) trials ∧
      (loadSequential w trials seed (fun _ => none) g).1 = .ok (trials.map row) ∧
      ∀ schedule, (loadParallel w trials seed (fun _ => none) g schedule).1 =
        .ok (trials.map row) := by
  intro trials
  have hF := C50_trials_partial dir analysisType descs names (fun n hn => (hnames n hn).1)
  refine ⟨hF, ?_⟩
  have hnd : ((designTrials dir analysisType descs names).map resultsPath).Nodup := by
    have h2 := hF.once
    rw [List.Nodup, List.pairwise_map] at h2 ⊢
    refine h2.imp_of_mem ?_
    intro a b ha hb hab e
    have ha' := mem_generated (hF.order.subset ha)
    have hb' := mem_generated (hF.order.subset hb)
    exact hab (resultsPath_inj (ha'.2.trans hb'.2.symm) (hnames _ ha'.1).2 (hnames _ hb'.1).2 e)
  have hne' : designTrials dir analysisType descs names ≠ [] := by
    obtain ⟨n, ns, rfl⟩ := List.exists_cons_of_ne_nil hne
    obtain ⟨d, ds, rfl⟩ := List.exists_cons_of_ne_nil hd
    intro h
    have := hF.each ⟨dir, n, (d n).1, (d n).2, analysisType⟩ (by simp [experimentTrials])
    rw [h] at this
    simp at this
  have key := fun schedule => C50_schedule_partial w hw _ hne' seed row (fun t _ g => hrow t g)
    (fun t _ => hread t) (fun t _ => htorn t) hnd (fun _ => none) (fun _ _ => trivial) g schedule
  exact ⟨(key []).1, fun schedule => (key schedule).2⟩

/-- An environment whose results have the length of the path of the trial. -/
def exPathWorld : World Nat Nat :=
  { exGenWorld with outcome := fun c _ g => (.ok (resultsPath c).length, g + 1) }

/-- Two data sets and three descriptors in this environment. -/
example : let trials := designTrials "d/e" "" exDescs ["a", "b"]
    FirstOfEach trialKey (["a", "b"].flatMap (experimentTrials "d/e" "" exDescs)) trials ∧
      (loadSequential exPathWorld trials 1 (fun _ => none) 5).1 =
        .ok (trials.map (fun c => (resultsPath c).length)) ∧
      ∀ schedule, (loadParallel exPathWorld trials 1 (fun _ => none) 5 schedule).1 =
        .ok (trials.map (fun c => (resultsPath c).length)) :=
  C50_design_partial exPathWorld exGenWorld_hex "d/e" "" exDescs ["a", "b"] (by decide +kernel)
    (by decide) (by decide) 1 _ (fun _ _ => rfl) (fun _ => exGenWorld_read _)
    (fun _ => exGenWorld_torn _) 5

/-! ## Workers finish -/

/-- Number of steps an evaluation still needs, if its result has at most `b` characters. -/
def stepsLeft (w : World ρ γ) (c : TrialConfig) (b : Nat) : Pc ρ → Nat
  | .start => (w.pendingText c).length + b + 8
  | .reading => (w.pendingText c).length + b + 7
  | .unlinking => (w.pendingText c).length + b + 6
  | .pending k => (w.pendingText c).length - k + b + 5
  | .computing => b + 4
  | .writing r k => (w.toCsv r).length - k + 2
  | .cleanup _ => 1
  | .done _ => 0

theorem stepsLeft_step (w : World ρ γ) (c : TrialConfig) (seed : Int) (b : Nat)
    (hb : ∀ g r, (w.outcome c seed g).1 = .ok r → (w.toCsv r).length ≤ b) (fs : Files) (pc : Pc ρ)
    (g : γ) : stepsLeft w c b (trialStep w c seed (fs, pc, g)).2.1 ≤ stepsLeft w c b pc - 1 := by
  have hlt : ∀ {k n : Nat}, k * (w.buffer + 1) < n → k < n := by
    intro k n h
    have : k * 1 ≤ k * (w.buffer + 1) := Nat.mul_le_mul_left _ (by omega)
    omega
  cases pc with
  | start => simp only [trialStep]; split <;> simp only [stepsLeft] <;> omega
  | reading =>
    simp only [trialStep]
    split
    · simp only [stepsLeft]; omega
    · split <;> simp only [stepsLeft] <;> omega
  | unlinking => simp only [trialStep]; split <;> simp only [stepsLeft] <;> omega
  | pending k =>
    simp only [trialStep]
    split
    · rename_i h
      have := hlt h
      simp only [stepsLeft]; omega
    · simp only [stepsLeft]; omega
  | computing =>
    rcases ho : w.outcome c seed g with ⟨e | r, g'⟩
    · simp only [trialStep, ho, stepsLeft]; omega
    · have := hb g r (by rw [ho])
      simp only [trialStep, ho, stepsLeft]; omega
  | writing r k =>
    simp only [trialStep]
    split
    · rename_i h
      have := hlt h
      simp only [stepsLeft]; omega
    · simp only [stepsLeft]; omega
  | cleanup r => simp only [trialStep, stepsLeft]; omega
  | done res => simp only [trialStep, stepsLeft]; omega

theorem stepsLeft_run {ι : Type} [DecidableEq ι] (w : World ρ γ) (cfg : ι → TrialConfig)
    (seed : Int) (i : ι) (b : Nat)
    (hb : ∀ g r, (w.outcome (cfg i) seed g).1 = .ok r → (w.toCsv r).length ≤ b)
    (schedule : List ι) : ∀ s : Sys ρ γ ι,
    stepsLeft w (cfg i) b ((sysRun w cfg seed s (schedule.map .step)).pc i) ≤
      stepsLeft w (cfg i) b (s.pc i) - schedule.count i := by
  induction schedule with
  | nil => intro s; exact le_of_eq (by simp [sysRun])
  | cons j rest ih =>
    intro s
    have h1 := ih (sysStep w cfg seed s (.step j))
    rw [List.map_cons]
    change stepsLeft w (cfg i) b ((sysRun w cfg seed (sysStep w cfg seed s (.step j))
      (rest.map .step)).pc i) ≤ _
    refine h1.trans ?_
    clear h1 ih
    by_cases hj : i = j
    · subst hj
      have h2 := stepsLeft_step w (cfg i) seed b hb s.fs (s.pc i) (s.gen i)
      rw [List.count_cons_self]
      have h3 : (sysStep w cfg seed s (.step i)).pc i =
          (trialStep w (cfg i) seed (s.fs, s.pc i, s.gen i)).2.1 := by simp [sysStep]
      rw [h3]
      omega
    · have hj' : ¬ (j == i) = true := by simpa using Ne.symm hj
      rw [List.count_cons]
      simp only [sysStep, if_neg hj, if_neg hj']
      omega

/-- **C50 (workers finish).** If the results have at most `b` characters, every schedule that gives
each trial enough steps ends with all evaluations finished, whatever the other workers do in between
and whatever files there are. -/
theorem C50_workers_finish (w : World ρ γ) (trials : List TrialConfig) (seed : Int) (b : Nat)
    (hb : ∀ t ∈ trials, (w.pendingText t).length ≤ b ∧
      ∀ g r, (w.outcome t seed g).1 = .ok r → (w.toCsv r).length ≤ b)
    (fs : Files) (g : γ) (schedule : List (Fin trials.length))
    (hs : ∀ i, 2 * b + 8 ≤ schedule.count i) (i : Fin trials.length) :
    ∃ res, (runWorkers w trials seed fs g schedule).pc i = .done res := by
  have hmem : trials[i] ∈ trials := List.getElem_mem _
  have h := stepsLeft_run w (fun i : Fin trials.length => trials[i]) seed i b (hb _ hmem).2 schedule
    ⟨fs, fun _ => .start, fun _ => g⟩
  have h1 := (hb _ hmem).1
  have h2 := hs i
  have h3 : stepsLeft w trials[i] b ((runWorkers w trials seed fs g schedule).pc i) = 0 := by
    have : stepsLeft w trials[i] b (.start : Pc ρ) = (w.pendingText trials[i]).length + b + 8 := rfl
    simp only at h
    rw [this] at h
    unfold runWorkers
    simp only [Fin.getElem_fin] at h h1 ⊢
    omega
  rcases hp : (runWorkers w trials seed fs g schedule).pc i with _ | _ | _ | _ | _ | _ | _ | res
  all_goals rw [hp] at h3
  all_goals first
    | exact ⟨res, rfl⟩
    | (simp only [stepsLeft] at h3; omega)

/-- Two trials of the small environment, alternating. -/
example (i : Fin 2) : ∃ res, (runWorkers (exWorld 9 false false) [exTrial, exTrial2] 7
    (fun _ => none) 5 (List.replicate 46 [0, 1]).flatten).pc i = .done res :=
  C50_workers_finish (exWorld 9 false false) [exTrial, exTrial2] 7 19
    (by
      intro t ht
      have hb : t = exTrial ∨ t = exTrial2 := by simpa using ht
      rcases hb with rfl | rfl
      all_goals
        refine ⟨by decide, ?_⟩
        intro g r h
        simp only [exWorld, Except.ok.injEq, Bool.false_eq_true, if_false] at h
        subst h
        decide +kernel)
    _ _ _ (by decide +kernel) i

/-- **C50 (exceptions).** If a worker ended with an exception, loading the design ends with one. -/
theorem C50_exception (w : World ρ γ) (trials : List TrialConfig) (seed : Int) (fs : Files) (g : γ)
    (schedule : List (Fin trials.length)) (i : Fin trials.length) (e : PyErr)
    (h : (runWorkers w trials seed fs g schedule).pc i = .done (.error e)) :
    ∃ j e', (runWorkers w trials seed fs g schedule).pc j = .done (.error e') ∧
      (loadParallel w trials seed fs g schedule).1 = .error e' := by
  unfold loadParallel
  simp only
  cases hf : (List.finRange trials.length).findSome?
      (fun i => ((runWorkers w trials seed fs g schedule).pc i).raised) with
  | none =>
    rw [List.findSome?_eq_none_iff] at hf
    have := hf i (List.mem_finRange i)
    rw [h] at this
    cases this
  | some e' =>
    obtain ⟨j, -, hj⟩ := List.exists_of_findSome?_eq_some hf
    refine ⟨j, e', ?_, rfl⟩
    rcases hp : (runWorkers w trials seed fs g schedule).pc j with _ | _ | _ | _ | _ | _ | _ | res
    all_goals rw [hp] at hj
    all_goals try cases hj
    rcases res with e'' | r
    · cases hj; rfl
    · cases hj

/-- The second of two trials fails to load its data set. -/
def exFailingWorld : World (List Text) Nat :=
  { exWorld 9 false false with
    outcome := fun c seed g =>
      if c.descriptor = "u" then (.error .fileNotFound, g) else (exWorld 9 false false).outcome c seed g }

example : (runWorkers exFailingWorld [exTrial, exTrial2] 7 (fun _ => none) 5
    (List.replicate 12 [(0 : Fin 2), 1]).flatten).pc (1 : Fin 2) = .done (.error .fileNotFound) := by
  with_unfolding_all rfl

end Verif
