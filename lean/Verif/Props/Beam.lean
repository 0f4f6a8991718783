import Verif.Props.Design
import Verif.Model.Beam
import Mathlib.Data.Multiset.Basic
import Mathlib.Data.Fintype.Basic
import Mathlib.Algebra.BigOperators.Fin

/-!
# Results about the Apache Beam path and the experiment driver (C82, C83)
-/

namespace Verif

variable {ρ γ : Type}

/-! ## Combining -/

/-- How often an element is fed into a combination. -/
def timesFed {α : Type} [DecidableEq α] (x : α) : CombineTree α → Nat
  | .create => 0
  | .add t y => timesFed x t + if y = x then 1 else 0
  | .merge _ ts => ∑ i, timesFed x (ts i)

/-- **C82 (combining).** However Beam splits the elements over accumulators and merges them, the
final list contains every element exactly as often as it was fed in. -/
theorem C82_combine {α : Type} [DecidableEq α] (t : CombineTree α) (x : α) :
    (accumulate t).count x = timesFed x t := by
  induction t with
  | create => rfl
  | add t y ih => simp [accumulate, timesFed, ih, List.count_singleton]
  | merge n ts ih =>
    simp only [accumulate, timesFed, List.count_flatten, List.map_ofFn, Function.comp_def, ih,
      List.sum_ofFn]

/-- Two accumulators, the second of three elements, merged in reverse order. -/
def exTree : CombineTree (Fin 3) :=
  .merge 2 ![.add (.add .create 2) 0, .add .create 1]

example : timesFed 2 exTree = 1 ∧ accumulate exTree = [2, 0, 1] := by decide +kernel

/-- Beam feeds every element exactly once. -/
def FedOnce {n : Nat} (t : CombineTree (Fin n)) : Prop := ∀ i, timesFed i t = 1

theorem accumulate_perm {n : Nat} {t : CombineTree (Fin n)} (h : FedOnce t) :
    (accumulate t).Perm (List.finRange n) := by
  rw [List.perm_iff_count]
  intro i
  rw [C82_combine, h i, List.count_eq_one_of_mem (List.nodup_finRange n) (List.mem_finRange i)]

/-! ## Loading -/

theorem option_mapM_some {α β : Type} (f : α → Option β) (g : α → β) : ∀ l : List α,
    (∀ x ∈ l, f x = some (g x)) → l.mapM f = some (l.map g)
  | [], _ => rfl
  | x :: l, h => by
    rw [List.mapM_cons, h x (by simp), option_mapM_some f g l (fun y hy => h y (by simp [hy]))]
    rfl

theorem except_mapM_id_ok {α : Type} : ∀ l : List α,
    (l.map (fun x => (Except.ok x : Except PyErr α))).mapM id = .ok l
  | [] => rfl
  | x :: l => by
    rw [List.map_cons, List.mapM_cons, except_mapM_id_ok l]
    rfl

/-- All evaluations of a Beam run have returned or raised. -/
def BeamFinished (w : World ρ γ) (trials : List TrialConfig) (seed : Int) (fs : Files) (g : γ)
    (evs : List (Event γ (Fin trials.length))) : Prop :=
  ∀ i, ∃ res, (runBeam w trials seed fs g evs).pc i = .done res

/-- State after a Beam run: every trial has returned its row and stored it. -/
theorem runBeam_done (w : World ρ γ) (hw : HexDigest w) (trials : List TrialConfig)
    (seed : Int) (row : TrialConfig → ρ)
    (hrow : ∀ t ∈ trials, ∀ g, (w.outcome t seed g).1 = .ok (row t))
    (hread : ∀ t ∈ trials, w.readCsv (w.toCsv (row t)) = .ok (row t))
    (htorn : ∀ t ∈ trials, TornUnreadable w (w.toCsv (row t)))
    (hnd : (trials.map resultsPath).Nodup) (fs : Files)
    (hfs : ∀ t ∈ trials, Recoverable w (.ok (row t)) (fs (resultsPath t))) (g : γ)
    (evs : List (Event γ (Fin trials.length))) (hdone : BeamFinished w trials seed fs g evs)
    (i : Fin trials.length) :
    (runBeam w trials seed fs g evs).pc i = .done (.ok (row trials[i])) ∧
      (runBeam w trials seed fs g evs).fs (resultsPath trials[i]) =
        some (w.toCsv (row trials[i])) := by
  have hmem : ∀ i : Fin trials.length, trials[i] ∈ trials := fun i => List.getElem_mem _
  have hinv : SysInv w (fun i : Fin trials.length => trials[i]) (fun _ _ => True)
      (fun i => .ok (row trials[i])) (runBeam w trials seed fs g evs) := by
    refine sysRun_inv w hw _ seed ?_ _ _ (fun i g _ => hrow _ (hmem i) g) ?_ _ _ ?_ ?_
    · intro i j h
      have h2 : (trials.map resultsPath)[(i : Nat)]'(by simp) =
          (trials.map resultsPath)[(j : Nat)]'(by simp) := by simpa using h
      exact Fin.ext ((List.Nodup.getElem_inj_iff hnd).1 h2)
    · intro i r h
      cases h
      exact htorn _ (hmem i)
    · intro i
      exact ⟨trivial, hfs _ (hmem i)⟩
    · intro ev _
      cases ev <;> trivial
  obtain ⟨res, hres⟩ := hdone i
  have hi := hinv i
  rw [hres] at hi
  refine ⟨?_, hi.2.2 _ rfl⟩
  rw [hres]
  rcases hi.1 with h | ⟨r, hr1, hr2⟩
  · rw [h]
  · cases hr1
    rw [hr2, hread _ (hmem i)]

/-- **C82 (partial, rows).** Under the assumptions of C50, and if the combined frame is read back
unchanged, a finished Beam run returns exactly one row per trial: the rows loading on one core gives,
possibly in another order.  This holds for every interleaving of the evaluations, every number of
restarts, and every way of splitting and merging accumulators.
Missing: the order (`C82_order_full_is_false`), and results depending on shared generators. -/
theorem C82_rows_partial (w : World ρ γ) (hw : HexDigest w) (csv : FrameCsv ρ)
    (trials : List TrialConfig) (hne : trials ≠ []) (seed : Int) (row : TrialConfig → ρ)
    (hrow : ∀ t ∈ trials, ∀ g, (w.outcome t seed g).1 = .ok (row t))
    (hread : ∀ t ∈ trials, w.readCsv (w.toCsv (row t)) = .ok (row t))
    (htorn : ∀ t ∈ trials, TornUnreadable w (w.toCsv (row t)))
    (hcsv : ∀ rows : List ρ, rows.Perm (trials.map row) → csv.readCsv (csv.toCsv rows) = .ok rows)
    (hnd : (trials.map resultsPath).Nodup) (fs : Files)
    (hfs : ∀ t ∈ trials, Recoverable w (.ok (row t)) (fs (resultsPath t))) (g : γ)
    (evs : List (Event γ (Fin trials.length))) (hdone : BeamFinished w trials seed fs g evs)
    (tree : CombineTree (Fin trials.length)) (htree : FedOnce tree) (temp : String) :
    ∃ rows fs', loadBeam w csv trials seed fs g evs tree temp = some (.ok rows, fs') ∧
      rows.Perm (trials.map row) ∧
      (loadSequential w trials seed fs g).1 = .ok (trials.map row) ∧
      fs' (tempResultPath temp) = some (csv.toCsv rows) ∧
      ∀ t ∈ trials, resultsPath t ≠ tempResultPath temp →
        fs' (resultsPath t) = some (w.toCsv (row t)) := by
  have hpc := runBeam_done w hw trials seed row hrow hread htorn hnd fs hfs g evs hdone
  have hperm := accumulate_perm htree
  have hrows : ((accumulate tree).map (fun i => row trials[i])).Perm (trials.map row) := by
    refine (hperm.map _).trans (List.Perm.of_eq ?_)
    refine List.ext_getElem (by simp) ?_
    intro k h1 h2
    simp
  have hmap : (accumulate tree).mapM (fun i => ((runBeam w trials seed fs g evs).pc i).result) =
      some ((accumulate tree).map (fun i => .ok (row trials[i]))) :=
    option_mapM_some _ _ _ (fun i _ => by rw [(hpc i).1]; rfl)
  have hid : ((accumulate tree).map
      (fun i => (Except.ok (row trials[i]) : Except PyErr ρ))).mapM id =
      .ok ((accumulate tree).map (fun i => row trials[i])) := by
    have := except_mapM_id_ok ((accumulate tree).map (fun i => row trials[i]))
    rwa [List.map_map] at this
  have hnonempty : ((accumulate tree).map (fun i => row trials[i])).isEmpty = false := by
    rw [List.isEmpty_eq_false_iff]
    intro h
    have := hrows.length_eq
    rw [h] at this
    exact hne (List.length_eq_zero_iff.1 (by simpa using this.symm))
  refine ⟨_, setFile (runBeam w trials seed fs g evs).fs (tempResultPath temp)
    (some (csv.toCsv ((accumulate tree).map (fun i => row trials[i])))), ?_, hrows,
    loadSequential_rows w hw seed row trials hne fs g hrow hread hnd hfs, setFile_same _ _ _, ?_⟩
  · simp only [loadBeam, hmap, Option.map_some, hid, bind, Except.bind, concatFrames, hnonempty,
      Bool.false_eq_true, if_false, setFile_same, hcsv _ hrows]
  · intro t ht hne'
    rw [setFile_other _ _ hne']
    obtain ⟨k, hk, rfl⟩ := List.getElem_of_mem ht
    exact (hpc ⟨k, hk⟩).2

/-- Read numbers written in unary, each followed by a dot. -/
def exReadRows : Text → Nat → List Nat
  | [], _ => []
  | c :: rest, k => if c = '.' then k :: exReadRows rest 0 else exReadRows rest (k + 1)

/-- A text format for frames of numbers. -/
def exFrameCsv : FrameCsv Nat where
  toCsv rows := rows.flatMap exGenWorld.toCsv
  readCsv txt := .ok (exReadRows txt 0)

theorem exReadRows_replicate (n k : Nat) (rest : Text) :
    exReadRows (List.replicate n 'x' ++ '.' :: rest) k = (k + n) :: exReadRows rest 0 := by
  induction n generalizing k with
  | zero => simp [exReadRows]
  | succ n ih =>
    rw [List.replicate_succ, List.cons_append, exReadRows, if_neg (by decide), ih]
    congr 1
    omega

theorem exFrameCsv_read (rows : List Nat) : exFrameCsv.readCsv (exFrameCsv.toCsv rows) = .ok rows := by
  simp only [exFrameCsv, Except.ok.injEq]
  induction rows with
  | nil => rfl
  | cons n rows ih =>
    rw [List.flatMap_cons]
    simp only [exGenWorld, List.append_assoc, List.cons_append, List.nil_append] at ih ⊢
    rw [exReadRows_replicate, ih]
    simp

/-- The evaluation of the first trial dies while its result is being written, and is started
again with another generator. -/
def exBeamEvents : List (Event Nat (Fin 2)) :=
  List.replicate 6 (.step 0) ++ [.restart 0 7] ++
    (List.replicate 60 [.step 0, .step 1]).flatten

/-- The second result comes first. -/
def exBeamTree : CombineTree (Fin 2) := .merge 2 ![.add .create 1, .add .create 0]

theorem exBeamTree_once : FedOnce exBeamTree := by
  unfold FedOnce
  decide +kernel

/-- Whether an evaluation is finished. -/
def isDone : Pc ρ → Bool
  | .done _ => true
  | _ => false

theorem exBeam_finished :
    BeamFinished exPathWorld [exTrial, exTrial2] 1 (fun _ => none) 5 exBeamEvents := by
  have h : ∀ i, isDone ((runBeam exPathWorld [exTrial, exTrial2] 1 (fun _ => none) 5
      exBeamEvents).pc i) = true := by decide +kernel
  intro i
  have hi := h i
  rcases hp : (runBeam exPathWorld [exTrial, exTrial2] 1 (fun _ => none) 5 exBeamEvents).pc i
    with _ | _ | _ | _ | _ | _ | _ | res
  case done => exact ⟨res, rfl⟩
  all_goals rw [hp] at hi; cases hi

/-- A run with a restart and merged accumulators. -/
example : ∃ rows fs', loadBeam exPathWorld exFrameCsv [exTrial, exTrial2] 1 (fun _ => none) 5
      exBeamEvents exBeamTree "d" = some (.ok rows, fs') ∧
    rows.Perm ([exTrial, exTrial2].map (fun c => (resultsPath c).length)) ∧
    (loadSequential exPathWorld [exTrial, exTrial2] 1 (fun _ => none) 5).1 =
      .ok ([exTrial, exTrial2].map (fun c => (resultsPath c).length)) ∧
    fs' "d/temp_result.csv" = some (exFrameCsv.toCsv rows) ∧
    ∀ t ∈ [exTrial, exTrial2], resultsPath t ≠ "d/temp_result.csv" →
      fs' (resultsPath t) = some (exPathWorld.toCsv (resultsPath t).length) :=
  C82_rows_partial exPathWorld exGenWorld_hex exFrameCsv [exTrial, exTrial2] (by decide) 1
    (fun c => (resultsPath c).length) (fun _ _ _ => rfl) (fun _ _ => exGenWorld_read _)
    (fun _ _ => exGenWorld_torn _) (fun rows _ => exFrameCsv_read rows) (by decide +kernel)
    (fun _ => none) (fun _ _ => trivial) 5 exBeamEvents exBeam_finished exBeamTree exBeamTree_once "d"

/-- **C82 (full statement on order, false).** A finished Beam run returns the rows in the order in
which loading on one core returns them. -/
def C82_order_full : Prop :=
  ∀ (ρ γ : Type) (w : World ρ γ) (csv : FrameCsv ρ) (trials : List TrialConfig) (seed : Int)
    (row : TrialConfig → ρ) (g : γ) (evs : List (Event γ (Fin trials.length)))
    (tree : CombineTree (Fin trials.length)) (temp : String),
    HexDigest w → (trials.map resultsPath).Nodup →
    (∀ t g, (w.outcome t seed g).1 = .ok (row t)) →
    (∀ r, TornUnreadable w (w.toCsv r)) → (∀ r, w.readCsv (w.toCsv r) = .ok r) →
    (∀ rows, csv.readCsv (csv.toCsv rows) = .ok rows) →
    BeamFinished w trials seed (fun _ => none) g evs → FedOnce tree →
    (loadBeam w csv trials seed (fun _ => none) g evs tree temp).map (·.1) =
      some (loadSequential w trials seed (fun _ => none) g).1

/-- An environment whose results have the length of the description. -/
def exDescWorld : World Nat Nat :=
  { exGenWorld with outcome := fun c _ g => (.ok c.descriptor.length, g + 1) }

/-- The full statement fails: Beam combines results in an order of its own. -/
theorem C82_order_full_is_false : ¬ C82_order_full := by
  intro h
  have := h _ _ exDescWorld exFrameCsv [⟨"d/e", "a", "m", 0, ""⟩, ⟨"d/e", "a", "mm", 0, ""⟩] 1
    (fun c => c.descriptor.length) 0 exBeamEvents exBeamTree "d" exGenWorld_hex (by decide +kernel)
    (fun _ _ => rfl) exGenWorld_torn exGenWorld_read exFrameCsv_read (by
      have h : ∀ i, isDone ((runBeam exDescWorld [⟨"d/e", "a", "m", 0, ""⟩,
        ⟨"d/e", "a", "mm", 0, ""⟩] 1 (fun _ => none) 0 exBeamEvents).pc i) = true := by
        decide +kernel
      intro i
      have hi := h i
      rcases hp : (runBeam exDescWorld [⟨"d/e", "a", "m", 0, ""⟩,
        ⟨"d/e", "a", "mm", 0, ""⟩] 1 (fun _ => none) 0 exBeamEvents).pc i
        with _ | _ | _ | _ | _ | _ | _ | res
      case done => exact ⟨res, rfl⟩
      all_goals rw [hp] at hi; cases hi) exBeamTree_once
  revert this
  decide +kernel

/-- **C82 (waits).** There is a result only if every trial has returned or raised: as long as one has
not, nothing is combined. -/
theorem C82_waits (w : World ρ γ) (csv : FrameCsv ρ) (trials : List TrialConfig) (seed : Int)
    (fs : Files) (g : γ) (evs : List (Event γ (Fin trials.length)))
    (tree : CombineTree (Fin trials.length)) (htree : FedOnce tree) (temp : String) :
    loadBeam w csv trials seed fs g evs tree temp ≠ none ↔ BeamFinished w trials seed fs g evs := by
  have hres : ∀ i, (∃ res, (runBeam w trials seed fs g evs).pc i = .done res) ↔
      ((runBeam w trials seed fs g evs).pc i).result ≠ none := by
    intro i
    generalize (runBeam w trials seed fs g evs).pc i = x
    cases x <;> simp [Pc.result]
  have hmem : ∀ i, i ∈ accumulate tree := by
    intro i
    rw [(accumulate_perm htree).mem_iff]
    exact List.mem_finRange i
  have hmap : ∀ (f : Fin trials.length → Option (Except PyErr ρ)) (l : List (Fin trials.length)),
      l.mapM f ≠ none ↔ ∀ i ∈ l, f i ≠ none := by
    intro f l
    induction l with
    | nil => simp
    | cons a l ih =>
      rw [List.mapM_cons, List.forall_mem_cons, ← ih]
      cases f a with
      | none => simp
      | some x =>
        cases List.mapM f l with
        | none => simp
        | some y => simp
  have h1 : loadBeam w csv trials seed fs g evs tree temp ≠ none ↔
      (accumulate tree).mapM (fun i => ((runBeam w trials seed fs g evs).pc i).result) ≠ none := by
    simp only [loadBeam]
    rw [ne_eq, ne_eq, Option.map_eq_none_iff]
  rw [h1, hmap]
  unfold BeamFinished
  constructor
  · intro h i
    exact (hres i).2 (h i (hmem i))
  · intro h i _
    exact (hres i).1 (h i)

/-- Without steps nothing is combined. -/
example : loadBeam exPathWorld exFrameCsv [exTrial, exTrial2] 1 (fun _ => none) 5 [.step 0]
    exBeamTree "d" = none := rfl

/-- **C82 (no trials).** A design without trials is a `ValueError` on one core, on several cores and
on Beam. -/
theorem C82_no_trials (w : World ρ γ) (csv : FrameCsv ρ) (seed : Int) (fs : Files) (g : γ)
    (evs : List (Event γ (Fin 0))) (schedule : List (Fin 0)) (tree : CombineTree (Fin 0))
    (temp : String) :
    (loadSequential w [] seed fs g).1 = .error .valueError ∧
      (loadParallel w [] seed fs g schedule).1 = .error .valueError ∧
      ∃ fs', loadBeam w csv [] seed fs g evs tree temp = some (.error .valueError, fs') := by
  refine ⟨rfl, rfl, ?_⟩
  have h : accumulate tree = [] := List.eq_nil_iff_forall_not_mem.2 (fun i _ => i.elim0)
  have h2 : (List.mapM (fun i => ((runBeam w [] seed fs g evs).pc i).result)
      (accumulate tree)) = some [] := by rw [h]; rfl
  refine ⟨(runBeam w [] seed fs g evs).fs, ?_⟩
  simp only [loadBeam]
  rw [h2]
  rfl

example : ∃ fs', loadBeam exPathWorld exFrameCsv [] 1 (fun _ => none) 5 []
    (.merge 2 ![.create, .create]) "d" = some (.error .valueError, fs') :=
  (C82_no_trials exPathWorld exFrameCsv 1 _ 5 [] [] _ "d").2.2

/-- **C82 (temporary file).** With the temporary location the driver passes, the directory of the
results, the file of the combined result is not the file of any trial. -/
theorem C82_temp_file (t : TrialConfig) (hd : t.experimentDir ≠ "") :
    resultsPath t ≠ tempResultPath t.experimentDir := by
  intro h
  rw [tempResultPath, if_neg hd] at h
  have h2 := congrArg String.toList h
  simp only [resultsPath, String.toList_append, List.append_assoc] at h2
  have h3 := List.append_cancel_left h2
  have h4 : '/' ∈ (t.dataSetName.toList ++ ("/".toList ++ (t.descriptor.toList ++ ".csv".toList))) :=
    by simp
  have h5 : ("/".toList ++ (t.dataSetName.toList ++ ("/".toList ++
      (t.descriptor.toList ++ ".csv".toList)))) = '/' :: (t.dataSetName.toList ++ ("/".toList ++
      (t.descriptor.toList ++ ".csv".toList))) := rfl
  rw [h5] at h3
  have h6 : "/temp_result.csv".toList = '/' :: "temp_result.csv".toList := by decide +kernel
  rw [h6] at h3
  have h7 := (List.cons_injective h3)
  rw [h7] at h4
  revert h4
  decide +kernel

example : resultsPath ⟨"d/e", "a", "temp_result", 0, ""⟩ ≠ "d/e/temp_result.csv" :=
  C82_temp_file ⟨"d/e", "a", "temp_result", 0, ""⟩ (by decide)

/-! ## The driver -/

/-- A run that comes to an end: Beam has finished every evaluation and fed every result once. -/
def RunnerFinishes (w : World ρ γ) (trials : List TrialConfig) (seed : Int) (fs : Files) (g : γ) :
    Runner γ trials.length → Prop
  | .oneCore => True
  | .cores _ => True
  | .beam evs tree _ => BeamFinished w trials seed fs g evs ∧ FedOnce tree

/-- **C83 (full statement, false).** The frame the driver returns has one row for every distinct pair
of data set and description, for all names. -/
def C83_output_full : Prop :=
  ∀ (ρ γ : Type) (w : World ρ γ) (csv : FrameCsv ρ) (dir analysisType : String)
    (descs : List Descriptor) (names : List String) (seed : Int) (row : TrialConfig → ρ)
    (outputFile : String) (g : γ), HexDigest w → names ≠ [] → descs ≠ [] →
    (∀ t g, (w.outcome t seed g).1 = .ok (row t)) →
    (∀ r, w.readCsv (w.toCsv r) = .ok r) → (∀ r, TornUnreadable w (w.toCsv r)) →
    (∀ rows, csv.readCsv (csv.toCsv rows) = .ok rows) →
    ∃ trials rows fs', FirstOfEach trialKey
        (names.flatMap (experimentTrials dir analysisType descs)) trials ∧
      execute w csv dir analysisType descs names seed outputFile (fun _ => none) g .oneCore =
        some (.ok rows, fs') ∧
      rows.Perm (trials.map row)

/-- The full statement fails: data sets `x` and `x::y` with descriptions `y::z` and `z` give three
rows instead of four. -/
theorem C83_output_full_is_false : ¬ C83_output_full := by
  intro h
  obtain ⟨trials, rows, fs', hF, h1, h2⟩ := h _ _ exPathWorld exFrameCsv "d" ""
    [fun _ => ("z", 0), fun _ => ("y::z", 0)] ["x", "x::y"] 1 (fun c => (resultsPath c).length)
    "out" 5 exGenWorld_hex (by decide) (by decide) (fun _ _ => rfl) exGenWorld_read exGenWorld_torn
    exFrameCsv_read
  have h3 : ((execute exPathWorld exFrameCsv "d" "" [fun _ => ("z", 0), fun _ => ("y::z", 0)]
      ["x", "x::y"] 1 "out" (fun _ => none) 5 .oneCore).map
        (fun r => r.1.toOption.map List.length)) = some (some 3) := by decide +kernel
  rw [h1] at h3
  have h4 : rows.length = 3 := Option.some.inj (Option.some.inj h3)
  have h5 : ([("x", "z"), ("x", "y::z"), ("x::y", "z"), ("x::y", "y::z")] :
      List (String × String)) ⊆ trials.map trialKey := by
    have : ∀ k ∈ ((["x", "x::y"].flatMap (experimentTrials "d" ""
        [fun _ => ("z", 0), fun _ => ("y::z", 0)])).map trialKey), k ∈ trials.map trialKey := by
      intro k hk
      obtain ⟨t, ht, rfl⟩ := List.mem_map.1 hk
      exact hF.each t ht
    intro k hk
    exact this k hk
  have h6 := ((List.subperm_of_subset (by decide +kernel) h5)).length_le
  have h7 := h2.length_eq
  simp only [List.length_map, List.length_cons, List.length_nil] at h6 h7
  omega

/-- **C83 (partial).** However the driver is run (one core, several, Beam), its output file and the
frame it returns have exactly one row for every distinct pair of data set and description, and
without Beam they come in the order of generation.
Missing: results depending on shared generators (`C50_rows_full_is_false`); data set names with colons
(`C83_output_full_is_false`) or slashes. -/
theorem C83_output_partial (w : World ρ γ) (hw : HexDigest w) (csv : FrameCsv ρ)
    (dir analysisType : String) (descs : List Descriptor) (names : List String)
    (hnames : ∀ n ∈ names, ':' ∉ n.toList ∧ '/' ∉ n.toList) (hne : names ≠ []) (hd : descs ≠ [])
    (seed : Int) (row : TrialConfig → ρ) (hrow : ∀ t g, (w.outcome t seed g).1 = .ok (row t))
    (hread : ∀ t, w.readCsv (w.toCsv (row t)) = .ok (row t))
    (htorn : ∀ t, TornUnreadable w (w.toCsv (row t)))
    (hcsv : ∀ rows, csv.readCsv (csv.toCsv rows) = .ok rows) (outputFile : String) (g : γ)
    (runner : Runner γ (designTrials dir analysisType descs names).length)
    (hrun : RunnerFinishes w (designTrials dir analysisType descs names) seed (fun _ => none) g
      runner) :
    ∃ trials rows fs', FirstOfEach trialKey
        (names.flatMap (experimentTrials dir analysisType descs)) trials ∧
      execute w csv dir analysisType descs names seed outputFile (fun _ => none) g runner =
        some (.ok rows, fs') ∧
      rows.Perm (trials.map row) ∧
      ((∀ evs tree temp, runner ≠ .beam evs tree temp) → rows = trials.map row) ∧
      ∃ txt, fs' outputFile = some txt ∧ csv.readCsv txt = .ok rows := by
  obtain ⟨hF, hseq, hpar⟩ := C50_design_partial w hw dir analysisType descs names hnames hne hd seed
    row hrow hread htorn g
  have hnd : ((designTrials dir analysisType descs names).map resultsPath).Nodup := by
    have h2 := hF.once
    rw [List.Nodup, List.pairwise_map] at h2 ⊢
    refine h2.imp_of_mem ?_
    intro a b ha hb hab e
    have ha' := mem_generated (hF.order.subset ha)
    have hb' := mem_generated (hF.order.subset hb)
    exact hab (resultsPath_inj (ha'.2.trans hb'.2.symm) (hnames _ ha'.1).2 (hnames _ hb'.1).2 e)
  have hne' : designTrials dir analysisType descs names ≠ [] := by
    intro h
    rw [h] at hseq
    cases hseq
  refine ⟨designTrials dir analysisType descs names, ?_⟩
  cases runner with
  | oneCore =>
    refine ⟨(designTrials dir analysisType descs names).map row, setFile (loadSequential w (designTrials dir analysisType descs names) seed
        (fun _ => none) g).2.1 outputFile
      (some (csv.toCsv ((designTrials dir analysisType descs names).map row))), hF, ?_, .rfl,
      fun _ => rfl, csv.toCsv ((designTrials dir analysisType descs names).map row),
      setFile_same _ _ _, hcsv _⟩
    simp only [execute, hseq, Option.map_some]
  | cores schedule =>
    refine ⟨(designTrials dir analysisType descs names).map row, setFile (loadParallel w (designTrials dir analysisType descs names) seed
        (fun _ => none) g schedule).2.1 outputFile
      (some (csv.toCsv ((designTrials dir analysisType descs names).map row))), hF, ?_, .rfl,
      fun _ => rfl, csv.toCsv ((designTrials dir analysisType descs names).map row),
      setFile_same _ _ _, hcsv _⟩
    simp only [execute, hpar schedule, Option.map_some]
  | beam evs tree temp =>
    obtain ⟨rows, fs', h1, h2, _⟩ := C82_rows_partial w hw csv _ hne' seed row
      (fun t _ g => hrow t g) (fun t _ => hread t) (fun t _ => htorn t) (fun rows _ => hcsv rows)
      hnd (fun _ => none) (fun _ _ => trivial) g evs hrun.1 tree hrun.2 temp
    refine ⟨rows, setFile fs' outputFile (some (csv.toCsv rows)), hF, ?_, h2, ?_, _,
      setFile_same _ _ _, hcsv _⟩
    · simp only [execute, h1, Option.map_some]
    · exact fun h => absurd rfl (h evs tree temp)

/-- A design of two data sets on Beam, where every evaluation runs on its own after the other. -/
def exSerial (n : Nat) : List (Event Nat (Fin n)) :=
  (List.finRange n).flatMap (fun i => List.replicate 60 (.step i))

/-- Results are added to one accumulator from the last to the first. -/
def exBackwards (n : Nat) : CombineTree (Fin n) :=
  (List.finRange n).foldr (fun i t => .add t i) .create

theorem exSerial_finished : RunnerFinishes exPathWorld (designTrials "d/e" "" exDescs ["a", "b"]) 1
    (fun _ => none) 5 (.beam (exSerial _) (exBackwards _) "d") := by
  have h : ∀ i, isDone ((runBeam exPathWorld (designTrials "d/e" "" exDescs ["a", "b"]) 1
      (fun _ => none) 5 (exSerial _)).pc i) = true := by decide +kernel
  refine ⟨?_, ?_⟩
  · intro i
    have hi := h i
    rcases hp : (runBeam exPathWorld (designTrials "d/e" "" exDescs ["a", "b"]) 1
      (fun _ => none) 5 (exSerial _)).pc i with _ | _ | _ | _ | _ | _ | _ | res
    case done => exact ⟨res, rfl⟩
    all_goals rw [hp] at hi; cases hi
  · unfold FedOnce
    decide +kernel

example : ∃ trials rows fs', FirstOfEach trialKey
      (["a", "b"].flatMap (experimentTrials "d/e" "" exDescs)) trials ∧
    execute exPathWorld exFrameCsv "d/e" "" exDescs ["a", "b"] 1 "out.csv" (fun _ => none) 5
      (.beam (exSerial _) (exBackwards _) "d") = some (.ok rows, fs') ∧
    rows.Perm (trials.map (fun c => (resultsPath c).length)) :=
  let ⟨trials, rows, fs', h1, h2, h3, _⟩ := C83_output_partial exPathWorld exGenWorld_hex exFrameCsv
    "d/e" "" exDescs ["a", "b"] (by decide +kernel) (by decide) (by decide) 1
    (fun c => (resultsPath c).length) (fun _ _ => rfl) (fun _ => exGenWorld_read _)
    (fun _ => exGenWorld_torn _) exFrameCsv_read "out.csv" 5 _ exSerial_finished
  ⟨trials, rows, fs', h1, h2, h3⟩

end Verif
