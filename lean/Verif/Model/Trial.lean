import Mathlib.Data.List.Basic
import Mathlib.Logic.Function.Iterate
import Verif.Model.Storage

/-!
# Model of experimental trials and designs

`src/driver/experimental_trial.py`, `experiment.py`, `experimental_design.py`.

What a trial computes (lines 173-238 of experimental_trial.py), the CSV library and the hash are
parameters, gathered in `World`.  Files are a map from paths to contents; directories are not
modelled, since every directory needed is created with `parents=True, exist_ok=True`.
-/

namespace Verif

/-- Attributes of an `ExperimentalTrial`, experimental_trial.py:110-114.  The descriptor is
represented by its text together with an index that distinguishes descriptors of equal text. -/
structure TrialConfig where
  /-- `_experiment_dir` -/
  experimentDir : String
  /-- `_data_set_name` -/
  dataSetName : String
  /-- `str(_trial_descriptor)` -/
  descriptor : String
  /-- what the text of the descriptor does not show -/
  hidden : Int
  /-- `_analysis_type` -/
  analysisType : String
  deriving DecidableEq, Repr

/-- The environment of a trial.  `ρ` are data frames, `γ` the state of the random generators held by
system parameters: those are objects shared by all trials of a process and are not reset by
`evaluate` (system_parameters.py:61, 77-79; halo_simulator.py:182 and others draw from them). -/
structure World (ρ γ : Type) where
  /-- experimental_trial.py:173-238: the result, or an exception raised outside the `try`.  The data
  sets read here are taken not to change. -/
  outcome : TrialConfig → Int → γ → Except PyErr ρ × γ
  /-- `result.to_csv(na_rep="NaN", index=False)` -/
  toCsv : ρ → Text
  /-- `pd.read_csv` -/
  readCsv : Text → Except PyErr ρ
  /-- `hashlib.md5(...).hexdigest()` -/
  md5 : String → String
  /-- text written to the pending file, experimental_trial.py:168-171; the time in it is taken to be
  fixed -/
  pendingText : TrialConfig → Text
  /-- size of the pieces in which `write_text` brings a text to the disk, less one -/
  buffer : Nat

/-- What is on disk after `k` pieces of a text. -/
def torn {ρ γ : Type} (w : World ρ γ) (txt : Text) (k : Nat) : Text := txt.take (k * (w.buffer + 1))

/-- Contents of the files. -/
abbrev Files := String → Option Text

/-- Write or remove a file. -/
def setFile (fs : Files) (path : String) (content : Option Text) : Files :=
  fun p => if p = path then content else fs p

/-- `_compute_trial_results_path`, experimental_trial.py:249-253. -/
def resultsPath (c : TrialConfig) : String :=
  c.experimentDir ++ "/" ++ c.dataSetName ++ "/" ++ c.descriptor ++ ".csv"

variable {ρ γ : Type}

/-- experimental_trial.py:165-166. -/
def pendingPath (w : World ρ γ) (c : TrialConfig) : String :=
  parentPath c.experimentDir ++ "/pending/" ++ w.md5 (resultsPath c)

/-- Lines 162-247 of experimental_trial.py: compute, write and return the result.  An exception
raised outside the `try` leaves the pending file behind. -/
def computeTrial (w : World ρ γ) (c : TrialConfig) (seed : Int) (fs : Files) (g : γ) :
    Except PyErr ρ × Files × γ :=
  let fs1 := setFile fs (pendingPath w c) (some (w.pendingText c))
  match w.outcome c seed g with
  | (.error e, g') => (.error e, fs1, g')
  | (.ok r, g') =>
    let fs2 := setFile fs1 (resultsPath c) (some (w.toCsv r))
    (.ok r, setFile fs2 (pendingPath w c) none, g')

/-- `ExperimentalTrial.evaluate`, experimental_trial.py:116-247, run to completion without
interference.  Seeding the generators of the trial itself (lines 143-144) is part of `outcome`. -/
def evaluate (w : World ρ γ) (c : TrialConfig) (seed : Int) (fs : Files) (g : γ) :
    Except PyErr ρ × Files × γ :=
  match fs (resultsPath c) with
  | none => computeTrial w c seed fs g
  | some txt =>
    match w.readCsv txt with
    | .ok t => (.ok t, fs, g)
    | .error _ => computeTrial w c seed (setFile fs (resultsPath c) none) g

/-! ## Small steps -/

/-- Where an evaluation stands. -/
inductive Pc (ρ : Type) where
  /-- before `is_file`, line 151 -/
  | start
  /-- before opening and reading the file, lines 154-155 -/
  | reading
  /-- before `unlink`, line 157 -/
  | unlinking
  /-- before `k` pieces of the pending file are on disk, lines 168-171 -/
  | pending (k : Nat)
  /-- before lines 173-238 -/
  | computing
  /-- before `k` pieces of the result are on disk, lines 242-244 -/
  | writing (r : ρ) (k : Nat)
  /-- before removing the pending file, line 245 -/
  | cleanup (r : ρ)
  /-- returned or raised -/
  | done (res : Except PyErr ρ)

/-- One step of an evaluation.  Writing a file creates it empty and then extends it piece by piece. -/
def trialStep (w : World ρ γ) (c : TrialConfig) (seed : Int) :
    Files × Pc ρ × γ → Files × Pc ρ × γ
  | (fs, .start, g) =>
    if (fs (resultsPath c)).isSome then (fs, .reading, g) else (fs, .pending 0, g)
  | (fs, .reading, g) =>
    match fs (resultsPath c) with
    | none => (fs, .unlinking, g)
    | some txt =>
      match w.readCsv txt with
      | .ok t => (fs, .done (.ok t), g)
      | .error _ => (fs, .unlinking, g)
  | (fs, .unlinking, g) =>
    match fs (resultsPath c) with
    | none => (fs, .done (.error .fileNotFound), g)
    | some _ => (setFile fs (resultsPath c) none, .pending 0, g)
  | (fs, .pending k, g) =>
    (setFile fs (pendingPath w c) (some (torn w (w.pendingText c) k)),
      if k * (w.buffer + 1) < (w.pendingText c).length then .pending (k + 1) else .computing, g)
  | (fs, .computing, g) =>
    match w.outcome c seed g with
    | (.error e, g') => (fs, .done (.error e), g')
    | (.ok r, g') => (fs, .writing r 0, g')
  | (fs, .writing r k, g) =>
    (setFile fs (resultsPath c) (some (torn w (w.toCsv r) k)),
      if k * (w.buffer + 1) < (w.toCsv r).length then .writing r (k + 1) else .cleanup r, g)
  | (fs, .cleanup r, g) => (setFile fs (pendingPath w c) none, .done (.ok r), g)
  | (fs, .done res, g) => (fs, .done res, g)

/-- Evaluations of several trials at the same time: shared files, and for every trial its position
and the state of the generators of the process evaluating it. -/
structure Sys (ρ γ ι : Type) where
  /-- the files -/
  fs : Files
  /-- positions -/
  pc : ι → Pc ρ
  /-- generators -/
  gen : ι → γ

/-- What can happen next. -/
inductive Event (γ ι : Type) where
  /-- the evaluation of a trial makes a step -/
  | step (i : ι)
  /-- the process evaluating a trial dies, and the trial is later started again -/
  | restart (i : ι) (g : γ)

/-- Effect of an event. -/
def sysStep {ι : Type} [DecidableEq ι] (w : World ρ γ) (cfg : ι → TrialConfig) (seed : Int)
    (s : Sys ρ γ ι) : Event γ ι → Sys ρ γ ι
  | .step i =>
    let (fs', pc', g') := trialStep w (cfg i) seed (s.fs, s.pc i, s.gen i)
    { fs := fs'
      pc := fun j => if j = i then pc' else s.pc j
      gen := fun j => if j = i then g' else s.gen j }
  | .restart i g =>
    { fs := s.fs
      pc := fun j => if j = i then .start else s.pc j
      gen := fun j => if j = i then g else s.gen j }

/-- Effect of a sequence of events. -/
def sysRun {ι : Type} [DecidableEq ι] (w : World ρ γ) (cfg : ι → TrialConfig) (seed : Int)
    (s : Sys ρ γ ι) (evs : List (Event γ ι)) : Sys ρ γ ι :=
  evs.foldl (sysStep w cfg seed) s

/-! ## Experiments and designs -/

/-- A trial descriptor as used by the design: its text and hidden part for a given data set
(`update_from_dataset`, experiment.py:81-82). -/
abbrev Descriptor := String → String × Int

/-- `Experiment.generate_trials`, experiment.py:77-93. -/
def experimentTrials (dir : String) (analysisType : String) (descs : List Descriptor)
    (dataSet : String) : List TrialConfig :=
  descs.map (fun d => ⟨dir, dataSet, (d dataSet).1, (d dataSet).2, analysisType⟩)

/-- `trial_name`, experimental_design.py:124. -/
def trialName (c : TrialConfig) : String := c.dataSetName ++ "::" ++ c.descriptor

/-- The loop of `_remove_duplicates`, experimental_design.py:118-128. -/
def removeDuplicatesFrom (seen : List String) : List TrialConfig → List TrialConfig
  | [] => []
  | t :: rest =>
    if trialName t ∈ seen then removeDuplicatesFrom seen rest
    else t :: removeDuplicatesFrom (trialName t :: seen) rest

/-- `ExperimentalDesign.generate_trials`, experimental_design.py:130-144. -/
def designTrials (dir : String) (analysisType : String) (descs : List Descriptor)
    (names : List String) : List TrialConfig :=
  removeDuplicatesFrom [] (names.flatMap (experimentTrials dir analysisType descs))

/-- The evaluations inside `pd.concat`, experimental_design.py:203-206. -/
def evaluateAll (w : World ρ γ) (seed : Int) :
    List TrialConfig → Files → γ → Except PyErr (List ρ) × Files × γ
  | [], fs, g => (.ok [], fs, g)
  | t :: rest, fs, g =>
    match evaluate w t seed fs g with
    | (.error e, fs', g') => (.error e, fs', g')
    | (.ok r, fs', g') =>
      match evaluateAll w seed rest fs' g' with
      | (.error e, fs'', g'') => (.error e, fs'', g'')
      | (.ok rs, fs'', g'') => (.ok (r :: rs), fs'', g'')

/-- `ExperimentalDesign.load` on one core, experimental_design.py:177-208: the frames to be
concatenated; nothing to concatenate is a `ValueError`. -/
def loadSequential (w : World ρ γ) (trials : List TrialConfig) (seed : Int) (fs : Files) (g : γ) :
    Except PyErr (List ρ) × Files × γ :=
  match evaluateAll w seed trials fs g with
  | (.ok [], fs', g') => (.error .valueError, fs', g')
  | out => out

/-- `_evaluate_all_trials_in_parallel`, experimental_design.py:146-157: every trial is evaluated by
some worker process, which starts from a copy of the generators.  The schedule says which evaluation
makes the next step; a limited number of workers restricts the possible schedules. -/
def runWorkers (w : World ρ γ) (trials : List TrialConfig) (seed : Int) (fs : Files) (g : γ)
    (schedule : List (Fin trials.length)) : Sys ρ γ (Fin trials.length) :=
  sysRun w (fun i => trials[i]) seed ⟨fs, fun _ => .start, fun _ => g⟩ (schedule.map .step)

/-- The exception an evaluation ended with. -/
def Pc.raised : Pc ρ → Option PyErr
  | .done (.error e) => some e
  | _ => none

/-- `ExperimentalDesign.load` on several cores, experimental_design.py:194-206: after the workers
are finished, the same as on one core.  An exception in a worker is raised again by `uimap`; of
several, the model takes that of the first trial. -/
def loadParallel (w : World ρ γ) (trials : List TrialConfig) (seed : Int) (fs : Files) (g : γ)
    (schedule : List (Fin trials.length)) : Except PyErr (List ρ) × Files × γ :=
  let s := runWorkers w trials seed fs g schedule
  match (List.finRange trials.length).findSome? (fun i => (s.pc i).raised) with
  | some e => (.error e, s.fs, g)
  | none => loadSequential w trials seed s.fs g

end Verif
