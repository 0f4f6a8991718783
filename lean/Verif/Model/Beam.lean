import Verif.Model.Trial

/-!
# Model of the Apache Beam path and of the experiment driver

`src/driver/experimental_design.py` lines 54-72, 159-208 and `src/driver/experiment_driver.py`
lines 173-199.

Apache Beam itself is a parameter: in which order evaluations make their steps, which of them are
started again, and how the results are combined (`CombineTree`) are arbitrary.
-/

namespace Verif

/-- A way of computing a `CombineFn`: which accumulators are created, which elements are added to
them and how accumulators are merged is up to the runner. -/
inductive CombineTree (α : Type) where
  /-- `create_accumulator` -/
  | create
  /-- `add_input` -/
  | add (t : CombineTree α) (x : α)
  /-- `merge_accumulators` of `n` accumulators -/
  | merge (n : Nat) (ts : Fin n → CombineTree α)

/-- The accumulator `CombineDataFrameFn` ends up with, experimental_design.py:59-69. -/
def accumulate {α : Type} : CombineTree α → List α
  | .create => []
  | .add t x => accumulate t ++ [x]
  | .merge _ ts => (List.ofFn (fun i => accumulate (ts i))).flatten

/-- `pd.concat` of a list of frames: nothing to concatenate is a `ValueError`.
experimental_design.py:71-72. -/
def concatFrames {ρ : Type} (frames : List ρ) : Except PyErr (List ρ) :=
  if frames.isEmpty then .error .valueError else .ok frames

/-- Conversion between text and frames of several trials: `to_csv(na_rep="NaN", index=False)` and
`pd.read_csv`.  Such a frame is represented by the list of the frames of the trials. -/
structure FrameCsv (ρ : Type) where
  /-- `to_csv` -/
  toCsv : List ρ → Text
  /-- `read_csv` -/
  readCsv : Text → Except PyErr (List ρ)

/-- `temp_result_path`, experimental_design.py:186-189. -/
def tempResultPath (tempLocation : String) : String :=
  if tempLocation = "" then "/temp_result.csv" else tempLocation ++ "/temp_result.csv"

variable {ρ γ : Type}

/-- What an evaluation has returned or raised, if it is finished. -/
def Pc.result : Pc ρ → Option (Except PyErr ρ)
  | .done res => some res
  | _ => none

/-- The trials evaluated by a Beam pipeline, experimental_design.py:54-56, 164-168.  The events are
those of concurrent evaluations: steps, and evaluations that are started again because a bundle of
elements failed.  Two evaluations of one trial at the same time are not modelled. -/
def runBeam (w : World ρ γ) (trials : List TrialConfig) (seed : Int) (fs : Files) (g : γ)
    (evs : List (Event γ (Fin trials.length))) : Sys ρ γ (Fin trials.length) :=
  sysRun w (fun i => trials[i]) seed ⟨fs, fun _ => .start, fun _ => g⟩ evs

/-- `_evaluate_all_trials_using_apache_beam` and the part of `load` that reads the combined result,
experimental_design.py:159-175 and 186-201.  `none`: an evaluation is not finished.  The exception of
an evaluation makes the pipeline fail; of several, the model takes the first in the accumulator. -/
def loadBeam (w : World ρ γ) (csv : FrameCsv ρ) (trials : List TrialConfig) (seed : Int) (fs : Files)
    (g : γ) (evs : List (Event γ (Fin trials.length))) (tree : CombineTree (Fin trials.length))
    (tempLocation : String) : Option (Except PyErr (List ρ) × Files) :=
  let s := runBeam w trials seed fs g evs
  (accumulate tree).mapM (fun i => (s.pc i).result) |>.map (fun results =>
    match results.mapM id >>= concatFrames with
    | .error e => (.error e, s.fs)
    | .ok frame =>
      let fs' := setFile s.fs (tempResultPath tempLocation) (some (csv.toCsv frame))
      (match fs' (tempResultPath tempLocation) with
        | none => .error .fileNotFound
        | some txt => csv.readCsv txt, fs'))

/-- How a design is run: `cores` and `use_apache_beam`, together with the choices of the scheduler
and of Beam. -/
inductive Runner (γ : Type) (n : Nat) where
  /-- `cores = 1` -/
  | oneCore
  /-- several cores -/
  | cores (schedule : List (Fin n))
  /-- Apache Beam -/
  | beam (evs : List (Event γ (Fin n))) (tree : CombineTree (Fin n)) (tempLocation : String)

/-- `ExperimentDriver.execute`, experiment_driver.py:173-199: the returned frame and the files.  The
list of trial descriptors (lines 201-209) and the names of the data sets are parameters. -/
def execute (w : World ρ γ) (csv : FrameCsv ρ) (dir analysisType : String) (descs : List Descriptor)
    (names : List String) (seed : Int) (outputFile : String) (fs : Files) (g : γ)
    (runner : Runner γ (designTrials dir analysisType descs names).length) :
    Option (Except PyErr (List ρ) × Files) :=
  let trials := designTrials dir analysisType descs names
  let loaded := match runner with
    | .oneCore => let r := loadSequential w trials seed fs g; some (r.1, r.2.1)
    | .cores schedule => let r := loadParallel w trials seed fs g schedule; some (r.1, r.2.1)
    | .beam evs tree temp => loadBeam w csv trials seed fs g evs tree temp
  loaded.map (fun
    | (.error e, fs') => (.error e, fs')
    | (.ok frame, fs') => (.ok frame, setFile fs' outputFile (some (csv.toCsv frame))))

end Verif
