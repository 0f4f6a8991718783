import Verif.Model.Beam
import Verif.Model.CloudTrial
import Verif.Model.DriverRun

/-!
# Model of runs on Dataflow

`src/driver/experiment_driver.py` lines 173-199 and 267-307 and `src/driver/experimental_design.py`
lines 159-201 for the runner Dataflow, with the wrapper
`src/filesystem_wrappers/filesystem_cloudpath_wrapper.py`.

Dataflow may evaluate an element several times, also at the same time, and uses the result of one of
these attempts.  Attempts, their order and the way results are combined are arbitrary.
-/

namespace Verif

variable {ρ γ : Type}

/-- The attempts at evaluating trials, experimental_design.py:54-56 and 164-167: `attempt` says which
trial an attempt is about.  Every attempt starts with a copy of the trial, and so with the generators as
they were when the pipeline was built. -/
def runDataflow (w : World ρ γ) (trials : List TrialConfig) (seed : Int) (fs : Files) (g : γ) {n : Nat}
    (attempt : Fin n → Fin trials.length) (evs : List (Event γ (Fin n))) : Sys ρ γ (Fin n) :=
  cloudSysRun w (fun a => trials[attempt a]) seed ⟨fs, fun _ => .start, fun _ => g⟩ evs

/-- `_evaluate_all_trials_using_apache_beam` and the part of `load` that reads the combined result,
experimental_design.py:159-175 and 186-201, on cloud storage; compare `loadBeam`.  `CloudPath` refuses
paths of results that are not on cloud storage in every evaluation (filesystem_cloudpath_wrapper.py:141-146)
and such a path of the combined result when it is written (lines 91-104).  `none`: an attempt whose
result is used is not finished. -/
def loadDataflow (w : World ρ γ) (csv : FrameCsv ρ) (trials : List TrialConfig) (seed : Int) (fs : Files)
    (g : γ) {n : Nat} (attempt : Fin n → Fin trials.length) (evs : List (Event γ (Fin n)))
    (tree : CombineTree (Fin n)) (tempLocation : String) : Option (Except PyErr (List ρ) × Files) :=
  match trials.mapM (fun t => cloudPath (resultsPath t)) with
  | .error e => some (.error e, fs)
  | .ok _ =>
    let s := runDataflow w trials seed fs g attempt evs
    (accumulate tree).mapM (fun a => (s.pc a).result) |>.map (fun results =>
      match results.mapM id >>= concatFrames with
      | .error e => (.error e, s.fs)
      | .ok frame =>
        match cloudPath (tempResultPath tempLocation) with
        | .error e => (.error e, s.fs)
        | .ok () =>
          let fs' := setFile s.fs (tempResultPath tempLocation) (some (csv.toCsv frame))
          (match fs' (tempResultPath tempLocation) with
            | none => .error .fileNotFound
            | some txt => csv.readCsv txt, fs'))

/-- `ExperimentDriver.execute` as called by `main` with the runner Dataflow,
experiment_driver.py:173-199 and 279-307.  The temporary location is the directory of the intermediate
results (lines 281-286).  The output file, too, is written with the cloud wrapper (line 196). -/
def executeDataflow (w : World ρ γ) (csv : FrameCsv ρ) (dir analysisType : String)
    (descs : List Descriptor) (names : List String) (seed : Int) (outputFile : String) (fs : Files)
    (g : γ) {n : Nat} (attempt : Fin n → Fin (designTrials dir analysisType descs names).length)
    (evs : List (Event γ (Fin n))) (tree : CombineTree (Fin n)) :
    Option (Except PyErr (List ρ) × Files) :=
  (loadDataflow w csv (designTrials dir analysisType descs names) seed fs g attempt evs tree dir).map
    (fun
      | (.error e, fs') => (.error e, fs')
      | (.ok frame, fs') =>
        match cloudPath outputFile with
        | .error e => (.error e, fs')
        | .ok () => (.ok frame, setFile fs' outputFile (some (csv.toCsv frame))))

/-- The same with the modelled trials; compare `driverExecute`. -/
def driverDataflow {S C : Type} (base : World Row (Nat → Nat)) (csv : FrameCsv Row) (E : TrialEnv S C)
    (points : Int → PointSource) (D : Dict String DataSet) (ts : List (TrialTemplate Nat))
    (dir analysisType : String) (seed : Int) (outputFile : String) (fs : Files) (g : Nat → Nat) {n : Nat}
    (attempt : Fin n →
      Fin (designTrials dir analysisType (driverDescriptors E.text D ts) (D.map (·.1))).length)
    (evs : List (Event (Nat → Nat) (Fin n))) (tree : CombineTree (Fin n)) :
    Option (Except PyErr (List Row) × Files) :=
  executeDataflow (driverWorld base E points D ts) csv dir analysisType (driverDescriptors E.text D ts)
    (D.map (·.1)) seed outputFile fs g attempt evs tree

end Verif
