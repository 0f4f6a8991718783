import Verif.Model.Trial
import Verif.Model.CloudStorage

/-!
# Model of trials on cloud storage

`src/driver/experiment_driver.py:267-307` (`main`: which wrapper is used for which runner),
`src/driver/experimental_trial.py:143-247` with the wrapper
`src/filesystem_wrappers/filesystem_cloudpath_wrapper.py`.

`cloudpathlib` writes a text to a local copy and uploads the copy when the file is closed, so an
object appears, or is replaced, in one step.  Simplified: the local copies kept for reading are always
those of the bucket, and `parent` (filesystem_cloudpath_wrapper.py:58-60) is that of local paths: it
matters only for the place of the pending files.
-/

namespace Verif

/-- The two wrappers, filesystem_wrappers/. -/
inductive Wrapper where
  /-- `FilesystemPathlibWrapper` -/
  | pathlib
  /-- `FilesystemCloudpathWrapper` -/
  | cloudpath
  deriving DecidableEq, Repr

/-- The wrapper `main` creates for the option `--runner`, experiment_driver.py:291-300. -/
def wrapperFor (runner : String) : Wrapper :=
  if runner ∈ ["dataflow", "DataflowRunner"] then .cloudpath else .pathlib

/-- Whether a path starts with `gs://`, experimental_trial.py:148. -/
def isGsPath (path : String) : Bool := "gs://".toList.isPrefixOf path.toList

/-- What `evaluate` does with the path of the result before any file is touched: lines 148-149 (only
the cloud wrapper has a method `set_default_client_to_gs_client`) and, for the cloud wrapper,
`CloudPath(path)` in `is_file` at line 151. -/
def checkPath (fw : Wrapper) (path : String) : Except PyErr Unit :=
  match fw with
  | .pathlib => if isGsPath path then .error .attributeError else .ok ()
  | .cloudpath => cloudPath path

variable {ρ γ : Type}

/-- `ExperimentalTrial.evaluate` with a wrapper, experimental_trial.py:116-247, run to completion
without interference: the files are those of the disk or the objects of the bucket. -/
def evaluateWith (fw : Wrapper) (w : World ρ γ) (c : TrialConfig) (seed : Int) (fs : Files) (g : γ) :
    Except PyErr ρ × Files × γ :=
  match checkPath fw (resultsPath c) with
  | .error e => (.error e, fs, g)
  | .ok () => evaluate w c seed fs g

/-- One step of an evaluation on cloud storage; compare `trialStep`.  `write_text`
(filesystem_cloudpath_wrapper.py:91-104) is one step.  `unlink` (lines 119-127) raises a
`FileNotFoundError` if the object is gone, unless told otherwise as in the clean-up
(experimental_trial.py:245). -/
def cloudTrialStep (w : World ρ γ) (c : TrialConfig) (seed : Int) :
    Files × Pc ρ × γ → Files × Pc ρ × γ
  | (fs, .start, g) =>
    if (fs (resultsPath c)).isSome then (fs, .reading, g) else (fs, .pending 0, g)
  | (fs, .reading, g) =>
    match fs (resultsPath c) with
    | none => (fs, .unlinking, g)
    | some txt =>
      match w.readCsv txt with
      | .ok t => (fs, .done (.ok t), g)
      | .error _ => (fs, .unlinking, g)
  | (fs, .unlinking, g) =>
    match fs (resultsPath c) with
    | none => (fs, .done (.error .fileNotFound), g)
    | some _ => (setFile fs (resultsPath c) none, .pending 0, g)
  | (fs, .pending _, g) => (setFile fs (pendingPath w c) (some (w.pendingText c)), .computing, g)
  | (fs, .computing, g) =>
    match w.outcome c seed g with
    | (.error e, g') => (fs, .done (.error e), g')
    | (.ok r, g') => (fs, .writing r 0, g')
  | (fs, .writing r _, g) => (setFile fs (resultsPath c) (some (w.toCsv r)), .cleanup r, g)
  | (fs, .cleanup r, g) => (setFile fs (pendingPath w c) none, .done (.ok r), g)
  | (fs, .done res, g) => (fs, .done res, g)

/-- Effect of an event when trials are evaluated on cloud storage; compare `sysStep`.  Nothing is
asked of `cfg`: the same trial may be evaluated by several processes at the same time, as Dataflow
does with backup workers. -/
def cloudSysStep {ι : Type} [DecidableEq ι] (w : World ρ γ) (cfg : ι → TrialConfig) (seed : Int)
    (s : Sys ρ γ ι) : Event γ ι → Sys ρ γ ι
  | .step i =>
    let (fs', pc', g') := cloudTrialStep w (cfg i) seed (s.fs, s.pc i, s.gen i)
    { fs := fs'
      pc := fun j => if j = i then pc' else s.pc j
      gen := fun j => if j = i then g' else s.gen j }
  | .restart i g =>
    { fs := s.fs
      pc := fun j => if j = i then .start else s.pc j
      gen := fun j => if j = i then g else s.gen j }

/-- Effect of a sequence of events on cloud storage. -/
def cloudSysRun {ι : Type} [DecidableEq ι] (w : World ρ γ) (cfg : ι → TrialConfig) (seed : Int)
    (s : Sys ρ γ ι) (evs : List (Event γ ι)) : Sys ρ γ ι :=
  evs.foldl (cloudSysStep w cfg seed) s

end Verif
