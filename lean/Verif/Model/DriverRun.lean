import Verif.Model.Beam
import Verif.Model.WholeTrial

/-!
# Model of a whole run of the driver

`src/driver/experiment_driver.py` lines 173-209 with the trials of `src/driver/experimental_trial.py`:
here the outcome of a trial is no longer a parameter, but what `designOutcome` computes.
-/

namespace Verif

variable {S C : Type}

/-- The surroundings of the trials of a run.  Each evaluation begins with seeding the generators of the
test points, experimental_trial.py:143-144. -/
def TrialEnv.seeded (E : TrialEnv S C) (points : Int → PointSource) (seed : Int) : TrialEnv S C :=
  { E with points := points seed }

/-- `str(desc.update_from_dataset(dataset))`, experiment.py:81-82. -/
def trialText (T : FloatText) (ds : DataSet) (t : TrialTemplate Nat) : String :=
  String.ofList ((t.update id ds.publisherCount).desc.str T)

/-- The trial descriptors of a design with their positions.  A data set that is not in the data design
cannot occur: the names come from there. -/
def driverDescriptors (T : FloatText) (D : Dict String DataSet) (ts : List (TrialTemplate Nat)) :
    List Descriptor :=
  ts.zipIdx.map (fun ti name =>
    (match dictLookup D name with
      | .ok ds => trialText T ds ti.1
      | .error _ => "", (ti.2 : Int)))

/-- What the trial at a position of the design computes, experimental_trial.py:173-238.  Every
descriptor of the design holds a generator (`SystemParameters.generator`), which it keeps for all data
sets (system_parameters.py:77-79); `g` are their states.  The shipped designs create one generator per
descriptor. -/
def driverOutcome (E : TrialEnv S C) (points : Int → PointSource) (D : Dict String DataSet)
    (ts : List (TrialTemplate Nat)) (c : TrialConfig) (seed : Int) (g : Nat → Nat) :
    Except PyErr Row × (Nat → Nat) :=
  match dictLookup D c.dataSetName with
  | .error e => (.error e, g)
  | .ok ds =>
    match ts[c.hidden.toNat]? with
    | none => (.error .indexError, g)
    | some t =>
      let r := designOutcome (E.seeded points seed) c.dataSetName ds t c.analysisType
        (g c.hidden.toNat)
      (r.1, fun i => if i = c.hidden.toNat then r.2 else g i)

/-- The environment of the trials of a run; files and their texts are those of `base`. -/
def driverWorld (base : World Row (Nat → Nat)) (E : TrialEnv S C) (points : Int → PointSource)
    (D : Dict String DataSet) (ts : List (TrialTemplate Nat)) : World Row (Nat → Nat) :=
  { base with outcome := driverOutcome E points D ts }

/-- `ExperimentDriver.execute`, experiment_driver.py:173-199, for the data design `D` and the design
`ts`. -/
def driverExecute (base : World Row (Nat → Nat)) (csv : FrameCsv Row) (E : TrialEnv S C)
    (points : Int → PointSource) (D : Dict String DataSet) (ts : List (TrialTemplate Nat))
    (dir analysisType : String) (seed : Int) (outputFile : String) (fs : Files) (g : Nat → Nat)
    (runner : Runner (Nat → Nat)
      (designTrials dir analysisType (driverDescriptors E.text D ts) (D.map (·.1))).length) :
    Option (Except PyErr (List Row) × Files) :=
  execute (driverWorld base E points D ts) csv dir analysisType (driverDescriptors E.text D ts)
    (D.map (·.1)) seed outputFile fs g runner

end Verif
