import Verif.Model.Storage

/-!
# Command lines in the documented form

`--key=value` and `--use_apache_beam`, experiment_driver.py:19-58.
-/

namespace Verif.Spec

/-- One argument of a command line in the documented form. -/
inductive Item where
  | setting (key value : Text)
  | beam
  deriving DecidableEq, Repr

/-- The argument as it is written. -/
def Item.render : Item → Text
  | .setting key value => "--".toList ++ key ++ '=' :: value
  | .beam => "--use_apache_beam".toList

/-- A key has no `=` and is not a flag without value. -/
def Item.Documented : Item → Prop
  | .setting key _ => '=' ∉ key ∧ key ≠ "use_apache_beam".toList ∧ key ≠ "help".toList
  | .beam => True

/-- The last value given for a key. -/
def lastValue (key : Text) : List Item → Option Text
  | [] => none
  | .beam :: rest => lastValue key rest
  | .setting k v :: rest =>
    match lastValue key rest with
    | some w => some w
    | none => if k = key then some v else none

/-- The options of the driver. -/
def driverKeys : List Text :=
  ["data_design_dir".toList, "experimental_design".toList, "output_file".toList,
    "intermediates_dir".toList, "seed".toList, "cores".toList, "analysis_type".toList]

/-- An argument that is meant for Apache Beam. -/
def Item.forBeam : Item → Bool
  | .setting key _ => !driverKeys.contains key
  | .beam => false

end Verif.Spec
