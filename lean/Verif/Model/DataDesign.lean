import Verif.Model.Storage

/-!
# Model of `src/data_generators/data_design.py`
-/

namespace Verif

/-- Attributes of `DataDesign`, data_design.py:50-52.  The set of names is a list without
repetitions. -/
structure DataDesign where
  /-- `_dirpath` -/
  dirpath : String
  /-- `_data_set_names` -/
  dataSetNames : List String
  deriving DecidableEq, Repr

namespace DataDesign

/-- `set.add`. -/
def addName (names : List String) (n : String) : List String :=
  if n ∈ names then names else names ++ [n]

/-- `DataDesign.__init__`, data_design.py:42-57: the directory is created if missing, and every
directory in it is a data set. -/
def new (dirpath : String) (fs : Fs) : Except PyErr (DataDesign × Fs) := do
  let fs' ← fs.mkdir dirpath
  let found := (sortStrings (fs'.glob dirpath)).filter (fun p => p ∈ fs'.dirs)
  return ({ dirpath := dirpath
            dataSetNames := (found.map baseName).foldl addName [] }, fs')

/-- `count`, data_design.py:59-62. -/
def count (d : DataDesign) : Nat := d.dataSetNames.length

/-- `names`, data_design.py:64-67. -/
def names (d : DataDesign) : List String := sortStrings d.dataSetNames

/-- `by_name`, data_design.py:69-71.  Simplified: `os.path.join` is `joinPath`, which differs only
for the empty name. -/
def byName (T : FloatText) (d : DataDesign) (pr : Process) (name : String) :
    Except PyErr DataSet × Process :=
  pr.read T (joinPath d.dirpath name)

/-- `add`, data_design.py:73-83.  Simplified: if writing fails half way, the files already written
are not recorded. -/
def add (T : FloatText) (d : DataDesign) (pr : Process) (ds : DataSet) :
    Except PyErr (DataDesign × Process) :=
  if joinPath d.dirpath ds.name ∈ pr.fs.dirs ∨
      joinPath d.dirpath ds.name ∈ pr.fs.files.map (·.1) then .error .valueError
  else do
    let fs' ← ds.write T d.dirpath "" pr.fs
    return (⟨d.dirpath, addName d.dataSetNames ds.name⟩, ⟨fs', pr.cache⟩)

end DataDesign

end Verif
