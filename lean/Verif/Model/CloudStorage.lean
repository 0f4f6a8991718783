import Verif.Model.DataDesign

/-!
# Model of `src/filesystem_wrappers/filesystem_cloudpath_wrapper.py`

The wrapper the driver uses on Dataflow (experiment_driver.py:291-300), and `DataDesign`, data sets
and the read cache on top of it.  `cloudpathlib` is external; the definitions below say what it does
with a bucket.  Simplified: one client, no placeholder objects for directories, paths are compared as
strings.
-/

namespace Verif

/-- A bucket: the stored objects by full path, such as `gs://bucket/dir/file`.  There are no
directories. -/
structure Cloud where
  objects : Dict String Text
  deriving DecidableEq, Repr

/-- `s.split("://")` (filesystem_cloudpath_wrapper.py:154). -/
def splitScheme : Text → List Text
  | [] => [[]]
  | ':' :: '/' :: '/' :: rest => [] :: splitScheme rest
  | c :: rest =>
    match splitScheme rest with
    | [] => [[c]]
    | w :: ws => (c :: w) :: ws

/-- `joinpath` with two arguments, filesystem_cloudpath_wrapper.py:148-157: the first argument is cut
at `://`, the parts after the second one are lost.  Like `pathlib`, `CloudPath.joinpath` replaces the
path by an absolute component (keeping the scheme) and drops an empty one. -/
def cloudJoin (a b : String) : Except PyErr String :=
  match splitScheme a.toList with
  | domain :: root :: _ =>
    let r := String.ofList root
    let path := if b = "" then r
      else if b.toList.head? = some '/' then String.ofList b.toList.tail
      else r ++ "/" ++ b
    .ok (String.ofList domain ++ "://" ++ path)
  | _ => .error .indexError

/-- `CloudPath(path)`: an `InvalidPrefixError`, which is a `ValueError`, unless the path belongs to
one of the supported services. -/
def cloudPath (path : String) : Except PyErr Unit :=
  if ["gs://", "s3://", "az://"].any (fun s => s.toList.isPrefixOf path.toList) then .ok ()
  else .error .valueError

namespace Cloud

/-- `is_file`, filesystem_cloudpath_wrapper.py:141-146: an object with this path. -/
def isFile (c : Cloud) (path : String) : Bool := path ∈ c.objects.map (·.1)

/-- The test for a directory in `CloudPath.is_dir`: no object with this path, but one below it
(filesystem_cloudpath_wrapper.py:135-139). -/
def isDir (c : Cloud) (path : String) : Bool :=
  !c.isFile path && c.objects.any (fun e => (path.toList ++ ['/']).isPrefixOf e.1.toList)

/-- `exists`, filesystem_cloudpath_wrapper.py:129-133. -/
def pathExists (c : Cloud) (path : String) : Bool := c.isFile path || c.isDir path

/-- `mkdir`, filesystem_cloudpath_wrapper.py:106-117: does nothing. -/
def mkdir (c : Cloud) (_path : String) : Cloud := c

/-- The entry of directory `dir` that is the object `key` or contains it. -/
def childOf (dir key : String) : Option String :=
  if (dir.toList ++ ['/']).isPrefixOf key.toList then
    some (String.ofList (dir.toList ++ '/' ::
      (key.toList.drop (dir.toList.length + 1)).takeWhile (· ≠ '/')))
  else none

/-- `glob(path, "*")`, filesystem_cloudpath_wrapper.py:62-68: every entry once. -/
def glob (c : Cloud) (dir : String) : List String :=
  (c.objects.filterMap (fun e => childOf dir e.1)).dedup

/-- `open(path, "w")`, writing and closing (filesystem_cloudpath_wrapper.py:70-89): the object is
replaced; a directory cannot be opened.  Nothing is asked of the parent. -/
def writeFile (c : Cloud) (path : String) (content : Text) : Except PyErr Cloud :=
  if c.isDir path then .error .runtimeError
  else .ok ⟨dictUpd c.objects path (fun _ => content)⟩

/-- The content of an object. -/
def contentOf (c : Cloud) (path : String) : Option Text :=
  match dictLookup c.objects path with
  | .ok t => some t
  | .error _ => none

end Cloud

/-- The loop at data_set.py:244-247 with the cloud wrapper. -/
def cloudWriteFiles (T : FloatText) (dir : String) : List PublisherData → Cloud → Except PyErr Cloud
  | [], c => .ok c
  | p :: rest, c => do
    let path ← cloudJoin dir p.name
    let c' ← c.writeFile path (p.write T)
    cloudWriteFiles T dir rest c'

/-- `write_data_set` with the cloud wrapper, data_set.py:223-247, under the name of the data set. -/
def DataSet.cloudWrite (T : FloatText) (ds : DataSet) (parentDir : String) (c : Cloud) :
    Except PyErr Cloud := do
  let full ← cloudJoin parentDir ds.name
  cloudWriteFiles T full ds.data (c.mkdir full)

/-- The loop at data_set.py:268-279 with the cloud wrapper. -/
def cloudReadFiles (T : FloatText) (c : Cloud) : List String → Except PyErr (List PublisherData)
  | [] => .ok []
  | path :: rest =>
    match c.contentOf path with
    | none => cloudReadFiles T c rest
    | some content =>
      match readPublisherData T content "" with
      | .error _ => .error .runtimeError
      | .ok p => do
        let ps ← cloudReadFiles T c rest
        return ({ p with name := path } : PublisherData) :: ps

/-- `read_data_set` with the cloud wrapper and without the cache, data_set.py:268-280. -/
def cloudReadDataSet (T : FloatText) (c : Cloud) (dir : String) : Except PyErr DataSet := do
  cloudPath dir
  let pubs ← cloudReadFiles T c (sortStrings (c.glob dir))
  DataSet.new pubs (baseName dir)

/-- State of a process on Dataflow: the bucket and the cache of data_set.py:250. -/
structure CloudProcess where
  store : Cloud
  cache : List (String × DataSet)

/-- `DataSet.read_data_set(dir, filesystem)` with its cache, data_set.py:249-280; see
`Process.read`. -/
def CloudProcess.read (T : FloatText) (pr : CloudProcess) (dir : String) :
    Except PyErr DataSet × CloudProcess :=
  match pr.cache.find? (fun e => e.1 = dir) with
  | some e => (.ok e.2, { pr with cache := e :: pr.cache.filter (fun x => x.1 ≠ dir) })
  | none =>
    match cloudReadDataSet T pr.store dir with
    | .error err => (.error err, pr)
    | .ok ds => (.ok ds, { pr with cache := ((dir, ds) :: pr.cache).take 128 })

namespace DataDesign

/-- `DataDesign.__init__` with the cloud wrapper, data_design.py:42-57. -/
def cloudNew (dirpath : String) (c : Cloud) : Except PyErr (DataDesign × Cloud) := do
  let c' := c.mkdir dirpath
  cloudPath dirpath
  let found := (sortStrings (c'.glob dirpath)).filter (fun p => c'.isDir p)
  return ({ dirpath := dirpath
            dataSetNames := (found.map baseName).foldl addName [] }, c')

/-- `by_name` with the cloud wrapper, data_design.py:69-71; the path comes from `os.path.join`. -/
def cloudByName (T : FloatText) (d : DataDesign) (pr : CloudProcess) (name : String) :
    Except PyErr DataSet × CloudProcess :=
  pr.read T (joinPath d.dirpath name)

/-- `add` with the cloud wrapper, data_design.py:73-83.  Simplified like `DataDesign.add`: if writing
fails half way, the objects already written are not recorded. -/
def cloudAdd (T : FloatText) (d : DataDesign) (pr : CloudProcess) (ds : DataSet) :
    Except PyErr (DataDesign × CloudProcess) := do
  let path ← cloudJoin d.dirpath ds.name
  cloudPath path
  if pr.store.pathExists path then .error .valueError
  else do
    let c' ← ds.cloudWrite T d.dirpath pr.store
    return (⟨d.dirpath, addName d.dataSetNames ds.name⟩, ⟨c', pr.cache⟩)

end DataDesign

end Verif
