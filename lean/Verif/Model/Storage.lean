import Verif.Model.DataSet

/-!
# Model of the publisher file format, the data set directory and the read cache

`src/data_generators/publisher_data.py:157-193`, `src/data_generators/data_set.py:223-280` and
`src/filesystem_wrappers/filesystem_pathlib_wrapper.py`.  Text is a list of characters.
-/

namespace Verif

abbrev Text := List Char

/-! ## Numbers as text -/

/-- The character of a decimal digit. -/
def digitChar (d : Nat) : Char := Char.ofNat (48 + d)

/-- Decimal digits of a natural number, as `str` prints them. -/
def showNat (n : Nat) : Text :=
  if n < 10 then [digitChar n] else showNat (n / 10) ++ [digitChar (n % 10)]
  termination_by n

/-- `"{}".format(n)` of a Python integer (publisher_data.py:164). -/
def showInt (n : Int) : Text := if n < 0 then '-' :: showNat n.natAbs else showNat n.natAbs

/-- The characters `int()` removes around a number (publisher_data.py:190): the white space of
Unicode except the four separators 28-31, which `str.strip()` would remove but `int()` does not. -/
def pySpace (c : Char) : Bool :=
  c.toNat == 32 || (9 ≤ c.toNat && c.toNat ≤ 13) || c.toNat == 133 || c.toNat == 160 ||
    c.toNat == 5760 || (8192 ≤ c.toNat && c.toNat ≤ 8202) || c.toNat == 8232 || c.toNat == 8233 ||
    c.toNat == 8239 || c.toNat == 8287 || c.toNat == 12288

/-- The text without the white space around it. -/
def pyStrip (s : Text) : Text := ((s.dropWhile pySpace).reverse.dropWhile pySpace).reverse

/-- The digits of `int()`: single underscores are allowed between digits.  `prev` tells whether the
character before was a digit.  Simplified: ASCII digits only, and no limit
on the number of digits. -/
def parseDigits (prev : Bool) (acc : Nat) : Text → Option Nat
  | [] => if prev then some acc else none
  | c :: rest =>
    if c = '_' then (if prev then parseDigits false acc rest else none)
    else if 48 ≤ c.toNat ∧ c.toNat ≤ 57 then parseDigits true (10 * acc + (c.toNat - 48)) rest
    else none

/-- `int(s)` of a string (publisher_data.py:190); `none` is `ValueError`. -/
def parseInt (s : Text) : Option Int :=
  match pyStrip s with
  | '-' :: rest => (parseDigits false 0 rest).map (fun n : Nat => -(n : Int))
  | '+' :: rest => (parseDigits false 0 rest).map (fun n : Nat => (n : Int))
  | rest => (parseDigits false 0 rest).map (fun n : Nat => (n : Int))

/-- Printing and parsing of floats: `"{}".format(x)` (publisher_data.py:164) and `float(s)`
(publisher_data.py:190), given as parameters.  `none` is `ValueError`; the values `nan` and `inf`,
which `float` also accepts, are not represented. -/
structure FloatText where
  fmt : ℚ → Text
  parse : Text → Option ℚ

/-! ## The publisher file -/

/-- Universal newlines: a text file opened without `newline` argument presents `\r\n` and `\r` as
`\n` to the reader (filesystem_pathlib_wrapper.py:50-69 passes `newline=None`). -/
def universalNewlines : Text → Text
  | [] => []
  | '\r' :: '\n' :: rest => '\n' :: universalNewlines rest
  | '\r' :: rest => '\n' :: universalNewlines rest
  | c :: rest => c :: universalNewlines rest

/-- `for line in file`: the lines with their terminating newline (publisher_data.py:186). -/
def pyLines : Text → List Text
  | [] => []
  | c :: rest =>
    if c = '\n' then [c] :: pyLines rest
    else match pyLines rest with
      | [] => [[c]]
      | l :: ls => (c :: l) :: ls

/-- `line.split(",")`. -/
def splitComma : Text → List Text
  | [] => [[]]
  | c :: rest =>
    if c = ',' then [] :: splitComma rest
    else match splitComma rest with
      | [] => [[c]]
      | w :: ws => (c :: w) :: ws

/-- `write_publisher_data`, publisher_data.py:157-164: the content of the file. -/
def PublisherData.write (T : FloatText) (p : PublisherData) : Text :=
  p.data.flatMap (fun e => showInt e.1 ++ ',' :: (T.fmt e.2 ++ ['\n']))

/-- Lines 189-190 of publisher_data.py: exactly two fields, an integer and a float. -/
def parseLine (T : FloatText) (line : Text) : Option (Int × ℚ) :=
  match splitComma line with
  | [a, b] =>
    match parseInt a, T.parse b with
    | some i, some x => some (i, x)
    | _, _ => none
  | _ => none

/-- The loop at publisher_data.py:184-192. -/
def readLines (T : FloatText) : List Text → Nat → Log → Except PyErr Log
  | [], _, acc => .ok acc
  | line :: rest, lineNo, acc =>
    match parseLine T line with
    | some e => readLines T rest (lineNo + 1) (acc ++ [e])
    | none => .error (.atLine (lineNo + 1))

/-- `read_publisher_data`, publisher_data.py:166-193.  `rnd` is the random name of line 82. -/
def readPublisherData (T : FloatText) (content : Text) (rnd : String) :
    Except PyErr PublisherData := do
  let log ← readLines T (pyLines (universalNewlines content)) 0 []
  PublisherData.new log "" rnd

/-! ## The file system -/

/-- The file system behind `FilesystemPathlibWrapper`: existing directories and regular files by
path.  Simplified: no symbolic links, no permissions, no other kinds of files, and paths are
compared as strings (no `..`, no repeated slashes). -/
structure Fs where
  dirs : List String
  files : Dict String Text
  deriving DecidableEq, Repr

/-- `str(pathlib.Path(a, b))` (filesystem_pathlib_wrapper.py:124-126): an absolute second component
replaces the first, an empty one is dropped. -/
def joinPath (a b : String) : String :=
  if b = "" then a
  else if b.toList.head? = some '/' then b
  else a ++ "/" ++ b

/-- The part of a path before its last slash, as characters; `none` if there is no slash. -/
def parentChars (p : Text) : Option Text :=
  if '/' ∈ p then some ((p.reverse.dropWhile (· ≠ '/')).drop 1).reverse else none

/-- `pathlib.Path(path).parent` as string; a path without slash lies in `"."`, a path whose only
slash is the first character lies in `"/"`. -/
def parentPath (p : String) : String :=
  match parentChars p.toList with
  | none => "."
  | some [] => "/"
  | some q => String.ofList q

/-- `pathlib.Path(path).name` (filesystem_pathlib_wrapper.py:34-36): the part after the last
slash. -/
def baseName (p : String) : String :=
  String.ofList ((p.toList.reverse.takeWhile (· ≠ '/')).reverse)

namespace Fs

/-- `open(path, "w")`, writing `content` and closing (data_set.py:246-247): the file is truncated
first; the parent directory must exist. -/
def writeFile (fs : Fs) (path : String) (content : Text) : Except PyErr Fs :=
  if path ∈ fs.dirs then .error .runtimeError
  else if parentPath path ∉ fs.dirs then .error .fileNotFound
  else .ok { fs with files := dictUpd fs.files path (fun _ => content) }

/-- `mkdir(path, parents=True, exist_ok=True)`, filesystem_pathlib_wrapper.py:86-96.  Simplified:
the missing ancestors are not listed, since nothing reads or writes them; a regular file in the way
raises `FileExistsError`. -/
def mkdir (fs : Fs) (path : String) : Except PyErr Fs :=
  if path ∈ fs.files.map (·.1) then .error .runtimeError
  else if path ∈ fs.dirs then .ok fs
  else .ok { fs with dirs := path :: fs.dirs }

/-- `glob(path, "*")`, filesystem_pathlib_wrapper.py:42-48: the paths of all entries of the
directory; a missing directory has no entries. -/
def glob (fs : Fs) (dir : String) : List String :=
  (fs.files.map (·.1) ++ fs.dirs).filter (fun p => parentPath p = dir)

/-- Lines 270-271 of data_set.py: the content if the path is a regular file. -/
def contentOf (fs : Fs) (path : String) : Option Text :=
  match dictLookup fs.files path with
  | .ok t => some t
  | .error _ => none

end Fs

/-! ## The data set directory -/

/-- `sorted` on strings: by code points. -/
def sortStrings (l : List String) : List String := l.insertionSort (fun a b => a ≤ b)

/-- The loop at data_set.py:244-247. -/
def writeFiles (T : FloatText) (dir : String) : List PublisherData → Fs → Except PyErr Fs
  | [], fs => .ok fs
  | p :: rest, fs => do
    let fs' ← fs.writeFile (joinPath dir p.name) (p.write T)
    writeFiles T dir rest fs'

/-- `write_data_set`, data_set.py:223-247.  `datasetDir = ""` stands for the default, the name of
the data set. -/
def DataSet.write (T : FloatText) (ds : DataSet) (parentDir : String) (datasetDir : String)
    (fs : Fs) : Except PyErr Fs := do
  let full := joinPath parentDir (if datasetDir = "" then ds.name else datasetDir)
  let fs' ← fs.mkdir full
  writeFiles T full ds.data fs'

/-- The loop at data_set.py:268-279: every regular file is one publisher, named by its full path;
an error while reading becomes a `RuntimeError`. -/
def readFiles (T : FloatText) (fs : Fs) : List String → Except PyErr (List PublisherData)
  | [] => .ok []
  | path :: rest =>
    match fs.contentOf path with
    | none => readFiles T fs rest
    | some content =>
      match readPublisherData T content "" with
      | .error _ => .error .runtimeError
      | .ok p => do
        let ps ← readFiles T fs rest
        return ({ p with name := path } : PublisherData) :: ps

/-- The body of `read_data_set`, data_set.py:268-280, without the cache. -/
def readDataSet (T : FloatText) (fs : Fs) (dir : String) : Except PyErr DataSet := do
  let pubs ← readFiles T fs (sortStrings (fs.glob dir))
  DataSet.new pubs (baseName dir)

/-! ## The cache -/

/-- State of a process: the file system and the entries of `@lru_cache(maxsize=128)`
(data_set.py:250), most recently used first.  Simplified: the key is the directory alone, because
the class and the default file system wrapper are the same in all calls. -/
structure Process where
  fs : Fs
  cache : List (String × DataSet)

/-- `DataSet.read_data_set(dir)` with its cache, data_set.py:249-280: a hit returns the stored object
and makes it the most recent; a miss reads the directory, stores the result (errors are not stored)
and drops the least recent entry if there are more than 128. -/
def Process.read (T : FloatText) (pr : Process) (dir : String) :
    Except PyErr DataSet × Process :=
  match pr.cache.find? (fun e => e.1 = dir) with
  | some e => (.ok e.2, { pr with cache := e :: pr.cache.filter (fun x => x.1 ≠ dir) })
  | none =>
    match readDataSet T pr.fs dir with
    | .error err => (.error err, pr)
    | .ok ds => (.ok ds, { pr with cache := ((dir, ds) :: pr.cache).take 128 })

end Verif
