import Verif.Model.CloudTrial
import Verif.Model.Storage

/-!
# Model of the command line of `src/driver/experiment_driver.py`

`argparse`, as far as the parser of lines 212-264 uses it.  An argument is a text.  The program ends
without running an experiment (`none`) if help is asked for or the arguments are refused.  Simplified: a
negative number is recognized by ASCII digits; the exception of older versions of Python for an option
with the value `--` is not modelled.
-/

namespace Verif

namespace CommandLine

/-- The options with a value, experiment_driver.py:213-256. -/
inductive Opt where
  | dataDesignDir
  | experimentalDesign
  | outputFile
  | intermediatesDir
  | seed
  | cores
  | analysisType
  deriving DecidableEq, Repr

/-- All options with a value. -/
def Opt.all : List Opt :=
  [.dataDesignDir, .experimentalDesign, .outputFile, .intermediatesDir, .seed, .cores, .analysisType]

/-- The option string, experiment_driver.py:214, 220, 226, 232, 238, 245, 252. -/
def Opt.flag : Opt → Text
  | .dataDesignDir => "--data_design_dir".toList
  | .experimentalDesign => "--experimental_design".toList
  | .outputFile => "--output_file".toList
  | .intermediatesDir => "--intermediates_dir".toList
  | .seed => "--seed".toList
  | .cores => "--cores".toList
  | .analysisType => "--analysis_type".toList

/-- `required=True`, experiment_driver.py:216, 222, 228, 234. -/
def Opt.required : Opt → Bool
  | .dataDesignDir | .experimentalDesign | .outputFile | .intermediatesDir => true
  | .seed | .cores | .analysisType => false

/-- `type=int`, experiment_driver.py:240, 247. -/
def Opt.isInt : Opt → Bool
  | .seed | .cores => true
  | _ => false

/-- `--use_apache_beam`, experiment_driver.py:257-262. -/
def beamFlag : Text := "--use_apache_beam".toList

/-- The option argparse adds to every parser. -/
def helpFlag : Text := "--help".toList

/-- `arg_string.split("=", 1)` if there is a `=` (argparse). -/
def splitEq : Text → Option (Text × Text)
  | [] => none
  | c :: rest =>
    if c = '=' then some ([], rest) else (splitEq rest).map (fun ab => (c :: ab.1, ab.2))

/-- The option with this option string. -/
def optOf (t : Text) : Option Opt := Opt.all.find? (fun o => o.flag == t)

/-- The pattern `^-\d+$|^-\d*\.\d+$` (argparse). -/
def looksNegative : Text → Bool
  | '-' :: rest =>
    let tail := rest.dropWhile (fun c => c.isDigit)
    match tail with
    | [] => !rest.isEmpty
    | '.' :: ds => !ds.isEmpty && ds.all (fun c => c.isDigit)
    | _ => false
  | _ => false

/-- How argparse sees an argument. -/
inductive Token where
  /-- an option with a value, which may be part of the argument -/
  | option (o : Opt) (explicit : Option Text)
  | beam (explicit : Option Text)
  | help
  | separator
  /-- looks like an option but is none of the parser's -/
  | unknown
  | value
  deriving DecidableEq, Repr

/-- `_parse_optional` of argparse for the parser of experiment_driver.py:212-264, which does not allow
abbreviations (line 212). -/
def classify (arg : Text) : Token :=
  if arg = ['-', '-'] then .separator
  else if arg.head? ≠ some '-' then .value
  else match optOf arg with
    | some o => .option o none
    | none =>
      if arg = beamFlag then .beam none
      else if arg = helpFlag then .help
      else if arg = ['-'] then .value
      else
        let other : Token :=
          if ['-', 'h'].isPrefixOf arg then .help
          else if looksNegative arg then .value
          else if ' ' ∈ arg then .value
          else .unknown
        match splitEq arg with
        | none => other
        | some (n, v) =>
          match optOf n with
          | some o => .option o (some v)
          | none =>
            if n = beamFlag then .beam (some v)
            else if n = helpFlag then .help
            else other

/-- What has been parsed: the values of the options, whether Beam is asked for, and the rest. -/
structure Parsed where
  values : Opt → Option Text
  beam : Bool
  extras : List Text

/-- Store the value of an option; a value that is no integer is refused for `--seed` and `--cores`. -/
def Parsed.store (p : Parsed) (o : Opt) (v : Text) : Option Parsed :=
  if o.isInt ∧ parseInt v = none then none
  else some { p with values := fun o' => if o' = o then some v else p.values o' }

/-- The loop of `parse_known_args` (argparse) for a parser without positional arguments. -/
def parseLoop : List Text → Parsed → Option Parsed
  | [], p => some p
  | arg :: rest, p =>
    match classify arg with
    | .separator => some { p with extras := p.extras ++ arg :: rest }
    | .value | .unknown => parseLoop rest { p with extras := p.extras ++ [arg] }
    | .help => none
    | .beam none => parseLoop rest { p with beam := true }
    | .beam (some _) => none
    | .option o (some v) => (p.store o v).bind (parseLoop rest)
    | .option o none =>
      match rest with
      | [] => none
      | v :: rest' =>
        if classify v = .value then (p.store o v).bind (parseLoop rest') else none

/-- `parser.parse_known_args(argv)`, experiment_driver.py:269; a required option must be given. -/
def parseKnownArgs (argv : List Text) : Option Parsed :=
  (parseLoop argv ⟨fun _ => none, false, []⟩).bind (fun p =>
    if Opt.all.all (fun o => !o.required || (p.values o).isSome) then some p else none)

/-- The arguments of `ExperimentDriver` (experiment_driver.py:271-279), of `execute` (lines 302-306) and
of `PipelineOptions` (line 287). -/
structure Call where
  dataDesignDir : Text
  experimentalDesign : Text
  outputFile : Text
  intermediateDir : Text
  seed : Int
  cores : Int
  analysisType : Text
  useBeam : Bool
  pipelineArgs : List Text
  wrapper : Wrapper
  deriving DecidableEq, Repr

/-- `PipelineOptions(args).get_all_options()[name]`: the last value given, `None` if there is none.
Simplified: only the form `--name=value`. -/
def pipelineOption (name : Text) (args : List Text) : Option Text :=
  (args.reverse.filterMap splitEq).findSome? (fun nv =>
    if nv.1 = '-' :: '-' :: name then some nv.2 else none)

/-- Lines 271-306 of experiment_driver.py: what is called after parsing; the defaults are those of lines
241, 248 and 254. -/
def Parsed.call (p : Parsed) : Call :=
  let intermediates := (p.values .intermediatesDir).getD []
  let cores := ((p.values .cores).bind parseInt).getD 1
  let args := p.extras ++ ["--temp_location=".toList ++ intermediates,
    "--direct_num_workers=".toList ++ showInt cores]
  { dataDesignDir := (p.values .dataDesignDir).getD [],
    experimentalDesign := (p.values .experimentalDesign).getD [],
    outputFile := (p.values .outputFile).getD [],
    intermediateDir := intermediates,
    seed := ((p.values .seed).bind parseInt).getD 1,
    cores := cores,
    analysisType := (p.values .analysisType).getD [],
    useBeam := p.beam,
    pipelineArgs := args,
    wrapper := wrapperFor (String.ofList ((pipelineOption "runner".toList args).getD [])) }

/-- `main`, experiment_driver.py:267-306: the call of `execute`.  `argv` is what `app.run` (absl, line 309)
hands on: the program name and what follows the separator `--` on the shell's command line (lines 19-58). -/
def mainCall (argv : List Text) : Option Call := (parseKnownArgs argv).map Parsed.call

end CommandLine

end Verif
