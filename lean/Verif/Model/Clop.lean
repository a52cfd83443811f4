import Verif.Model.TunerConfig
import Verif.Model.RingFiles
/-
Model of gomill_examples/gomill-clop, the connection script for CLOP.

Not modelled: KeyboardInterrupt, what optparse shows, the texts written to stderr, and failures of writing to the log file.
-/
namespace Gomill.Conf
open Py

/-- What isn't modelled of the conversions between strings and floats: `"%f" % x`, and `float(s)` (unless it raises ValueError). -/
structure ClopText where
  fixed : Num → Str
  readFloat : Str → Option Num

/-! ### The control file -/

/-- gomill-clop:39-44 `PARAMETER_TYPES`. -/
def clopTypes : List Str := ["LinearParameter".toList, "IntegerParameter".toList, "GammaParameter".toList, "IntegerGammaParameter".toList]

/-- gomill-clop:46-51 `parameter_settings`. -/
def clopParameterSettings (W : World) : List Setting := [
  { name := "code".toList, interpreter := sv interpretIdentifier .str },
  { name := "type".toList, interpreter := sv (interpretEnum clopTypes) .str },
  { name := "min".toList, interpreter := sv (interpretFloat W) .float },
  { name := "max".toList, interpreter := sv (interpretFloat W) .float } ]

/-- gomill-clop:61-67 Parameter_spec. -/
structure ClopParam where
  code : Str
  type : Str
  min : Num
  max : Num
  isInteger : Bool

/-- gomill-clop:128: `"Integer" in type` -/
def hasInteger : Str → Bool
  | [] => false
  | c :: s => "Integer".toList.isPrefixOf (c :: s) || hasInteger s

/-- gomill-clop:130-133: `x != int(x)`, which raises an exception for an infinity or a NaN. -/
def checkWhole (name : String) : Num → Except Err Unit
  | .fin q => if q = (q.floor : Rat) then .ok () else .error ⟨.controlFile, "'".toList ++ name.toList ++ "': should be an integer".toList⟩
  | .nan => .error (.value "cannot convert float NaN to integer")
  | _ => .error ⟨.other, "cannot convert float infinity to integer".toList⟩

/-- gomill-clop:129-133. -/
def checkRange (isInteger : Bool) (min max : Num) : Except Err Unit :=
  if isInteger then
    match checkWhole "min" min with
    | .error e => .error e
    | .ok () => checkWhole "max" max
  else .ok ()

/-- gomill-clop:115-134 `parameter_spec_from_config`. -/
def clopParameter (W : World) (args : List Val) (kwargs : List (Str × Val)) : Except Err ClopParam := do
  let arguments ← resolveArguments ["code".toList] (((clopParameterSettings W).map Setting.name).filter (fun n => n ≠ "code".toList)) args kwargs
  let d ← loadSettings W arguments true false (clopParameterSettings W) []
  let code ← strOf d "code"
  let type ← strOf d "type"
  let min ← floatOf d "min"
  let max ← floatOf d "max"
  checkRange (hasInteger type) min max
  return { code, type, min, max, isInteger := hasInteger type }

/-- settings.py:107-113 `interpret_colour`, for the candidate's colour. -/
def interpretFixedColour (T : Fns) (v : Val) : Except Err (Option Colour) :=
  match interpretColour T v with
  | .ok c => .ok (some c)
  | .error e => .error e

/-- gomill-clop:99-106 `global_settings`, after those of Competition. The default of `clop_H` is the int 3, represented by None. -/
def clopSettings (W : World) (T : Fns) : List Setting := gameSettings W ++ [
  { name := "candidate_colour".toList, interpreter := sv (interpretFixedColour T) colourVal },
  { name := "parallel".toList, interpreter := sv interpretInt .int, default := some (.int 1) },
  { name := "clop_H".toList, interpreter := sv (interpretFloat W) .float, default := some .none },
  { name := "correlations".toList, interpreter := sv (interpretEnum ["all".toList, "none".toList]) .str, default := some (.str "all".toList) },
  { name := "stop_on_error".toList, interpreter := sv interpretBool .bool, default := some (.bool true) } ]

/-- Reading a float which may be None. -/
def optFloatOf (d : List (Str × SVal)) (name : String) : Except Err (Option Num) :=
  match d.lookup name.toList with
  | some (.float x) => .ok (some x)
  | some .none => .ok none
  | _ => .error noneErr

/-- A Clop_tuner after `initialise_from_control_file`. -/
structure ClopTuner where
  base : TunerBase
  parallel : Int
  clopH : Option Num
  correlations : Str
  stopOnError : Bool
  parameters : List ClopParam

/-- gomill-clop:136-170 `initialise_from_control_file`. -/
def initClop (W : World) (T : Fns) (base : Option Str) (code : Str) (config : List (Str × Val)) : Except Err ClopTuner := do
  let (d, players) ← initWith W base (clopSettings W T) config
  let description ← optStrOf d "description"
  let rules ← gameRules d
  let colour ← colourSetting d
  let parallel ← intOf d "parallel"
  let clopH ← optFloatOf d "clop_H"
  let correlations ← strOf d "correlations"
  let stopOnError ← boolOf d "stop_on_error"
  validateHandicap rules.handicap rules.handicapStyle rules.boardSize
  let specials ← toControl (loadSettings W config true false (tunerSpecials W T) [])
  let opponent ← findOpponent players (← strOf specials "opponent")
  let configs ← valsOf specials "parameters"
  refuseIf configs.isEmpty ⟨.controlFile, "parameters: empty list".toList⟩
  let parameters ← parametersLoop W ClopParam.code (clopParameter W) 0 [] configs
  let maker ← fnOf specials "make_candidate"
  return { base := { code, description, players, rules, colour, opponent, maker }, parallel, clopH, correlations, stopOnError, parameters }

/-! ### The .clop file -/

/-- `"%d" % x` for a float which is a whole number. -/
def wholeText : Num → Str
  | .fin q => strInt q.floor
  | _ => []

/-- gomill-clop:68-74 `format_for_clop`. -/
def ClopParam.forClop (X : ClopText) (p : ClopParam) : Str :=
  let f := if p.isInteger then wholeText else X.fixed
  p.type ++ ' ' :: p.code ++ ' ' :: f p.min ++ ' ' :: f p.max

/-- gomill-clop:382-383. -/
def processorSpecs (parallel : Int) : Str :=
  join ['\n'] ((List.range parallel.toNat).map (fun i : Nat => "Processor par".toList ++ strInt i))

/-- gomill-clop:384-387; OverflowError or ValueError from `int(komi)` is `none`. -/
def drawElo (komi : Num) (stopOnError : Bool) : Option Str :=
  match komi with
  | .fin q => some (if q = (q.floor : Rat) || stopOnError then "100".toList else "0".toList)
  | _ => none

/-- `"%s" % clop_H` -/
def showH (T : Fns) : Option Num → Str
  | none => "3".toList
  | some x => T.showNum x

/-- gomill-clop:351-390: the contents of the .clop file, unless there's an exception. `script` is the pathname of the script. -/
def ClopTuner.setup (T : Fns) (X : ClopText) (script control : Str) (t : ClopTuner) : Option Str :=
  match drawElo t.base.rules.komi t.stopOnError with
  | none => none
  | some elo => some (
    "Name ".toList ++ t.base.code ++ "\n\n".toList ++
    "Script ".toList ++ script ++ " ".toList ++ (pathSplit control).2 ++ " run-game\n\n".toList ++
    join ['\n'] (t.parameters.map (ClopParam.forClop X)) ++ "\n\n".toList ++
    processorSpecs t.parallel ++ "\n\n".toList ++
    "Replications 1\n\n".toList ++
    "DrawElo ".toList ++ elo ++ "\n\n".toList ++
    "H ".toList ++ showH T t.clopH ++ "\n\n".toList ++
    "Correlations ".toList ++ t.correlations ++ "\n\n".toList ++
    "StopOnError ".toList ++ (if t.stopOnError then "true".toList else "false".toList) ++ "\n\n".toList)

/-! ### A game -/

/-- gomill-clop:76-85 `interpret_value`; `none` is ValueError. (A number too big for an int is a long, which isn't distinguished.) -/
def ClopParam.interpretValue (X : ClopText) (p : ClopParam) (s : Str) : Option Val :=
  if p.isInteger then
    match parseInt s with
    | .ok n => some (.int n)
    | .error _ => none
  else (X.readFloat s).map .float

/-- gomill-clop:194-199: the loop over the parameters (which are as many). -/
def clopValues (X : ClopText) : List ClopParam → List (Str × Str) → Option (List Val)
  | p :: ps, (name, value) :: l =>
    if name ≠ p.code then none
    else match p.interpretValue X value with
      | none => none
      | some v => (clopValues X ps l).map (v :: ·)
  | _, _ => some []

/-- gomill-clop:180-202 `interpret_clop_parameters`; `none` is CompetitionError. -/
def interpretClop (X : ClopText) (ps : List ClopParam) (l : List (Str × Str)) : Option (List Val) :=
  if l.length ≠ ps.length then none else clopValues X ps l

/-- gomill-clop:87-88 `format_for_display`, for an int or a float. -/
def displayValue (T : Fns) : Val → Str
  | .int n => strInt n
  | .float x => T.showNum x
  | _ => []

/-- gomill-clop:204-207 `format_engine_parameters`. -/
def formatClop (T : Fns) (ps : List ClopParam) (vs : List Val) : Str :=
  join "; ".toList ((ps.zip vs).map (fun x => x.1.code ++ ' ' :: displayValue T x.2))

/-- gomill-clop:209-267 `make_candidate` and `get_game_for_parameters`. The text of the CompetitionError for parameters which can't be interpreted isn't modelled. A komi
which isn't finite is outside the model: `none`. -/
def ClopTuner.game (W : World) (T : Fns) (X : ClopText) (base : Option Str) (t : ClopTuner) (seed : Str) (l : List (Str × Str)) : Except CandErr (Option (Gtp.GameJob Unit)) :=
  match interpretClop X t.parameters l with
  | none => .error (.competition "couldn't interpret parameters".toList)
  | some vs => match makeCandidate W T base t.base.maker (.ok (formatClop T t.parameters vs)) ('#' :: seed) vs with
    | .error e => .error e
    | .ok candidate => .ok (t.base.job seed () candidate .w (formatClop T t.parameters vs))

/-! ### The ringmaster -/

/-- A Clop_ringmaster. `paths.log` is the pathname of the .elog file. -/
structure ClopRingmaster where
  paths : Paths
  tuner : ClopTuner
  recordGames : Bool
  stderrToLog : Bool

/-- gomill-clop:274-276 and ringmasters.py:129-189, with `_get_competition_class` from gomill-clop:278-283. -/
def loadClop (C : ControlWorld Unit) (T : Fns) (paths : Paths) : Except RmExc ClopRingmaster :=
  match C.read paths.control with
  | .error e => .error (.ringmaster ("failed to read control file:\n".toList ++ e))
  | .ok source => match parseCompetitionType source with
    | none => .error (.controlFile "can't find competition_type".toList)
    | some type =>
      if type ≠ "clop_tuner".toList then .error (.controlFile ("unknown competition type: ".toList ++ type))
      else if !Sgf.utf8Valid source then .error (.controlFile "file is not encoded in utf-8".toList)
      else match C.exec type source with
        | .error e => .error (.controlFile e)
        | .ok config =>
          if !sameType config type then .error (.controlFile "competition_type improperly specified".toList)
          else match handled C (ringmasterFlags C.world config) with
            | .error e => .error e
            | .ok flags => match handled C (initClop C.world T (some paths.base) paths.code config) with
              | .error e => .error e
              | .ok tuner => .ok { paths := { paths with log := Gtp.pathJoin paths.base paths.code ++ ".elog".toList }, tuner, recordGames := flags.1, stderrToLog := flags.2.1 }

/-- gomill-clop:271-276 and ringmasters.py:77-116: `Clop_ringmaster(pathname)`. -/
def newClop (C : ControlWorld Unit) (T : Fns) (control : Str) : Except RmExc ClopRingmaster :=
  match pathsOf control with
  | .error e => .error e
  | .ok paths => match loadClop C T paths with
    | .ok r => .ok r
    | .error (.controlFile e) => .error (.ringmaster ("error in control file:\n".toList ++ e))
    | .error e => .error e

/-- ringmasters.py:558-573 `_prepare_job` (`write_gtp_logs` is False). -/
def ClopRingmaster.prepare (r : ClopRingmaster) (job : Gtp.GameJob Unit) : Gtp.GameJob Unit :=
  let job : Gtp.GameJob Unit := { job with sgfGameName := some (r.paths.code ++ ' ' :: job.gameId) }
  let job : Gtp.GameJob Unit :=
    if r.recordGames then { job with sgfFilename := some (sgfFilename job.gameId), sgfDirname := some r.paths.sgfDir, voidSgfDirname := some r.paths.voidDir } else job
  if r.stderrToLog then { job with stderrPathname := some r.paths.log } else job

/-- gomill-clop:332-347: the message for a result; `none` is RingmasterError. -/
def clopMessage (candidate : Colour) (stopOnError : Bool) (r : Res) : Option Char :=
  if r.winningColour = some candidate then some 'W'
  else if r.winningColour = some candidate.opponent then some 'L'
  else if r.isJigo then some 'D'
  else if stopOnError then some 'D'
  else none

/-- gomill-clop:403-411: the pairs of arguments; `none` is RingmasterError. -/
def clopPairs : List Str → Option (List (Str × Str))
  | [] => some []
  | [_] => none
  | name :: value :: l => (clopPairs l).map ((name, value) :: ·)

/-- How the game goes: a message, RingmasterError, or another exception. -/
inductive ClopOut where
  | message (c : Char)
  | ringmasterError
  | otherError
  deriving DecidableEq, Repr

/-- The world: the files, what the functions in the control file do, and the engines. -/
structure ClopWorld (σ : Type) where
  control : ControlWorld Unit
  fns : Fns
  text : ClopText
  exist : Str → Bool
  openLog : Str → Bool
  /-- whether a file can be written -/
  writable : Str → Bool
  /-- whether a directory exists or can be made -/
  directory : Str → Bool
  /-- the pathname of this script -/
  script : Str
  job : Gtp.JobWorld σ

/-- gomill-clop:323-347, after the job has run; with what's been logged. -/
def clopResult (t : ClopTuner) (log : List Str) : Gtp.JobOut Unit → ClopOut × List Str
  | .failed _ => (.ringmasterError, log)
  | .crashed => (.otherError, log)
  | .result x =>
    let log := log ++ ("response from game ".toList ++ x.gameId) :: (x.warnings ++ x.logEntries)
    match clopMessage (t.base.chooseColour .w) t.stopOnError x.gameResult.res with
    | some c => (.message c, log)
    | none => (.ringmasterError, log)

/-- gomill-clop:320-321 -/
def clopStart (job : Gtp.GameJob Unit) : Str :=
  "starting game ".toList ++ job.gameId ++ ": ".toList ++ (job.player .b).code ++ " (b) vs ".toList ++ (job.player .w).code ++ " (w)".toList

/-- gomill-clop:307-347 `run_game_for_clop`: the result, and what's logged. `none`: the game doesn't end, or komi isn't finite. -/
def ClopRingmaster.run {σ : Type} (V : ClopWorld σ) (fuel : Nat) (r : ClopRingmaster) (seed : Str) (l : List (Str × Str)) : Option (ClopOut × List Str) :=
  match r.tuner.game V.control.world V.fns V.text (some r.paths.base) seed l with
  | .error (.competition _) => some (.ringmasterError, [])
  | .error (.other _) => some (.otherError, [])
  | .ok none => none
  | .ok (some job) => match Gtp.runJob V.job (r.prepare job) none fuel with
    | none => none
    | some (out, _) => some (clopResult r.tuner [clopStart (r.prepare job)] out)

/-- gomill-clop:397-415 `do_run_game`. -/
def ClopRingmaster.runGame {σ : Type} (V : ClopWorld σ) (fuel : Nat) (r : ClopRingmaster) (arguments : List Str) : Option (ClopOut × List Str) :=
  match arguments with
  | _ :: seed :: rest => match clopPairs rest with
    | none => some (.ringmasterError, [])
    | some l => if V.openLog r.paths.log then r.run V fuel seed l else some (.ringmasterError, [])
  | _ => some (.ringmasterError, [])

/-- gomill-clop:443-466, for the command run-game: what's printed on stdout, the exit status, and what's logged. -/
def clopMain {σ : Type} (V : ClopWorld σ) (fuel : Nat) (control : Str) (arguments : List Str) : Option (Str × Nat × List Str) :=
  if !V.exist control then some ("Error\n".toList, 1, [])
  else match newClop V.control V.fns control with
    | .error (.ringmaster _) => some ("Error\n".toList, 1, [])
    | .error _ => some ("Error\n".toList, 4, [])
    | .ok r => match r.runGame V fuel arguments with
      | none => none
      | some (.message c, log) => some ([c, '\n'], 0, log)
      | some (.ringmasterError, log) => some ("Error\n".toList, 1, log)
      | some (.otherError, log) => some ("Error\n".toList, 4, log)

/-- gomill-clop:376-377 -/
def ClopRingmaster.clopPath (r : ClopRingmaster) : Str := Gtp.pathJoin r.paths.base (r.paths.code ++ ".clop".toList)

/-- gomill-clop:372-395 `do_setup` and 285-299 `ensure_output_directories` (where any failure ends in a NameError): whether it works, and the file which is written. -/
def ClopRingmaster.doSetup {σ : Type} (V : ClopWorld σ) (r : ClopRingmaster) : Bool × Option (Str × Str) :=
  match r.tuner.setup V.fns V.text V.script r.paths.control with
  | none => (false, none)
  | some text =>
    if !V.writable r.clopPath then (false, none)
    else (!r.recordGames || V.directory r.paths.sgfDir, some (r.clopPath, text))

/-- gomill-clop:443-466, for the command setup: the exit status, and the file which is written. -/
def clopSetupMain {σ : Type} (V : ClopWorld σ) (control : Str) : Nat × Option (Str × Str) :=
  if !V.exist control then (1, none)
  else match newClop V.control V.fns control with
    | .error (.ringmaster _) => (1, none)
    | .error _ => (4, none)
    | .ok r => (if (r.doSetup V).1 then 0 else 4, (r.doSetup V).2)

/-- gomill-clop:428-429: `_process_args` of optparse, for a parser with no options but --help; `none` if there's an option, when the program ends after showing help or an error. -/
def positionals : List Str → Option (List Str)
  | [] => some []
  | arg :: l =>
    if arg = "--".toList then some l
    else if arg.head? = some '-' ∧ 1 < arg.length then none
    else (positionals l).map (arg :: ·)

/-- How the program ends. `usage`: it has done nothing but show help or what's wrong with the command line. -/
inductive ClopEnd where
  | usage
  | ran (stdout : Str) (status : Nat) (log : List Str)
  | setUp (status : Nat) (written : Option (Str × Str))
  deriving DecidableEq, Repr

/-- gomill-clop:417-466 `main`. -/
def clopProgram {σ : Type} (V : ClopWorld σ) (fuel : Nat) (argv : List Str) : Option ClopEnd :=
  match positionals argv with
  | some (control :: command :: arguments) =>
    if command = "run-game".toList then (clopMain V fuel control arguments).map (fun x => .ran x.1 x.2.1 x.2.2)
    else if command = "setup".toList then
      if arguments = [] then some (.setUp (clopSetupMain V control).1 (clopSetupMain V control).2) else some .usage
    else some .usage
  | _ => some .usage

end Gomill.Conf
