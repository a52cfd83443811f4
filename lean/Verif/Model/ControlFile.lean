import Verif.Model.Allplayall
/-
Model of ringmasters.py:27-116, 129-245 and 307-324: finding and reading the control file.
-/
namespace Gomill.Conf
open Py

/-! ### Pathnames -/

/-- `os.path.split(p)` on POSIX: the directory and the name. -/
def pathSplit (p : Str) : Str × Str :=
  let head := (p.reverse.dropWhile (· ≠ '/')).reverse
  let tail := (p.reverse.takeWhile (· ≠ '/')).reverse
  (if head.all (· = '/') then head else (head.reverse.dropWhile (· = '/')).reverse, tail)

/-- `os.path.splitext(p)`, for a name without slashes. -/
def splitExt (p : Str) : Str × Str :=
  match p.reverse.dropWhile (· ≠ '.') with
  | [] => (p, [])
  | _ :: r => if r.any (· ≠ '.') then (r.reverse, '.' :: (p.reverse.takeWhile (· ≠ '.')).reverse) else (p, [])

/-- Exceptions from making a Ringmaster: RingmasterError, ControlFileError, or another one. -/
inductive RmExc where
  | ringmaster (msg : Str)
  | controlFile (msg : Str)
  | other (e : Err)
  deriving DecidableEq, Repr

/-- ringmasters.py:99-100 -/
def forbiddenExtensions : List Str :=
  [".log".toList, ".status".toList, ".cmd".toList, ".hist".toList, ".report".toList, ".games".toList, ".void".toList, ".gtplogs".toList]

/-- ringmasters.py:96-110: the pathnames. -/
structure Paths where
  control : Str
  base : Str
  code : Str
  log : Str
  status : Str
  command : Str
  history : Str
  report : Str
  sgfDir : Str
  voidDir : Str
  gtplogDir : Str
  deriving DecidableEq, Repr

/-- ringmasters.py:96-110, from `__init__`. -/
def pathsOf (control : Str) : Except RmExc Paths :=
  let (base, filename) := pathSplit control
  let (code, ext) := splitExt filename
  if ext ∈ forbiddenExtensions then .error (.ringmaster ("forbidden control file extension: ".toList ++ ext))
  else
    let stem := Gtp.pathJoin base code
    .ok { control, base, code, log := stem ++ ".log".toList, status := stem ++ ".status".toList, command := stem ++ ".cmd".toList, history := stem ++ ".hist".toList,
          report := stem ++ ".report".toList, sgfDir := stem ++ ".games".toList, voidDir := stem ++ ".void".toList, gtplogDir := stem ++ ".gtplogs".toList }

/-! ### The competition type -/

/-- ringmasters.py:204-210: the first line which isn't blank or a comment. -/
def firstLine : List Str → Option Str
  | [] => none
  | line :: lines =>
    if lstrip line = [] ∨ (lstrip line).head? = some '#' then firstLine lines else some line

/-- `['\"]` -/
def isQuote (c : Char) : Bool := c = '\'' || c = '"'

/-- `[_a-zA-Z0-9]` -/
def isTypeChar (c : Char) : Bool := c = '_' || c.isAlphanum

/-- ringmasters.py:212-217: the regular expression `competition_type\s*=\s*(['\"])([_a-zA-Z0-9]+)(['\"])$`, and the check that the quotation marks are the same.
(The line has no newline in it.) -/
def matchType (line : Str) : Option Str :=
  if "competition_type".toList.isPrefixOf line then
    match (line.drop "competition_type".toList.length).dropWhile isSpace with
    | '=' :: r => match r.dropWhile isSpace with
      | q :: r => match r.dropWhile isTypeChar with
        | [q'] => if isQuote q && isQuote q' && decide (q = q') && !(r.takeWhile isTypeChar).isEmpty then some (r.takeWhile isTypeChar) else none
        | _ => none
      | [] => none
    | _ => none
  else none

/-- ringmasters.py:192-218 `_parse_competition_type`; ValueError is `none`. -/
def parseCompetitionType (source : Str) : Option Str :=
  match firstLine (splitOn '\n' source) with
  | none => none
  | some line => matchType line

/-! ### Reading the control file -/

/-- A competition; those which are tuners aren't modelled here. -/
inductive Competition (τ : Type) where
  | playoff (p : Playoff)
  | allplayall (a : Allplayall)
  | tuner (t : τ)

/-- What the Ringmaster uses: reading a file (or the text of an EnvironmentError), interpreting Python text (ringmasters.py:27-47) with the globals for this type of
competition (or the text of the exception), initialising a tuner (of the given type, with the base directory and competition code), and describing an exception. -/
structure ControlWorld (τ : Type) where
  world : World
  read : Str → Except Str Str
  exec : Str → Str → Except Str (List (Str × Val))
  tuner : Str → Option Str → Str → List (Str × Val) → Except Err τ
  trace : Err → Str

/-- A Ringmaster, after `__init__`. -/
structure Ringmaster (τ : Type) where
  paths : Paths
  competitionType : Str
  competition : Competition τ
  recordGames : Bool
  stderrToLog : Bool
  skipPlayerChecks : Bool

/-- ringmasters.py:307-311 `ringmaster_settings`. -/
def ringmasterSettings : List Setting := [
  { name := "record_games".toList, interpreter := sv interpretBool .bool, default := some (.bool true) },
  { name := "stderr_to_log".toList, interpreter := sv interpretBool .bool, default := some (.bool true) },
  { name := "skip_player_checks".toList, interpreter := sv interpretBool .bool, default := some (.bool false) } ]

/-- ringmasters.py:313-324 `_initialise_from_control_file`. -/
def ringmasterFlags (W : World) (config : List (Str × Val)) : Except Err (Bool × Bool × Bool) := do
  let d ← toControl (loadSettings W config true false ringmasterSettings [])
  let r ← boolOf d "record_games"
  let e ← boolOf d "stderr_to_log"
  let s ← boolOf d "skip_player_checks"
  return (r, e, s)

/-- ringmasters.py:175-189: a ControlFileError is passed on; any other exception becomes a RingmasterError. -/
def handled {τ α : Type} (C : ControlWorld τ) : Except Err α → Except RmExc α
  | .ok x => .ok x
  | .error e => .error (if e.kind = .controlFile then .controlFile e.msg else .ringmaster ("unhandled error in control file:\n".toList ++ C.trace e))

/-- ringmasters.py:172 `config.get("competition_type") != self.competition_type`, negated. (Only strings are taken to be equal to a string.) -/
def sameType (config : List (Str × Val)) (type : Str) : Bool :=
  match config.lookup "competition_type".toList with
  | some (.str s) => decide (s = type)
  | some (.unicode s) => decide (s = type)
  | _ => false

/-- ringmasters.py:147-154, 222-245 `_get_competition_class`: how to initialise the competition; `none` for ValueError. -/
def competitionOf {τ : Type} (C : ControlWorld τ) (type : Str) (base code : Str) : Option (List (Str × Val) → Except Err (Competition τ)) :=
  if type = "playoff".toList then some (fun config => Competition.playoff <$> initPlayoff C.world (some base) code config)
  else if type = "allplayall".toList then some (fun config => Competition.allplayall <$> initAllplayall C.world (some base) code config)
  else if type = "ce_tuner".toList ∨ type = "mc_tuner".toList then some (fun config => Competition.tuner <$> C.tuner type (some base) code config)
  else none

/-- ringmasters.py:129-189 `_read_control_file` and `_load_control_file`. -/
def loadControlFile {τ : Type} (C : ControlWorld τ) (paths : Paths) : Except RmExc (Ringmaster τ) :=
  match C.read paths.control with
  | .error e => .error (.ringmaster ("failed to read control file:\n".toList ++ e))
  | .ok source => match parseCompetitionType source with
    | none => .error (.controlFile "can't find competition_type".toList)
    | some type => match competitionOf C type paths.base paths.code with
      | none => .error (.controlFile ("unknown competition type: ".toList ++ type))
      | some initialise =>
        if !Sgf.utf8Valid source then .error (.controlFile "file is not encoded in utf-8".toList)
        else match C.exec type source with
          | .error e => .error (.controlFile e)
          | .ok config =>
            if !sameType config type then .error (.controlFile "competition_type improperly specified".toList)
            else match handled C (ringmasterFlags C.world config) with
              | .error e => .error e
              | .ok flags => match handled C (initialise config) with
                | .error e => .error e
                | .ok competition => .ok { paths, competitionType := type, competition, recordGames := flags.1, stderrToLog := flags.2.1, skipPlayerChecks := flags.2.2 }

/-- ringmasters.py:77-116 `__init__`. -/
def newRingmaster {τ : Type} (C : ControlWorld τ) (control : Str) : Except RmExc (Ringmaster τ) :=
  match pathsOf control with
  | .error e => .error e
  | .ok paths => match loadControlFile C paths with
    | .ok r => .ok r
    | .error (.controlFile e) => .error (.ringmaster ("error in control file:\n".toList ++ e))
    | .error e => .error e

end Gomill.Conf
