import Verif.Model.ControlFile
import Verif.Model.GameJob
/-
Model of ringmaster_command_line.py, of ringmasters.py:756-789 (`check_players`) and of ringmasters.py:403-449 (loading the status file).
-/
namespace Gomill.Conf
open Py

/-! ### The command line -/

/-- The exceptions which ringmaster_command_line.py:102-114 distinguishes. The text is what str() gives. -/
inductive CmdExc where
  | ringmaster (msg : Str)
  | interrupt
  | internal (msg : Str)
  | other (traceback : Str)
  deriving DecidableEq, Repr

/-- What the command-line program does with the filesystem and the Ringmaster. Setting attributes of the Ringmaster (enable_gtp_logging, set_display_mode('quiet') and
set_parallel_worker_count) can't fail, and only matters for `run`, so those values are shown as parameters of `run`. -/
inductive Call where
  | controlExists
  | make
  | checkPlayers (discardStderr quiet : Bool)
  | statusExists
  | loadStatus
  | setCleanStatus
  | run (maxGames : Option Int) (gtpLogs quiet : Bool) (workers : Option Int)
  | report
  | writeStop
  | printStatusReport
  | deleteStateAndOutput
  | printStatus
  deriving DecidableEq, Repr

/-- The answer to a question, completion of an action, or an exception. -/
inductive Event where
  | asked (c : Call) (answer : Bool)
  | did (c : Call)
  | raised (c : Call) (e : CmdExc)
  deriving DecidableEq, Repr

/-- How the calls behave: the questions (`controlExists`, `checkPlayers` and `statusExists`) and the other calls. -/
structure CmdWorld (σ : Type) where
  ask : Call → σ → Except CmdExc Bool × σ
  perform : Call → σ → Except CmdExc Unit × σ

/-- The state of the world, what has happened, and what has been printed to stdout and stderr. -/
structure CmdSt (σ : Type) where
  s : σ
  events : List Event
  out : List Str
  err : List Str

variable {σ α β : Type}

/-- Sequencing. -/
def andThen (x : Except CmdExc α × CmdSt σ) (f : α → CmdSt σ → Except CmdExc β × CmdSt σ) : Except CmdExc β × CmdSt σ :=
  match x with
  | (.error e, st) => (.error e, st)
  | (.ok a, st) => f a st

def ask (W : CmdWorld σ) (c : Call) (st : CmdSt σ) : Except CmdExc Bool × CmdSt σ :=
  match W.ask c st.s with
  | (.ok b, s) => (.ok b, { st with s := s, events := st.events ++ [.asked c b] })
  | (.error e, s) => (.error e, { st with s := s, events := st.events ++ [.raised c e] })

def perform (W : CmdWorld σ) (c : Call) (st : CmdSt σ) : Except CmdExc Unit × CmdSt σ :=
  match W.perform c st.s with
  | (.ok (), s) => (.ok (), { st with s := s, events := st.events ++ [.did c] })
  | (.error e, s) => (.error e, { st with s := s, events := st.events ++ [.raised c e] })

def CmdSt.print (st : CmdSt σ) (s : Str) : CmdSt σ := { st with out := st.out ++ [s] }

/-- The options, ringmaster_command_line.py:75-82. -/
structure Options where
  maxGames : Option Int
  parallel : Option Int
  quiet : Bool
  logGtp : Bool

/-- ringmaster_command_line.py:59-67 -/
inductive Command where
  | run | stop | show | report | reset | check | debugstatus
  deriving DecidableEq, Repr

/-- ringmaster_command_line.py:15-32 `do_run`. -/
def doRun (W : CmdWorld σ) (o : Options) (st : CmdSt σ) : Except CmdExc Nat × CmdSt σ :=
  let st := if o.quiet then st else st.print "running startup checks on all players".toList
  andThen (ask W (.checkPlayers true o.quiet) st) fun ok st =>
  if !ok then (.ok 1, st.print "(use the 'check' command to see stderr output)".toList) else
  andThen (ask W .statusExists st) fun ex st =>
  andThen (perform W (if ex then .loadStatus else .setCleanStatus) st) fun _ st =>
  andThen (perform W (.run o.maxGames o.logGtp o.quiet o.parallel) st) fun _ st =>
  andThen (perform W .report st) fun _ st => (.ok 0, st)

/-- ringmaster_command_line.py:34-35 `do_stop`. -/
def doStop (W : CmdWorld σ) (st : CmdSt σ) : Except CmdExc Nat × CmdSt σ := andThen (perform W .writeStop st) fun _ st => (.ok 0, st)

/-- ringmaster_command_line.py:37-47 `do_show` and `do_report`. -/
def doShow (W : CmdWorld σ) (c : Call) (st : CmdSt σ) : Except CmdExc Nat × CmdSt σ :=
  andThen (ask W .statusExists st) fun ex st =>
  if !ex then (.error (.ringmaster "no status file".toList), st) else
  andThen (perform W .loadStatus st) fun _ st =>
  andThen (perform W c st) fun _ st => (.ok 0, st)

/-- ringmaster_command_line.py:49-50 `do_reset`. -/
def doReset (W : CmdWorld σ) (st : CmdSt σ) : Except CmdExc Nat × CmdSt σ := andThen (perform W .deleteStateAndOutput st) fun _ st => (.ok 0, st)

/-- ringmaster_command_line.py:52-54 `do_check`. -/
def doCheck (W : CmdWorld σ) (o : Options) (st : CmdSt σ) : Except CmdExc Nat × CmdSt σ :=
  andThen (ask W (.checkPlayers false o.quiet) st) fun ok st => if !ok then (.ok 1, st) else (.ok 0, st)

/-- ringmaster_command_line.py:56-57 `do_debugstatus`. -/
def doDebugstatus (W : CmdWorld σ) (st : CmdSt σ) : Except CmdExc Nat × CmdSt σ := andThen (perform W .printStatus st) fun _ st => (.ok 0, st)

/-- ringmaster_command_line.py:59-67 `_actions`. -/
def action (W : CmdWorld σ) (o : Options) : Command → CmdSt σ → Except CmdExc Nat × CmdSt σ
  | .run => doRun W o
  | .stop => doStop W
  | .show => doShow W .printStatusReport
  | .report => doShow W .report
  | .reset => doReset W
  | .check => doCheck W o
  | .debugstatus => doDebugstatus W

/-- ringmaster_command_line.py:59-67: the names of the commands. -/
def commandNamed (name : Str) : Option Command :=
  ([("run".toList, Command.run), ("stop".toList, .stop), ("show".toList, .show), ("report".toList, .report), ("reset".toList, .reset), ("check".toList, .check),
    ("debugstatus".toList, .debugstatus)]).lookup name

/-- ringmaster_command_line.py:84-96: the control file and the command, or the text for `parser.error`. -/
def parseArgs : List Str → Except Str (Str × Command)
  | [] => .error "no control file specified".toList
  | [path] => .ok (path, .run)
  | [path, name] => match commandNamed name with
    | some c => .ok (path, c)
    | none => .error ("no such command: ".toList ++ name)
  | _ => .error "too many arguments".toList

/-- ringmaster_command_line.py:97-101. -/
def mainBody (W : CmdWorld σ) (path : Str) (c : Command) (o : Options) (st : CmdSt σ) : Except CmdExc Nat × CmdSt σ :=
  andThen (ask W .controlExists st) fun ex st =>
  if !ex then (.error (.ringmaster ("control file ".toList ++ path ++ " not found".toList)), st) else
  andThen (perform W .make st) fun _ st => action W o c st

/-- ringmaster_command_line.py:83-115 `run`, after the options have been parsed: the exit status, and the state. `parser.error` prints the usage and the message, and
exits with status 2. -/
def cmdMain (W : CmdWorld σ) (args : List Str) (o : Options) (s : σ) : Nat × CmdSt σ :=
  let st : CmdSt σ := ⟨s, [], [], []⟩
  match parseArgs args with
  | .error e => (2, { st with err := ["ringmaster: error: ".toList ++ e] })
  | .ok (path, c) => match mainBody W path c o st with
    | (.ok n, st) => (n, st)
    | (.error (.ringmaster e), st) => (1, { st with err := st.err ++ ["ringmaster: ".toList ++ e] })
    | (.error .interrupt, st) => (3, st)
    | (.error (.internal e), st) => (4, { st with err := st.err ++ ["ringmaster: internal error".toList, e] })
    | (.error (.other e), st) => (4, { st with err := st.err ++ ["ringmaster: internal error".toList, e] })

/-! ### Checking players -/

/-- game_jobs.py `Player_check`. -/
structure StartupCheck where
  player : Gtp.JobPlayer
  boardSize : Nat
  komi : Rat

/-- ringmasters.py:775-788: the loop. The result (`none` for an exception other than CheckFailed), and the lines printed. -/
def checkLoop (W : Gtp.JobWorld σ) (isDir : Str → Bool) (discardStderr : Bool) : List StartupCheck → List Str → Option Bool × List Str
  | [], out => (some true, out)
  | c :: cs, out =>
    let out := if discardStderr then out else out ++ ["checking player ".toList ++ c.player.code]
    match (Gtp.checkPlayer W isDir c.player c.boardSize c.komi discardStderr).1 with
    | none => (none, out)
    | some (.error e) => (some false, out ++ ["player ".toList ++ c.player.code ++ " failed startup check:\n".toList ++ e])
    | some (.ok msgs) => checkLoop W isDir discardStderr cs (if discardStderr then out else out ++ msgs)

/-- ringmasters.py:756-789 `check_players`, after `get_player_checks`. -/
def checkPlayers (W : Gtp.JobWorld σ) (isDir : Str → Bool) (skip discardStderr quiet : Bool) (checks : List StartupCheck) : Option Bool × List Str :=
  if skip && discardStderr then
    (some true, if quiet then [] else ["skipping ".toList ++ strInt checks.length ++ " Player checks".toList])
  else checkLoop W isDir discardStderr checks []

/-! ### Loading the status file -/

/-- The exceptions from `_load_status` (or from using what it gives), as ringmasters.py:419-427 distinguishes them. -/
inductive LoadExc where
  | unpickling
  | environment (e : Str)
  | key (k : Str)
  | exception
  deriving DecidableEq, Repr

/-- The exceptions from the competition's `set_status`, as ringmasters.py:430-437 distinguishes them. -/
inductive SetExc where
  | competition (e : Str)
  | key (k : Str)
  | exception (traceback : Str)
  deriving DecidableEq, Repr

/-- The status dict in a status file. A `none` is a missing key. `κ` is for the competition's status. -/
structure StatusDict (κ : Type) where
  voidGameCount : Option Nat
  compVersion : Option Nat
  comp : Option κ

/-- A Ringmaster's status. `γ` is for the competition. -/
structure RmStatus (γ : Type) where
  competition : γ
  voidGameCount : Nat
  gamesInProgress : List Str
  gamesToReplay : List Str
  loaded : Bool

/-- `status[k]`; the text is the key's repr. -/
def need {α : Type} (k : String) : Option α → Except LoadExc α
  | none => .error (.key k.toList)
  | some x => .ok x

variable {κ γ : Type}

/-- ringmasters.py:411-418: the void game count and the competition's status. The first argument is what unpickling the file gave: a pair of a version number and the
status, unless there was an exception. (A file with something else in it is an exception from unpacking.) -/
def readStatus (file : Except LoadExc (Nat × StatusDict κ)) (version compVersion : Nat) : Except LoadExc (Nat × κ) := do
  let (v, d) ← file
  if v ≠ version then throw .exception
  let cv ← need "'comp_vn'" d.compVersion
  if cv ≠ compVersion then throw .exception
  let n ← need "'void_game_count'" d.voidGameCount
  let c ← need "'comp'" d.comp
  return (n, c)

/-- ringmasters.py:419-427 -/
def LoadExc.message : LoadExc → Str
  | .unpickling => "corrupt status file".toList
  | .environment e => "error loading status file:\n".toList ++ e
  | .key k => "incompatible status file: missing ".toList ++ k
  | .exception => "incompatible status file".toList

/-- ringmasters.py:430-437 -/
def SetExc.message : SetExc → Str
  | .competition e => "error loading competition state: ".toList ++ e
  | .key k => "error loading competition state: missing ".toList ++ k
  | .exception t => "error loading competition state:\n".toList ++ t

/-- ringmasters.py:408-438 `load_status`: RingmasterError, or the new status. When reading fails at `status['comp']`, the void game count and the dicts have been set (which doesn't matter, as the
program stops). -/
def loadStatus (setStatus : κ → γ → Except SetExc γ) (file : Except LoadExc (Nat × StatusDict κ)) (version compVersion : Nat) (r : RmStatus γ) : Except Str (RmStatus γ) :=
  match readStatus file version compVersion with
  | .error e => .error e.message
  | .ok (n, c) => match setStatus c r.competition with
    | .error e => .error e.message
    | .ok g => .ok { competition := g, voidGameCount := n, gamesInProgress := [], gamesToReplay := [], loaded := true }

/-- ringmasters.py:440-449 `set_clean_status`. -/
def setCleanStatus (clean : γ → Except Str γ) (r : RmStatus γ) : Except Str (RmStatus γ) :=
  match clean r.competition with
  | .error e => .error e
  | .ok g => .ok { competition := g, voidGameCount := 0, gamesInProgress := [], gamesToReplay := [], loaded := true }

/-- ringmasters.py:390-401 `write_status`: what's pickled. -/
def statusToWrite (getStatus : γ → κ) (version compVersion : Nat) (r : RmStatus γ) : Nat × StatusDict κ :=
  (version, { voidGameCount := some r.voidGameCount, compVersion := some compVersion, comp := some (getStatus r.competition) })

end Gomill.Conf
