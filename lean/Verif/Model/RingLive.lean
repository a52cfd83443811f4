import Verif.Model.RingAny
import Verif.Model.Text
import Verif.Model.SgfText
import Verif.Model.SgfProps
/-
Model of the ringmaster's log, display, terminal and command file: gomill/ringmasters.py 332-364, 508-724, gomill/ringmaster_presenters.py and
gomill/terminal_input.py, on top of RingAny, with an arbitrary competition.

Not modelled: failures to write to the log and history files, stdout and stderr; KeyboardInterrupt.
-/
namespace Gomill.Ring.Live
open Jobs

/-! ### terminal_input.py -/

/-- The attributes of the terminal: as they were, or in the mode in which single characters can be read. -/
inductive Attr where
  | clean
  | cbreak
  deriving DecidableEq, Repr

/-- terminal_input.py:13-15, 23-41: a Terminal_reader, the mode of the terminal, and what has been typed there and not read. -/
structure Terminal where
  enabled : Bool
  mode : Attr
  pending : List Char
  deriving DecidableEq, Repr

/-- What comes of a call to the operating system: success, EnvironmentError, or another exception (termios.error isn't an EnvironmentError). -/
inductive Try where
  | ok
  | environmentError
  | other
  deriving DecidableEq, Repr

/-- What is up to the user and the operating system in `stop_was_requested`: what has been typed since the last time, whether the process is in the foreground
(`none`: tcgetpgrp raises), whether the terminal's mode can be changed, after how many characters reading fails (`none`: it doesn't), and whether the
mode can be changed back. -/
structure TtyEnv where
  typed : List Char
  foreground : Option Bool
  setMode : Try
  readFails : Option Nat
  resetOk : Bool

/-- terminal_input.py:23-41 `initialise`: `termios` and `tty` say whether the module is there and whether the calls at 30-39 all work. -/
def Terminal.initialise (termios tty : Bool) : Terminal := { enabled := termios && tty, mode := .clean, pending := [] }

/-- ^X -/
def ctrlX : Char := Char.ofNat 24

/-- terminal_input.py:67-75: whether ^X was seen, and the characters which haven't been read. -/
def readTty : Option Nat → Bool → List Char → Bool × List Char
  | some 0, _, l => (false, l)
  | _, seen, [] => (seen, [])
  | k, seen, c :: l => readTty (k.map (· - 1)) (seen || c = ctrlX) l

/-- terminal_input.py:48-79 `stop_was_requested`. `error`: an exception. -/
def Terminal.stopWasRequested (e : TtyEnv) (t : Terminal) : Except Unit Bool × Terminal :=
  let t := { t with pending := t.pending ++ e.typed }
  if !t.enabled then (.ok false, t)
  else match e.foreground with
    | none => (.error (), t)
    | some false => (.ok false, t)
    | some true => match e.setMode with
      | .environmentError => (.ok false, t)
      | .other => (.error (), t)
      | .ok =>
        let r := readTty e.readFails false t.pending
        if e.resetOk then (.ok r.1, { t with mode := .clean, pending := r.2 })
        else (.error (), { t with mode := .cbreak, pending := r.2 })

/-! ### effects -/

/-- ringmaster_presenters.py:12-16: the channels on which messages are kept. (The other two are replaced at each update.) -/
inductive Channel where
  | results
  | warnings
  deriving DecidableEq, Repr

/-- What the ringmaster does, in order: an entry in the log file or the history file; a message for the presenter; something printed to stdout or stderr
(without the final newline); `clear` run to clear the screen; something written to the terminal; the command file removed; the status file
written; something between the ringmaster and the competition (the record of RingAny). -/
inductive Eff (σ J X V E : Type) where
  | log (s : Str)
  | history (s : Str)
  | say (c : Channel) (s : Str)
  | out (s : Str)
  | err (s : Str)
  | clear
  | tty (s : Str)
  | removeCommand
  | status (v : Nat × V)
  | act (a : Act σ J X E)

/-! ### ringmaster_presenters.py -/

/-- ringmaster_presenters.py:159-178: how the screen is cleared. -/
inductive ClearMethod where
  | clear
  | newlines
  | delimiter
  deriving DecidableEq, Repr

/-- ringmaster_presenters.py:75-95 Quiet_presenter, or 96-146 Clearing_presenter with the contents of its boxes. -/
structure Screen where
  quiet : Bool
  status : List Str
  report : List Str
  results : List Str
  warnings : List Str
  method : Option ClearMethod
  deriving DecidableEq, Repr

/-- ringmasters.py:360-361; ringmaster_presenters.py:124-131. -/
def Screen.new (quiet : Bool) : Screen := { quiet := quiet, status := [], report := [], results := [], warnings := [], method := none }

/-- What is up to the operating system when the screen is cleared: whether stdout is a terminal, whether `clear` works, and whether there's an environment
variable LINES. -/
structure ScreenEnv where
  isatty : Bool
  clearOk : Bool
  linesSet : Bool

variable {σ J X η V E : Type}

/-- ringmaster_presenters.py:102-107: what is shown of a box. -/
def layout (limit : Nat) (contents : List Str) : Str := Py.join ['\n'] (contents.drop (contents.length - limit))

/-- ringmaster_presenters.py:141-150: one box. -/
def showBox (heading : Option Str) (limit : Nat) (last : Bool) (contents : List Str) : List (Eff σ J X V E) :=
  if contents = [] then []
  else (match heading with
    | none => []
    | some h => [.out ("= ".toList ++ h ++ " = ".toList)]) ++ [.out (layout limit contents)] ++ (if last then [] else [.out []])

/-- ringmaster_presenters.py:157-179 `clear_screen`. (`"LINES"` in the environment is a string, to which 1 can't be added: TypeError.) -/
def Screen.clearScreen (e : ScreenEnv) (s : Screen) : Except Unit Unit × List (Eff σ J X V E) × Screen :=
  let m0 := s.method.getD (if e.isatty then .clear else .delimiter)
  let m1 := if m0 = .clear ∧ ¬ e.clearOk then .newlines else m0
  let tried : List (Eff σ J X V E) := if m0 = .clear then [.clear] else []
  let s := { s with method := some m1 }
  match m1 with
  | .clear => (.ok (), tried, s)
  | .newlines => if e.linesSet then (.error (), tried, s) else (.ok (), tried ++ [.out (List.replicate 81 '\n')], s)
  | .delimiter => (.ok (), tried ++ [.out (List.replicate 78 '-')], s)

/-- ringmaster_presenters.py:116-121, 140-150 `refresh`, of a Clearing_presenter. -/
def Screen.refresh (e : ScreenEnv) (s : Screen) : Except Unit Unit × List (Eff σ J X V E) × Screen :=
  match s.clearScreen (σ := σ) (J := J) (X := X) (V := V) (E := E) e with
  | (.error _, es, s) => (.error (), es, s)
  | (.ok _, es, s) =>
    (.ok (), es ++ showBox none 999 false s.status ++ showBox none 999 false s.report ++ showBox (some "Results".toList) 6 false s.results ++
      showBox (some "Warnings".toList) 4 true s.warnings, s)

/-! ### ringmasters.py -/

/-- The texts which jobs, results and competitions provide: the players' codes; a response's warnings and log entries (game_jobs.py:115-127) and
`game_result.describe()`; what process_game_result returns (`none` is None); what write_screen_report writes; and what the competition's methods log
(`true`: with log_event, `false`: with log_history). -/
structure Texts (σ J X η : Type) where
  black : J → Str
  white : J → Str
  warnings : X → List Str
  logEntries : X → List Str
  describe : X → Str
  described : η → J → X → σ → Option Str
  report : η → σ → Str
  gameLog : η → σ → List (Bool × Str)
  resultLog : η → J → X → σ → List (Bool × Str)
  errorLog : η → J → Nat → σ → List (Bool × Str)

/-- The command file, when the ringmaster looks for it: there is none; reading it fails with this message; or it has these contents; and the message when it
can't be removed. -/
structure CmdEnv where
  file : Option (Except Str Str)
  removeFails : Option Str

/-- What is up to the world in a call: see RingAny's `Env`; the terminal, the command file and the screen; and, for a failed game, the error message. -/
structure LEnv (η : Type) where
  tty : TtyEnv
  cmd : CmdEnv
  screen : ScreenEnv
  message : Str
  pick : Nat
  diskOk : Bool
  call : η
  report : η

/-- A running Ringmaster: what's in RingAny; stopping_reason; worker_count; the terminal; the presenter; and all it has done in this run. -/
structure Desk (σ J X V E : Type) where
  rm : RM σ J X V E
  reason : Str
  workers : Option Nat
  terminal : Terminal
  screen : Screen
  trace : List (Eff σ J X V E)

/-- Exceptions: those of RingAny; one from reading the terminal; TypeError from clearing the screen. -/
inductive DExc (E : Type) where
  | ring (x : RExc E)
  | terminal
  | screen
  deriving DecidableEq, Repr

def Desk.emit (d : Desk σ J X V E) (l : List (Eff σ J X V E)) : Desk σ J X V E := { d with trace := d.trace ++ l }

/-- ringmasters.py:332-334 `log`. -/
def Desk.log (d : Desk σ J X V E) (s : Str) : Desk σ J X V E := d.emit [.log s]

/-- ringmasters.py:341-343 `say`; ringmaster_presenters.py:89-91 (warnings go to stderr; nothing else is shown) and 136-140. -/
def Desk.say (d : Desk σ J X V E) (c : Channel) (s : Str) : Desk σ J X V E :=
  match c with
  | .warnings =>
    if d.screen.quiet then d.emit [.say .warnings s, .err s]
    else Desk.emit { d with screen := { d.screen with warnings := d.screen.warnings ++ [s] } } [.say .warnings s, .out s]
  | .results =>
    if d.screen.quiet then d.emit [.say .results s]
    else Desk.emit { d with screen := { d.screen with results := d.screen.results ++ [s] } } [.say .results s]

/-- ringmasters.py:336-339 `warn`. -/
def Desk.warn (d : Desk σ J X V E) (s : Str) : Desk σ J X V E := (d.log s).say .warnings s

/-- ringmasters.py:345-347, 689-690: what the competition logs. -/
def chat (l : List (Bool × Str)) : List (Eff σ J X V E) := l.map (fun p => if p.1 then .log p.2 else .history p.2)

/-- ringmasters.py:508-516 `_halt_competition`. -/
def Desk.halt (d : Desk σ J X V E) (reason : Str) (rm : RM σ J X V E) : Desk σ J X V E :=
  Desk.log { d with rm := rm, reason := reason } ("halting competition: ".toList ++ reason)

/-- ringmasters.py:527-547: the contents of the status box. -/
def Desk.statusLines (C : Competition σ J X η V E) (d : Desk σ J X V E) : List Str :=
  (if d.rm.stopping then
    (if d.workers = none ∨ d.rm.inProgress = [] then ["halting: ".toList ++ d.reason]
     else ["waiting for workers to finish: ".toList ++ d.reason])
   else []) ++
  (if d.rm.inProgress = [] then []
   else [(if d.workers = none then "game".toList else Py.strInt d.rm.inProgress.length ++ " games".toList) ++ " in progress: ".toList ++
      Py.join [' '] (Sgf.sortStrs (d.rm.inProgress.map C.gameId))]) ++
  (if d.rm.stopping then []
   else (match d.rm.maxGames with
      | none => []
      | some k => ["will start at most ".toList ++ Py.strInt k ++ " more games in this run".toList]) ++
    (if d.terminal.enabled then ["(Ctrl-X to halt gracefully)".toList] else []))

/-- ringmaster_presenters.py:70-75: what a stream sends to its channel when it's closed. -/
def dropNewline (s : Str) : Str := if s.getLast? = some '\n' then s.dropLast else s

/-- ringmasters.py:518-557 `_update_display`. -/
def Desk.updateDisplay (C : Competition σ J X η V E) (T : Texts σ J X η) (e : ScreenEnv) (h : η) (d : Desk σ J X V E) :
    Except (DExc E) Unit × Desk σ J X V E :=
  if d.screen.quiet then (.ok (), d)
  else
    let d := { d with screen := { d.screen with status := d.statusLines C, report := [] } }
    match C.screenReport h d.rm.comp with
    | (.error x, c) => (.error (.ring (.comp x)), Desk.emit { d with rm := { d.rm with comp := c, acts := .raised x :: d.rm.acts } } [.act (.raised x)])
    | (.ok _, c) =>
      let text := (if d.rm.voidGameCount > 0 then Py.strInt d.rm.voidGameCount ++ " void games; see log file.\n".toList else []) ++ T.report h d.rm.comp
      let screen := { d.screen with report := [dropNewline text] }
      match screen.refresh e with
      | (.error _, es, s) => (.error .screen, Desk.emit { d with rm := { d.rm with comp := c }, screen := s } es)
      | (.ok _, es, s) => (.ok (), Desk.emit { d with rm := { d.rm with comp := c }, screen := s } es)

/-- ringmasters.py:622-624 -/
def startMsg (C : Competition σ J X η V E) (T : Texts σ J X η) (j : J) : Str :=
  "starting game ".toList ++ C.gameId j ++ ": ".toList ++ T.black j ++ " (b) vs ".toList ++ T.white j ++ " (w)".toList

/-- ringmasters.py:614-626. -/
def Desk.newGame (C : Competition σ J X η V E) (T : Texts σ J X η) (e : LEnv η) (d : Desk σ J X V E) :
    Except (DExc E) (Option J) × Desk σ J X V E :=
  match C.getGame e.call d.rm.comp with
  | (.error x, c) =>
    (.error (.ring (.comp x)), Desk.emit { d with rm := { d.rm with comp := c, acts := .raised x :: d.rm.acts } }
      (chat (T.gameLog e.call d.rm.comp) ++ [.act (.raised x)]))
  | (.ok none, c) =>
    (.ok none, Desk.emit { d with rm := { d.rm with comp := c, acts := .noGame :: d.rm.acts } } (chat (T.gameLog e.call d.rm.comp) ++ [.act .noGame]))
  | (.ok (some j), c) =>
    if C.gameId j ∈ d.rm.inProgress.map C.gameId then
      (.error (.ring .duplicateGameId), Desk.emit { d with rm := { d.rm with comp := c, acts := .clash j :: d.rm.acts } }
        (chat (T.gameLog e.call d.rm.comp) ++ [.act (.clash j)]))
    else
      (.ok (some j), Desk.emit { d with rm := RM.startJob C { d.rm with comp := c, acts := .offered j :: d.rm.acts } j }
        (chat (T.gameLog e.call d.rm.comp) ++ [.act (.offered j), .log (startMsg C T j)]))

/-- ringmasters.py:611-626. -/
def Desk.nextJob (C : Competition σ J X η V E) (T : Texts σ J X η) (e : LEnv η) (d : Desk σ J X V E) :
    Except (DExc E) (Option J) × Desk σ J X V E :=
  match d.rm.toReplay[e.pick % d.rm.toReplay.length]? with
  | some j =>
    (.ok (some j), Desk.emit
      { d with rm := RM.startJob C { d.rm with toReplay := d.rm.toReplay.filter (fun j' => C.gameId j' ≠ C.gameId j), acts := .again j :: d.rm.acts } j }
      [.act (.again j), .log (startMsg C T j)])
  | none => d.newGame C T e

/-- ringmasters.py:605-626. -/
def Desk.nextUnlessMax (C : Competition σ J X η V E) (T : Texts σ J X η) (e : LEnv η) (d : Desk σ J X V E) :
    Except (DExc E) (Option J) × Desk σ J X V E :=
  match d.rm.maxGames with
  | none => d.nextJob C T e
  | some k =>
    if k = 0 then (.ok none, Desk.halt (d.emit [.act .halted]) "max-games reached for this run".toList d.rm.halt)
    else Desk.nextJob C T e { d with rm := { d.rm with maxGames := some (k - 1) } }

/-- ringmasters.py:593-626. -/
def Desk.afterTerminal (C : Competition σ J X η V E) (T : Texts σ J X η) (e : LEnv η) (d : Desk σ J X V E) :
    Except (DExc E) (Option J) × Desk σ J X V E :=
  match e.cmd.file with
  | none => d.nextUnlessMax C T e
  | some (.error m) => (d.warn ("error reading .cmd file:\n".toList ++ m)).nextUnlessMax C T e
  | some (.ok command) =>
    if command = "stop".toList then
      let d := Desk.halt (d.emit [.act .halted]) "stop command received".toList d.rm.halt
      match e.cmd.removeFails with
      | none => (.ok none, d.emit [.removeCommand])
      | some m => (.ok none, d.warn ("error removing .cmd file:\n".toList ++ m))
    else d.nextUnlessMax C T e

/-- ringmasters.py:581-626 `_get_job`; terminal_input.py:81-83 `acknowledge`. -/
def Desk.getJob1 (C : Competition σ J X η V E) (T : Texts σ J X η) (e : LEnv η) (d : Desk σ J X V E) :
    Except (DExc E) (Option J) × Desk σ J X V E :=
  if d.rm.stopping then (.ok none, d)
  else match d.terminal.stopWasRequested e.tty with
    | (.error _, t) => (.error .terminal, { d with terminal := t })
    | (.ok true, t) =>
      let d := Desk.halt (Desk.emit { d with terminal := t } [.act .halted]) "stop instruction received from terminal".toList d.rm.halt
      (.ok none, if d.screen.quiet then d.emit [.tty "\rCtrl-X received; halting\n".toList] else d)
    | (.ok false, t) => Desk.afterTerminal C T e { d with terminal := t }

/-- ringmasters.py:575-579 `get_job`. -/
def Desk.getJob (C : Competition σ J X η V E) (T : Texts σ J X η) (e : LEnv η) (d : Desk σ J X V E) :
    Except (DExc E) (Option J) × Desk σ J X V E :=
  match d.getJob1 C T e with
  | (.error x, d) => (.error x, d)
  | (.ok r, d) => match d.updateDisplay C T e.screen e.report with
    | (.error x, d) => (.error x, d)
    | (.ok _, d) => (.ok r, d)

/-- ringmasters.py:383-401 `write_status`. -/
def Desk.writeStatus (C : Competition σ J X η V E) (e : LEnv η) (d : Desk σ J X V E) : Except (DExc E) Unit × Desk σ J X V E :=
  if e.diskOk then
    (.ok (), Desk.emit { d with rm := { d.rm with disk := some (d.rm.voidGameCount, C.save d.rm.comp) } } [.status (d.rm.voidGameCount, C.save d.rm.comp)])
  else (.error (.ring .statusWrite), d)

/-- ringmasters.py:632-635: the warnings and log entries of a response. -/
def Desk.passOn (T : Texts σ J X η) (x : X) (d : Desk σ J X V E) : Desk σ J X V E :=
  (T.logEntries x).foldl Desk.log ((T.warnings x).foldl Desk.warn d)

/-- ringmasters.py:628-643 `process_response`. -/
def Desk.processResponse (C : Competition σ J X η V E) (T : Texts σ J X η) (e : LEnv η) (j : J) (x : X) (d : Desk σ J X V E) :
    Except (DExc E) Unit × Desk σ J X V E :=
  let d := (d.log ("response from game ".toList ++ C.gameId j)).passOn T x
  let d := d.emit (chat (T.resultLog e.call j x d.rm.comp))
  match C.processResult e.call j x d.rm.comp with
  | (.error y, c) => (.error (.ring (.comp y)), Desk.emit { d with rm := { d.rm with comp := c, acts := .raised y :: d.rm.acts } } [.act (.raised y)])
  | (.ok _, c) =>
    let description := (T.described e.call j x d.rm.comp).getD (T.describe x)
    let d := Desk.emit { d with rm := { d.rm with comp := c, acts := .result j x c :: d.rm.acts } } [.act (.result j x c)]
    match popJob C d.rm.inProgress (C.gameId j) with
    | none => (.error (.ring .keyError), d)
    | some (_, p) => match Desk.writeStatus C e { d with rm := { d.rm with inProgress := p } } with
      | (.error y, d) => (.error y, d)
      | (.ok _, d) => (.ok (), d.say .results ("game ".toList ++ C.gameId j ++ ": ".toList ++ description))

/-- ringmasters.py:645-665 `process_error_response`. -/
def Desk.processError (C : Competition σ J X η V E) (T : Texts σ J X η) (e : LEnv η) (j : J) (d : Desk σ J X V E) :
    Except (DExc E) Unit × Desk σ J X V E :=
  let d := d.warn ("game ".toList ++ C.gameId j ++ " -- ".toList ++ e.message)
  let count := errorCount d.rm.errorCounts (C.gameId j)
  let d := d.emit (chat (T.errorLog e.call j count d.rm.comp))
  match C.processError e.call j count d.rm.comp with
  | (.error y, c) =>
    (.error (.ring (.comp y)), Desk.emit
      { d with rm := { d.rm with comp := c, voidGameCount := d.rm.voidGameCount + 1, acts := .raised y :: d.rm.acts } } [.act (.raised y)])
  | (.ok (stop, retry), c) =>
    let d := Desk.emit { d with rm := { d.rm with comp := c, voidGameCount := d.rm.voidGameCount + 1, acts := .failed j count stop retry c :: d.rm.acts } }
      [.act (.failed j count stop retry c)]
    match d.rm.bookError C j count (retry && !stop) with
    | none => (.error (.ring .keyError), d)
    | some rm => match Desk.writeStatus C e { d with rm := rm } with
      | (.error y, d) => (.error y, d)
      | (.ok _, d) =>
        if stop && !d.rm.stopping then
          let d := d.say .warnings "halting run due to void games".toList
          (.ok (), d.halt "too many void games".toList { d.rm with stopping := true })
        else (.ok (), d)

/-- The ringmaster as a job source (ringmasters.py:702-706). -/
def source (C : Competition σ J X η V E) (T : Texts σ J X η) : Source (Desk σ J X V E) J X (LEnv η) (DExc E) where
  getJob := Desk.getJob C T
  processResponse := Desk.processResponse C T
  processError := Desk.processError C T

/-- `str(max_games)` -/
def maxGamesText : Option Int → Str
  | none => "None".toList
  | some k => Py.strInt k

/-- ringmasters.py:692-700: the start of `run`, once the status has been loaded or reset. -/
def Desk.start (C : Competition σ J X η V E) (T : Texts σ J X η) (now : Str) (quiet : Bool) (workers : Option Nat) (terminal : Terminal) (maxGames : Option Int)
    (e : LEnv η) (rm : RM σ J X V E) : Except (DExc E) Unit × Desk σ J X V E :=
  let d : Desk σ J X V E := { rm := rm, reason := [], workers := workers, terminal := terminal, screen := Screen.new quiet, trace := [] }
  let d := d.log ("run started at ".toList ++ now ++ " with max_games ".toList ++ maxGamesText maxGames)
  let d := match workers with
    | none => d
    | some n => d.log ("using ".toList ++ Py.strInt n ++ " worker processes".toList)
  Desk.updateDisplay C T e.screen e.report { d with rm := { d.rm with maxGames := maxGames } }

/-- ringmasters.py:681-687 `log_games_in_progress`. -/
def Desk.logInProgress (C : Competition σ J X η V E) (d : Desk σ J X V E) : Desk σ J X V E :=
  d.log ("games in progress were: ".toList ++ Py.join [' '] (Sgf.sortStrs (d.rm.inProgress.map C.gameId)))

/-- ringmasters.py:411-424, 711-724: the end of `run`. `text` is the text of the exception. RingmasterError (the status file can't be written) and
CompetitionError are errors; anything else is an internal error, given as RingmasterInternalError or JobSourceError. `isCompetitionError` says which
of the competition's exceptions are CompetitionErrors. -/
def Desk.finish (C : Competition σ J X η V E) (isCompetitionError : E → Bool) (now text : Str) (x : Option (DExc E)) (d : Desk σ J X V E) : Desk σ J X V E :=
  match x with
  | none => d.log ("run finished at ".toList ++ now)
  | some x =>
    let ordinary := match x with
      | .ring .statusWrite => true
      | .ring (.comp y) => isCompetitionError y
      | _ => false
    (d.log ((if ordinary then "run finished with error at ".toList else "run finished with internal error at ".toList) ++ now ++ '\n' :: text)).logInProgress C

end Gomill.Ring.Live
