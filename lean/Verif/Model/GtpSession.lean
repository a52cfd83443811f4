import Verif.Model.GtpProxy
import Verif.Model.GtpState
/-
Model of the rest of gomill/gtp_engine.py: the handler table of Gtp_engine_protocol with handlers which may change anything (the application's state, and the
table itself), sessions over arbitrary readable and writeable files, interactive sessions, the readline completer, and boolean arguments.

Not modelled: handlers raising something which isn't an Exception (KeyboardInterrupt), unicode responses, and readline's own working (what the user sees while
typing; how it keeps its history).
-/
namespace Gomill.Gtp.Session
open Py

/-- What may be registered for a command. `custom` stands for a Python callable. -/
inductive Handler (η : Type) where
  /-- gtp_engine.py:385-391 -/
  | knownCommand
  /-- gtp_engine.py:393-395 -/
  | listCommands
  /-- gtp_engine.py:397-399 -/
  | protocolVersion
  /-- gtp_engine.py:401-403 -/
  | quit
  | custom (h : η)
  deriving DecidableEq

/-- gtp_engine.py:244-246: a Gtp_engine_protocol.  `handlers` is a dictionary: the newest entry is the one which counts. `app` is whatever else the handlers
can see and change. -/
structure Eng (η σ : Type) where
  handlers : List (Str × Handler η)
  exceptionsFatal : Bool
  app : σ

variable {η σ : Type}

/-- gtp_engine.py:244-246 `__init__`. -/
def Eng.new (app : σ) : Eng η σ := { handlers := [], exceptionsFatal := false, app := app }

/-- gtp_engine.py:248-250 `set_handler_exceptions_fatal`. -/
def Eng.setHandlerExceptionsFatal (e : Eng η σ) (b : Bool) : Eng η σ := { e with exceptionsFatal := b }

/-- gtp_engine.py:252-254 `add_command`. -/
def Eng.addCommand (e : Eng η σ) (command : Str) (h : Handler η) : Eng η σ := { e with handlers := (command, h) :: e.handlers }

/-- gtp_engine.py:256-262 `add_commands`. (The keys of a dictionary are all different.) -/
def Eng.addCommands (e : Eng η σ) (hs : List (Str × Handler η)) : Eng η σ := { e with handlers := hs ++ e.handlers }

/-- gtp_engine.py:264-273 `remove_command`. -/
def Eng.removeCommand (e : Eng η σ) (command : Str) : Eng η σ := { e with handlers := e.handlers.filter (fun x => x.1 ≠ command) }

/-- gtp_engine.py:275-277 `list_commands`. -/
def Eng.listCommands (e : Eng η σ) : List Str := Sgf.sortStrs (e.handlers.map (·.1)).eraseDups

/-- gtp_engine.py:405-419 `add_protocol_commands`. -/
def Eng.addProtocolCommands (e : Eng η σ) : Eng η σ :=
  (((e.addCommand "known_command".toList .knownCommand).addCommand "list_commands".toList .listCommands).addCommand
    "protocol_version".toList .protocolVersion).addCommand "quit".toList .quit

/-- gtp_engine.py:123-128 `format_gtp_boolean`. -/
def formatGtpBoolean (b : Bool) : Str := if b then "true".toList else "false".toList

/-- gtp_engine.py:32-44 `interpret_boolean`: None is GtpError. -/
def interpretBoolean (arg : Str) : Option Bool :=
  if arg = "true".toList then some true else if arg = "false".toList then some false else none

/-- gtp_engine.py:385-403: calling a handler. `B` says what the registered callables do. -/
def Handler.call (B : η → List Str → Eng η σ → Outcome × Eng η σ) (e : Eng η σ) (args : List Str) : Handler η → Outcome × Eng η σ
  | .knownCommand => (.value (some (formatGtpBoolean (args.head?.any (fun a => (e.handlers.lookup a).isSome)))), e)
  | .listCommands => (.value (some (join ['\n'] e.listCommands)), e)
  | .protocolVersion => (.value (some "2".toList), e)
  | .quit => (.gtpQuit [], e)
  | .custom h => B h args e

/-- gtp_engine.py:279-293 `_do_command`. -/
def Eng.doCommand (B : η → List Str → Eng η σ → Outcome × Eng η σ) (e : Eng η σ) (command : Str) (args : List Str) : Outcome × Eng η σ :=
  match e.handlers.lookup command with
  | none => (.gtpError "unknown command".toList, e)
  | some h => match h.call B e args with
    | (.exception tb, e') =>
      (if e'.exceptionsFatal then .gtpFatalError ("internal error; exiting\n".toList ++ tb) else .gtpError ("internal error\n".toList ++ tb), e')
    | r => r

/-- gtp_engine.py:317-338: (is_error, response, end_session), for what `_do_command` returned or raised. -/
def reply : Outcome → Bool × Str × Bool
  | .gtpQuit msg => (false, cleanResponse (some msg), true)
  | .gtpFatalError msg => (true, cleanResponse (some (if msg = [] then "unspecified fatal error".toList else msg)), true)
  | .gtpError msg => (true, cleanResponse (some (if msg = [] then "unspecified error".toList else msg)), false)
  | .value r => (false, cleanResponse r, false)
  | .exception tb => (true, cleanResponse (some tb), false)

/-- gtp_engine.py:295-338 `run_command`. -/
def Eng.run (B : η → List Str → Eng η σ → Outcome × Eng η σ) (e : Eng η σ) (command : Str) (args : List Str) : (Bool × Str × Bool) × Eng η σ :=
  (reply (e.doCommand B command args).1, (e.doCommand B command args).2)

/-! ### Sessions -/

/-- An exception from a file, or from the session. -/
inductive FileExc where
  | eofError
  /-- IOError, with these args -/
  | ioError (errno : Option Nat) (text : Str)
  | controllerDisconnected (errno : Option Nat) (text : Str)
  | other (name : Str)
  deriving DecidableEq, Repr

/-- errno.EPIPE -/
def epipe : Nat := 32

/-- The `read` and `write` functions of a session (gtp_engine.py:428): what they return or raise. A write is `dst.write` and then `dst.flush`
(gtp_engine.py:464-466, 511-513). -/
structure Files (ι ω : Type) where
  read : ι → Except FileExc Str × ι
  write : Str → ω → Option FileExc × ω
  flush : ω → Option FileExc × ω

/-- What happens in a session, in order. -/
inductive Ev where
  | read (line : Str)
  | eof
  | readFailed
  | write (s : Str)
  | flush
  deriving DecidableEq, Repr

/-- How far a session has got. -/
inductive Status where
  | running
  | returned
  | raised (x : FileExc)
  /-- an exception from handle_line -/
  | crashed (x : Exc)
  deriving DecidableEq, Repr

structure St (ε ι ω : Type) where
  engine : ε
  src : ι
  dst : ω
  events : List Ev
  status : Status

variable {ε ι ω : Type}

/-- gtp_engine.py:438-442: the exception which leaves the session when a write raises this one. -/
def writeFailure : FileExc → FileExc
  | .ioError errno text => if errno = some epipe then .controllerDisconnected errno text else .ioError errno text
  | x => x

/-- gtp_engine.py:464-466: `write`: what it does, and what it raises. -/
def Files.send (F : Files ι ω) (s : Str) (w : ω) : List Ev × Option FileExc × ω :=
  match F.write s w with
  | (some x, w) => ([.write s], some x, w)
  | (none, w) => match F.flush w with
    | (some x, w) => ([.write s, .flush], some x, w)
    | (none, w) => ([.write s, .flush], none, w)

/-- gtp_engine.py:434-444: the rest of an iteration, once a line is read. -/
def serveOne (run : ε → Str → List Str → (Bool × Str × Bool) × ε) (F : Files ι ω) (line : Str) (s : St ε ι ω) : St ε ι ω :=
  match serveLine run s.engine line with
  | (.error x, e) => { s with engine := e, status := .crashed x }
  | (.ok (response, endSession), e) =>
    match response with
    | none => { s with engine := e, status := if endSession then .returned else .running }
    | some r =>
      let p := F.send r s.dst
      match p.2.1 with
      | some x => { s with engine := e, dst := p.2.2, events := s.events ++ p.1, status := .raised (writeFailure x) }
      | none => { s with engine := e, dst := p.2.2, events := s.events ++ p.1, status := if endSession then .returned else .running }

/-- gtp_engine.py:429-444 `_run_gtp_session`: one iteration of the loop. -/
def step (run : ε → Str → List Str → (Bool × Str × Bool) × ε) (F : Files ι ω) (s : St ε ι ω) : St ε ι ω :=
  match s.status with
  | .running =>
    match F.read s.src with
    | (.error x, src) =>
      if x = .eofError then { s with src := src, events := s.events ++ [.eof], status := .returned }
      else { s with src := src, events := s.events ++ [.readFailed], status := .raised x }
    | (.ok line, src) => serveOne run F line { s with src := src, events := s.events ++ [.read line] }
  | _ => s

/-- gtp_engine.py:428-444 `_run_gtp_session`: the first `n` iterations. -/
def steps (run : ε → Str → List Str → (Bool × Str × Bool) × ε) (F : Files ι ω) : Nat → St ε ι ω → St ε ι ω
  | 0, s => s
  | n + 1, s => steps run F n (step run F s)

/-- Calling `_run_gtp_session`. -/
def start (e : ε) (src : ι) (dst : ω) : St ε ι ω := { engine := e, src := src, dst := dst, events := [], status := .running }

/-- `src.readline()` for a file with these bytes still to be read: the line, with its newline, and what is left. -/
def readline (inp : Str) : Str × Str :=
  let a := inp.takeWhile (· ≠ '\n')
  match inp.dropWhile (· ≠ '\n') with
  | [] => (a, [])
  | c :: rest => (a ++ [c], rest)

/-- gtp_engine.py:459-463: `read`. -/
def readFile (inp : Str) : Except FileExc Str × Str :=
  let r := readline inp
  if r.1 = [] then (.error .eofError, r.2) else (.ok r.1, r.2)

/-- `raw_input()`, for a terminal at which this is typed: a line without its newline; EOFError if there is nothing more. -/
def rawInput (inp : Str) : Except FileExc Str × Str :=
  let r := readline inp
  if r.1 = [] then (.error .eofError, r.2) else (.ok (if r.1.getLast? = some '\n' then r.1.dropLast else r.1), r.2)

/-- gtp_engine.py:446-467 `run_gtp_session`: the files of the session; `dst` is any file. -/
def fileSession (write : Str → ω → Option FileExc × ω) (flush : ω → Option FileExc × ω) : Files Str ω :=
  { read := readFile, write := write, flush := flush }

/-- gtp_engine.py:511-525: the `read` and `write` of a session at a terminal. -/
def terminalSession (write : Str → ω → Option FileExc × ω) (flush : ω → Option FileExc × ω) : Files Str ω :=
  { read := rawInput, write := write, flush := flush }

/-- gtp_engine.py:469-478 `make_readline_completer`: what the completer made from an engine with these commands returns. -/
def completer (commands : List Str) (text : Str) (state : Nat) : Option Str :=
  ((commands.filter (fun s => text.isPrefixOf s))[state]?).map (· ++ [' '])

/-- The settings of the readline module, as far as gtp_engine.py uses them: `commands` is the list the completer was made from, if it's one made by
make_readline_completer. -/
structure Readline where
  commands : Option (List Str)
  delims : Str
  historySaved : Bool
  deriving DecidableEq, Repr

/-- gtp_engine.py:480-531 `run_interactive_gtp_session`, as it is after `n` iterations of the session.  `isatty`: stdin is a terminal, and readline can be
imported. (Whether the history file can be read or written makes no difference.) -/
def interactive (B : η → List Str → Eng η σ → Outcome × Eng η σ) (write : Str → ω → Option FileExc × ω) (flush : ω → Option FileExc × ω)
    (isatty : Bool) (n : Nat) (e : Eng η σ) (inp : Str) (dst : ω) (rl : Readline) : St (Eng η σ) Str ω × Readline :=
  if isatty then
    let r := steps (Eng.run B) (terminalSession write flush) n (start e inp dst)
    if r.status = .returned then (r, { rl with historySaved := true })
    else (r, { rl with commands := some e.listCommands, delims := [] })
  else (steps (Eng.run B) (fileSession write flush) n (start e inp dst), rl)

end Gomill.Gtp.Session
