import Verif.Model.GtpController
import Verif.Model.SgfProps
/-
Model of gomill/gtp_proxy.py: Gtp_proxy; and the handler table and protocol commands of Gtp_engine_protocol (gtp_engine.py:244-277,
385-419), which the proxy's engine uses.

Not modelled: set_back_end_subprocess (starting the process), and calling methods before the back end is set or setting it twice (which raise
StandardError).
-/
namespace Gomill.Gtp
open Py

/-- Exceptions from Gtp_proxy methods. -/
inductive PExc where
  /-- BackEndError (gtp_proxy.py:15-24) -/
  | backEnd (msg : Str) (cause : Option CExc)
  /-- any other exception from the controller -/
  | other (e : CExc)
  deriving DecidableEq, Repr

/-- What may be registered in the proxy engine's `handlers`. -/
inductive Handler (σ : Type) where
  /-- gtp_proxy.py:77-78 -/
  | forward (command : Str)
  /-- gtp_engine.py:385-391 -/
  | knownCommand
  /-- gtp_engine.py:393-395 -/
  | listCommands
  /-- gtp_engine.py:397-399 -/
  | protocolVersion
  /-- gtp_engine.py:401-403 -/
  | engineQuit
  /-- gtp_proxy.py:242-255 -/
  | proxyQuit
  /-- gtp_proxy.py:257-262 -/
  | passthrough
  /-- a handler added by the user of the proxy, which may use the controller.  (Handlers which change the handler table aren't modelled.) -/
  | custom (f : List Str → Ctl σ → Outcome × Ctl σ)

/-- gtp_proxy.py:67-69: a Gtp_proxy, whose back end is set; `handlers` and `exceptionsFatal` are attributes of its engine
(gtp_engine.py:244-246).  The newest entry of `handlers` is the one which counts. -/
structure Proxy (σ : Type) where
  ctl : Ctl σ
  handlers : List (Str × Handler σ)
  exceptionsFatal : Bool

variable {σ : Type}

/-- gtp_engine.py:252-254 `add_command`. -/
def Proxy.addCommand (p : Proxy σ) (command : Str) (h : Handler σ) : Proxy σ := { p with handlers := (command, h) :: p.handlers }

/-- gtp_engine.py:264-273 `remove_command`. -/
def Proxy.removeCommand (p : Proxy σ) (command : Str) : Proxy σ := { p with handlers := p.handlers.filter (fun x => x.1 ≠ command) }

/-- gtp_engine.py:275-277 `list_commands`: the keys of the dictionary, sorted. -/
def Proxy.listCommands (p : Proxy σ) : List Str := Sgf.sortStrs (p.handlers.map (·.1)).eraseDups

/-- gtp_proxy.py:74-89 `_make_back_end_handlers` and `_make_engine`; gtp_engine.py:405-419 `add_protocol_commands`. -/
def makeProxy (ctl : Ctl σ) (backEndCommands : List Str) : Proxy σ where
  ctl := ctl
  handlers :=
    [("gomill-passthrough".toList, .passthrough), ("quit".toList, .proxyQuit),
     ("quit".toList, .engineQuit), ("protocol_version".toList, .protocolVersion), ("list_commands".toList, .listCommands),
     ("known_command".toList, .knownCommand)] ++
    backEndCommands.map (fun c => (c, .forward c))
  exceptionsFatal := false

/-- gtp_proxy.py:91-108 `set_back_end_controller`. -/
def setBackEnd (C : Channel σ) (ctl : Ctl σ) : Except PExc (Proxy σ) × Ctl σ :=
  match ctl.listCommands C with
  | (.ok commands, ctl) => (.ok (makeProxy ctl commands), ctl)
  | (.error (.channel e), ctl) => (.error (.backEnd e.msg (some (.channel e))), ctl)
  | (.error (.badResponse msg m), ctl) => (.error (.backEnd msg (some (.badResponse msg m))), ctl)
  | (.error e, ctl) => (.error (.other e), ctl)

/-- gtp_proxy.py:174-196 `pass_command`. -/
def passCommand (C : Channel σ) (ctl : Ctl σ) (command : Str) (args : List Str) : Except PExc Str × Ctl σ :=
  match ctl.doCommand C command args with
  | (.ok r, ctl) => (.ok r, ctl)
  | (.error (.channel e), ctl) => (.error (.backEnd e.msg (some (.channel e))), ctl)
  | (.error e, ctl) => (.error (.other e), ctl)

/-- The text standing for the traceback of an exception. -/
def tracebackText : CExc → Str
  | .value => "ValueError".toList
  | .channelIsClosed => "StandardError: channel is closed".toList
  | .badResponse msg _ => "BadGtpResponse: ".toList ++ msg
  | .channel e => "GtpChannelError: ".toList ++ e.msg

/-- gtp_proxy.py:198-215 `handle_command`. (`gtp_error_message` is always set by do_command.) -/
def handleCommand (C : Channel σ) (ctl : Ctl σ) (command : Str) (args : List Str) : Outcome × Ctl σ :=
  match passCommand C ctl command args with
  | (.ok r, ctl) => (.value (some r), ctl)
  | (.error (.other (.badResponse _ m)), ctl) => (.gtpError (m.getD []), ctl)
  | (.error (.backEnd msg _), ctl) => (.gtpFatalError msg, ctl)
  | (.error (.other e), ctl) => (.exception (tracebackText e), ctl)

/-- gtp_proxy.py:217-231 `back_end_has_command`. -/
def backEndHasCommand (C : Channel σ) (ctl : Ctl σ) (command : Str) : Except PExc Bool × Ctl σ :=
  match ctl.knownCommand C false command with
  | (.ok r, ctl) => (.ok r, ctl)
  | (.error (.channel e), ctl) => (.error (.backEnd e.msg (some (.channel e))), ctl)
  | (.error e, ctl) => (.error (.other e), ctl)

/-- gtp_proxy.py:233-240 `expect_back_end_exit`. -/
def expectBackEndExit (ctl : Ctl σ) : Ctl σ := { ctl with bad := true }

/-- gtp_proxy.py:242-255 `handle_quit`. -/
def handleQuit (C : Channel σ) (ctl : Ctl σ) : Outcome × Ctl σ :=
  match passCommand C ctl "quit".toList [] with
  | (.ok r, ctl) => (.gtpQuit r, expectBackEndExit ctl)
  | (.error (.backEnd msg cause), ctl) =>
    match cause with
    | some (.channel ⟨.closed, _⟩) => (.gtpQuit [], expectBackEndExit ctl)
    | _ => (.gtpFatalError msg, ctl)
  | (.error (.other (.badResponse _ m)), ctl) => (.gtpFatalError (m.getD []), expectBackEndExit ctl)
  | (.error (.other e), ctl) => (.exception (tracebackText e), ctl)

/-- gtp_proxy.py:257-262 `handle_passthrough`. -/
def handlePassthrough (C : Channel σ) (ctl : Ctl σ) (args : List Str) : Outcome × Ctl σ :=
  match args with
  | [] => (.gtpError "invalid arguments".toList, ctl)
  | command :: rest => handleCommand C ctl command rest

/-- Calling a handler. -/
def Handler.call (C : Channel σ) (p : Proxy σ) (args : List Str) : Handler σ → Outcome × Ctl σ
  | .forward command => handleCommand C p.ctl command args
  | .knownCommand =>
    (.value (some (if args.head?.any (fun a => (p.handlers.lookup a).isSome) then "true".toList else "false".toList)), p.ctl)
  | .listCommands => (.value (some (join ['\n'] p.listCommands)), p.ctl)
  | .protocolVersion => (.value (some "2".toList), p.ctl)
  | .engineQuit => (.gtpQuit [], p.ctl)
  | .proxyQuit => handleQuit C p.ctl
  | .passthrough => handlePassthrough C p.ctl args
  | .custom f => f args p.ctl

/-- The proxy's engine, as it is at this moment. -/
def Proxy.engine (C : Channel σ) (p : Proxy σ) : Engine where
  handlers := fun command => (p.handlers.lookup command).map (fun h args => (h.call C p args).1)
  exceptionsFatal := p.exceptionsFatal

/-- gtp_engine.py:295-338 `run_command` on the proxy's engine. -/
def Proxy.run (C : Channel σ) (p : Proxy σ) (command : Str) (args : List Str) : (Bool × Str × Bool) × Proxy σ :=
  ((p.engine C).runCommand command args,
    match p.handlers.lookup command with
    | none => p
    | some h => { p with ctl := (h.call C p args).2 })

/-- gtp_proxy.py:129-152 `close`. -/
def Proxy.close (C : Channel σ) (p : Proxy σ) : Except PExc Unit × Proxy σ :=
  match p.ctl.safeClose C with
  | (.error e, ctl) => (.error (.other e), { p with ctl := ctl })
  | (.ok (), ctl) =>
    if ctl.errors ≠ [] then (.error (.backEnd (join ['\n'] ctl.errors) none), { p with ctl := ctl })
    else (.ok (), { p with ctl := ctl })

/-! ### Sessions of any engine with state -/

/-- gtp_engine.py:340-383 `handle_line`, for an engine whose `run_command` is `run`. (For an `Engine`, this is `Engine.handleLine`.) -/
def serveLine {ε : Type} (run : ε → Str → List Str → (Bool × Str × Bool) × ε) (e : ε) (line : Str) : Except Exc (Option Str × Bool) × ε :=
  let normalised := preprocessLine line
  if normalised = [] ∨ normalised = [' '] then (.ok (none, false), e)
  else match parseLine normalised with
    | .error x => (.error x, e)
    | .ok (commandId, command, args) =>
      match command with
      | none => (.ok (none, false), e)
      | some command =>
        let r := run e command args
        let code : Char := if r.1.1 then '?' else '='
        let sep : Str := if r.1.2.1 = [] then [] else [' ']
        (.ok (some (code :: ((commandId.getD []) ++ sep ++ r.1.2.1 ++ ['\n', '\n'])), r.1.2.2), r.2)

/-- gtp_engine.py:428-444 `_run_gtp_session`: what is written, and the state of the engine at the end, for the lines read (up to end of file), as
long as no write fails. -/
def serve {ε : Type} (run : ε → Str → List Str → (Bool × Str × Bool) × ε) (e : ε) : List Str → Except Exc Str × ε
  | [] => (.ok [], e)
  | line :: rest =>
    match serveLine run e line with
    | (.error x, e) => (.error x, e)
    | (.ok (response, endSession), e) =>
      let out := response.getD []
      if endSession then (.ok out, e)
      else match serve run e rest with
        | (.error x, e) => (.error x, e)
        | (.ok out', e) => (.ok (out ++ out'), e)

/-- gtp_proxy.py:154-172 `run`, with stdin giving these lines (not a terminal). -/
def Proxy.runProxy (C : Channel σ) (p : Proxy σ) (lines : List Str) : Except Exc Str × Except PExc Unit × Proxy σ :=
  let r := serve (Proxy.run C) p lines
  (r.1, r.2.close C)

end Gomill.Gtp
