import Verif.Model.GtpChannel
/-
Model of gomill/gtp_controller.py: Gtp_channel as Gtp_controller sees it, Internal_gtp_channel, and Gtp_controller.
-/
namespace Gomill.Gtp
open Py

/-- gtp_controller.py:17-33: GtpTransportError, GtpProtocolError, GtpChannelClosed, and GtpChannelError itself (`other`). -/
inductive ChKind where
  | transport
  | protocol
  | closed
  | other
  deriving DecidableEq, Repr

/-- A GtpChannelError. -/
structure ChErr where
  kind : ChKind
  msg : Str
  deriving DecidableEq, Repr

/-- gtp_controller.py:72-199 Gtp_channel: `send_command_impl`, `get_response_impl` and `close` are any functions on the state of
the channel (and the engine), which may raise GtpChannelError (`close`: GtpTransportError, with the text).  Logging isn't
modelled. -/
structure Channel (σ : Type) where
  send : Str → List Str → σ → Except ChErr Unit × σ
  recv : σ → Except ChErr (Bool × Str) × σ
  close : σ → Option Str × σ

/-- Exceptions from Gtp_controller. -/
inductive CExc where
  /-- BadGtpResponse; the `gtp_error_message` attribute -/
  | badResponse (msg : Str) (gtpErrorMessage : Option Str)
  /-- GtpChannelError -/
  | channel (e : ChErr)
  /-- ValueError -/
  | value
  /-- StandardError("channel is closed") -/
  | channelIsClosed
  deriving DecidableEq, Repr

/-- gtp_controller.py:482-491: the attributes of Gtp_controller, and the state of the channel. -/
structure Ctl (σ : Type) where
  chan : σ
  name : Str
  known : List (Str × Bool)
  aliases : List (Str × Str)
  isFirst : Bool
  errors : List Str
  closed : Bool
  bad : Bool

variable {σ : Type}

/-- gtp_controller.py:482-491 `__init__`. -/
def Ctl.init (chan : σ) (name : Str) : Ctl σ :=
  { chan, name, known := [], aliases := [], isFirst := true, errors := [], closed := false, bad := false }

/-- gtp_controller.py:551 `self.gtp_aliases.get(command, command)`. -/
def Ctl.translate (c : Ctl σ) (command : Str) : Str := (c.aliases.lookup command).getD command

/-- gtp_controller.py:555-560 `format_command`. -/
def formatCommand (isFirst : Bool) (command : Str) (args : List Str) : Str :=
  let desc := join [' '] (command :: args)
  if isFirst then "first command (".toList ++ desc ++ ")".toList else "'".toList ++ desc ++ "'".toList

/-- gtp_controller.py:569-574. -/
def errorLabel : ChKind → Str
  | .transport => "transport error".toList
  | .protocol => "GTP protocol error".toList
  | .closed => "error".toList
  | .other => "error".toList

/-- gtp_controller.py:575-579: the new text of a GtpChannelError. -/
def channelMessage (isSending : Bool) (formatted name : Str) (e : ChErr) : Str :=
  if isSending then errorLabel e.kind ++ " sending ".toList ++ formatted ++ " to ".toList ++ name ++ ":\n".toList ++ e.msg
  else errorLabel e.kind ++ " reading response to ".toList ++ formatted ++ " from ".toList ++ name ++ ":\n".toList ++ e.msg

/-- gtp_controller.py:582-586: the text of a BadGtpResponse. -/
def failureMessage (formatted name response : Str) : Str :=
  "failure response from ".toList ++ formatted ++ " to ".toList ++ name ++ ":\n".toList ++ response

/-- gtp_controller.py:493-587 `do_command`; 121-140 `send_command` (the check of the words) and 142-174 `get_response`. Arguments are
8-bit strings. -/
def Ctl.doCommand (C : Channel σ) (c : Ctl σ) (command : Str) (args : List Str) : Except CExc Str × Ctl σ :=
  if c.closed then (.error .channelIsClosed, c)
  else
    let t := c.translate command
    let formatted := formatCommand c.isFirst t args
    let c := { c with isFirst := false }
    if !(isWellFormedWord t && args.all isWellFormedWord) then (.error .value, c)
    else match C.send t args c.chan with
      | (.error e, ch) =>
        (.error (.channel ⟨e.kind, channelMessage true formatted c.name e⟩), { c with chan := ch, bad := true })
      | (.ok (), ch) => match C.recv ch with
        | (.error e, ch) =>
          (.error (.channel ⟨e.kind, channelMessage false formatted c.name e⟩), { c with chan := ch, bad := true })
        | (.ok (isFailure, response), ch) =>
          if isFailure then (.error (.badResponse (failureMessage formatted c.name response) (some response)), { c with chan := ch })
          else (.ok response, { c with chan := ch })

/-- gtp_controller.py:682-704 `safe_do_command`. -/
def Ctl.safeDoCommand (C : Channel σ) (c : Ctl σ) (command : Str) (args : List Str) : Except CExc (Option Str) × Ctl σ :=
  if c.bad || c.closed then (.ok none, c)
  else match c.doCommand C command args with
    | (.ok r, c) => (.ok (some r), c)
    | (.error (.channel e), c) => (.ok none, { c with errors := c.errors ++ [e.msg] })
    | (.error e, c) => (.error e, c)

/-- gtp_controller.py:618, 717: `self.do_command` or `self.safe_do_command`, passed to `_known_command`. -/
def Ctl.perform (C : Channel σ) (safe : Bool) (c : Ctl σ) (command : Str) (args : List Str) : Except CExc (Option Str) × Ctl σ :=
  if safe then c.safeDoCommand C command args
  else match c.doCommand C command args with
    | (.ok r, c) => (.ok (some r), c)
    | (.error e, c) => (.error e, c)

/-- gtp_controller.py:589-618, 706-717 `known_command` and `safe_known_command`. -/
def Ctl.knownCommand (C : Channel σ) (safe : Bool) (c : Ctl σ) (command : Str) : Except CExc Bool × Ctl σ :=
  match c.known.lookup command with
  | some r => (.ok r, c)
  | none => match c.perform C safe "known_command".toList [c.translate command] with
    | (.ok r, c) =>
      let k := decide (r = some "true".toList)
      (.ok k, { c with known := (command, k) :: c.known })
    | (.error (.badResponse _ _), c) => (.ok false, { c with known := (command, false) :: c.known })
    | (.error e, c) => (.error e, c)

/-- gtp_controller.py:620-645 `check_protocol_version`; `isTwo` says whether `float(s) == 2.0`. -/
def Ctl.checkProtocolVersion (C : Channel σ) (isTwo : Str → Bool) (c : Ctl σ) : Except CExc Unit × Ctl σ :=
  match c.doCommand C "protocol_version".toList [] with
  | (.error (.badResponse _ _), c) => (.ok (), c)
  | (.error e, c) => (.error e, c)
  | (.ok v, c) =>
    if isTwo v then (.ok (), c)
    else (.error (.badResponse (c.name ++ " reports GTP protocol version ".toList ++ v) none), c)

/-- gtp_controller.py:647-659 `list_commands`. -/
def Ctl.listCommands (C : Channel σ) (c : Ctl σ) : Except CExc (List Str) × Ctl σ :=
  match c.doCommand C "list_commands".toList [] with
  | (.error e, c) => (.error e, c)
  | (.ok response, c) => (.ok (((splitOn '\n' response).map strip).filter isWellFormedWord), c)

/-- gtp_controller.py:678-679, 746: the text for an error closing the channel. -/
def closeMessage (name msg : Str) : Str := "error closing ".toList ++ name ++ ":\n".toList ++ msg

/-- gtp_controller.py:661-680 `close`. -/
def Ctl.close (C : Channel σ) (c : Ctl σ) : Except CExc Unit × Ctl σ :=
  if c.closed then (.error .channelIsClosed, c)
  else match C.close c.chan with
    | (some msg, ch) => (.error (.channel ⟨.transport, closeMessage c.name msg⟩), { c with chan := ch })
    | (none, ch) => (.ok (), { c with chan := ch, closed := true })

/-- gtp_controller.py:738-742: sending 'quit'. (`quit` could only be a bad word through an alias; then a ValueError
propagates.) -/
def Ctl.safeQuit (C : Channel σ) (c : Ctl σ) : Except CExc Unit × Ctl σ :=
  if c.bad then (.ok (), c)
  else match c.safeDoCommand C "quit".toList [] with
    | (.error (.badResponse msg _), c) => (.ok (), { c with errors := c.errors ++ [msg] })
    | (.error e, c) => (.error e, c)
    | (.ok _, c) => (.ok (), c)

/-- gtp_controller.py:719-747 `safe_close`. -/
def Ctl.safeClose (C : Channel σ) (c : Ctl σ) : Except CExc Unit × Ctl σ :=
  if c.closed then (.ok (), c)
  else match c.safeQuit C with
    | (.error e, c) => (.error e, c)
    | (.ok (), c) => match C.close c.chan with
      | (some msg, ch) => (.ok (), { c with chan := ch, errors := c.errors ++ [closeMessage c.name msg], closed := true })
      | (none, ch) => (.ok (), { c with chan := ch, closed := true })

/-- gtp_controller.py:758-768 `set_gtp_aliases`. -/
def Ctl.setAliases (c : Ctl σ) (aliases : List (Str × Str)) : Ctl σ := { c with aliases := aliases }

/-! ### Internal_gtp_channel -/

/-- gtp_controller.py:211-215: an Internal_gtp_channel, and the state of its engine. -/
structure Internal (ε : Type) where
  engine : ε
  outstanding : List (Str × List Str)
  ended : Bool

/-- gtp_controller.py:202-233 Internal_gtp_channel.  `run` is the engine's `run_command`. -/
def internalChannel {ε : Type} (run : ε → Str → List Str → (Bool × Str × Bool) × ε) : Channel (Internal ε) where
  send := fun command args s =>
    if s.ended then (.error ⟨.closed, "engine has ended the session".toList⟩, s)
    else (.ok (), { s with outstanding := s.outstanding ++ [(command, args)] })
  recv := fun s =>
    if s.ended then (.error ⟨.closed, "engine has ended the session".toList⟩, s)
    else match s.outstanding with
      | [] => (.error ⟨.other, "no outstanding commands".toList⟩, s)
      | (command, args) :: rest =>
        let r := run s.engine command args
        (.ok (r.1.1, r.1.2.1), { engine := r.2, outstanding := rest, ended := r.1.2.2 })
  close := fun s => (none, s)

end Gomill.Gtp
