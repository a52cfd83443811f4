import Verif.Model.GtpController
/-
What a client of Gtp_controller can do, and a record of what happens on the channel.
-/
namespace Gomill.Gtp
open Py

/-- A call of a Gtp_controller method. -/
inductive Call where
  | doCommand (command : Str) (args : List Str)
  | safeDoCommand (command : Str) (args : List Str)
  | knownCommand (command : Str)
  | safeKnownCommand (command : Str)
  | checkProtocolVersion
  | listCommands
  | close
  | safeClose
  | setAliases (aliases : List (Str × Str))

variable {σ : Type}

/-- The controller after a call (whatever it returned or raised). -/
def Call.apply (C : Channel σ) (isTwo : Str → Bool) (c : Ctl σ) : Call → Ctl σ
  | .doCommand command args => (c.doCommand C command args).2
  | .safeDoCommand command args => (c.safeDoCommand C command args).2
  | .knownCommand command => (c.knownCommand C false command).2
  | .safeKnownCommand command => (c.knownCommand C true command).2
  | .checkProtocolVersion => (c.checkProtocolVersion C isTwo).2
  | .listCommands => (c.listCommands C).2
  | .close => (c.close C).2
  | .safeClose => (c.safeClose C).2
  | .setAliases aliases => c.setAliases aliases

/-- The controller after a sequence of calls. -/
def applyAll (C : Channel σ) (isTwo : Str → Bool) (c : Ctl σ) (calls : List Call) : Ctl σ := calls.foldl (Call.apply C isTwo) c

/-- The 'safe' methods. -/
def Call.Safe : Call → Prop
  | .safeDoCommand _ _ => True
  | .safeKnownCommand _ => True
  | .safeClose => True
  | .setAliases _ => True
  | _ => False

/-- Something that happened on the channel; `ok` is false if GtpChannelError was raised. -/
inductive Event where
  | sent (command : Str) (args : List Str) (ok : Bool)
  | received (ok : Bool)
  | closed (ok : Bool)
  deriving DecidableEq, Repr

/-- The channel, keeping a record of its use. -/
def logged (C : Channel σ) : Channel (σ × List Event) where
  send := fun command args s =>
    let r := C.send command args s.1
    (r.1, (r.2, s.2 ++ [.sent command args (match r.1 with | .ok _ => true | .error _ => false)]))
  recv := fun s =>
    let r := C.recv s.1
    (r.1, (r.2, s.2 ++ [.received (match r.1 with | .ok _ => true | .error _ => false)]))
  close := fun s =>
    let r := C.close s.1
    (r.1, (r.2, s.2 ++ [.closed (decide (r.1 = none))]))

/-- One command and its response, or an attempt to close the channel. -/
inductive Exchange : List Event → Prop
  | complete (command : Str) (args : List Str) (ok : Bool) : Exchange [.sent command args true, .received ok]
  | notSent (command : Str) (args : List Str) : Exchange [.sent command args false]
  | close (ok : Bool) : Exchange [.closed ok]

/-- A GtpChannelError from sending a command or reading a response. -/
def Event.Fault : Event → Prop
  | .sent _ _ ok => ok = false
  | .received ok => ok = false
  | .closed _ => False

end Gomill.Gtp
