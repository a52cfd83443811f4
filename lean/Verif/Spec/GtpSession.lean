import Verif.Model.GtpSession
import Verif.Spec.Gtp
/-
What a GTP session is: specification vocabulary for C92.
-/
namespace Gomill.Gtp.Session
open Py

/-- The lines of a file; the last may lack its newline. -/
inductive IsLines : Str → List Str → Prop
  | nil : IsLines [] []
  | last {l : Str} (hne : l ≠ []) (h : '\n' ∉ l) : IsLines l [l]
  | cons {l rest : Str} {ls : List Str} (h : '\n' ∉ l) (hr : IsLines rest ls) : IsLines (l ++ '\n' :: rest) ((l ++ ['\n']) :: ls)

/-- What the caller of a session sees when a write or flush raises `x`: a broken pipe means the controller went away; anything else is passed on. -/
def Surfaces (x y : FileExc) : Prop :=
  (∃ text, x = .ioError (some 32) text ∧ y = .controllerDisconnected (some 32) text) ∨ ((∀ text, x ≠ .ioError (some 32) text) ∧ y = x)

variable {ε ω : Type}

/-- A conversation, from beginning to end: the engine in a state, the output file in a state and these lines to come, lead to these events, this outcome, and
leave the engine, the file and the unread lines like that. -/
inductive Talk (run : ε → Str → List Str → (Bool × Str × Bool) × ε) (write : Str → ω → Option FileExc × ω) (flush : ω → Option FileExc × ω) :
    ε → ω → List Str → List Ev → Status → ε → ω → List Str → Prop
  /-- at the end of the input, the session ends -/
  | eof {e : ε} {w : ω} : Talk run write flush e w [] [.eof] .returned e w []
  /-- a line which asks for nothing gets no answer -/
  | skip {e e' : ε} {w w' : ω} {line : Str} {rest unread : List Str} {evs : List Ev} {st : Status} (h : ∀ id c args, ¬ Asks line id c args)
      (hr : Talk run write flush e w rest evs st e' w' unread) : Talk run write flush e w (line :: rest) (.read line :: evs) st e' w' unread
  /-- a command is run, and its answer written out before the next line is read -/
  | answer {e e1 e' : ε} {w w1 w2 w' : ω} {line c text : Str} {id : Option Str} {args : List Str} {err : Bool} {rest unread : List Str} {evs : List Ev}
      {st : Status} (h : Asks line id c args) (hrun : run e c args = ((err, text, false), e1))
      (hw : write (Spec.responseText err id text) w = (none, w1)) (hf : flush w1 = (none, w2))
      (hr : Talk run write flush e1 w2 rest evs st e' w' unread) :
      Talk run write flush e w (line :: rest) (.read line :: .write (Spec.responseText err id text) :: .flush :: evs) st e' w' unread
  /-- a command which ends the session is answered, and nothing more is read -/
  | quit {e e1 : ε} {w w1 w2 : ω} {line c text : Str} {id : Option Str} {args : List Str} {err : Bool} {rest : List Str}
      (h : Asks line id c args) (hrun : run e c args = ((err, text, true), e1))
      (hw : write (Spec.responseText err id text) w = (none, w1)) (hf : flush w1 = (none, w2)) :
      Talk run write flush e w (line :: rest) [.read line, .write (Spec.responseText err id text), .flush] .returned e1 w2 rest
  /-- the answer can't be written -/
  | noWrite {e e1 : ε} {w w1 : ω} {line c text : Str} {id : Option Str} {args : List Str} {err fin : Bool} {rest : List Str} {x y : FileExc}
      (h : Asks line id c args) (hrun : run e c args = ((err, text, fin), e1))
      (hw : write (Spec.responseText err id text) w = (some x, w1)) (hx : Surfaces x y) :
      Talk run write flush e w (line :: rest) [.read line, .write (Spec.responseText err id text)] (.raised y) e1 w1 rest
  /-- the answer can't be flushed -/
  | noFlush {e e1 : ε} {w w1 w2 : ω} {line c text : Str} {id : Option Str} {args : List Str} {err fin : Bool} {rest : List Str} {x y : FileExc}
      (h : Asks line id c args) (hrun : run e c args = ((err, text, fin), e1))
      (hw : write (Spec.responseText err id text) w = (none, w1)) (hf : flush w1 = (some x, w2)) (hx : Surfaces x y) :
      Talk run write flush e w (line :: rest) [.read line, .write (Spec.responseText err id text), .flush] (.raised y) e1 w2 rest

/-- Changes to an engine's table of handlers. -/
inductive Reg (η : Type) where
  | add (command : Str) (h : Handler η)
  | addAll (hs : List (Str × Handler η))
  | remove (command : Str)
  | protocol
  | fatal (b : Bool)

variable {η σ : Type}

/-- Making a change. -/
def Reg.apply (e : Eng η σ) : Reg η → Eng η σ
  | .add command h => e.addCommand command h
  | .addAll hs => e.addCommands hs
  | .remove command => e.removeCommand command
  | .protocol => e.addProtocolCommands
  | .fatal b => e.setHandlerExceptionsFatal b

/-- The commands which add_protocol_commands adds. -/
def protocolHandler (c : Str) : Option (Handler η) :=
  if c = "known_command".toList then some .knownCommand
  else if c = "list_commands".toList then some .listCommands
  else if c = "protocol_version".toList then some .protocolVersion
  else if c = "quit".toList then some .quit
  else none

/-- What a change makes of the handler for one command. -/
def Reg.effect (c : Str) (cur : Option (Handler η)) : Reg η → Option (Handler η)
  | .add command h => if command = c then some h else cur
  | .addAll hs => (hs.lookup c).or cur
  | .remove command => if command = c then none else cur
  | .protocol => (protocolHandler c).or cur
  | .fatal _ => cur

/-- The handler for a command is the one most recently registered and not removed since. -/
def registered (regs : List (Reg η)) (c : Str) : Option (Handler η) := regs.foldl (Reg.effect c) none

end Gomill.Gtp.Session
