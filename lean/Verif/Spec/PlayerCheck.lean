import Verif.Model.GameJob
import Verif.Spec.GtpController
/-
What it means for an engine to pass a check.
-/
namespace Gomill.Gtp.Spec
open Py

variable {σ : Type}

/-- A command with its arguments. -/
abbrev Cmd := Str × List Str

/-- Sending a command and reading the response (whether it's a failure response, and the text), or a GtpChannelError. -/
def exchange (C : Channel σ) (x : Cmd) (s : σ) : Except ChErr (Bool × Str) × σ :=
  match C.send x.1 x.2 s with
  | (.error e, s) => (.error e, s)
  | (.ok (), s) => C.recv s

/-- The text of the failure response or channel error, if there's one. -/
def complaint : Except ChErr (Bool × Str) → Option Str
  | .error e => some e.msg
  | .ok (true, r) => some r
  | .ok (false, _) => none

/-- All the commands, in order, are accepted. -/
inductive Accepts (C : Channel σ) : List Cmd → σ → σ → Prop
  | done (s : σ) : Accepts C [] s s
  | next {x : Cmd} {xs : List Cmd} {s s1 s2 : σ} {r : Str} : exchange C x s = (.ok (false, r), s1) → Accepts C xs s1 s2 → Accepts C (x :: xs) s s2

/-- One of the commands isn't accepted (those before it are). -/
inductive Declines (C : Channel σ) : List Cmd → σ → Str → σ → Prop
  | here {x : Cmd} {xs : List Cmd} {s s1 : σ} {o : Except ChErr (Bool × Str)} {t : Str} : exchange C x s = (o, s1) → complaint o = some t → Declines C (x :: xs) s t s1
  | later {x : Cmd} {xs : List Cmd} {s s1 s2 : σ} {r t : Str} : exchange C x s = (.ok (false, r), s1) → Declines C xs s1 t s2 → Declines C (x :: xs) s t s2

/-- The command's name in the engine. -/
def aliased (aliases : List (Str × Str)) (x : Cmd) : Cmd := ((aliases.lookup x.1).getD x.1, x.2)

/-- What the engine is asked to do after the protocol version has been checked. -/
def checkCommands (p : JobPlayer) (boardSize komi : Str) : List Cmd :=
  (p.startup ++ [("boardsize".toList, [boardSize]), ("clear_board".toList, []), ("komi".toList, [komi])]).map (aliased p.aliases)

/-- What a check starts. -/
def checkProcess (osEnviron : List (Str × Str)) (p : JobPlayer) (discardStderr : Bool) : Popen where
  args := p.cmdArgs
  env := dictSet (p.makeEnviron osEnviron) "GOMILL_GAME_ID".toList "startup-check".toList
  cwd := p.cwd
  stderr := if discardStderr then some "/dev/null".toList else none

/-- The player passes the check: the working directory is one, the process can be started, the engine says that the protocol version is 2, or doesn't know the command, and it accepts all the
commands. `s` is the state of the engine before `quit`. -/
structure Passes (W : JobWorld σ) (isDir : Str → Bool) (p : JobPlayer) (boardSize : Nat) (komi : Rat) (discardStderr : Bool) (s : σ) : Prop where
  cwd : ∀ d, p.cwd = some d → isDir d = true
  commands : ∃ s0 s1 failed r, W.spawn (checkProcess W.osEnviron p discardStderr) = .ok s0 ∧
    exchange W.channel (aliased p.aliases ("protocol_version".toList, [])) s0 = (.ok (failed, r), s1) ∧ (failed = true ∨ W.isTwo r = true) ∧
    Accepts W.channel (checkCommands p (strInt boardSize) (W.strFloat komi)) s1 s

/-- Why a player doesn't pass the check, and the text of CheckFailed. -/
inductive Fails (W : JobWorld σ) (isDir : Str → Bool) (p : JobPlayer) (boardSize : Nat) (komi : Rat) (discardStderr : Bool) : Str → Prop
  | badDirectory {d : Str} : p.cwd = some d → isDir d = false → Fails W isDir p boardSize komi discardStderr ("bad working directory: ".toList ++ d)
  | noProcess {m : Str} : W.spawn (checkProcess W.osEnviron p discardStderr) = .error m →
      Fails W isDir p boardSize komi discardStderr ("error starting subprocess for ".toList ++ p.code ++ ":\n".toList ++ m)
  | noVersion {s0 s1 : σ} {e : ChErr} {msg : Str} : W.spawn (checkProcess W.osEnviron p discardStderr) = .ok s0 →
      exchange W.channel (aliased p.aliases ("protocol_version".toList, [])) s0 = (.error e, s1) → e.msg <:+ msg → Fails W isDir p boardSize komi discardStderr msg
  | badVersion {s0 s1 : σ} {r : Str} : W.spawn (checkProcess W.osEnviron p discardStderr) = .ok s0 →
      exchange W.channel (aliased p.aliases ("protocol_version".toList, [])) s0 = (.ok (false, r), s1) → W.isTwo r = false →
      Fails W isDir p boardSize komi discardStderr (p.code ++ " reports GTP protocol version ".toList ++ r)
  | refused {s0 s1 s2 : σ} {failed : Bool} {r t msg : Str} : W.spawn (checkProcess W.osEnviron p discardStderr) = .ok s0 →
      exchange W.channel (aliased p.aliases ("protocol_version".toList, [])) s0 = (.ok (failed, r), s1) → (failed = true ∨ W.isTwo r = true) →
      Declines W.channel (checkCommands p (strInt boardSize) (W.strFloat komi)) s1 t s2 → t <:+ msg → Fails W isDir p boardSize komi discardStderr msg

/-- The engine accepts `quit`, and can then be closed without an error. -/
def QuitsCleanly (C : Channel σ) (p : JobPlayer) (s : σ) : Prop :=
  ∃ r s1, exchange C (aliased p.aliases ("quit".toList, [])) s = (.ok (false, r), s1) ∧ (C.close s1).1 = none

/-- The words which will be sent are all right. -/
structure CheckWords (p : JobPlayer) (komi : Str) : Prop where
  aliases : ∀ kv ∈ p.aliases, isWellFormedWord kv.2 = true
  startup : ∀ x ∈ p.startup, isWellFormedWord x.1 = true ∧ ∀ a ∈ x.2, isWellFormedWord a = true
  komi : isWellFormedWord komi = true

/-- The commands sent. -/
def commandOf : Event → Option Cmd
  | .sent command args _ => some (command, args)
  | _ => none

def commandsSent (es : List Event) : List Cmd := es.filterMap commandOf

end Gomill.Gtp.Spec
