import Verif.Model.GtpSession
import Verif.Model.GtpState
/-
Model of gomill_examples/gtp_test_player: a GTP engine for testing how controllers handle errors.

Not modelled: `main` (135-141) apart from making the engine, KeyboardInterrupt.
-/
namespace Gomill.Gtp.TestPlayer
open Py Session

/-- gtp_test_player:49-52 `Test_player.__init__`: the delayed error (None if there is none; its arguments are only used if there is one) and the number of moves; what has
been written to stdout apart from the engine's answers; and whether the process has killed itself. (When it has, it answers nothing more: what the model does then
means nothing.) -/
structure App where
  delayedMove : Option Int := none
  delayedArgs : List Str := []
  moveCount : Nat := 0
  stdout : List Str := []
  killed : Bool := false
  deriving DecidableEq

/-- gtp_test_player:85-103 `handle_force_error`. `tb` is the traceback of a division by zero. -/
def forceError (tb : Str) (args : List Str) (a : App) : Outcome × App :=
  let arg := match args with
    | [] => "error".toList
    | x :: _ => x
  if arg = "error".toList then (.gtpError "forced GTP error".toList, a)
  else if arg = "exit".toList then (.gtpFatalError "forced GTP error; exiting".toList, a)
  else if arg = "internal".toList then (.exception tb, a)
  else if arg = "kill".toList then (.value none, { a with killed := true })
  else if arg = "protocol".toList then (.value none, { a with stdout := a.stdout ++ ["!! forced ill-formed GTP response\n".toList] })
  else (.gtpError "unknown force_error argument".toList, a)

/-- gtp_test_player:60-71 `handle_genmove`. -/
def genmove (tb : Str) (a : App) : Outcome × App :=
  let a := { a with moveCount := a.moveCount + 1 }
  match a.delayedMove with
  | none => (.value (some "pass".toList), a)
  | some k =>
    if k ≠ 0 ∧ k ≤ a.moveCount then
      match forceError tb a.delayedArgs { a with delayedMove := none } with
      | (.value _, a) => (.value (some "pass".toList), a)
      | r => r
    else (.value (some "pass".toList), a)

/-- gtp_test_player:105-112 `handle_delayed_error`. -/
def delayedError (args : List Str) (a : App) : Outcome × App :=
  match args with
  | [] => (.gtpError "invalid arguments".toList, a)
  | x :: rest => match interpretInt x with
    | none => (.gtpError ("invalid int: '".toList ++ x ++ "'".toList), a)
    | some k => (.value none, { a with delayedMove := some k, delayedArgs := rest })

/-- The handlers. -/
inductive H where
  | name
  | version
  | genmove
  | play
  | boardsize
  | clearBoard
  | komi
  | forceError
  | delayedError
  deriving DecidableEq

/-- gtp_test_player:54-58, 73-83: calling a handler. -/
def handle (tb : Str) (h : H) (args : List Str) (a : App) : Outcome × App :=
  match h with
  | .name => (.value (some "GTP test player".toList), a)
  | .version => (.value (some []), a)
  | .genmove => TestPlayer.genmove tb a
  | .play => (.value none, { a with moveCount := a.moveCount + 1 })
  | .boardsize => (.value none, a)
  | .clearBoard => (.value none, a)
  | .komi => (.value none, a)
  | .forceError => TestPlayer.forceError tb args a
  | .delayedError => TestPlayer.delayedError args a

/-- Calling a handler of the engine. -/
def call (tb : Str) (h : H) (args : List Str) (e : Eng H App) : Outcome × Eng H App :=
  ((handle tb h args e.app).1, { e with app := (handle tb h args e.app).2 })

/-- gtp_test_player:114-125 `get_handlers`. -/
def handlers : List (Str × Session.Handler H) :=
  [("name".toList, .custom .name), ("version".toList, .custom .version), ("genmove".toList, .custom .genmove), ("play".toList, .custom .play),
   ("boardsize".toList, .custom .boardsize), ("clear_board".toList, .custom .clearBoard), ("komi".toList, .custom .komi),
   ("gomill-force_error".toList, .custom .forceError), ("gomill-delayed_error".toList, .custom .delayedError)]

/-- gtp_test_player:128-133 `make_engine`, with 137's new Test_player. -/
def makeEngine : Eng H App := ((Eng.new {}).addProtocolCommands).addCommands handlers

end Gomill.Gtp.TestPlayer
