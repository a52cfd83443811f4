import Verif.Model.TestPlayer
import Verif.Spec.GtpTold
/-
What gtp_test_player does, for C104.
-/
namespace Gomill.Gtp.TestPlayer
open Py Session Gomill.Gtp.Spec

/-- The engine after these commands. -/
def after (tb : Str) (e : Eng H App) (cmds : List (Str × List Str)) : Eng H App := cmds.foldl (fun e c => (e.run (call tb) c.1 c.2).2) e

/-- The number of moves: genmove and play commands. -/
def countMoves (cmds : List (Str × List Str)) : Nat := cmds.countP (fun c => c.1 = "genmove".toList ∨ c.1 = "play".toList)

/-- The command sets a delayed error, for move number `k`. -/
def Delays (c : Str × List Str) (k : Int) (errorArgs : List Str) : Prop := c.1 = "gomill-delayed_error".toList ∧ ∃ x, c.2 = x :: errorArgs ∧ IsGtpInt x k

/-- None of the commands sets a delayed error. -/
def NoDelays (cmds : List (Str × List Str)) : Prop := ∀ c ∈ cmds, ∀ k args, ¬ Delays c k args

/-- What an error forced with these arguments is: the response (whether it's an error, its text, and whether it ends the session), what else is written to stdout first, and
whether the process is killed (so there's no response). `normal` is the response if there is no error; `tb` is a traceback. -/
inductive Forced (tb normal : Str) : List Str → Bool × Str × Bool → List Str → Bool → Prop
  | default : Forced tb normal [] (true, "forced GTP error".toList, false) [] false
  | error {r : List Str} : Forced tb normal ("error".toList :: r) (true, "forced GTP error".toList, false) [] false
  | exit {r : List Str} : Forced tb normal ("exit".toList :: r) (true, "forced GTP error; exiting".toList, true) [] false
  | internal {r : List Str} : Forced tb normal ("internal".toList :: r) (true, cleanResponse (some ("internal error\n".toList ++ tb)), false) [] false
  | kill {r : List Str} : Forced tb normal ("kill".toList :: r) (false, normal, false) [] true
  | protocol {r : List Str} : Forced tb normal ("protocol".toList :: r) (false, normal, false) ["!! forced ill-formed GTP response\n".toList] false
  | other {x : Str} {r : List Str} (h : x ∉ ["error", "exit", "internal", "kill", "protocol"].map String.toList) :
      Forced tb normal (x :: r) (true, "unknown force_error argument".toList, false) [] false

/-- A command was answered with such an error. -/
def Errs (tb normal : Str) (args : List Str) (e : Eng H App) (x : (Bool × Str × Bool) × Eng H App) : Prop :=
  ∃ out killed, Forced tb normal args x.1 out killed ∧ x.2.app.stdout = e.app.stdout ++ out ∧ x.2.app.killed = (e.app.killed || killed)

/-- A command was answered, and had no other effect outside. -/
def Says (text : Str) (e : Eng H App) (x : (Bool × Str × Bool) × Eng H App) : Prop :=
  x.1 = (false, text, false) ∧ x.2.app.stdout = e.app.stdout ∧ x.2.app.killed = e.app.killed

/-- The commands which the engine has. -/
def commands : List Str :=
  ["boardsize", "clear_board", "genmove", "gomill-delayed_error", "gomill-force_error", "known_command", "komi", "list_commands", "name", "play", "protocol_version", "quit",
   "version"].map String.toList

end Gomill.Gtp.TestPlayer
