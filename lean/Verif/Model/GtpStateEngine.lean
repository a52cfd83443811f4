import Verif.Model.GtpPlayer
import Verif.Model.AsciiBoard
/-
Model of showboard (gomill/gtp_states.py:361-362), and of an engine which has it among its handlers.
-/
namespace Gomill.Gtp
open Py

/-- gtp_states.py:361-362 `handle_showboard`. -/
def GS.showboard (s : GS) (_args : List Str) : Outcome :=
  match Ascii.renderBoard s.board with
  | .error _ => .exception []
  | .ok t => .value (some ("\n".toList ++ t ++ "\n".toList))

/-- gtp_states.py:576-603, gomill_examples/gtp_stateful_player:103-106: an engine with the state's handlers (other than gomill-savesgf) and nothing else but
these. -/
def statePlayer {ρ : Type} (env : ρ → Env) (next : ρ → GS → Str → List Str → ρ) (other : Str → Option (ρ → GS → List Str → Outcome)) (fatal : Bool) :
    StateEngine ρ where
  env := env
  next := next
  other := fun name => if name = "showboard".toList then some (fun _ s args => s.showboard args) else other name
  fatal := fatal

end Gomill.Gtp
