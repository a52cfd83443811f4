import Verif.Model.GtpState
import Verif.Model.GtpController
/-
Model of an engine made from a Gtp_state (gomill/gtp_states.py) and a Gtp_engine_protocol (gomill/gtp_engine.py), as in
gomill_examples/gtp_stateful_player:103-106: the state's handlers are added to the engine, together with handlers which don't touch the state.
-/
namespace Gomill.Gtp
open Py

/-- gtp_states.py:576-603 `get_handlers` and `get_time_handlers`: the commands which can change the state, and
gomill-explain_last_move.  (showboard and gomill-savesgf don't change the state: they are among the other handlers.) -/
def stateCommands : List (Str × Cmd) :=
  [("boardsize".toList, .boardsize), ("clear_board".toList, .clearBoard), ("komi".toList, .komi), ("fixed_handicap".toList, .fixedHandicap),
   ("set_free_handicap".toList, .setFreeHandicap), ("place_free_handicap".toList, .placeFreeHandicap), ("play".toList, .play),
   ("genmove".toList, .genmove), ("gomill-genmove_ex".toList, .genmoveEx), ("reg_genmove".toList, .regGenmove), ("undo".toList, .undo),
   ("loadsgf".toList, .loadsgf), ("gomill-explain_last_move".toList, .explainLastMove), ("time_left".toList, .timeLeft),
   ("time_settings".toList, .timeSettings)]

/-- An engine whose handlers are those of a Gtp_state, and others which don't change that state.  `ρ` is the rest of the program's state
(for example that of a random number generator), which may change with each command in any way, and on which the move generator
and the other handlers may depend. -/
structure StateEngine (ρ : Type) where
  env : ρ → Env
  next : ρ → GS → Str → List Str → ρ
  other : Str → Option (ρ → GS → List Str → Outcome)
  fatal : Bool

/-- gtp_engine.py:295-338 `run_command`, for this engine: (is_error, response, end_session), and the new state. -/
def StateEngine.run {ρ : Type} (P : StateEngine ρ) (e : GS × ρ) (command : Str) (args : List Str) : (Bool × Str × Bool) × (GS × ρ) :=
  match stateCommands.lookup command with
  | some c =>
    let r := e.1.step (P.env e.2) c args
    (Engine.runCommand ⟨fun _ => some (fun _ => r.2), P.fatal⟩ command args, (r.1, P.next e.2 e.1 command args))
  | none =>
    (Engine.runCommand ⟨fun name => (P.other name).map (fun f => f e.2 e.1), P.fatal⟩ command args, (e.1, P.next e.2 e.1 command args))

end Gomill.Gtp
