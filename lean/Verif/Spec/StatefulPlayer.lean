import Verif.Model.StatefulPlayer
import Verif.Spec.GtpStateEngine
import Verif.Spec.GtpTranscript
import Verif.Spec.GtpTold
/-
What gtp_stateful_player does, for C103.
-/
namespace Gomill.Gtp.Stateful
open Py Go Session

variable {ν : Type}

/-- What random.random() and random.choice() promise. -/
structure Fair (W : World ν) : Prop where
  random : ∀ w, 0 ≤ (W.random w).1 ∧ (W.random w).1 < 1
  choice : ∀ k w, 0 < k → (W.choice k w).1 < k

/-- The engine has handled any commands since it was made, and anything may have happened in the outside world. (No failing command changed the board size: loadsgf
can, if a file has a usable size but is otherwise bad.) -/
inductive Reached (W : World ν) : Eng H (App ν) → Prop
  | start {w : ν} {e : Eng H (App ν)} : makeEngine w = .ok e → Reached W e
  | command {e e' : Eng H (App ν)} {command : Str} {args : List Str} {err fin : Bool} {text : Str} : Reached W e → e.run (call W) command args = ((err, text, fin), e') →
      (err = true → e'.app.gs.boardSize = e.app.gs.boardSize) → Reached W e'
  | elsewhere {e : Eng H (App ν)} (w : ν) : Reached W e → Reached W { e with app := { e.app with world := w } }

/-- Each SGF file which can be read and whose board size is one which can be played on has a valid komi, setup position and moves. -/
def FilesUsable (W : World ν) : Prop :=
  ∀ w path text game, W.file w path = some text → Sgf.SgfGame.fromString W.codec text = .ok game → (game.size = 9 ∨ game.size = 13 ∨ game.size = 19) →
    (∃ komi, game.getKomi W.readFloat = .ok komi) ∧
    ∃ b plays, Sgf.getSetupAndMoves game.size game.tree.mainSequence = .ok (b, plays) ∧ AllLegal game.size.toNat b.pos plays

/-- The commands which the engine has. -/
def commands : List Str :=
  ["boardsize", "clear_board", "fixed_handicap", "genmove", "gomill-explain_last_move", "gomill-genmove_ex", "gomill-resign_p", "gomill-savesgf", "known_command", "komi",
   "list_commands", "loadsgf", "name", "place_free_handicap", "play", "protocol_version", "quit", "reg_genmove", "set_free_handicap", "showboard", "undo", "version"].map String.toList

/-- The response to a request for a move, and what it changes; `points` are the empty points, on a board with `n` rows; `reg` if the move isn't to be played. -/
inductive Generated (W : World ν) (n : Nat) (e : Eng H (App ν)) (col : Colour) (reg : Bool) (points : List Pt) : (Bool × Str × Bool) × Eng H (App ν) → Prop
  /-- It resigns, with the probability asked for. -/
  | resign : (W.random e.app.world).1 < e.app.resignP →
      Generated W n e col reg points ((false, "resign".toList, false), { e with app := { e.app with world := (W.random e.app.world).2 } })
  /-- It chooses one of the empty points. -/
  | chosen (p : Pt) (k : Nat) (w : ν) (gs : GS) : e.app.resignP ≤ (W.random e.app.world).1 → W.choice points.length (W.random e.app.world).2 = (k, w) → points[k]? = some p →
      (reg = true → gs = e.app.gs) →
      (reg = false → gs.board.pos = rulesPlay n e.app.gs.board.pos p col ∧
        gs = { e.app.gs with board := gs.board, koPoint := gs.koPoint, koPlayer := gs.koPlayer, history := e.app.gs.history ++ [⟨col, some p, some ("chosen at random from ".toList ++ strInt points.length ++ " choices".toList), none⟩] }) →
      Generated W n e col reg points ((false, moveWord (some p), false), { e with app := { e.app with gs := gs, world := w } })

/-- The commands which ask for a move, and whether it's not to be played. -/
def moveCommands : List (Str × Bool) := [("genmove".toList, false), ("gomill-genmove_ex".toList, false), ("reg_genmove".toList, true)]

end Gomill.Gtp.Stateful
