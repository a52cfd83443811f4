import Verif.Spec.GameTrack
import Verif.Model.GtpState
/-
Specification vocabulary: engines which know the game being played.
-/
namespace Gomill.Gtp
open Py Go

/-- The moves each player knows of. -/
def knownBy (c : Colour) : Phase → List Mv
  | .told h => h
  | .asked h d m => if d = c then h ++ (match m with | none => [] | some p => [(d, p)]) else h

/-- The state of an engine which knows the game: the size, the starting position, the moves so far, the position they lead to, and the
ko. -/
structure InStep (n : Nat) (start : Position) (h : List Mv) (s : GS) : Prop where
  size : s.boardSize = n
  base : s.base.pos = start
  moves : s.history.map (fun m => (m.colour, m.move)) = h
  pos : s.board.pos = replay n start h
  /-- the generator is told of a ko -/
  ko : ∀ l d q p, h = l ++ [(d, some q)] → KoPoint n (replay n start l) (replay n start h) q d p → (s.gameState d.opponent false).koPoint = some p

/-- What a generator's answer amounts to as an action in the game, in this position: `claim` says whether claiming a win is allowed. -/
inductive Chooses (n : Nat) (pos : Position) (claim : Bool) : Option GenResult → Act → Prop
  | claim (g : GenResult) : claim = true → g.claim = true → Chooses n pos claim (some g) .claim
  | resign (g : GenResult) : ¬ (claim = true ∧ g.claim = true) → g.resign = true → Chooses n pos claim (some g) .resign
  | pass (g : GenResult) : ¬ (claim = true ∧ g.claim = true) → g.resign = false → g.passMove = true → Chooses n pos claim (some g) (.move none)
  | play (g : GenResult) (p : Pt) : ¬ (claim = true ∧ g.claim = true) → g.resign = false → g.passMove = false → g.move = some p →
      OnBoard n p → pos p = none → Chooses n pos claim (some g) (.move (some p))
  /-- it failed -/
  | failed (msg : Str) : Chooses n pos claim none (.forfeit msg)
  /-- it tried to play at an occupied point, or off the board, or didn't say what to do -/
  | bad (g : GenResult) (msg : Str) : ¬ (claim = true ∧ g.claim = true) → g.resign = false → g.passMove = false →
      (∀ p, g.move = some p → ¬ (OnBoard n p ∧ pos p = none)) → Chooses n pos claim (some g) (.forfeit msg)

/-- An action is what the engine's generator chose, when it was told of this game. -/
def Answered {ρ : Type} (env : ρ → Env) (n : Nat) (start : Position) (claimAllowed : Bool) (h : List Mv) (c : Colour) (act : Act) : Prop :=
  ∃ (w : ρ) (s : GS) (claim : Bool), InStep n start h s ∧ (claim = true → claimAllowed = true) ∧
    Chooses n (replay n start h) claim ((env w).generate (s.gameState c false) c) act

/-- The opponent accepts a move; after the game is over, it may fail, but doesn't object to the move. -/
def NoObjection (over : Bool) (x : Status × Option Str) : Prop := x.1 ≠ .reject ∧ (over = false → x = (.accept, none))

end Gomill.Gtp
