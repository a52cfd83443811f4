import Verif.Props.GameRunner
/-
What is meant by the calls of a move callback, for C31 and C58.
-/
namespace Gomill.Spec
open Py Go

/-- One call of the after-move callback: the colour, the move, and the board. -/
abbrev MoveCall := Colour × Option Pt × Board

/-- These are calls for each of the moves, in order, each with a board of the game's size showing the position after that move, by the rules of go. -/
structure CallsFor (n : Nat) (pos0 : Position) (ms : List Mv) (calls : List MoveCall) : Prop where
  moves : calls.map (fun x => (x.1, x.2.1)) = ms
  boards : ∀ (i : Nat) (h : i < calls.length), calls[i].2.2.pos = replay n pos0 (ms.take (i + 1))
  sound : ∀ x ∈ calls, BoardInv n x.2.2 ∧ ∀ p, x.2.1 = some p → OnBoard n p

/-- `seen` is something that only the after-move callback changes; `f` says how. -/
structure Watched {σ τ : Type} (B : Backend σ) (seen : σ → τ) (f : Colour → Option Pt → Board → τ → τ) : Prop where
  endGame : ∀ env, seen (B.endGame env).2 = seen env
  getMove : ∀ c env, seen (B.getMove c env).2 = seen env
  notifyMove : ∀ c m env, seen (B.notifyMove c m env).2 = seen env
  scoreGame : ∀ b env, seen (B.scoreGame b env).2 = seen env
  comment : ∀ c env, seen (B.getLastMoveComment c env).2 = seen env
  afterMove : ∀ c m b env, seen (B.afterMove c m b env).2 = f c m b (seen env)

/-- The effect of all the calls. -/
def afterCalls {τ : Type} (f : Colour → Option Pt → Board → τ → τ) (calls : List MoveCall) (u : τ) : τ :=
  calls.foldl (fun u x => f x.1 x.2.1 x.2.2 u) u

end Gomill.Spec
