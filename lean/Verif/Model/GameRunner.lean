import Verif.Model.Game
import Verif.Model.Handicap
/-
Model of gomill/gameplay.py: Backend and Game_runner.

A Backend is any object with the methods of gameplay.Backend: here, any functions acting on a state of any type σ, which
may raise any exception.  The after-move callback is also part of it.
-/
namespace Gomill
open Py

/-- gameplay.py:491-503: what `get_move` returns; `bad` stands for any other action string. -/
inductive Act where
  | move (m : Option Pt)
  | forfeit (msg : Str)
  | resign
  | claim
  | bad
  deriving DecidableEq, Repr

/-- gameplay.py:507-518: the status `notify_move` returns; `bad` stands for any other string. -/
inductive Status where
  | accept
  | reject
  | error
  | bad
  deriving DecidableEq, Repr

/-- gameplay.py:424-550 Backend, plus the after-move callback. -/
structure Backend (σ : Type) where
  startNewGame : Nat → Rat → σ → Except GExc Unit × σ
  endGame : σ → Except GExc Unit × σ
  getFreeHandicap : Int → σ → Except GExc (List Pt) × σ
  notifyFreeHandicap : List Pt → σ → Except GExc Unit × σ
  notifyFixedHandicap : Colour → Int → List Pt → σ → Except GExc Unit × σ
  getMove : Colour → σ → Except GExc Act × σ
  notifyMove : Colour → Option Pt → σ → Except GExc (Status × Option Str) × σ
  scoreGame : Board → σ → Except GExc GameScore × σ
  getLastMoveComment : Colour → σ → Except GExc (Option Str) × σ
  afterMove : Colour → Option Pt → Board → σ → Except GExc Unit × σ

/-- gameplay.py:589-602: the attributes of Game_runner, and the state of its backend. `haProp` is
`additional_sgf_props` (to which only HA is ever added). -/
structure Runner (σ : Type) where
  env : σ
  boardSize : Nat
  komi : Rat
  moveLimit : Option Int
  haProp : Option Int
  handicapStones : Option (List Pt)
  moves : List (Colour × Option Pt × Option Str)
  finalDiagnostics : Option (Colour × Str)
  gameScore : Option GameScore
  result : Option Res
  state : Nat

variable {σ : Type}

/-- gameplay.py:589-602 `__init__`. -/
def Runner.init (env : σ) (boardSize : Nat) (komi : Rat) (moveLimit : Option Int) : Runner σ :=
  { env, boardSize, komi, moveLimit, haProp := none, handicapStones := none, moves := [], finalDiagnostics := none,
    gameScore := none, result := none, state := 0 }

/-- Call a backend method: its state changes, whether or not it raises. -/
def Runner.call {α} (r : Runner σ) (f : σ → Except GExc α × σ) : Except GExc α × Runner σ :=
  ((f r.env).1, { r with env := (f r.env).2 })

/-- gameplay.py:636-645 `prepare`. -/
def Runner.prepare (B : Backend σ) (r : Runner σ) : Except GExc Unit × Runner σ :=
  if r.state ≠ 0 then (.error .runnerStateError, r)
  else match r.call (B.startNewGame r.boardSize r.komi) with
    | (.error e, r) => (.error e, r)
    | (.ok (), r) => (.ok (), { r with state := 1 })

/-- gameplay.py:663-678, after the points are known. -/
def Runner.finishHandicap (r : Runner σ) (handicap : Int) (points : List Pt) : Except GExc Unit × Runner σ :=
  (.ok (), { r with haProp := some handicap, handicapStones := some points })

/-- gameplay.py:647-678 `set_handicap`. -/
def Runner.setHandicap (B : Backend σ) (r : Runner σ) (handicap : Int) (isFree : Bool) : Except GExc Unit × Runner σ :=
  if r.state ≠ 1 then (.error .runnerStateError, r)
  else if isFree then
    if ¬ (2 ≤ handicap ∧ handicap ≤ Handicap.maxFree r.boardSize) then (.error (.py .valueError), r)
    else match ({ r with state := 2 } : Runner σ).call (B.getFreeHandicap handicap) with
      | (.error e, r) => (.error e, r)
      | (.ok points, r) => match r.call (B.notifyFreeHandicap points) with
        | (.error e, r) => (.error e, r)
        | (.ok (), r) => r.finishHandicap handicap points
  else match Handicap.points handicap r.boardSize with
    | .error e => (.error (.py e), r)
    | .ok points => match ({ r with state := 2 } : Runner σ).call (B.notifyFixedHandicap .b handicap points) with
      | (.error e, r) => (.error e, r)
      | (.ok (), r) => match r.call (B.notifyFixedHandicap .w handicap points) with
        | (.error e, r) => (.error e, r)
        | (.ok (), r) => r.finishHandicap handicap points

/-- gameplay.py:684-694 `_make_game`. -/
def Runner.makeGame (r : Runner σ) : Except GExc Game :=
  match Board.init r.boardSize with
  | .error e => .error (.py e)
  | .ok board =>
    match r.handicapStones with
    | none => .ok (Game.init board .b r.moveLimit)
    | some [] => .ok (Game.init board .b r.moveLimit)
    | some (p :: ps) => match board.applySetup (p :: ps) [] [] with
      | .error e => .error (.py e)
      | .ok (_, board) => .ok (Game.init board .w r.moveLimit)

/-- The state during `run`: the runner and the local variable `game`. -/
structure Run (σ : Type) where
  r : Runner σ
  game : Game

/-- Call a backend method. -/
def Run.call {α} (s : Run σ) (f : σ → Except GExc α × σ) : Except GExc α × Run σ :=
  ((f s.r.env).1, { s with r := { s.r with env := (f s.r.env).2 } })

/-- Sequencing: an exception propagates. -/
def andThen {α β : Type} (x : Except GExc α × Run σ) (k : α → Run σ → Except GExc β × Run σ) : Except GExc β × Run σ :=
  match x with
  | (.error e, s) => (.error e, s)
  | (.ok a, s) => k a s

/-- A call to one of the game's record_... methods. If it ends the game, the game-over callback (the backend's `end_game`,
gameplay.py:693) is called as its last act (gameplay.py:104-105). -/
def Run.record (B : Backend σ) (s : Run σ) (f : Game → Except GExc Unit × Game) : Except GExc Unit × Run σ :=
  let x := f s.game
  let s' := { s with game := x.2 }
  match x.1 with
  | .error e => (.error e, s')
  | .ok () => if x.2.overCalls = s.game.overCalls then (.ok (), s') else s'.call B.endGame

/-- gameplay.py:680-682 `_set_final_diagnostics`. -/
def Run.setFinalDiagnostics (s : Run σ) (colour : Colour) (comment : Option Str) : Run σ :=
  match comment with
  | none => s
  | some c => { s with r := { s.r with finalDiagnostics := some (colour, c) } }

/-- gameplay.py:711-714: when the game is over after a forfeit, resignation or claim. -/
def endedByPlayer (B : Backend σ) (colour : Colour) (s : Run σ) : Except GExc Unit × Run σ :=
  andThen (s.call (B.getLastMoveComment colour)) fun comment s => (.ok (), s.setFinalDiagnostics colour comment)

/-- gameplay.py:716-743: when the player has played a move. -/
def playMove (B : Backend σ) (colour : Colour) (move : Option Pt) (s : Run σ) : Except GExc Unit × Run σ :=
  andThen (s.record B (fun g => g.recordMove colour move)) fun _ s =>
  andThen (s.call (B.getLastMoveComment colour)) fun comment s =>
  if s.game.seenForfeit then (.ok (), s.setFinalDiagnostics colour comment)
  else
    andThen (s.call (B.notifyMove colour.opponent move)) fun sm s =>
    if sm.1 = .bad then (.error (.py .valueError), s)
    else if !s.game.isOver ∧ sm.1 ≠ .accept then
      let forfeiter := if sm.1 = .reject then colour else colour.opponent
      andThen (s.record B (fun g => g.recordForfeitBy forfeiter sm.2)) fun _ s =>
      (.ok (), s.setFinalDiagnostics colour comment)
    else
      let s := { s with r := { s.r with moves := s.r.moves ++ [(colour, move, comment)] } }
      s.call (B.afterMove colour move s.game.board)

/-- gameplay.py:696-743 `_do_move`. (`opponent_of(None)` raises ValueError; only called before the game is over.) -/
def doMove (B : Backend σ) (s : Run σ) : Except GExc Unit × Run σ :=
  match s.game.nextPlayer with
  | none => (.error (.py .valueError), s)
  | some colour =>
    andThen (s.call (B.getMove colour)) fun act s =>
    match act with
    | .forfeit msg =>
      andThen (s.record B (fun g => g.recordForfeitBy colour (some msg))) fun _ s => endedByPlayer B colour s
    | .resign => andThen (s.record B (fun g => g.recordResignationBy colour)) fun _ s => endedByPlayer B colour s
    | .claim => andThen (s.record B (fun g => g.recordClaimBy colour)) fun _ s => endedByPlayer B colour s
    | .move m => playMove B colour m s
    | .bad => (.error (.py .valueError), s)

/-- gameplay.py:745-750 `_set_result`. -/
def setResult (B : Backend σ) (fmt : Rat → Str) (s : Run σ) : Except GExc Unit × Run σ :=
  if s.game.passedOut then
    andThen (s.call (B.scoreGame s.game.board)) fun score s =>
    let s := { s with r := { s.r with gameScore := some score } }
    match Res.fromGameScore fmt score with
    | .error e => (.error e, s)
    | .ok res => (.ok (), { s with r := { s.r with result := some res } })
  else match Res.fromUnscoredGame s.game with
    | .error e => (.error e, s)
    | .ok res => (.ok (), { s with r := { s.r with result := some res } })

/-- gameplay.py:774-775: the main loop; `none` if it hasn't finished after `fuel` turns. -/
def runLoop (B : Backend σ) : Nat → Run σ → Option (Except GExc Unit × Run σ)
  | 0, s => if s.game.isOver then some (.ok (), s) else none
  | fuel + 1, s =>
    if s.game.isOver then some (.ok (), s)
    else match doMove B s with
      | (.error e, s) => some (.error e, s)
      | (.ok (), s) => runLoop B fuel s

/-- gameplay.py:752-776 `run`; `none` if the game hasn't finished after `fuel` turns. The `Run` result is none if
`_make_game` wasn't reached or failed. -/
def Runner.run (B : Backend σ) (fmt : Rat → Str) (fuel : Nat) (r : Runner σ) : Option (Except GExc Unit × Runner σ × Option Game) :=
  if r.state ≠ 1 ∧ r.state ≠ 2 then some (.error .runnerStateError, r, none)
  else match r.makeGame with
    | .error e => some (.error e, r, none)
    | .ok game =>
      match runLoop B fuel ⟨{ r with state := 3 }, game⟩ with
      | none => none
      | some x =>
        let y := andThen x fun _ s => setResult B fmt s
        some (y.1, y.2.r, some y.2.game)

end Gomill
