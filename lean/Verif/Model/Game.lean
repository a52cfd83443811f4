import Verif.Model.Board
import Verif.Model.Vertex
/-
Model of gomill/gameplay.py: Game, adjust_score, Game_score, Result; and Game_result from gomill/gtp_games.py.
-/
namespace Gomill
open Py

/-- Exceptions which can come out of the game-running code. `backend k` is any exception raised by a Backend method
or by the after-move callback. -/
inductive GExc where
  | py (e : Exc)
  | overflowError
  | gameStateError
  | runnerStateError
  | backend (k : Nat)
  deriving DecidableEq, Repr

/-- gameplay.py:58-77: the attributes of Game.  `overCalls` counts the calls of the game-over callback: this stands
for `game_over_callback`, which is called by `_set_over`, always as the last act of the method calling it. -/
structure Game where
  board : Board
  moveLimit : Option Int
  nextPlayer : Option Colour
  moveCount : Nat
  passCount : Nat
  simpleKoPoint : Option Pt
  isOver : Bool
  passedOut : Bool
  seenResignation : Bool
  seenClaim : Bool
  seenForfeit : Bool
  hitMoveLimit : Bool
  winner : Option Colour
  forfeitReason : Option Str
  overCalls : Nat
  deriving DecidableEq, Repr

namespace Game

/-- gameplay.py:58-77 `__init__`, followed by `set_move_limit` (79-87). -/
def init (board : Board) (firstPlayer : Colour) (moveLimit : Option Int) : Game :=
  { board := board, moveLimit := moveLimit, nextPlayer := some firstPlayer, moveCount := 0, passCount := 0,
    simpleKoPoint := none, isOver := false, passedOut := false, seenResignation := false, seenClaim := false,
    seenForfeit := false, hitMoveLimit := false, winner := none, forfeitReason := none, overCalls := 0 }

/-- gameplay.py:100-105 `_set_over`. -/
def setOver (g : Game) : Game :=
  { g with isOver := true, nextPlayer := none, simpleKoPoint := none, overCalls := g.overCalls + 1 }

/-- gameplay.py:107-117 `record_resignation_by`. -/
def recordResignationBy (g : Game) (loser : Colour) : Except GExc Unit × Game :=
  if g.isOver then (.error .gameStateError, g)
  else (.ok (), setOver { g with winner := some loser.opponent, seenResignation := true })

/-- gameplay.py:119-129 `record_claim_by`. -/
def recordClaimBy (g : Game) (winner : Colour) : Except GExc Unit × Game :=
  if g.isOver then (.error .gameStateError, g)
  else (.ok (), setOver { g with winner := some winner, seenClaim := true })

/-- gameplay.py:131-143 `record_forfeit_by`. -/
def recordForfeitBy (g : Game) (loser : Colour) (reason : Option Str) : Except GExc Unit × Game :=
  if g.isOver then (.error .gameStateError, g)
  else (.ok (), setOver { g with winner := some loser.opponent, seenForfeit := true, forfeitReason := reason })

/-- gameplay.py:173-175, 181-183: forfeit for an illegal move (`format_vertex` can raise, before the forfeit is
recorded). -/
def forfeitIllegal (g : Game) (colour : Colour) (move : Pt) (what : String) : Except GExc Unit × Game :=
  match formatVertex (some move) with
  | .error e => (.error (.py e), g)
  | .ok v => recordForfeitBy g colour (some (what.toList ++ v))

/-- gameplay.py:189-196: the end of `record_move`. -/
def finishMove (g : Game) (colour : Colour) : Game :=
  let g := { g with moveCount := g.moveCount + 1, nextPlayer := some colour.opponent }
  if g.passCount = 2 then setOver { g with passedOut := true }
  else match g.moveLimit with
    | none => g
    | some lim => if (g.moveCount : Int) ≥ lim then setOver { g with hitMoveLimit := true } else g

/-- gameplay.py:145-196 `record_move`. -/
def recordMove (g : Game) (colour : Colour) (move : Option Pt) : Except GExc Unit × Game :=
  if g.isOver then (.error .gameStateError, g)
  else if g.nextPlayer ≠ some colour then (.error .gameStateError, g)
  else match move with
    | some p =>
      let g := { g with passCount := 0 }
      if some p = g.simpleKoPoint then forfeitIllegal g colour p "attempted move to ko-forbidden point "
      else match g.board.play p.1 p.2 colour with
        | .error .valueError => forfeitIllegal g colour p "attempted move to occupied point "
        | .error e => (.error (.py e), g)
        | .ok (ko, board) => (.ok (), finishMove { g with board := board, simpleKoPoint := ko } colour)
    | none => (.ok (), finishMove { g with passCount := g.passCount + 1, simpleKoPoint := none } colour)

end Game

/-! ### Scores -/

/-- gameplay.py:199-235: values of `handicap_compensation` (other strings raise ValueError first). -/
inductive Compensation where
  | full
  | short
  | no
  deriving DecidableEq, Repr

/-- gameplay.py:199-235 `adjust_score`.  Python floats are modelled by exact rationals (for the integer and
half-integer scores in use, below 2^52, float arithmetic is exact). -/
def adjustScore (rawScore : Int) (komi : Rat) (comp : Compensation) (handicap : Int) : Option Colour × Rat :=
  let score : Rat := rawScore - komi
  let score := if handicap ≠ 0 then
      match comp with
      | .full => score - handicap
      | .short => score - (handicap - 1)
      | .no => score
    else score
  if score > 0 then (some .b, score)
  else if score < 0 then (some .w, -score)
  else (none, 0)

/-- A margin: a Python int or float.  `float()` of an engine's response can be an infinity or a NaN. -/
inductive Num where
  | fin (q : Rat)
  | inf
  | negInf
  | nan
  deriving DecidableEq, Repr

/-- `margin == 0` (False for a NaN). -/
def Num.isZero : Num → Bool
  | .fin q => decide (q = 0)
  | _ => false

/-- `margin < 0` (False for a NaN). -/
def Num.isNeg : Num → Bool
  | .fin q => decide (q < 0)
  | .negInf => true
  | _ => false

/-- gameplay.py:237-260 Game_score, with the extra attribute of Gtp_game_score (gtp_games.py:115-132; `player_scores`
is kept separately). -/
structure GameScore where
  winner : Option Colour
  margin : Option Num
  scorersDisagreed : Bool := false
  deriving DecidableEq, Repr

/-- gameplay.py:250-260 `__init__`. -/
def GameScore.make (winner : Option Colour) (margin : Option Num) : Except GExc GameScore :=
  if winner = none ∧ (∃ m, margin = some m ∧ m.isZero = false) then .error (.py .valueError)
  else if winner ≠ none ∧ (∃ m, margin = some m ∧ m.isZero = true) then .error (.py .valueError)
  else if ∃ m, margin = some m ∧ m.isNeg = true then .error (.py .valueError)
  else .ok { winner := winner, margin := margin }

/-- gameplay.py:262-277 and gtp_games.py:134-138 `get_detail`. -/
def GameScore.getDetail (s : GameScore) : Option Str :=
  if s.scorersDisagreed then some "players disagreed".toList
  else match s.margin with
    | none => if s.winner = none then some "no score reported".toList else some "unknown margin".toList
    | some _ => none

/-- gameplay.py:279-295 `from_position`. -/
def GameScore.fromPosition (board : Board) (komi : Rat) (comp : Compensation) (handicap : Int) : Except GExc GameScore :=
  let r := adjustScore board.areaScore komi comp handicap
  GameScore.make r.1 (some (.fin r.2))

/-- utils.py:15-27 `format_float`; `fmt` stands for `str` on a float which isn't a whole number. -/
def formatFloat (fmt : Rat → Str) : Num → Except GExc Str
  | .fin q => .ok (if q = (q.floor : Rat) then strInt q.floor else fmt q)
  | .inf => .error .overflowError
  | .negInf => .error .overflowError
  | .nan => .error (.py .valueError)

/-! ### Result -/

/-- gameplay.py:315-318: the attributes of Result. -/
structure Res where
  winningColour : Option Colour
  isJigo : Bool
  isForfeit : Bool
  sgfResult : Str
  detail : Option Str
  deriving DecidableEq, Repr

/-- `colour.upper()` -/
def Colour.upper : Colour → Char
  | .b => 'B'
  | .w => 'W'

/-- gameplay.py:315-325: a new Result after `_set_winning_colour`. -/
def Res.withWinner (colour : Option Colour) : Res :=
  { winningColour := colour, isJigo := false, isForfeit := false, detail := none,
    sgfResult := match colour with
      | none => ['?']
      | some c => [c.upper, '+'] }

/-- gameplay.py:327-329 `_set_jigo`. -/
def Res.setJigo (r : Res) : Res := { r with sgfResult := ['0'], isJigo := true }

/-- gameplay.py:331-335 `losing_colour`. -/
def Res.losingColour (r : Res) : Option Colour := r.winningColour.map Colour.opponent

/-- gameplay.py:337-339 `is_unknown`. -/
def Res.isUnknown (r : Res) : Bool := decide (r.winningColour = none) && !r.isJigo

/-- gameplay.py:341-372 `from_score`. -/
def Res.fromScore (fmt : Rat → Str) (winner : Option Colour) (margin : Option Num) (detail : Option Str) :
    Except GExc Res :=
  let result := Res.withWinner winner
  match margin with
  | none => .ok { result with detail := detail }
  | some m =>
    if m.isNeg then .error (.py .valueError)
    else match winner with
      | none => if m.isZero then .ok { result.setJigo with detail := detail } else .error (.py .valueError)
      | some _ =>
        if m.isZero then .error (.py .valueError)
        else match formatFloat fmt m with
          | .error e => .error e
          | .ok s => .ok { result with sgfResult := result.sgfResult ++ s, detail := detail }

/-- gameplay.py:374-382 `from_game_score`. -/
def Res.fromGameScore (fmt : Rat → Str) (s : GameScore) : Except GExc Res :=
  Res.fromScore fmt s.winner s.margin s.getDetail

/-- gameplay.py:384-411 `from_unscored_game`. -/
def Res.fromUnscoredGame (g : Game) : Except GExc Res :=
  if !g.isOver then .error (.py .valueError)
  else if g.passedOut then .error (.py .valueError)
  else
    let result := Res.withWinner g.winner
    if g.hitMoveLimit then .ok { result with sgfResult := "Void".toList, detail := some "hit move limit".toList }
    else if g.seenResignation then .ok { result with sgfResult := result.sgfResult ++ ['R'] }
    else if g.seenClaim then .ok { result with detail := some "claim".toList }
    else if g.seenForfeit then
      .ok { result with sgfResult := result.sgfResult ++ ['F'], isForfeit := true, detail := g.forfeitReason }
    else .error (.py .assertionError)

/-! ### Game_result (gtp_games.py) -/

/-- A CPU time: a float, None, or the string '?' (written by old versions). -/
inductive CpuTime where
  | secs (q : Rat)
  | none
  | unknown
  deriving DecidableEq, Repr

/-- gtp_games.py:29-46: the attributes of Game_result after `set_players`. `players` is the pair of the values of the
map for 'b' and 'w' (the only keys in use). `cpuTimes` is an association list for the dict. -/
structure GameResult where
  res : Res
  gameId : Option Str
  players : Str × Str
  playerB : Str
  playerW : Str
  winningPlayer : Option Str
  cpuTimes : List (Str × CpuTime)
  deriving DecidableEq, Repr

/-- `self.players.get(colour)` -/
def playerGet (players : Str × Str) : Option Colour → Option Str
  | none => none
  | some .b => some players.1
  | some .w => some players.2

/-- gtp_games.py:33-46 `set_players` on a new Game_result. (A forfeit always has a losing colour, so the lookup at line
46 can't fail: `C30_forfeit_has_winner`.) -/
def GameResult.setPlayers (r : Res) (b w : Str) : GameResult :=
  let detail := if r.isForfeit then
      some ("forfeit by ".toList ++ ((playerGet (b, w) r.losingColour).getD "None".toList) ++ ": ".toList
        ++ (r.detail.getD "None".toList))
    else r.detail
  { res := { r with detail := detail }, gameId := none, players := (b, w), playerB := b, playerW := w,
    winningPlayer := playerGet (b, w) r.winningColour,
    cpuTimes := if b = w then [(b, .none)] else [(b, .none), (w, .none)] }

/-- gtp_games.py:48-52 `losing_player`. -/
def GameResult.losingPlayer (r : GameResult) : Option Str :=
  match r.res.winningColour with
  | none => none
  | some c => playerGet r.players (some c.opponent)

/-- gtp_games.py:54-64: the pickled state. -/
structure Pickled where
  playerB : Str
  playerW : Str
  winningColour : Option Colour
  sgfResult : Str
  detail : Option Str
  isForfeit : Bool
  gameId : Option Str
  cpuTimes : List (Str × CpuTime)

/-- gtp_games.py:54-64 `__getstate__`. -/
def GameResult.getState (r : GameResult) : Pickled :=
  { playerB := r.playerB, playerW := r.playerW, winningColour := r.res.winningColour, sgfResult := r.res.sgfResult,
    detail := r.res.detail, isForfeit := r.res.isForfeit, gameId := r.gameId, cpuTimes := r.cpuTimes }

/-- gtp_games.py:66-83 `__setstate__`. -/
def GameResult.ofState (s : Pickled) : GameResult :=
  { res := { winningColour := s.winningColour, isJigo := decide (s.sgfResult = ['0']), isForfeit := s.isForfeit,
             sgfResult := s.sgfResult, detail := s.detail },
    gameId := s.gameId, players := (s.playerB, s.playerW), playerB := s.playerB, playerW := s.playerW,
    winningPlayer := playerGet (s.playerB, s.playerW) s.winningColour,
    cpuTimes := s.cpuTimes.map (fun kv => if kv.2 = .unknown then (kv.1, .none) else kv) }

/-- Store in an association list (`d[k] = v` for a key already present). -/
def assocSet (l : List (Str × CpuTime)) (k : Str) (v : CpuTime) : List (Str × CpuTime) :=
  l.map (fun kv => if kv.1 = k then (k, v) else kv)

/-- gtp_games.py:93-96: one step of `soft_update_cpu_times`. -/
def GameResult.softUpdate1 (r : GameResult) (c : Colour) (t : CpuTime) : GameResult :=
  let k := match c with | .b => r.players.1 | .w => r.players.2
  match r.cpuTimes.lookup k with
  | some .none => { r with cpuTimes := assocSet r.cpuTimes k t }
  | _ => r

/-- gtp_games.py:98-110 `describe`. -/
def GameResult.describe (r : GameResult) : Str :=
  let s := match r.res.winningColour with
    | some _ => (r.winningPlayer.getD "None".toList) ++ " beat ".toList ++ (r.losingPlayer.getD "None".toList) ++ [' ']
    | none => r.players.1 ++ " vs ".toList ++ r.players.2 ++ [' ']
  let s := s ++ (if r.res.isJigo then "jigo".toList else r.res.sgfResult)
  match r.res.detail with
  | none => s
  | some d => s ++ " (".toList ++ d ++ ")".toList

end Gomill
