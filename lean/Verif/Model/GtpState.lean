import Verif.Model.GtpEngine
import Verif.Model.Vertex
import Verif.Model.Handicap
import Verif.Model.Board
import Verif.Model.SgfMoves
/-
Model of gomill/gtp_states.py: Gtp_state, except showboard (which has no effect on the state) and gomill-savesgf (see GtpSave).

A handler is a function from the state and the arguments to the new state and the outcome (see GtpEngine); an exception
part-way through a handler leaves the assignments made before it.  The boards are values: the code copies where it needs to
(lines 217, 276, 300, 338), and the move generator "must not modify data passed in the game_state" (line 161).
The texts of error messages are abbreviated where they come from other modules.
-/
namespace Gomill.Gtp
open Py

/-- gtp_states.py:17-44 History_move.  The cookie is an opaque value. -/
structure HistMove where
  colour : Colour
  move : Option Pt
  comments : Option Str := none
  cookie : Option Nat := none
  deriving DecidableEq, Repr

/-- gtp_states.py:168-193: the attributes of a Gtp_state. `koPlayer` is `simple_ko_player`. -/
structure GS where
  boardSize : Int
  acceptable : List Int
  komi : Rat
  timeSettings : Option (Int × Int × Int)
  timeStatus : Colour → Option Int × Option Int
  board : Board
  handicap : Option Int
  koPoint : Option Pt
  koPlayer : Option Colour
  base : Board
  history : List HistMove

/-- gtp_states.py:47-106 Game_state: what the move generator is told. -/
structure GameState where
  size : Int
  board : Board
  komi : Rat
  base : Board
  history : List HistMove
  koPoint : Option Pt
  handicap : Option Int
  forRegression : Bool
  timeSettings : Option (Int × Int × Int)
  timeRemaining : Option Int
  canadianStonesRemaining : Option Int

/-- gtp_states.py:108-136 Move_generator_result. -/
structure GenResult where
  resign : Bool := false
  passMove : Bool := false
  move : Option Pt := none
  claim : Bool := false
  comments : Option Str := none
  cookie : Option Nat := none

/-- What a Gtp_state depends on: the move generator (None: it raises an exception), float() (None: not a finite number),
the files, and the codecs Python has. -/
structure Env where
  generate : GameState → Colour → Option GenResult
  readFloat : Str → Option Rat
  file : Str → Option Str
  codec : Str → Bool

/-! ### gtp_engine.py: argument interpretation -/

/-- gtp_engine.py:46-58 `interpret_colour`. -/
def interpretColour (arg : Str) : Option Colour :=
  if lower arg = "w".toList ∨ lower arg = "white".toList then some .w
  else if lower arg = "b".toList ∨ lower arg = "black".toList then some .b
  else none

/-- gtp_engine.py:60-73 `interpret_vertex`: None is GtpError. -/
def interpretVertex (arg : Str) (boardSize : Int) : Option (Option Pt) :=
  match moveFromVertex arg boardSize with
  | .ok m => some m
  | .error _ => none

/-- gtp_engine.py:78-101 `interpret_int`: None is GtpError. -/
def interpretInt (arg : Str) : Option Int :=
  match parseInt arg with
  | .error _ => none
  | .ok k => if k < 0 then some (-1) else if k > gtpIntMax then some gtpIntMax else some k

/-! ### helpers -/

def err (s : GS) (msg : String) : GS × Outcome := (s, .gtpError msg.toList)

/-- An exception other than GtpError. -/
def exc (s : GS) (_e : Exc) : GS × Outcome := (s, .exception [])

/-- gtp_states.py:184-193 `reset`: the new state, and the exception `boards.Board` raises for a size less than 2. -/
def GS.reset (s : GS) : GS × Option Exc :=
  match Board.init s.boardSize.toNat with
  | .error e => (s, some e)
  | .ok b => ({ s with board := b, handicap := none, koPoint := none, koPlayer := none, base := b, history := [] }, none)

/-- gtp_states.py:195-204 `set_history_base`. -/
def GS.setHistoryBase (s : GS) (b : Board) : GS := { s with base := b, history := [] }

/-- gtp_states.py:220-227: the loop of `reset_to_moves`.  The arguments are the local variables simple_ko_point and
simple_ko_player. Returns them, or the exception. -/
def resetLoop (s : GS) (ko : Option Pt) (player : Option Colour) :
    List HistMove → GS × Except Exc (Option Pt × Option Colour)
  | [] => (s, .ok (ko, player))
  | m :: rest =>
    match m.move with
    | none => resetLoop { s with koPoint := none } ko player rest
    | some (row, col) =>
      match s.board.play row col m.colour with
      | .error e => (s, .error e)
      | .ok (k, b) => resetLoop { s with board := b } k (some m.colour.opponent) rest

/-- gtp_states.py:206-230 `reset_to_moves`. -/
def GS.resetToMoves (s : GS) (moves : List HistMove) : GS × Option Exc :=
  match resetLoop { s with board := s.base.copy } none none moves with
  | (s', .error e) => (s', some e)
  | (s', .ok (ko, player)) => ({ s' with koPoint := ko, koPlayer := player, history := moves }, none)

/-- gtp_states.py:232-238 `set_komi`. -/
def clampKomi (f : Rat) : Rat := if f < -625 then -625 else if f > 625 then 625 else f

/-- `for row, col in points: board.play(row, col, 'b')` (lines 272-273, 328-329): the board reached, and the exception. -/
def playAll (b : Board) : List Pt → Board × Option Exc
  | [] => (b, none)
  | p :: ps => match b.play p.1 p.2 .b with
    | .error e => (b, some e)
    | .ok (_, b') => playAll b' ps

/-- `" ".join(format_vertex((row, col)) for (row, col) in points)`. -/
def vertexText (points : List Pt) : Except Exc Str := do
  let l ← points.mapM (fun p => formatVertex (some p))
  return join [' '] l

/-! ### handlers -/

/-- gtp_states.py:240-248 `handle_boardsize`. -/
def GS.boardsize (s : GS) (args : List Str) : GS × Outcome :=
  match args with
  | [] => err s "invalid arguments"
  | a :: _ => match interpretInt a with
    | none => err s "invalid int"
    | some size =>
      if size ∉ s.acceptable then err s "unacceptable size"
      else match GS.reset { s with boardSize := size } with
        | (s', some e) => exc s' e
        | (s', none) => (s', .value none)

/-- gtp_states.py:250-251 `handle_clear_board`. -/
def GS.clearBoard (s : GS) (_args : List Str) : GS × Outcome :=
  match s.reset with
  | (s', some e) => exc s' e
  | (s', none) => (s', .value none)

/-- gtp_states.py:253-258 `handle_komi`, with gtp_engine.py:103-121 `interpret_float`. -/
def GS.setKomi (env : Env) (s : GS) (args : List Str) : GS × Outcome :=
  match args with
  | [] => err s "invalid arguments"
  | a :: _ => match env.readFloat a with
    | none => err s "invalid float"
    | some f => ({ s with komi := clampKomi f }, .value none)

/-- gtp_states.py:260-278 `handle_fixed_handicap`. -/
def GS.fixedHandicap (s : GS) (args : List Str) : GS × Outcome :=
  match args with
  | [] => err s "invalid arguments"
  | a :: _ => match interpretInt a with
    | none => err s "invalid int"
    | some n =>
      if !s.board.isEmpty then err s "board not empty"
      else match Handicap.points n s.boardSize with
        | .error .valueError => err s "invalid number of stones"
        | .error e => exc s e
        | .ok points => match playAll s.board points with
          | (b, some e) => exc { s with board := b } e
          | (b, none) =>
            let s' := GS.setHistoryBase { s with board := b, koPoint := none, handicap := some n } b.copy
            match vertexText points with
            | .error e => exc s' e
            | .ok t => (s', .value (some t))

/-- gtp_states.py:287-296: the loop of `handle_set_free_handicap`. -/
def freeLoop (boardSize : Int) (b : Board) : List Str → Except Outcome Board
  | [] => .ok b
  | v :: vs => match interpretVertex v boardSize with
    | none => .error (.gtpError "invalid vertex".toList)
    | some none => .error (.gtpError "'pass' not permitted".toList)
    | some (some (row, col)) => match b.play row col .b with
      | .error .valueError => .error (.gtpError ("engine error: ".toList ++ v ++ " is occupied".toList))
      | .error _ => .error (.exception [])
      | .ok (_, b') => freeLoop boardSize b' vs

/-- gtp_states.py:280-302 `handle_set_free_handicap`. (If `reset` itself raises, its exception is the one seen.) -/
def GS.setFreeHandicap (s : GS) (args : List Str) : GS × Outcome :=
  let maxPoints := Handicap.maxFree s.boardSize
  if ¬ (2 ≤ (args.length : Int) ∧ (args.length : Int) ≤ maxPoints) then err s "invalid number of stones"
  else if !s.board.isEmpty then err s "board not empty"
  else match freeLoop s.boardSize s.board args with
    | .error o => match s.reset with
      | (s', some e) => exc s' e
      | (s', none) => (s', o)
    | .ok b =>
      let s1 := GS.setHistoryBase { s with board := b } b.copy
      ({ s1 with handicap := some args.length, koPoint := none }, .value none)

/-- gtp_states.py:304-308 `_choose_free_handicap_moves`. -/
def chooseFree (n boardSize : Int) : Except Exc (List Pt) := do
  let m ← Handicap.maxFixed boardSize
  Handicap.points (min n m) boardSize

/-- gtp_states.py:310-340 `handle_place_free_handicap`. -/
def GS.placeFreeHandicap (s : GS) (args : List Str) : GS × Outcome :=
  match args with
  | [] => err s "invalid arguments"
  | a :: _ => match interpretInt a with
    | none => err s "invalid int"
    | some n =>
      let maxPoints := Handicap.maxFree s.boardSize
      if ¬ (2 ≤ n ∧ n ≤ maxPoints) then err s "invalid number of stones"
      else if !s.board.isEmpty then err s "board not empty"
      else
        let n := if n = maxPoints then maxPoints - 1 else n
        match chooseFree n s.boardSize with
        | .error e => exc s e
        | .ok moves =>
          let r := if (moves.length : Int) > n then (s.board, some Exc.valueError) else playAll s.board moves
          match r with
          | (_, some e) =>
            let o : Outcome := if e = .valueError ∨ e = .typeError then .gtpError "invalid result from move generator".toList
              else .exception []
            match s.reset with
            | (s', some e') => exc s' e'
            | (s', none) => (s', o)
          | (b, none) =>
            let s' := GS.setHistoryBase { s with board := b, koPoint := none, handicap := some n } b.copy
            match vertexText moves with
            | .error e => exc s' e
            | .ok t => (s', .value (some t))

/-- gtp_states.py:342-359 `handle_play`. -/
def GS.play (s : GS) (args : List Str) : GS × Outcome :=
  match args with
  | colourS :: vertexS :: _ => match interpretColour colourS with
    | none => err s "invalid colour"
    | some colour => match interpretVertex vertexS s.boardSize with
      | none => err s "invalid vertex"
      | some none =>
        ({ s with koPoint := none, history := s.history ++ [{ colour := colour, move := none }] }, .value none)
      | some (some (row, col)) => match s.board.play row col colour with
        | .error .valueError => err s "illegal move"
        | .error e => exc s e
        | .ok (ko, b) =>
          ({ s with koPoint := ko, koPlayer := some colour.opponent, board := b,
                    history := s.history ++ [{ colour := colour, move := some (row, col) }] }, .value none)
  | _ => err s "invalid arguments"

/-- gtp_states.py:370-384: the Game_state for the move generator. -/
def GS.gameState (s : GS) (colour : Colour) (forRegression : Bool) : GameState :=
  { size := s.boardSize, board := s.board, base := s.base, history := s.history, komi := s.komi,
    forRegression := forRegression,
    koPoint := if s.koPoint ≠ none ∧ s.koPlayer = some colour then s.koPoint else none,
    handicap := s.handicap, timeSettings := s.timeSettings,
    timeRemaining := (s.timeStatus colour).1, canadianStonesRemaining := (s.timeStatus colour).2 }

/-- gtp_states.py:364-406 `_handle_genmove`. -/
def GS.handleGenmove (env : Env) (s : GS) (args : List Str) (forRegression allowClaim : Bool) : GS × Outcome :=
  match args with
  | [] => err s "invalid arguments"
  | a :: _ => match interpretColour a with
    | none => err s "invalid colour"
    | some colour => match env.generate (s.gameState colour forRegression) colour with
      | none => exc s .valueError
      | some g =>
        if allowClaim && g.claim then (s, .value (some "claim".toList))
        else if g.resign then (s, .value (some "resign".toList))
        else if g.passMove then
          (if forRegression then s else
            { s with history := s.history ++ [{ colour := colour, move := none, comments := g.comments, cookie := g.cookie }] },
           .value (some "pass".toList))
        else match g.move with
          | none => exc s .typeError
          | some (row, col) => match formatVertex (some (row, col)) with
            | .error e => exc s e
            | .ok vertex =>
              if forRegression then (s, .value (some vertex))
              else match s.board.play row col colour with
                | .error .valueError => (s, .gtpError ("engine error: tried to play ".toList ++ vertex))
                | .error e => exc s e
                | .ok (ko, b) =>
                  ({ s with koPoint := ko, koPlayer := some colour.opponent, board := b,
                            history := s.history ++ [{ colour := colour, move := some (row, col), comments := g.comments, cookie := g.cookie }] },
                   .value (some vertex))

/-- gtp_states.py:411-418 `handle_genmove_ex`. -/
def GS.genmoveEx (env : Env) (s : GS) (args : List Str) : GS × Outcome :=
  if args = [] then (s, .value (some "claim".toList))
  else s.handleGenmove env (args.take 1) false ((args.drop 1).any (fun a => a = "claim".toList))

/-- gtp_states.py:423-429 `handle_undo`. -/
def GS.undo (s : GS) (_args : List Str) : GS × Outcome :=
  if s.history = [] then err s "cannot undo"
  else match s.resetToMoves s.history.dropLast with
    | (s', none) => (s', .value none)
    | (s', some .valueError) => err s' "corrupt history"
    | (s', some e) => exc s' e

/-- gtp_states.py:469-473: "Handicap isn't important, so soldier on". -/
def ignoreBadHandicap : Except Exc (Option Int) → Except Exc (Option Int)
  | .error .valueError => .ok none
  | r => r

/-- gtp_states.py:480-485: the moves of the position before move_number. -/
def beforeMove (moveNumber : Option Int) (historyMoves : List HistMove) : List HistMove :=
  match moveNumber with
  | none => historyMoves
  | some k => historyMoves.take (max 0 (k - 1)).toNat

/-- gtp_states.py:461-499: `handle_loadsgf` once the file has been read and parsed. -/
def GS.loadGame (env : Env) (s : GS) (moveNumber : Option Int) (game : Sgf.SgfGame) : GS × Outcome :=
  if game.size ∉ s.acceptable then err s "unacceptable size"
  else
    let s := { s with boardSize := game.size }
    match game.getKomi env.readFloat with
    | .error .valueError => err s "bad komi"
    | .error e => exc s e
    | .ok komi =>
      match ignoreBadHandicap game.getHandicap with
      | .error e => exc s e
      | .ok handicap =>
        match Sgf.getSetupAndMoves game.size game.tree.mainSequence with
        | .error .valueError => err s "bad setup"
        | .error e => exc s e
        | .ok (sgfBoard, plays) =>
          let historyMoves : List HistMove := plays.map (fun p => { colour := p.1, move := p.2 })
          match (s.setHistoryBase sgfBoard).resetToMoves (beforeMove moveNumber historyMoves) with
          | (s', none) => ({ s' with komi := clampKomi komi, handicap := handicap }, .value none)
          | (s', some .valueError) =>
            match (s'.setHistoryBase s.base).resetToMoves s.history with
            | (s'', none) => err s'' "bad move in file"
            | (s'', some .valueError) => err s'' "bad move in file and corrupt history"
            | (s'', some e) => exc s'' e
          | (s', some e) => exc s' e

/-- gtp_states.py:442-499 `handle_loadsgf`. -/
def GS.loadsgf (env : Env) (s : GS) (args : List Str) : GS × Outcome :=
  match args with
  | [] => err s "invalid arguments"
  | path :: rest =>
    match (match rest with
      | [] => some none
      | a :: _ => (interpretInt a).map some) with
    | none => err s "invalid int"
    | some moveNumber =>
      match env.file path with
      | none => err s "cannot load file"
      | some text => match Sgf.SgfGame.fromString env.codec text with
        | .error .valueError => err s "cannot load file"
        | .error e => exc s e
        | .ok game => s.loadGame env moveNumber game

/-- gtp_states.py:501-511 `handle_time_left`. (interpret_... raising GtpError and the missing arguments both give an error,
whichever comes first.) -/
def GS.timeLeft (s : GS) (args : List Str) : GS × Outcome :=
  match args with
  | a :: b :: c :: _ => match interpretColour a, interpretInt b, interpretInt c with
    | some colour, some time, some stones =>
      ({ s with timeStatus := fun x => if x = colour then (some time, if stones = 0 then none else some stones) else s.timeStatus x },
       .value none)
    | _, _, _ => err s "invalid argument"
  | _ => err s "invalid arguments"

/-- gtp_states.py:513-520 `handle_time_settings`. -/
def GS.setTime (s : GS) (args : List Str) : GS × Outcome :=
  match args with
  | a :: b :: c :: _ => match interpretInt a, interpretInt b, interpretInt c with
    | some m, some ct, some cs => ({ s with timeSettings := some (m, ct, cs) }, .value none)
    | _, _, _ => err s "invalid argument"
  | _ => err s "invalid arguments"

/-- gtp_states.py:522-526 `handle_explain_last_move`. -/
def GS.explainLastMove (s : GS) (_args : List Str) : GS × Outcome :=
  match s.history.getLast? with
  | none => (s, .value none)
  | some m => (s, .value m.comments)

/-- gtp_states.py:576-603: the commands. -/
inductive Cmd where
  | boardsize | clearBoard | komi | fixedHandicap | setFreeHandicap | placeFreeHandicap | play | genmove | genmoveEx
  | regGenmove | undo | loadsgf | timeLeft | timeSettings | explainLastMove
  deriving DecidableEq, Repr

/-- Handle a command. -/
def GS.step (env : Env) (s : GS) (c : Cmd) (args : List Str) : GS × Outcome :=
  match c with
  | .boardsize => s.boardsize args
  | .clearBoard => s.clearBoard args
  | .komi => s.setKomi env args
  | .fixedHandicap => s.fixedHandicap args
  | .setFreeHandicap => s.setFreeHandicap args
  | .placeFreeHandicap => s.placeFreeHandicap args
  | .play => s.play args
  | .genmove => s.handleGenmove env args false false
  | .genmoveEx => s.genmoveEx env args
  | .regGenmove => s.handleGenmove env args true false
  | .undo => s.undo args
  | .loadsgf => s.loadsgf env args
  | .timeLeft => s.timeLeft args
  | .timeSettings => s.setTime args
  | .explainLastMove => s.explainLastMove args

/-- gtp_states.py:168-182 `__init__`, with acceptable_sizes given. -/
def GS.init (acceptable : List Int) : Except Exc GS := do
  let size ← match acceptable.min? with
    | none => .error .valueError
    | some m => .ok m
  let b ← Board.init size.toNat
  return { boardSize := size, acceptable := acceptable, komi := 0, timeSettings := none, timeStatus := fun _ => (none, none),
           board := b, handicap := none, koPoint := none, koPlayer := none, base := b, history := [] }

/-- gtp_states.py:606-626 `get_last_move`: (move_is_available, move). -/
def getLastMove (history : List HistMove) (player : Colour) : Bool × Option Pt :=
  match history.getLast? with
  | none => (false, none)
  | some m => if m.colour ≠ player.opponent then (false, none) else (true, m.move)

/-- gtp_states.py:627-649 `get_last_move_and_cookie`. -/
def getLastMoveAndCookie (history : List HistMove) (player : Colour) : Bool × Option Pt × Option Nat :=
  let r := getLastMove history player
  let cookie := if r.1 then
      match history.dropLast.getLast? with
      | none => none
      | some m => if m.colour = player then m.cookie else none
    else none
  (r.1, r.2, cookie)

end Gomill.Gtp
