import Verif.Model.GtpController
import Verif.Model.GameRunner
import Verif.Model.SgfProps
/-
Model of gomill/gtp_controller.py: Game_controller, and gomill/gtp_games.py: _Gtp_backend and Gtp_game.
-/
namespace Gomill.Gtp
open Py

/-! ### Game_controller -/

/-- gtp_controller.py:930-937: the attributes of Game_controller, after both players have been set.  The engine descriptions
aren't modelled. -/
structure GC (σ : Type) where
  ctl : Colour → Ctl σ
  code : Colour → Str
  lateErrors : List Str
  cautious : Bool

variable {σ τ : Type}

/-- A change to one of the players' controllers. -/
def GC.set (gc : GC σ) (c : Colour) (x : Ctl σ) : GC σ := { gc with ctl := fun d => if d = c then x else gc.ctl d }

/-- gtp_controller.py:1002-1008 `set_cautious_mode`. -/
def GC.setCautious (gc : GC σ) (b : Bool) : GC σ := { gc with cautious := b }

/-- gtp_controller.py:1018-1044 `send_command`. -/
def GC.send (C : Colour → Channel σ) (gc : GC σ) (c : Colour) (command : Str) (args : List Str) : Except CExc Str × GC σ :=
  if gc.cautious then
    match (gc.ctl c).safeDoCommand (C c) command args with
    | (.error e, x) => (.error e, gc.set c x)
    | (.ok none, x) => (.error (.badResponse ("late low-level error from player ".toList ++ gc.code c) none), gc.set c x)
    | (.ok (some r), x) => (.ok r, gc.set c x)
  else
    match (gc.ctl c).doCommand (C c) command args with
    | (.error e, x) => (.error e, gc.set c x)
    | (.ok r, x) => (.ok r, gc.set c x)

/-- gtp_controller.py:1072-1083 `known_command`. -/
def GC.knownCommand (C : Colour → Channel σ) (gc : GC σ) (c : Colour) (command : Str) : Except CExc Bool × GC σ :=
  match (gc.ctl c).knownCommand (C c) gc.cautious command with
  | (r, x) => (r, gc.set c x)

/-- gtp_controller.py:1046-1070 `maybe_send_command`. -/
def GC.maybeSend (C : Colour → Channel σ) (gc : GC σ) (c : Colour) (command : Str) (args : List Str) : Except CExc (Option Str) × GC σ :=
  match gc.knownCommand C c command with
  | (.error e, gc) => (.error e, gc)
  | (.ok false, gc) => (.ok none, gc)
  | (.ok true, gc) =>
    match (gc.ctl c).perform (C c) gc.cautious command args with
    | (.ok r, x) => (.ok r, gc.set c x)
    | (.error (.badResponse _ _), x) => (.ok none, gc.set c x)
    | (.error e, x) => (.error e, gc.set c x)

/-- gtp_controller.py:1091-1096, for one colour. -/
def GC.closePlayer (C : Colour → Channel σ) (gc : GC σ) (c : Colour) : Except CExc Unit × GC σ :=
  match (gc.ctl c).safeClose (C c) with
  | (.error e, x) => (.error e, gc.set c x)
  | (.ok (), x) => (.ok (), { gc.set c x with lateErrors := gc.lateErrors ++ x.errors })

/-- gtp_controller.py:1085-1096 `close_players`. -/
def GC.closePlayers (C : Colour → Channel σ) (gc : GC σ) : Except CExc Unit × GC σ :=
  match gc.closePlayer C .b with
  | (.error e, gc) => (.error e, gc)
  | (.ok (), gc) => gc.closePlayer C .w

/-- gtp_controller.py:1098-1114 `describe_late_errors`. -/
def GC.describeLateErrors (gc : GC σ) : Option Str :=
  if gc.lateErrors = [] then none else some (join ['\n'] gc.lateErrors)

/-- gtp_controller.py:1162-1168: one colour of `get_gtp_cpu_times`.  `float` is `float(s)`, none for ValueError; its value is taken to be
finite (it is only stored in the result). -/
def GC.cpuTime (C : Colour → Channel σ) (float : Str → Option Rat) (gc : GC σ) (c : Colour) :
    Except CExc (Option Rat × Bool) × GC σ :=
  match gc.knownCommand C c "gomill-cpu_time".toList with
  | (.error e, gc) => (.error e, gc)
  | (.ok false, gc) => (.ok (none, false), gc)
  | (.ok true, gc) =>
    match gc.maybeSend C c "gomill-cpu_time".toList [] with
    -- a ValueError from sending the command would be caught too
    | (.error .value, gc) => (.ok (none, true), gc)
    | (.error e, gc) => (.error e, gc)
    | (.ok none, gc) => (.ok (none, true), gc)
    | (.ok (some s), gc) => match float s with
      | none => (.ok (none, true), gc)
      | some q => (.ok (some q, false), gc)

/-- gtp_controller.py:1143-1169 `get_gtp_cpu_times`: the CPU times (for the colours in the dict), and the set of errors. -/
def GC.cpuTimes (C : Colour → Channel σ) (float : Str → Option Rat) (gc : GC σ) :
    Except CExc ((Colour → Option Rat) × List Colour) × GC σ :=
  match gc.cpuTime C float .b with
  | (.error e, gc) => (.error e, gc)
  | (.ok (tb, eb), gc) => match gc.cpuTime C float .w with
    | (.error e, gc) => (.error e, gc)
    | (.ok (tw, ew), gc) =>
      (.ok (fun c => match c with | .b => tb | .w => tw, (if eb then [.b] else []) ++ (if ew then [.w] else [])), gc)

/-! ### _Gtp_backend -/

/-- The configuration of a Gtp_game (gtp_games.py:177-189, 408-448) and the Python primitives it depends on: `str(komi)`, `float()`
on strings, the replacement of ill-formed UTF-8, and the after-move callback, which may raise any exception (a number). -/
structure GtpCfg (τ : Type) where
  boardSize : Nat
  komi : Rat
  komiText : Str
  claimAllowed : Colour → Bool
  scorers : List Colour
  internal : Bool
  comp : Compensation
  float : Str → Option Num
  cpuFloat : Str → Option Rat
  replaceBad : Str → Str
  callback : Colour → Option Pt → Board → τ → Except Nat Unit × τ

/-- The state of the backend: the game controller, the `handicap` attribute, the state of the callback, and the `player_scores` of
the last Gtp_game_score. -/
structure GEnv (σ τ : Type) where
  gc : GC σ
  handicap : Option Int
  user : τ
  scores : List (Colour × Str)

/-- The exceptions of the controller, as exceptions from a backend: 0 is BadGtpResponse, 1 GtpChannelError, 2 the StandardError from using
a closed controller, and k + 3 the exception number k from the callback. -/
def CExc.toG : CExc → GExc
  | .badResponse _ _ => .backend 0
  | .channel _ => .backend 1
  | .channelIsClosed => .backend 2
  | .value => .py .valueError

/-- The argument for a colour. -/
def colourWord : Colour → Str
  | .b => "b".toList
  | .w => "w".toList

/-- A Game_controller method called by the backend. -/
def GEnv.lift {α} (env : GEnv σ τ) (x : Except CExc α × GC σ) : Except CExc α × GEnv σ τ := (x.1, { env with gc := x.2 })

/-- Let the exceptions of the controller propagate from the backend. -/
def toBackend {α β} (x : Except CExc α × β) : Except GExc α × β :=
  (match x.1 with | .ok a => .ok a | .error e => .error e.toG, x.2)

/-- gtp_games.py:196-199, for one colour. -/
def startColour (C : Colour → Channel σ) (cfg : GtpCfg τ) (c : Colour) (gc : GC σ) : Except CExc Unit × GC σ :=
  match gc.send C c "boardsize".toList [strInt cfg.boardSize] with
  | (.error e, gc) => (.error e, gc)
  | (.ok _, gc) => match gc.send C c "clear_board".toList [] with
    | (.error e, gc) => (.error e, gc)
    | (.ok _, gc) => match gc.send C c "komi".toList [cfg.komiText] with
      | (.error e, gc) => (.error e, gc)
      | (.ok _, gc) => (.ok (), gc)

/-- gtp_games.py:191-199 `start_new_game`. -/
def startNewGame (C : Colour → Channel σ) (cfg : GtpCfg τ) (size : Nat) (komi : Rat) (env : GEnv σ τ) : Except GExc Unit × GEnv σ τ :=
  if size ≠ cfg.boardSize ∨ komi ≠ cfg.komi then (.error (.py .assertionError), env)
  else toBackend <| env.lift <|
    match startColour C cfg .b (env.gc.setCautious false) with
    | (.error e, gc) => (.error e, gc)
    | (.ok (), gc) => startColour C cfg .w gc

/-- gtp_games.py:201-202 `end_game`. -/
def endGame (env : GEnv σ τ) : Except GExc Unit × GEnv σ τ := (.ok (), { env with gc := env.gc.setCautious true })

/-- gtp_games.py:209-210, 229-230: the points of a response; none for ValueError. -/
def readVertices (boardSize : Nat) (response : Str) : Option (List (Option Pt)) :=
  (splitOn ' ' response).mapM (fun vt => match moveFromVertex vt boardSize with | .ok m => some m | .error _ => none)

/-- gtp_games.py:204-219 `get_free_handicap`. -/
def getFreeHandicap (C : Colour → Channel σ) (cfg : GtpCfg τ) (handicap : Int) (env : GEnv σ τ) : Except GExc (List Pt) × GEnv σ τ :=
  if some handicap ≠ env.handicap then (.error (.py .assertionError), env)
  else match env.gc.send C .b "place_free_handicap".toList [strInt handicap] with
    | (.error e, gc) => (.error e.toG, { env with gc := gc })
    | (.ok vertices, gc) =>
      match readVertices cfg.boardSize vertices with
      | none => (.error (.backend 0), { env with gc := gc })
      | some points =>
        if none ∈ points then (.error (.backend 0), { env with gc := gc })
        else if (pointSet points).length < points.length then (.error (.backend 0), { env with gc := gc })
        else (.ok (points.filterMap id), { env with gc := gc })
where
  /-- `set(points)` -/
  pointSet (points : List (Option Pt)) : List (Option Pt) := setUpdate [] points

/-- gtp_games.py:221-223 `notify_free_handicap`. -/
def notifyFreeHandicap (C : Colour → Channel σ) (points : List Pt) (env : GEnv σ τ) : Except GExc Unit × GEnv σ τ :=
  match points.mapM (fun p => formatVertex (some p)) with
  | .error e => (.error (.py e), env)
  | .ok vertices => match env.gc.send C .w "set_free_handicap".toList vertices with
    | (.error e, gc) => (.error e.toG, { env with gc := gc })
    | (.ok _, gc) => (.ok (), { env with gc := gc })

/-- gtp_games.py:225-236 `notify_fixed_handicap`. -/
def notifyFixedHandicap (C : Colour → Channel σ) (cfg : GtpCfg τ) (c : Colour) (handicap : Int) (points : List Pt) (env : GEnv σ τ) :
    Except GExc Unit × GEnv σ τ :=
  if some handicap ≠ env.handicap then (.error (.py .assertionError), env)
  else match env.gc.send C c "fixed_handicap".toList [strInt handicap] with
    | (.error e, gc) => (.error e.toG, { env with gc := gc })
    | (.ok vertices, gc) =>
      match readVertices cfg.boardSize vertices with
      | none => (.error (.backend 0), { env with gc := gc })
      | some seen =>
        if (∀ m ∈ seen, m ∈ points.map some) ∧ (∀ p ∈ points, some p ∈ seen) then (.ok (), { env with gc := gc })
        else (.error (.backend 0), { env with gc := gc })

/-- gtp_games.py:246-259: sending the genmove command, and the interpretation of the response. -/
def genmove (C : Colour → Channel σ) (cfg : GtpCfg τ) (c : Colour) (mayClaim : Bool) (env : GEnv σ τ) : Except GExc Act × GEnv σ τ :=
  let command := if mayClaim then "gomill-genmove_ex".toList else "genmove".toList
  let args := if mayClaim then [colourWord c, "claim".toList] else [colourWord c]
  match env.gc.send C c command args with
  | (.error (.badResponse msg _), gc) => (.ok (.forfeit msg), { env with gc := gc })
  | (.error e, gc) => (.error e.toG, { env with gc := gc })
  | (.ok raw, gc) =>
    let env := { env with gc := gc }
    let s := lower raw
    if s = "resign".toList then (.ok .resign, env)
    else if mayClaim ∧ s = "claim".toList then (.ok .claim, env)
    else match moveFromVertex s cfg.boardSize with
      | .ok m => (.ok (.move m), env)
      | .error _ => (.ok (.forfeit ("attempted ill-formed move ".toList ++ raw)), env)

/-- gtp_games.py:238-259 `get_move`. -/
def getMove (C : Colour → Channel σ) (cfg : GtpCfg τ) (c : Colour) (env : GEnv σ τ) : Except GExc Act × GEnv σ τ :=
  if cfg.claimAllowed c then
    match env.gc.knownCommand C c "gomill-genmove_ex".toList with
    | (.error e, gc) => (.error e.toG, { env with gc := gc })
    | (.ok known, gc) => genmove C cfg c known { env with gc := gc }
  else genmove C cfg c false env

/-- utils.py:45-68 `sanitise_utf8` on a string. -/
def sanitiseUtf8 (replaceBad : Str → Str) (s : Str) : Str := if Sgf.utf8Valid s then s else replaceBad s

/-- gtp_games.py:261-266 `get_last_move_comment`. -/
def getLastMoveComment (C : Colour → Channel σ) (cfg : GtpCfg τ) (c : Colour) (env : GEnv σ τ) : Except GExc (Option Str) × GEnv σ τ :=
  match env.gc.maybeSend C c "gomill-explain_last_move".toList [] with
  | (.error e, gc) => (.error e.toG, { env with gc := gc })
  | (.ok none, gc) => (.ok none, { env with gc := gc })
  | (.ok (some s), gc) =>
    let s := sanitiseUtf8 cfg.replaceBad s
    (.ok (if s = [] then none else some s), { env with gc := gc })

/-- gtp_games.py:268-280 `notify_move`. -/
def notifyMove (C : Colour → Channel σ) (c : Colour) (move : Option Pt) (env : GEnv σ τ) : Except GExc (Status × Option Str) × GEnv σ τ :=
  match formatVertex move with
  | .error e => (.error (.py e), env)
  | .ok vertex => match env.gc.send C c "play".toList [colourWord c.opponent, vertex] with
    | (.error (.badResponse msg gtp), gc) =>
      if gtp = some "illegal move".toList then
        (.ok (.reject, some (env.gc.code c ++ " claims move ".toList ++ vertex ++ " is illegal".toList)), { env with gc := gc })
      else (.ok (.error, some msg), { env with gc := gc })
    | (.error e, gc) => (.error e.toG, { env with gc := gc })
    | (.ok _, gc) => (.ok (.accept, none), { env with gc := gc })

/-- `s.upper()` (C locale: ASCII only). -/
def upper (s : Str) : Str := s.map Char.toUpper

/-- `margin <= 0` (False for a NaN). -/
def numNonPos : Num → Bool
  | .fin q => decide (q ≤ 0)
  | .negInf => true
  | _ => false

/-- gtp_games.py:302-308: the margin. -/
def readMargin (float : Str → Option Num) (s : Str) : Option Num :=
  match float s with
  | some m => if numNonPos m then none else some m
  | none => none

/-- gtp_games.py:291-308: the winner and margin a response to final_score adds to the lists; none if nothing is added. -/
def readScore (float : Str → Option Num) (response : Str) : Option (Option Colour × Option Num) :=
  let s := upper response
  let margin := readMargin float (s.drop 2)
  if s = "0".toList then some (none, some (.fin 0))
  else if "B+".toList.isPrefixOf s then some (some .b, margin)
  else if "W+".toList.isPrefixOf s then some (some .w, margin)
  else none

/-- `len(set(l))`, where `same` is equality in Python's sense. -/
def pySetLen {α} (same : α → α → Bool) (l : List α) : Nat := (l.foldl (fun s x => if s.any (same x) then s else x :: s) []).length

/-- `==` on margins, as Python's sets see it (each NaN is an object of its own). -/
def sameMargin (a b : Option Num) : Bool := decide (a = b) && decide (a ≠ some .nan)

/-- gtp_games.py:309-321: the decision. -/
def consensus (votes : List (Option Colour × Option Num)) : Option Colour × Option Num × Bool :=
  let winners := votes.map Prod.fst
  let margins := votes.map Prod.snd
  let n := pySetLen (fun a b => decide (a = b)) winners
  if n = 1 then
    (winners.headD none, if pySetLen sameMargin margins = 1 then margins.headD none else none, false)
  else (none, none, decide (1 < n))

/-- gtp_games.py:286-290: asking the scorers. -/
def askScorers (C : Colour → Channel σ) : List Colour → GC σ → Except CExc (List (Colour × Str)) × GC σ
  | [], gc => (.ok [], gc)
  | c :: cs, gc => match gc.maybeSend C c "final_score".toList [] with
    | (.error e, gc) => (.error e, gc)
    | (.ok r, gc) => match askScorers C cs gc with
      | (.error e, gc) => (.error e, gc)
      | (.ok l, gc) => (.ok (match r with | none => l | some s => (c, s) :: l), gc)

/-- gtp_games.py:282-325 `_score_game_gtp`. (The engines are asked first, here; the interpretation of the responses doesn't raise exceptions.) -/
def scoreGameGtp (C : Colour → Channel σ) (cfg : GtpCfg τ) (env : GEnv σ τ) : Except GExc GameScore × GEnv σ τ :=
  match askScorers C cfg.scorers env.gc with
  | (.error e, gc) => (.error e.toG, { env with gc := gc })
  | (.ok raw, gc) =>
    let d := consensus (raw.filterMap (fun x => readScore cfg.float x.2))
    match GameScore.make d.1 d.2.1 with
    | .error e => (.error e, { env with gc := gc })
    | .ok score => (.ok { score with scorersDisagreed := d.2.2 }, { env with gc := gc, scores := raw })

/-- gtp_games.py:327-333 `score_game`. -/
def scoreGame (C : Colour → Channel σ) (cfg : GtpCfg τ) (board : Board) (env : GEnv σ τ) : Except GExc GameScore × GEnv σ τ :=
  if cfg.internal then
    match GameScore.fromPosition board cfg.komi cfg.comp (env.handicap.getD 0) with
    | .error e => (.error e, env)
    | .ok s => (.ok s, { env with scores := [] })
  else scoreGameGtp C cfg env

/-- The after-move callback. -/
def afterMove (cfg : GtpCfg τ) (c : Colour) (m : Option Pt) (board : Board) (env : GEnv σ τ) : Except GExc Unit × GEnv σ τ :=
  match cfg.callback c m board env.user with
  | (.ok (), u) => (.ok (), { env with user := u })
  | (.error k, u) => (.error (.backend (k + 3)), { env with user := u })

/-- gtp_games.py:170-333 _Gtp_backend. -/
def gtpBackend (C : Colour → Channel σ) (cfg : GtpCfg τ) : Backend (GEnv σ τ) where
  startNewGame := startNewGame C cfg
  endGame := endGame
  getFreeHandicap := getFreeHandicap C cfg
  notifyFreeHandicap := notifyFreeHandicap C
  notifyFixedHandicap := notifyFixedHandicap C cfg
  getMove := getMove C cfg
  notifyMove := notifyMove C
  scoreGame := scoreGame C cfg
  getLastMoveComment := getLastMoveComment C cfg
  afterMove := afterMove cfg

/-! ### Gtp_game -/

/-- gtp_games.py:383-391: the attributes of Gtp_game. -/
structure GtpGame (σ τ : Type) where
  runner : Runner (GEnv σ τ)
  gameId : Option Str
  result : Option GameResult
  cpuTimeErrors : Option (List Colour)

/-- gtp_games.py:383-391 `__init__`. -/
def GtpGame.init (cfg : GtpCfg τ) (gc : GC σ) (user : τ) (moveLimit : Option Int) (gameId : Option Str) : GtpGame σ τ :=
  { runner := .init ⟨gc, none, user, []⟩ cfg.boardSize cfg.komi moveLimit, gameId, result := none, cpuTimeErrors := none }

/-- gtp_games.py:453-465 `prepare`. -/
def GtpGame.prepare (C : Colour → Channel σ) (cfg : GtpCfg τ) (g : GtpGame σ τ) : Except GExc Unit × GtpGame σ τ :=
  match g.runner.prepare (gtpBackend C cfg) with
  | (r, runner) => (r, { g with runner := runner })

/-- gtp_games.py:467-483 `set_handicap`. -/
def GtpGame.setHandicap (C : Colour → Channel σ) (cfg : GtpCfg τ) (g : GtpGame σ τ) (handicap : Int) (isFree : Bool) : Except GExc Unit × GtpGame σ τ :=
  match ({ g.runner with env := { g.runner.env with handicap := some handicap } } : Runner (GEnv σ τ)).setHandicap (gtpBackend C cfg) handicap isFree with
  | (r, runner) => (r, { g with runner := runner })

/-- gtp_games.py:507-512: the end of `run`. -/
def GtpGame.finish (C : Colour → Channel σ) (cfg : GtpCfg τ) (g : GtpGame σ τ) (res : Res) : Except GExc Unit × GtpGame σ τ :=
  let gc := g.runner.env.gc
  let result := { GameResult.setPlayers res (gc.code .b) (gc.code .w) with gameId := g.gameId }
  match gc.cpuTimes C cfg.cpuFloat with
  | (.error e, gc) => (.error e.toG, { g with runner := { g.runner with env := { g.runner.env with gc := gc } }, result := some result })
  | (.ok (times, errors), gc) =>
    let upd := fun (r : GameResult) (c : Colour) => match times c with
      | some q => r.softUpdate1 c (.secs q)
      | none => r
    (.ok (), { g with
      runner := { g.runner with env := { g.runner.env with gc := gc } }
      result := some (upd (upd result .b) .w)
      cpuTimeErrors := some errors })

/-- gtp_games.py:485-512 `run`; `none` if the game hasn't finished after `fuel` turns.  (After a successful Game_runner.run there is a
result.) -/
def GtpGame.run (C : Colour → Channel σ) (cfg : GtpCfg τ) (fmt : Rat → Str) (fuel : Nat) (g : GtpGame σ τ) :
    Option (Except GExc Unit × GtpGame σ τ × Option Game) :=
  match g.runner.run (gtpBackend C cfg) fmt fuel with
  | none => none
  | some (.error e, runner, game) => some (.error e, { g with runner := runner }, game)
  | some (.ok (), runner, game) =>
    match runner.result with
    | none => some (.error (.py .assertionError), { g with runner := runner }, game)
    | some res =>
      let x := GtpGame.finish C cfg { g with runner := runner } res
      some (x.1, x.2, game)

end Gomill.Gtp
