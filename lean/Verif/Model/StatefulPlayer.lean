import Verif.Model.GtpSave
import Verif.Model.GtpSession
import Verif.Model.GtpStateEngine
/-
Model of gomill_examples/gtp_stateful_player: a GTP engine which keeps the position, and plays at random.

Not modelled: KeyboardInterrupt, and the exit status of a session which ends because the controller has gone away.
-/
namespace Gomill.Gtp.Stateful
open Py Session

/-- The outside world, which has a state `ν`: random.random(), random.choice() from this many things (the number of the one chosen), the contents of the files
that can be read, writing a file (whether it can be written), float() (none if it isn't a finite number), the codecs, and what gomill-savesgf puts in a file. -/
structure World (ν : Type) where
  random : ν → Rat × ν
  choice : Nat → ν → Nat × ν
  file : ν → Str → Option Str
  write : Str → Str → ν → Option ν
  readFloat : Str → Option Rat
  codec : Str → Bool
  encodings : Sgf.Encodings
  floats : Sgf.Floats
  version : Str
  date : ν → Str

/-- The state of the program: the Gtp_state, Player.resign_probability, and the outside world. -/
structure App (ν : Type) where
  gs : GS
  resignP : Rat
  world : ν

variable {ν : Type}

/-- gtp_stateful_player:63-67: the empty points. -/
def empties (b : Board) : List Pt := (boardPoints b.side).filter (fun p => b.at p = none)

/-- gtp_stateful_player:54-75 `Player.genmove`. None is an exception: random.choice raises IndexError if there are no empty points. -/
def genmove (W : World ν) (resignP : Rat) (b : Board) (w : ν) : Option GenResult × ν :=
  if (W.random w).1 < resignP then (some { resign := true }, (W.random w).2)
  else if empties b = [] then (none, (W.random w).2)
  else
    let r := W.choice (empties b).length (W.random w).2
    (some { move := (empties b)[r.1]?, comments := some ("chosen at random from ".toList ++ strInt (empties b).length ++ " choices".toList) }, r.2)

/-- What the Gtp_state depends on, at the moment. -/
def envOf (W : World ν) (a : App ν) : Env where
  generate := fun g _ => (genmove W a.resignP g.board a.world).1
  readFloat := W.readFloat
  file := W.file a.world
  codec := W.codec

/-- gtp_states.py:364-369: whether a command gets as far as asking the move generator. -/
def asks (c : Cmd) (args : List Str) : Bool :=
  match args with
  | [] => false
  | a :: _ => (c = .genmove || c = .genmoveEx || c = .regGenmove) && (interpretColour a).isSome

/-- The handlers: those of the Gtp_state, and those of the Player. -/
inductive H where
  | state (c : Cmd)
  | showboard
  | savesgf
  | name
  | version
  | resignP
  deriving DecidableEq

/-- What gomill-savesgf depends on, at the moment. -/
def saveEnvOf (W : World ν) (a : App ν) : SaveEnv where
  encodings := W.encodings
  floats := W.floats
  version := W.version
  date := W.date a.world
  canWrite := fun path text => (W.write path text a.world).isSome

/-- gtp_stateful_player:83-88 `Player.handle_resign_p`, with gtp_engine.py:103-121 `interpret_float`. -/
def handleResignP (W : World ν) (args : List Str) (a : App ν) : Outcome × App ν :=
  match args with
  | [] => (.gtpError "invalid arguments".toList, a)
  | x :: _ => match W.readFloat x with
    | none => (.gtpError ("invalid float: '".toList ++ x ++ "'".toList), a)
    | some f => (.value none, { a with resignP := f })

/-- gtp_stateful_player:77-88, and the handlers of the Gtp_state. (If a file can't be written, it's left as it was: the code may have truncated it.) -/
def handle (W : World ν) (h : H) (args : List Str) (a : App ν) : Outcome × App ν :=
  match h with
  | .state c =>
    let r := a.gs.step (envOf W a) c args
    (r.2, { a with gs := r.1, world := if asks c args then (genmove W a.resignP a.gs.board a.world).2 else a.world })
  | .showboard => (a.gs.showboard args, a)
  | .savesgf =>
    let r := a.gs.savesgf (saveEnvOf W a) args
    (r.1.2, { a with gs := r.1.1, world := (r.2.bind (fun x => W.write x.1 x.2 a.world)).getD a.world })
  | .name => (.value (some "GTP stateful player".toList), a)
  | .version => (.value (some []), a)
  | .resignP => handleResignP W args a

/-- Calling a handler. -/
def call (W : World ν) (h : H) (args : List Str) (e : Eng H (App ν)) : Outcome × Eng H (App ν) :=
  ((handle W h args e.app).1, { e with app := (handle W h args e.app).2 })

/-- gtp_states.py:576-592 `get_handlers`. -/
def stateHandlers : List (Str × Session.Handler H) :=
  [("boardsize".toList, .custom (.state .boardsize)), ("clear_board".toList, .custom (.state .clearBoard)), ("komi".toList, .custom (.state .komi)),
   ("fixed_handicap".toList, .custom (.state .fixedHandicap)), ("set_free_handicap".toList, .custom (.state .setFreeHandicap)),
   ("place_free_handicap".toList, .custom (.state .placeFreeHandicap)), ("play".toList, .custom (.state .play)), ("genmove".toList, .custom (.state .genmove)),
   ("gomill-genmove_ex".toList, .custom (.state .genmoveEx)), ("reg_genmove".toList, .custom (.state .regGenmove)), ("undo".toList, .custom (.state .undo)),
   ("showboard".toList, .custom .showboard), ("loadsgf".toList, .custom (.state .loadsgf)), ("gomill-explain_last_move".toList, .custom (.state .explainLastMove)),
   ("gomill-savesgf".toList, .custom .savesgf)]

/-- gtp_stateful_player:90-95 `Player.get_handlers`. -/
def playerHandlers : List (Str × Session.Handler H) :=
  [("name".toList, .custom .name), ("version".toList, .custom .version), ("gomill-resign_p".toList, .custom .resignP)]

/-- gtp_stateful_player:51-52 and 98-107 `make_engine`. -/
def makeEngine (w : ν) : Except Exc (Eng H (App ν)) :=
  match GS.init [9, 13, 19] with
  | .error e => .error e
  | .ok s => .ok ((((Eng.new { gs := s, resignP := 1/10, world := w }).addProtocolCommands).addCommands stateHandlers).addCommands playerHandlers)

/-- gtp_stateful_player:109-115 `main`, as it is after `n` iterations of the session. -/
def main (W : World ν) {ω : Type} (write : Str → ω → Option FileExc × ω) (flush : ω → Option FileExc × ω) (isatty : Bool) (n : Nat) (w : ν) (inp : Str) (dst : ω)
    (rl : Readline) : Except Exc (St (Eng H (App ν)) Str ω × Readline) :=
  match makeEngine w with
  | .error e => .error e
  | .ok e => .ok (interactive (call W) write flush isatty n e inp dst rl)

end Gomill.Gtp.Stateful
