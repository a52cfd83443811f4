import Verif.Spec.GameTrack
import Verif.Spec.GtpController
import Verif.Model.GtpGame
/-
Specification vocabulary: the commands sent to the engines of a Gtp_game.
-/
namespace Gomill.Gtp
open Py Go

/-- A command and its arguments. -/
abbrev GtpCommand := Str × List Str

/-- The name an engine's aliases give to a command. -/
def aliasOf (al : List (Str × Str)) (command : Str) : Str := (al.lookup command).getD command

/-- The commands sent to an engine, under the names it was sent (including one the channel failed to send). -/
def sentIn (log : List Event) : List GtpCommand :=
  log.filterMap (fun e => match e with | .sent command args _ => some (command, args) | _ => none)

/-- The commands with which a Gtp_game asks an engine about something: they say nothing about the game. -/
def queryNames : List Str :=
  ["known_command".toList, "gomill-explain_last_move".toList, "final_score".toList, "gomill-cpu_time".toList]

/-- The commands with which a Gtp_game plays the game. -/
def gameNames : List Str :=
  ["boardsize".toList, "clear_board".toList, "komi".toList, "fixed_handicap".toList, "place_free_handicap".toList, "set_free_handicap".toList,
   "play".toList, "genmove".toList, "gomill-genmove_ex".toList]

/-- The aliases don't turn a command which plays the game into a query. -/
def AliasesOK (al : List (Str × Str)) : Prop :=
  ∀ g ∈ gameNames, ∀ q ∈ queryNames, aliasOf al g ≠ aliasOf al q

/-- The commands sent to an engine, other than the queries. -/
def gameCommands (al : List (Str × Str)) (log : List Event) : List GtpCommand :=
  (sentIn log).filter (fun x => !((queryNames.map (aliasOf al)).contains x.1))

/-- The GTP text for a move. -/
def moveWord : Option Pt → Str
  | none => "pass".toList
  | some p => "ABCDEFGHJKLMNOPQRSTUVWXYZ".toList.getD p.2.toNat 'A' :: strInt (p.1 + 1)

/-- Asking for a move; `ex` if the player may claim a win. -/
def askCommand (ex : Bool) (c : Colour) : GtpCommand :=
  if ex then ("gomill-genmove_ex".toList, [colourWord c, "claim".toList]) else ("genmove".toList, [colourWord c])

/-- What a player is sent because of a move: it was asked for its own moves, and is told of the opponent's. -/
def moveCommand (ex : Bool) (c : Colour) (m : Mv) : GtpCommand :=
  if m.1 = c then askCommand ex c else ("play".toList, [colourWord m.1, moveWord m.2])

/-- What a player has been sent during the game. -/
def heard (ex : Bool) (c : Colour) : Phase → List GtpCommand
  | .told h => h.map (moveCommand ex c)
  | .asked h d _ => h.map (moveCommand ex c) ++ (if d = c then [askCommand ex c] else [])

/-- What a player is sent about the handicap: the number of stones, whether it is a free handicap, and the points. -/
def handicapCommands : Option (Int × Bool × List Pt) → Colour → List GtpCommand
  | none, _ => []
  | some (k, false, _), _ => [("fixed_handicap".toList, [strInt k])]
  | some (k, true, _), .b => [("place_free_handicap".toList, [strInt k])]
  | some (_, true, points), .w => [("set_free_handicap".toList, points.map (fun p => moveWord (some p)))]

/-- What a player is sent to set up the game. -/
def setupCommands (size : Nat) (komiText : Str) (handicap : Option (Int × Bool × List Pt)) (c : Colour) : List GtpCommand :=
  [("boardsize".toList, [strInt size]), ("clear_board".toList, []), ("komi".toList, [komiText])] ++ handicapCommands handicap c

/-- The commands under the names the engine's aliases give them. -/
def renamed (al : List (Str × Str)) (l : List GtpCommand) : List GtpCommand := l.map (fun x => (aliasOf al x.1, x.2))

/-- If this command is sent to the engine now, this is its reply (a failure response, if `isFailure`). -/
def Replies {σ : Type} (C : Channel σ) (c : Ctl σ) (command : GtpCommand) (isFailure : Bool) (text : Str) : Prop :=
  ∃ s1 s2, C.send (aliasOf c.aliases command.1) command.2 c.chan = (.ok (), s1) ∧ C.recv s1 = (.ok (isFailure, text), s2)

/-- What an engine means by its answer when it is asked for a move: upper and lower case don't matter. -/
inductive Answers (ex : Bool) (n : Nat) (raw : Str) : Act → Prop
  | resign : lower raw = "resign".toList → Answers ex n raw .resign
  | claim : ex = true → lower raw = "claim".toList → Answers ex n raw .claim
  | move (m : Option Pt) : moveFromVertex raw n = .ok m → Answers ex n raw (.move m)
  | illFormed : lower raw ≠ "resign".toList → (ex = true → lower raw ≠ "claim".toList) → (∀ m, moveFromVertex raw n ≠ .ok m) →
      Answers ex n raw (.forfeit ("attempted ill-formed move ".toList ++ raw))

end Gomill.Gtp
