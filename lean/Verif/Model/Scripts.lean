import Verif.Model.GtpStateEngine
import Verif.Model.SgfRecord
import Verif.Model.ResultsApi
import Verif.Model.RingFiles
/-
Model of the example scripts gomill_examples/show_sgf.py, split_sgf_collection.py and find_forfeits.py.

Not modelled: reading the command line (optparse), and exceptions while reading and writing the files.
-/
namespace Gomill.Scripts
open Py

/-! ### show_sgf.py -/

/-- StandardError with a message (that of the ValueError from `get_setup_and_moves` isn't modelled), or another exception. -/
inductive ShowErr where
  | standard (msg : Str)
  | setup
  | other (e : Exc)
  deriving DecidableEq, Repr

/-- show_sgf.py:31-38: the loop which plays the moves. -/
def showMoves (b : Board) : List (Colour × Option Pt) → Except ShowErr Board
  | [] => .ok b
  | (_, none) :: rest => showMoves b rest
  | (c, some p) :: rest => match b.play p.1 p.2 c with
    | .error .valueError => .error (.standard "illegal move in sgf file".toList)
    | .error e => .error (.other e)
    | .ok (_, b) => showMoves b rest

/-- show_sgf.py:27-29: the moves before this one. -/
def playsBefore (moveNumber : Option Int) (plays : List (Colour × Option Pt)) : List (Colour × Option Pt) :=
  match moveNumber with
  | none => plays
  | some k => plays.take (max 0 (k - 1)).toNat

/-- show_sgf.py:14-41 `show_sgf_file`, once the file is read: what's printed. -/
def showSgf (codec : Str → Bool) (text : Str) (moveNumber : Option Int) : Except ShowErr Str :=
  match Sgf.SgfGame.fromString codec text with
  | .error .valueError => .error (.standard "bad sgf file".toList)
  | .error e => .error (.other e)
  | .ok game => match Sgf.getSetupAndMoves game.size game.tree.mainSequence with
    | .error .valueError => .error .setup
    | .error e => .error (.other e)
    | .ok (board, plays) => match showMoves board (playsBefore moveNumber plays) with
      | .error e => .error e
      | .ok board => match Ascii.renderBoard board with
        | .error e => .error (.other e)
        | .ok t => .ok (t ++ "\n".toList ++ "\n".toList)

/-! ### split_sgf_collection.py -/

/-- split_sgf_collection.py:26-27: the comment. -/
def splitComment (basename : Str) (i : Nat) : Str := "Split from ".toList ++ basename ++ " (game ".toList ++ strInt (i + 1) ++ ")".toList

/-- split_sgf_collection.py:18-19, 28: the name of the file for game `i` (starting from 0). -/
def splitPathname (pathname : Str) (i : Nat) : Str :=
  let basename := (Conf.pathSplit pathname).2
  Gtp.pathJoin (Conf.pathSplit pathname).1 ((Conf.splitExt basename).1 ++ "_".toList ++ strInt (i + 1) ++ (Conf.splitExt basename).2)

/-- split_sgf_collection.py:25-27: make an Sgf_game for a game of the collection, and add the comment. -/
def splitGame (E : Sgf.Encodings) (F : Sgf.Floats) (basename : Str) (i : Nat) (t : Sgf.CTree) : Except Exc (Sgf.Lib × Sgf.GameRec) :=
  match Sgf.Lib.load E F ⟨[], []⟩ t none with
  | .error e => .error e
  | .ok L => match L.games with
    | [] => .error .indexError
    | g :: _ => match L.update g g.root (fun P m => Sgf.addCommentText P m (splitComment basename i)) with
      | .error e => .error e
      | .ok L => .ok (L, g)

/-- split_sgf_collection.py:24-30: the loop.  The files written, and the exception. (A file is opened before `serialise` is called, so it's empty if that fails.) -/
def splitLoop (E : Sgf.Encodings) (F : Sgf.Floats) (pathname : Str) : Nat → List Sgf.CTree → List (Str × Str) × Option Exc
  | _, [] => ([], none)
  | i, t :: ts => match splitGame E F (Conf.pathSplit pathname).2 i t with
    | .error e => ([], some e)
    | .ok (L, g) => match L.serialise E g (some 79) with
      | .error e => ([(splitPathname pathname i, [])], some e)
      | .ok s => ((splitPathname pathname i, s) :: (splitLoop E F pathname (i + 1) ts).1, (splitLoop E F pathname (i + 1) ts).2)

/-- split_sgf_collection.py:14-30 `split_sgf_collection`, once the file is read. (The exception for a file which can't be parsed is StandardError; its message isn't modelled.) -/
def splitSgf (E : Sgf.Encodings) (F : Sgf.Floats) (pathname source : Str) : List (Str × Str) × Option Exc :=
  match Sgf.parseSgfCollection source with
  | .error e => ([], some e)
  | .ok ts => splitLoop E F pathname 0 ts

/-! ### find_forfeits.py -/

/-- `"%s" % x` for a string or None. -/
def shown : Option Str → Str
  | none => "None".toList
  | some s => s

/-- find_forfeits.py:12-14 `show_result`, with ringmasters.py:367-369. -/
def forfeitLine (m : Conf.Matchup) (r : GameResult) : Str :=
  m.name ++ ": ".toList ++ shown r.losingPlayer ++ " forfeited game ".toList ++ Conf.sgfFilename (shown r.gameId)

/-- find_forfeits.py:20-26: the loop. -/
def forfeitLoop (R : Conf.ResultsApi) : List Str → Except Exc (List Str)
  | [] => .ok []
  | id :: ids => match R.getMatchup id with
    | .error e => .error e
    | .ok m =>
      let results := (R.results.touch id).get id
      match forfeitLoop { R with results := R.results.touch id } ids with
      | .error e => .error e
      | .ok l => .ok ((results.filter (fun r => r.res.isForfeit)).map (forfeitLine m) ++ l)

/-- find_forfeits.py:16-26 `find_forfeits`: the lines printed, for a tournament with this status file. -/
def findForfeits (c : Tourn.Comp) (matchups : List Conf.Matchup) (disk : Option (Nat × Tourn.Saved)) : Except Conf.ReportErr (Except Exc (List Str)) :=
  match Conf.loadResultsStatus c disk with
  | .error e => .error e
  | .ok t => .ok (forfeitLoop (Conf.ResultsApi.new matchups t.results) (matchups.map Conf.Matchup.id))

end Gomill.Scripts
