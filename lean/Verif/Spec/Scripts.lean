import Verif.Model.Scripts
import Verif.Spec.GtpStateEngine
import Verif.Spec.ControlFile
import Verif.Props.Board
import Verif.Spec.SgfGame
import Verif.Spec.SgfInfo
/-
The example scripts: specification vocabulary for C99.
-/
namespace Gomill.Scripts.Spec
open Py Go

/-- The text is a diagram of the position on a board with `n` rows, followed by two newlines. -/
def IsShown (n : Nat) (pos : Position) (out : Str) : Prop :=
  ∃ b t, ReachableBoard n b ∧ b.pos = pos ∧ Ascii.renderBoard b = .ok t ∧ out = t ++ ['\n', '\n']

/-- A move number from the command line which means the same as these remaining arguments of loadsgf. -/
def SameNumber (rest : List Str) (mn : Option Int) : Prop :=
  (rest = [] ∧ mn = none) ∨ ∃ a r k, rest = a :: r ∧ parseInt a = .ok k ∧ k ≤ 2147483647 ∧ mn = some k

/-- What the comment of a node becomes: the new text, after the old comment (if any) and an empty line. -/
def FullComment (P : Sgf.Presenter) (m : Sgf.PropMap) (text full : Str) : Prop :=
  (Sgf.lookup m ['C'] = none ∧ full = text) ∨ ∃ old, Sgf.nodeGet P m ['C'] = .ok (.str old) ∧ full = old ++ ['\n', '\n'] ++ text

/-- When a game whose root node is `root` is loaded from `out` (by a program which has already got other games), it has the size and encoding given, the nodes
of the game `root :: s, ch` of the collection, and their properties, except that the root's comment is `full` (as it can be stored in SGF). -/
def ReadsAs (E : Sgf.Encodings) (F : Sgf.Floats) (root : Sgf.PropMap) (s : List Sgf.PropMap) (ch : List Sgf.CTree) (size : Int) (encoding full out : Str) : Prop :=
  ∀ M : Sgf.Lib, ∃ (M' : Sgf.Lib) (g : Sgf.GameRec) (root' : Sgf.PropMap) (u u' : Sgf.NTree Sgf.PropMap) (c : Str),
    M.fromString E F out none = .ok M' ∧ M'.games = M.games ++ [g] ∧ g.encoding = encoding ∧ g.presenter = Sgf.Presenter.new size (E.codec encoding) F ∧
    (Sgf.CTree.mk (root' :: s) ch).coarse.nodes = [u] ∧ Sgf.HasTree M' M.games.length g u' ∧ Sgf.Corresponds Sgf.SameMap u u' ∧
    (∀ k, k ≠ ['C'] → Sgf.lookup root' k = Sgf.lookup root k) ∧ Sgf.nodeGet g.presenter root' ['C'] = .ok (.str c) ∧ Sgf.Normalised false full c

/-- The line for a game of a matchup which was forfeited. -/
def IsForfeitLine (x : Conf.Matchup × GameResult) (line : Str) : Prop :=
  ∃ gid, x.2.gameId = some gid ∧ line = x.1.name ++ ": ".toList ++ shown x.2.losingPlayer ++ " forfeited game ".toList ++ gid ++ ".sgf".toList ∧
    ∀ p, x.2.losingPlayer = some p → p = x.1.player1 ∨ p = x.1.player2

end Gomill.Scripts.Spec
