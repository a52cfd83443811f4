import Mathlib.Data.List.Forall2
import Verif.Model.Reports
import Verif.Spec.Table
import Verif.Spec.Tournament
import Verif.Spec.Allplayall
/-
What the reports should say, for C82.
-/
namespace Gomill.Conf.Spec
open Py

/-- A player's score: a point for each game won, and half a point for each jigo. -/
def score (p : Str) (l : List GameResult) : Rat :=
  (l.filter (fun r => r.winningPlayer = some p)).length + (l.filter (fun r => r.res.isJigo)).length / 2

/-- A player's score with one colour, as reported: all the jigos count, even those with the other colour. -/
def colourScore (p : Str) (c : Colour) (l : List GameResult) : Rat :=
  (l.filter (fun r => r.winningPlayer = some p ∧ r.res.winningColour = some c)).length + (l.filter (fun r => r.res.isJigo)).length / 2

/-- The score of the players with a colour. -/
def sideScore (c : Colour) (l : List GameResult) : Rat :=
  (l.filter (fun r => r.res.winningColour = some c)).length + (l.filter (fun r => r.res.isJigo)).length / 2

/-- The number of games the player had with Black, and with White. -/
def blackGames (p : Str) (l : List GameResult) : Nat := (l.filter (fun r => r.playerB = p)).length
def whiteGames (p : Str) (l : List GameResult) : Nat := (l.filter (fun r => r.playerW = p)).length

/-- The number of games forfeited by p1 to p2. -/
def forfeits (winner : Str) (l : List GameResult) : Nat := (l.filter (fun r => r.winningPlayer = some winner ∧ r.res.isForfeit)).length

/-- The CPU times of a player which are known. -/
def knownTimes (p : Str) (l : List GameResult) : List Rat := l.filterMap (fun r => (r.cpuTimes.lookup p).bind Tourn.CpuTime.known)

/-- The average of the numbers, if there are any. -/
def IsAverage (ts : List Rat) (a : Option Rat) : Prop := (a = none ↔ ts = []) ∧ ∀ q, a = some q → q * ts.length = ts.sum

/-- What's above the columns of a table: a heading is above the first of its columns. -/
def headingsOver (t : Tab.Table) : List Str := t.headings.flatMap (fun h => h.1 :: List.replicate (h.2 - 1) [])

/-- The table has these columns: what's above each, and the texts in it (there's nothing in the other cells). -/
structure HasColumns (t : Tab.Table) (rows : Nat) (columns : List (Str × List Str)) : Prop where
  rows : t.rowCount = some rows
  count : t.columns.length = columns.length
  headings : headingsOver t = columns.map Prod.fst
  cells : ∀ r i, t.cells r i = ((columns.getD i ([], [])).2).getD r []

/-- The columns about colours: just the colours, if the players had the same ones throughout; or else the results for each colour. -/
def colourColumns (F : Fmt) (l : List GameResult) (p1 p2 : Str) : List (Str × List Str) :=
  if ∀ r ∈ l, r.playerB = p1 then [([], ["(black)".toList, "(white)".toList])]
  else if ∀ r ∈ l, r.playerB = p2 then [([], ["(white)".toList, "(black)".toList])]
  else [
    ("black".toList, [F.float (colourScore p1 .b l), F.float (colourScore p2 .b l), F.float (sideScore .b l)]),
    ([], [F.percent (colourScore p1 .b l) (blackGames p1 l), F.percent (colourScore p2 .b l) (blackGames p2 l), F.percent (sideScore .b l) l.length]),
    ("white".toList, [F.float (colourScore p1 .w l), F.float (colourScore p2 .w l), F.float (sideScore .w l)]),
    ([], [F.percent (colourScore p1 .w l) (whiteGames p1 l), F.percent (colourScore p2 .w l) (whiteGames p2 l), F.percent (sideScore .w l) l.length]) ]

/-- The average time, as a text. -/
def averageText (F : Fmt) : Option Rat → Str
  | some q => F.fixed7 q
  | none => "   ----".toList

/-- The columns of the table for the results of the games between two players, whose average times are given. -/
def resultColumns (F : Fmt) (l : List GameResult) (p1 p2 : Str) (t1 t2 : Option Rat) : List (Str × List Str) :=
  [ ([], [p1, p2]),
    ("wins".toList, [F.float (score p1 l), F.float (score p2 l)]),
    ([], [F.percent (score p1 l) l.length, F.percent (score p2 l) l.length]) ] ++
  colourColumns F l p1 p2 ++
  (if forfeits p2 l = 0 ∧ forfeits p1 l = 0 then [] else [("forfeits".toList, [strInt (forfeits p2 l), strInt (forfeits p1 l)])]) ++
  (if (t1 = none ∨ t1 = some 0) ∧ (t2 = none ∨ t2 = some 0) then [] else [("avg cpu".toList, [averageText F t1, averageText F t2])])

/-- Formatting numbers gives no whitespace other than spaces. -/
structure Fmt.Ok (F : Fmt) : Prop where
  strFloat : ∀ q, Tab.Spec.Plain (F.strFloat q)
  fixed2 : ∀ q, Tab.Spec.Plain (F.fixed2 q)
  fixed7 : ∀ q, Tab.Spec.Plain (F.fixed7 q)

/-- The table is printed properly (see C81). -/
def Printed (t : Tab.Table) (rows : Nat) (lines : List Str) : Prop :=
  ∃ (pos width : Nat → Nat) (head : Str) (rowLines : List Str), lines = head :: rowLines.filter (fun l => l ≠ []) ∧ Tab.Spec.Layout t rows pos width ∧
    Tab.Spec.Tight t rows pos width ∧ Tab.Spec.ShowsHeadings t pos head ∧ Tab.Spec.NoTrailing head ∧ rowLines.length = rows ∧
    ∀ r (hr : r < rowLines.length), Tab.Spec.ShowsRow t pos width r rowLines[r] ∧ Tab.Spec.NoTrailing rowLines[r]

/-- The results are those of games between the two players, and there's a CPU time (or 'unknown') for each. -/
structure ResultsOf (p1 p2 : Str) (l : List GameResult) : Prop where
  between : ∀ r ∈ l, Tourn.Between p1 p2 r
  times : ∀ r ∈ l, (r.cpuTimes.lookup p1).isSome = true ∧ (r.cpuTimes.lookup p2).isSome = true

/-- The report on the games between two players: the number of games, the number of those whose result isn't known (if any), the details of the matchup, and the table. -/
structure IsBlock (F : Fmt) (name : Str) (games : Option Int) (details : Str) (p1 p2 : Str) (l : List GameResult) (lines : List Str) : Prop where
  block : ∃ t1 t2 table tableLines, IsAverage (knownTimes p1 l) t1 ∧ IsAverage (knownTimes p2 l) t2 ∧ HasColumns table 3 (resultColumns F l p1 p2 t1 t2) ∧ Printed table 3 tableLines ∧
    lines = [name ++ " (".toList ++ strInt l.length ++ ((games.map (fun n => '/' :: strInt n)).getD []) ++ " games)".toList] ++
      (if (l.filter (fun r => r.res.isUnknown)) = [] then [] else
        ["unknown results: ".toList ++ strInt (l.filter (fun r => r.res.isUnknown)).length ++ " ".toList ++ F.percent (l.filter (fun r => r.res.isUnknown)).length l.length]) ++
      [details] ++ tableLines

/-- The matchup's players are different, and the results are of games between them. -/
structure GoodMatchup (m : Matchup) (results : List GameResult) : Prop where
  different : m.player1 ≠ m.player2
  plain1 : Tab.Spec.Plain m.player1
  plain2 : Tab.Spec.Plain m.player2
  results : ResultsOf m.player1 m.player2 results

/-- The block for a matchup. -/
def MatchupBlock (F : Fmt) (results : Tourn.Results) (m : Matchup) (b : List Str) : Prop :=
  IsBlock F m.name m.numberOfGames (m.details F) m.player1 m.player2 (results.get m.id) b

/-- The block for a matchup which isn't in the control file: the players are those of the first game. -/
def GhostBlock (F : Fmt) (results : Tourn.Results) (g : Str) (b : List Str) : Prop :=
  ∃ r rest, results.get g = r :: rest ∧
    IsBlock F (r.playerB ++ " v ".toList ++ r.playerW) none "?? (missing from control file)".toList r.playerB r.playerW (results.get g) b

/-- The results for a matchup which isn't in the control file. -/
structure GoodGhost (results : Tourn.Results) (g : Str) : Prop where
  first : ∃ r rest, results.get g = r :: rest ∧ r.playerB ≠ r.playerW ∧ Tab.Spec.Plain r.playerB ∧ Tab.Spec.Plain r.playerW ∧ ResultsOf r.playerB r.playerW (results.get g)

/-- The matchup of two competitors. -/
def IsBetween (m : Matchup) (p q : Str) : Prop := (m.player1 = p ∧ m.player2 = q) ∨ (m.player1 = q ∧ m.player2 = p)

/-- What's in the table for two competitors (row, then column): nothing if they are the same, or else the first one's score and the second one's, in their games. -/
def CrossText (F : Fmt) (a : Allplayall) (results : Tourn.Results) (i j : Nat) (hi : i < a.competitors.length) (hj : j < a.competitors.length) (s : Str) : Prop :=
  (i = j → s = []) ∧
  (i ≠ j → ∃ m ∈ a.base.matchups, IsBetween m a.competitors[i].2 a.competitors[j].2 ∧
    s = F.float (score a.competitors[i].2 (results.get m.id)) ++ "-".toList ++ F.float (score a.competitors[j].2 (results.get m.id)))

/-- The number of results, for all the matchups (even if they are no longer in the control file). -/
def resultCount (results : Tourn.Results) : Nat := (results.map (fun e => e.2.length)).sum

/-- A table for the competitors: short names, players, and a column for each competitor. -/
structure IsCross (F : Fmt) (a : Allplayall) (results : Tourn.Results) (t : Tab.Table) : Prop where
  rows : t.rowCount = some a.competitors.length
  columns : t.columns.length = a.competitors.length + 2
  headings : headingsOver t = [[], []] ++ a.competitors.map (fun c => ' ' :: c.1)
  names : ∀ i (hi : i < a.competitors.length), t.cells i 0 = a.competitors[i].1 ∧ t.cells i 1 = a.competitors[i].2
  scores : ∀ i j (hi : i < a.competitors.length) (hj : j < a.competitors.length), CrossText F a results i j hi hj (t.cells i (j + 2))

end Gomill.Conf.Spec
