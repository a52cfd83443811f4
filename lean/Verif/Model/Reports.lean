import Verif.Model.Allplayall
import Verif.Model.TournamentResults
import Verif.Model.Table
/-
Model of the reports: tournament_results.py:32-44 and 220-309, tournaments.py:264-314, playoffs.py:162-178, allplayalls.py:181-256, utils.py:15-42. A report is the list of the strings printed.
-/
namespace Gomill.Conf
open Py

/-- Python's formatting of floats: `str` on one which isn't a whole number; "%.2f"; "%7.2f"; `str` on any float. -/
structure Fmt where
  strFloat : Rat → Str
  fixed2 : Rat → Str
  fixed7 : Rat → Str
  strNum : Num → Str

/-- utils.py:15-27 `format_float`. -/
def Fmt.float (F : Fmt) (q : Rat) : Str := if q = (q.floor : Rat) then strInt q.floor else F.strFloat q

/-- utils.py:29-42 `format_percent`. -/
def Fmt.percent (F : Fmt) (n : Rat) (baseline : Nat) : Str :=
  if baseline = 0 then (if n = 0 then "--".toList else "??".toList) else F.fixed2 (100 * n / baseline) ++ ['%']

/-! ### The table for a matchup -/

/-- `i = t.add_column(…); t.set_column_values(i, values)` -/
def addValues (t : Tab.Table) (c : Tab.Column) (values : List Str) : Tab.Table := (t.addColumn c).2.setColumnValues (t.addColumn c).1 values

/-- `t.columns[i].right_padding = n` -/
def setPadding (t : Tab.Table) (i n : Nat) : Tab.Table := { t with columns := t.columns.modify i (fun c => { c with rightPadding := n }) }

/-- A Matchup_stats with all statistics set: tournaments.py:277-280 and tournament_results.py:92-96. -/
structure FullStats where
  player1 : Str
  player2 : Str
  stats : Tourn.Stats
  breakdown : Tourn.Breakdown
  time1 : Option Rat
  time2 : Option Rat

/-- tournaments.py:277-280. -/
def fullStats (results : List GameResult) (p1 p2 : Str) : Except Exc FullStats := do
  let t1 ← Tourn.averageTime results p1
  let t2 ← Tourn.averageTime results p2
  return ⟨p1, p2, Tourn.matchupStats results p1 p2, Tourn.colourBreakdown results p1 p2, t1, t2⟩

/-- common.py:26-35 `colour_name`. -/
def colourName : Colour → Str
  | .b => "black".toList
  | .w => "white".toList

/-- tournament_results.py:231-243: the first three columns. -/
def statsStart (F : Fmt) (ms : FullStats) : Tab.Table :=
  let t := Tab.Table.new (some 3)
  let t := t.addHeading []
  let t := addValues t { align := .left, rightPadding := 3 } [ms.player1, ms.player2]
  let t := t.addHeading "wins".toList
  let t := addValues t { align := .right } [F.float ms.stats.wins1, F.float ms.stats.wins2]
  let t := t.addHeading []
  addValues t { align := .right } [F.percent ms.stats.wins1 ms.stats.total, F.percent ms.stats.wins2 ms.stats.total]

/-- tournament_results.py:246-261 -/
def statsAlternating (F : Fmt) (ms : FullStats) (w : Tourn.ColourWins) (t : Tab.Table) : Tab.Table :=
  let b := ms.breakdown
  let t := setPadding t 2 7
  let t := t.addHeading "black".toList 2
  let t := addValues t { align := .left } [F.float w.wins1b, F.float w.wins2b, F.float w.winsB]
  let t := addValues t { align := .right, rightPadding := 5 } [F.percent w.wins1b b.played1b, F.percent w.wins2b b.played2b, F.percent w.winsB ms.stats.total]
  let t := t.addHeading "white".toList 2
  let t := addValues t { align := .left } [F.float w.wins1w, F.float w.wins2w, F.float w.winsW]
  addValues t { align := .right, rightPadding := 3 } [F.percent w.wins1w b.played1w, F.percent w.wins2w b.playedY2, F.percent w.winsW ms.stats.total]

/-- tournament_results.py:263-267 -/
def statsFixed (c1 c2 : Colour) (t : Tab.Table) : Tab.Table :=
  let t := setPadding t 2 3
  let t := t.addHeading []
  addValues t { align := .left } ['(' :: colourName c1 ++ [')'], '(' :: colourName c2 ++ [')']]

/-- tournament_results.py:245-267. -/
def statsColours (F : Fmt) (ms : FullStats) (t : Tab.Table) : Tab.Table :=
  match ms.breakdown.wins, ms.breakdown.colours with
  | some w, _ => statsAlternating F ms w t
  | none, some (c1, c2) => statsFixed c1 c2 t
  | none, none => t

/-- tournament_results.py:269-272 -/
def statsForfeits (ms : FullStats) (t : Tab.Table) : Tab.Table :=
  if ms.stats.forfeits1 ≠ 0 ∨ ms.stats.forfeits2 ≠ 0 then
    addValues (t.addHeading "forfeits".toList) { align := .right } [strInt ms.stats.forfeits1, strInt ms.stats.forfeits2]
  else t

/-- The truth value of a float or None. -/
def isTrue : Option Rat → Bool
  | none => false
  | some q => decide (q ≠ 0)

/-- tournament_results.py:275-282 -/
def timeText (F : Fmt) : Option Rat → Str
  | some q => F.fixed7 q
  | none => "   ----".toList

/-- tournament_results.py:274-285 -/
def statsTimes (F : Fmt) (ms : FullStats) (t : Tab.Table) : Tab.Table :=
  if isTrue ms.time1 || isTrue ms.time2 then
    addValues (t.addHeading "avg cpu".toList) { align := .right, rightPadding := 2 } [timeText F ms.time1, timeText F ms.time2]
  else t

/-- tournament_results.py:220-287 `make_matchup_stats_table`. -/
def statsTable (F : Fmt) (ms : FullStats) : Tab.Table := statsTimes F ms (statsForfeits ms (statsColours F ms (statsStart F ms)))

/-! ### Matchups -/

/-- What write_matchup_summary uses of a matchup. -/
structure Described where
  name : Str
  numberOfGames : Option Int
  details : Str

/-- tournament_results.py:32-44 `describe_details`. -/
def Matchup.details (F : Fmt) (m : Matchup) : Str :=
  "board size: ".toList ++ strInt m.boardSize ++ "   ".toList ++
    (match m.handicap with
     | some h => "handicap: ".toList ++ strInt h ++ " (".toList ++ m.handicapStyle ++ ")   ".toList
     | none => []) ++ "komi: ".toList ++ F.strNum m.komi

def Matchup.described (F : Fmt) (m : Matchup) : Described := ⟨m.name, m.numberOfGames, m.details F⟩

/-- tournaments.py:87-95 Ghost_matchup. -/
def ghostDescribed (p1 p2 : Str) : Described := ⟨p1 ++ " v ".toList ++ p2, none, "?? (missing from control file)".toList⟩

/-- tournament_results.py:299-303: the first line. -/
def summaryHead (d : Described) (total : Nat) : Str :=
  d.name ++ " (".toList ++ (match d.numberOfGames with | none => strInt total | some n => strInt total ++ '/' :: strInt n) ++ " games)".toList

/-- tournament_results.py:289-309 `write_matchup_summary`. -/
def summary (F : Fmt) (d : Described) (ms : FullStats) : Except Exc (List Str) :=
  match (statsTable F ms).render with
  | .error e => .error e
  | .ok table => .ok (summaryHead d ms.stats.total ::
      (if 0 < ms.stats.unknown then ["unknown results: ".toList ++ strInt ms.stats.unknown ++ ' ' :: F.percent ms.stats.unknown ms.stats.total] else []) ++ d.details :: table)

/-- tournaments.py:264-281 `write_matchup_report`. -/
def matchupReport (F : Fmt) (d : Described) (p1 p2 : Str) (results : List GameResult) : Except Exc (List Str) :=
  match fullStats results p1 p2 with
  | .error e => .error e
  | .ok ms => summary F d ms

/-- tournaments.py:283-298 `write_matchup_reports`; the loop. -/
def matchupReports (F : Fmt) (results : Tourn.Results) : Bool → List Matchup → Except Exc (List Str)
  | _, [] => .ok []
  | first, m :: ms =>
    if results.get m.id = [] then matchupReports F results first ms
    else match matchupReport F (m.described F) m.player1 m.player2 (results.get m.id) with
      | .error e => .error e
      | .ok l => match matchupReports F results false ms with
        | .error e => .error e
        | .ok r => .ok ((if first then [] else [[]]) ++ l ++ r)

/-- tournaments.py:165-175 `_set_ghost_matchups`: the players of a ghost, from its first result. -/
def ghostMatchups (results : Tourn.Results) (ghosts : List Str) : List (Str × Str × Str) :=
  ghosts.filterMap (fun g => (results.get g).head?.map (fun r => (g, r.playerB, r.playerW)))

/-- tournaments.py:306-309: the loop. -/
def ghostLoop (F : Fmt) (results : Tourn.Results) : List (Str × Str × Str) → Except Exc (List Str)
  | [] => .ok []
  | (g, p1, p2) :: gs => match matchupReport F (ghostDescribed p1 p2) p1 p2 (results.get g) with
    | .error e => .error e
    | .ok l => match ghostLoop F results gs with
      | .error e => .error e
      | .ok r => .ok ([] :: l ++ r)

/-- tournaments.py:300-309 `write_ghost_matchup_reports`. -/
def ghostReports (F : Fmt) (results : Tourn.Results) (ghosts : List Str) : Except Exc (List Str) := ghostLoop F results (sortByKey (ghostMatchups results ghosts))

/-- tournaments.py:311-314 `write_player_descriptions`. -/
def playerDescriptions (d : List (Str × Str)) : List Str := (sortByKey d).map (fun e => "player ".toList ++ e.1 ++ ": ".toList ++ e.2)

/-- `if self.description: p(self.description)` -/
def descriptionLines : Option Str → List Str
  | none => []
  | some s => if s = [] then [] else [s]

/-- playoffs.py:165-178 `write_short_report` and `write_full_report`. -/
def playoffReport (F : Fmt) (p : Playoff) (results : Tourn.Results) (ghosts : List Str) (descriptions : List (Str × Str)) : Except Exc (List Str) :=
  match matchupReports F results true p.matchups with
  | .error e => .error e
  | .ok ms => match ghostReports F results ghosts with
    | .error e => .error e
    | .ok gs => .ok (("playoff: ".toList ++ p.code) :: descriptionLines p.description ++ [] :: ms ++ gs ++ [] :: playerDescriptions descriptions ++ [[]])

/-! ### All-play-alls -/

/-- allplayalls.py:233-238: "x-y". -/
def scoreText (F : Fmt) (results : List GameResult) (x y : Str) : Str :=
  F.float (Tourn.matchupStats results x y).wins1 ++ '-' :: F.float (Tourn.matchupStats results x y).wins2

/-- allplayalls.py:220-238: a cell of the table; KeyError if there's no such matchup. -/
def crossCell (F : Fmt) (a : Allplayall) (results : Tourn.Results) (i1 i2 : Nat) (c1 c2 : Str × Str) : Except Exc Str :=
  if i1 = i2 then .ok []
  else if i1 < i2 then match a.base.matchups.find? (fun m => m.id = Tourn.pairId c1.1 c2.1) with
    | none => .error .keyError
    | some m => .ok (scoreText F (results.get m.id) m.player1 m.player2)
  else match a.base.matchups.find? (fun m => m.id = Tourn.pairId c2.1 c1.1) with
    | none => .error .keyError
    | some m => .ok (scoreText F (results.get m.id) m.player2 m.player1)

/-- allplayalls.py:219-238: the column for a competitor, from the given row. -/
def crossColumn (F : Fmt) (a : Allplayall) (results : Tourn.Results) (i2 : Nat) (c2 : Str × Str) : Nat → List (Str × Str) → Except Exc (List Str)
  | _, [] => .ok []
  | i1, c1 :: cs => match crossCell F a results i1 i2 c1 c2 with
    | .error e => .error e
    | .ok s => match crossColumn F a results i2 c2 (i1 + 1) cs with
      | .error e => .error e
      | .ok l => .ok (s :: l)

/-- allplayalls.py:215-239: the columns from a given competitor on. -/
def crossColumns (F : Fmt) (a : Allplayall) (results : Tourn.Results) : Nat → List (Str × Str) → Tab.Table → Except Exc Tab.Table
  | _, [], t => .ok t
  | i2, c2 :: cs, t => match crossColumn F a results i2 c2 0 a.competitors with
    | .error e => .error e
    | .ok values => crossColumns F a results (i2 + 1) cs (addValues (t.addHeading (' ' :: c2.1)) { align := .left } values)

/-- allplayalls.py:206-239: the table. -/
def crossTable (F : Fmt) (a : Allplayall) (results : Tourn.Results) : Except Exc Tab.Table :=
  let t := Tab.Table.new (some a.competitors.length)
  let t := t.addHeading []
  let t := addValues t { align := .left } (a.competitors.map Prod.fst)
  let t := t.addHeading []
  let t := addValues t { align := .left } (a.competitors.map Prod.snd)
  crossColumns F a results 0 a.competitors t

/-- allplayalls.py:181-183 `count_games_played`. -/
def gamesPlayed (results : Tourn.Results) : Nat := (results.map (fun e => e.2.length)).sum

/-- allplayalls.py:198-203: the first line; IndexError if there are no matchups. -/
def gamesLine (a : Allplayall) (results : Tourn.Results) : Except Exc Str :=
  match Tourn.countGamesExpected a.comp with
  | none => .error .indexError
  | some none => .ok (strInt (gamesPlayed results) ++ " games played".toList)
  | some (some n) => .ok (strInt (gamesPlayed results) ++ '/' :: strInt n ++ " games played".toList)

/-- allplayalls.py:197-240 `write_screen_report`. -/
def crossReport (F : Fmt) (a : Allplayall) (results : Tourn.Results) : Except Exc (List Str) :=
  match gamesLine a results with
  | .error e => .error e
  | .ok head => match crossTable F a results with
    | .error e => .error e
    | .ok t => match t.render with
      | .error e => .error e
      | .ok l => .ok (head :: [] :: l)

/-- allplayalls.py:242-256 `write_short_report` and `write_full_report`. -/
def allplayallReport (F : Fmt) (a : Allplayall) (results : Tourn.Results) (descriptions : List (Str × Str)) : Except Exc (List Str) :=
  match crossReport F a results with
  | .error e => .error e
  | .ok screen => match matchupReports F results true a.base.matchups with
    | .error e => .error e
    | .ok ms => .ok (("allplayall: ".toList ++ a.base.code) :: descriptionLines a.base.description ++ [] :: screen ++ [] :: ms ++ [] :: playerDescriptions descriptions ++ [[]])

end Gomill.Conf
