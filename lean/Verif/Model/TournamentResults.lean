import Verif.Model.Game
/-
Model of Matchup_stats, gomill/tournament_results.py:100-217.  Scores are Python floats (multiples of 0.5), here exact rationals.
-/
namespace Gomill.Tourn
open Py

/-- `sum(p(r) for r in results)` for a boolean p. -/
def countIf (p : GameResult → Bool) (l : List GameResult) : Nat := l.countP p

/-- tournament_results.py:109-117: the attributes set by `__init__`. -/
structure Stats where
  total : Nat
  wins1 : Rat
  wins2 : Rat
  forfeits1 : Nat
  forfeits2 : Nat
  unknown : Nat
  deriving DecidableEq, Repr

/-- tournament_results.py:129 `_jigo_score`. -/
def jigoScore (l : List GameResult) : Rat := (1/2) * countIf (fun r => r.res.isJigo) l

/-- tournament_results.py:122-138 `__init__`. -/
def matchupStats (l : List GameResult) (p1 p2 : Str) : Stats :=
  { total := l.length
    unknown := countIf (fun r => r.res.isUnknown) l
    wins1 := countIf (fun r => r.winningPlayer = some p1) l + jigoScore l
    wins2 := countIf (fun r => r.winningPlayer = some p2) l + jigoScore l
    forfeits1 := countIf (fun r => r.winningPlayer = some p2 && r.res.isForfeit) l
    forfeits2 := countIf (fun r => r.winningPlayer = some p1 && r.res.isForfeit) l }

/-- tournament_results.py:151-156 -/
structure ColourWins where
  winsB : Rat
  winsW : Rat
  wins1b : Rat
  wins1w : Rat
  wins2b : Rat
  wins2w : Rat
  deriving DecidableEq, Repr

/-- tournament_results.py:143-159: the attributes set by `calculate_colour_breakdown`.  `colours` is (colour_1, colour_2)
when `alternating` is False. -/
structure Breakdown where
  played1b : Nat
  played1w : Nat
  played2b : Nat
  playedY2 : Nat
  alternating : Bool
  colours : Option (Colour × Colour)
  wins : Option ColourWins
  deriving DecidableEq, Repr

/-- tournament_results.py:182-195. -/
def colourWins (l : List GameResult) (p1 p2 : Str) : ColourWins :=
  { winsB := countIf (fun r => r.res.winningColour = some .b) l + jigoScore l
    winsW := countIf (fun r => r.res.winningColour = some .w) l + jigoScore l
    wins1b := countIf (fun r => r.winningPlayer = some p1 && r.res.winningColour = some .b) l + jigoScore l
    wins1w := countIf (fun r => r.winningPlayer = some p1 && r.res.winningColour = some .w) l + jigoScore l
    wins2b := countIf (fun r => r.winningPlayer = some p2 && r.res.winningColour = some .b) l + jigoScore l
    wins2w := countIf (fun r => r.winningPlayer = some p2 && r.res.winningColour = some .w) l + jigoScore l }

/-- tournament_results.py:140-195 `calculate_colour_breakdown`. -/
def colourBreakdown (l : List GameResult) (p1 p2 : Str) : Breakdown :=
  let played1b := countIf (fun r => r.playerB = p1) l
  let played1w := countIf (fun r => r.playerW = p1) l
  let played2b := countIf (fun r => r.playerB = p2) l
  let playedY2 := countIf (fun r => r.playerW = p2) l
  if played1w = 0 ∧ played2b = 0 then
    ⟨played1b, played1w, played2b, playedY2, false, some (.b, .w), none⟩
  else if played1b = 0 ∧ playedY2 = 0 then
    ⟨played1b, played1w, played2b, playedY2, false, some (.w, .b), none⟩
  else ⟨played1b, played1w, played2b, playedY2, true, none, some (colourWins l p1 p2)⟩

/-- A known time: the old '?' is turned into None when a Game_result is unpickled (gtp_games.py:80-83). -/
def CpuTime.known : CpuTime → Option Rat
  | .secs q => some q
  | _ => none

/-- tournament_results.py:206-217: the average of the known times for a player; KeyError if a result has no entry for the
player.  Outer error, then None. -/
def averageTime (l : List GameResult) (p : Str) : Except Exc (Option Rat) :=
  match l.mapM (fun r => r.cpuTimes.lookup p) with
  | none => .error .keyError
  | some times =>
    let known := times.filterMap CpuTime.known
    .ok (if known = [] then none else some (known.sum / known.length))

end Gomill.Tourn
