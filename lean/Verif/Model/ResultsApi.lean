import Verif.Model.FullRun
/-
Model of the way scripts get at a tournament's results: gomill/tournament_results.py:47-97 (Tournament_results), tournaments.py:316-318, competitions.py:429-444 and
ringmasters.py:408-449 and 478-492.

Not modelled: that the object is 'live' while a competition is being run (competitions.py:434-435 says not to rely on this).
-/
namespace Gomill.Conf
open Py

/-- tournament_results.py:55-58: a Tournament_results; `results` is the tournament's own defaultdict. -/
structure ResultsApi where
  matchupList : List Matchup
  results : Tourn.Results
  matchups : List (Str × Matchup)

/-- tournament_results.py:55-58 `__init__`; `dict((m.id, m) for m in matchup_list)`. -/
def ResultsApi.new (matchupList : List Matchup) (results : Tourn.Results) : ResultsApi :=
  ⟨matchupList, results, matchupList.foldl (fun d m => put d m.id m) []⟩

/-- The calls which can be made. -/
inductive Query where
  | ids
  | matchup (id : Str)
  | matchups
  | results (id : Str)
  | stats (id : Str)

inductive Answer where
  | ids (l : List Str)
  | matchup (m : Matchup)
  | matchups (d : List (Str × Matchup))
  | results (l : List GameResult)
  | stats (s : FullStats)

/-- tournament_results.py:64-70 `get_matchup` -/
def ResultsApi.getMatchup (R : ResultsApi) (id : Str) : Except Exc Matchup :=
  match R.matchups.lookup id with
  | some m => .ok m
  | none => .error .keyError

/-- tournament_results.py:60-97 `get_matchup_ids`, `get_matchup`, `get_matchups`, `get_matchup_results`, `get_matchup_stats`.  Looking up a result adds an entry to the defaultdict, if it's
missing. -/
def ResultsApi.ask (R : ResultsApi) : Query → Except Exc Answer × ResultsApi
  | .ids => (.ok (.ids (R.matchupList.map Matchup.id)), R)
  | .matchup id => ((R.getMatchup id).map .matchup, R)
  | .matchups => (.ok (.matchups R.matchups), R)
  | .results id => (.ok (.results ((R.results.touch id).get id)), { R with results := R.results.touch id })
  | .stats id => match R.getMatchup id with
    | .error e => (.error e, R)
    | .ok m => ((fullStats ((R.results.touch id).get id) m.player1 m.player2).map .stats, { R with results := R.results.touch id })

/-- Any number of calls, one after another. -/
def ResultsApi.askAll (R : ResultsApi) : List Query → List (Except Exc Answer) × ResultsApi
  | [] => ([], R)
  | q :: qs => ((R.ask q).1 :: ((R.ask q).2.askAll qs).1, ((R.ask q).2.askAll qs).2)

/-- ringmasters.py:408-438 `load_status`, for a tournament. -/
def loadResultsStatus (c : Tourn.Comp) (disk : Option (Nat × Tourn.Saved)) : Except ReportErr Tourn.State :=
  match disk with
  | none => .error .noStatusFile
  | some (_, saved) => match Tourn.State.load c saved with
    | .error e => .error (.load e)
    | .ok t => .ok t

/-- ringmasters.py:478-492 and competitions.py:429-444 `get_tournament_results`; `matchups` is None if the competition isn't a tournament, and `status` is None if it isn't loaded. -/
def getTournamentResults (matchups : Option (List Matchup)) (status : Option Tourn.Results) : Except Str ResultsApi :=
  match status with
  | none => .error "status is not loaded".toList
  | some results => match matchups with
    | none => .error "competition is not a tournament".toList
    | some l => .ok (.new l results)

end Gomill.Conf
