import Verif.Spec.FullRun
import Verif.Model.ResultsApi
/-
What a script should be told about a tournament's results, for C91.
-/
namespace Gomill.Conf.Spec
open Py

/-- A control file for a tournament is accepted, and this is the competition, with these matchups. -/
inductive AcceptedTournament (W : World) : Tourn.Comp → List Matchup → Prop where
  | playoff (base : Option Str) (code : Str) (config : List (Str × Val)) (p : Playoff) (h : initPlayoff W base code config = .ok p) : AcceptedTournament W p.comp p.matchups
  | allplayall (base : Option Str) (code : Str) (config : List (Str × Val)) (a : Allplayall) (h : initAllplayall W base code config = .ok a) :
      AcceptedTournament W a.comp a.base.matchups

/-- The statistics of the games between two players. -/
structure StatsOf (p1 p2 : Str) (l : List GameResult) (s : FullStats) : Prop where
  players : s.player1 = p1 ∧ s.player2 = p2
  total : s.stats.total = l.length
  unknown : s.stats.unknown = (l.filter (fun r => r.res.isUnknown)).length
  wins : s.stats.wins1 = score p1 l ∧ s.stats.wins2 = score p2 l
  adds_up : s.stats.wins1 + s.stats.wins2 + s.stats.unknown = s.stats.total
  forfeits : s.stats.forfeits1 = forfeits p2 l ∧ s.stats.forfeits2 = forfeits p1 l
  played1 : s.breakdown.played1b = blackGames p1 l ∧ s.breakdown.played1w = whiteGames p1 l
  played2 : s.breakdown.played2b = blackGames p2 l ∧ s.breakdown.playedY2 = whiteGames p2 l
  /-- whether the colours have changed -/
  alternating : s.breakdown.alternating = true ↔ (∃ r ∈ l, r.playerB = p1) ∧ ∃ r ∈ l, r.playerB = p2
  colours : s.breakdown.alternating = false →
    (s.breakdown.colours = some (.b, .w) ∧ ∀ r ∈ l, r.playerB = p1 ∧ r.playerW = p2) ∨ (s.breakdown.colours = some (.w, .b) ∧ ∀ r ∈ l, r.playerB = p2 ∧ r.playerW = p1)
  by_colour : s.breakdown.alternating = true → s.breakdown.colours = none ∧ ∃ w, s.breakdown.wins = some w ∧ w.winsB = sideScore .b l ∧ w.winsW = sideScore .w l ∧
    w.wins1b = colourScore p1 .b l ∧ w.wins1w = colourScore p1 .w l ∧ w.wins2b = colourScore p2 .b l ∧ w.wins2w = colourScore p2 .w l
  times : IsAverage (knownTimes p1 l) s.time1 ∧ IsAverage (knownTimes p2 l) s.time2

/-- The right answer to each of the calls, for a tournament with these matchups and these results. -/
def Right (ms : List Matchup) (saved : Str → List GameResult) : Query → Except Exc Answer → Prop
  | .ids, a => a = .ok (.ids (ms.map Matchup.id))
  | .matchup k, a => (∃ m ∈ ms, m.id = k ∧ a = .ok (.matchup m)) ∨ (k ∉ ms.map Matchup.id ∧ a = .error .keyError)
  | .matchups, a => ∃ d, a = .ok (.matchups d) ∧ (d.map Prod.fst).Nodup ∧ ∀ k m, (k, m) ∈ d ↔ m ∈ ms ∧ m.id = k
  | .results k, a => a = .ok (.results (saved k))
  | .stats k, a => (∃ m ∈ ms, m.id = k ∧ ∃ s, a = .ok (.stats s) ∧ StatsOf m.player1 m.player2 (saved k) s) ∨ (k ∉ ms.map Matchup.id ∧ a = .error .keyError)


end Gomill.Conf.Spec
