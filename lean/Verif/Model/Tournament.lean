import Verif.Model.Schedulers
import Verif.Model.Game
import Verif.Model.Text
/-
Model of gomill/tournaments.py, gomill/playoffs.py and gomill/allplayalls.py (the parts which decide what games are
played and what is recorded), and gomill/competitions.py:481-498.

Not modelled: game settings other than `alternating` and `number_of_games` (they're copied into the Game_job unchanged),
player configuration, engine descriptions, and the text of error messages.
-/
namespace Gomill.Tourn
open Py Sched

/-! ### Game ids -/

/-- competitions.py:494-498 `leading_zero_template`: the width N of '%0Nd'; 0 stands for the plain '%d'. -/
def zeroWidth : Option Int → Nat
  | none => 0
  | some ceiling => (strInt (ceiling - 1)).length

/-- `"%0Nd" % n` for n ≥ 0: at least N characters, with zeros on the left. -/
def padNat (width : Nat) (n : Nat) : Str :=
  List.replicate (width - (Nat.toDigits 10 n).length) '0' ++ Nat.toDigits 10 n

/-- `leading_zero_template(ceiling) % n`. -/
def formatNumber (ceiling : Option Int) (n : Nat) : Str := padNat (zeroWidth ceiling) n

/-- tournaments.py:46-73 Matchup; the settings which matter here. -/
structure Matchup where
  id : Str
  player1 : Str
  player2 : Str
  alternating : Bool
  numberOfGames : Option Int
  deriving DecidableEq, Repr

/-- tournaments.py:72-76 `make_game_id`. -/
def Matchup.makeGameId (m : Matchup) (n : Nat) : Str := m.id ++ '_' :: formatNumber m.numberOfGames n

/-! ### Control files -/

/-- The competition classes' configuration after `initialise_from_control_file`: the matchups in order of definition
(`matchup_list`; `matchups` is the same, as a dict by id), and, for an Allplayall, the competitors' player codes. -/
structure Comp where
  matchups : List Matchup
  competitors : Option (List Str)
  deriving DecidableEq, Repr

/-- playoffs.py:10-17 Matchup_config, with the defaults merged in (playoffs.py:82-92). -/
structure MatchupConfig where
  id : Option Str
  player1 : Str
  player2 : Str
  alternating : Bool
  numberOfGames : Option Int
  deriving DecidableEq, Repr

/-- The parts of a control file which matter here. `players` is the keys of the `players` dict. -/
inductive Control where
  | playoff (players : List Str) (matchups : List MatchupConfig)
  | allplayall (players : List Str) (competitors : List Str) (rounds : Option Int)
  deriving DecidableEq, Repr

/-- A ControlFileError. -/
inductive CtlErr where
  | controlFileError
  deriving DecidableEq, Repr

/-- settings.py:82: the characters allowed by `_identifier_re`. -/
def isIdentChar (c : Char) : Bool :=
  c.isAlphanum || "-!$%&*+,.:;<=>?^_~".toList.contains c

/-- settings.py:84-98 `interpret_identifier`, for a str. -/
def interpretIdentifier (s : Str) : Except CtlErr Str :=
  if s ≠ [] ∧ s.all isIdentChar then .ok s else .error .controlFileError

/-- playoffs.py:59-66: the matchup id, given or made from the position in the list. -/
def matchupIdOf (i : Nat) : Option Str → Except CtlErr Str
  | none => .ok (strInt i)
  | some s => interpretIdentifier s

/-- playoffs.py:77-81: if both players are the same, make a clone of the second (which is added to the players). -/
def clonePlayer (p1 p2 : Str) : Str := if p1 = p2 then p2 ++ ['#', '2'] else p2

/-- playoffs.py:41-97 `matchup_from_config`.  Gives the matchup, and `self.players` afterwards. -/
def matchupFromConfig (players : List Str) (i : Nat) (c : MatchupConfig) : Except CtlErr (Matchup × List Str) := do
  let id ← matchupIdOf i c.id
  if c.player1 ∉ players then .error .controlFileError
  if c.player2 ∉ players then .error .controlFileError
  let p2 := clonePlayer c.player1 c.player2
  return (⟨id, c.player1, p2, c.alternating, c.numberOfGames⟩, setAdd players p2)

/-- playoffs.py:132-137: the loop over the matchups. -/
def playoffLoop : Nat → List Str → List Matchup → List MatchupConfig → Except CtlErr (List Matchup)
  | _, _, acc, [] => .ok acc
  | i, players, acc, c :: cs => do
    let (m, players) ← matchupFromConfig players i c
    if m.id ∈ acc.map Matchup.id then .error .controlFileError
    playoffLoop (i + 1) players (acc ++ [m]) cs

/-- allplayalls.py:74-75 `let`. -/
def letterCode (n : Nat) : Char := Char.ofNat (65 + n)

/-- allplayalls.py:76-82: the short code of the i'th competitor. -/
def shortCode (i : Nat) : Except CtlErr Str :=
  if i < 26 then .ok [letterCode i]
  else if i < 26 * 27 then .ok [letterCode (i / 26 - 1), letterCode (i % 26)]
  else .error .controlFileError

/-- allplayalls.py:113-127: the competitors, as (short code, player). -/
def competitorLoop (players : List Str) : Nat → List (Str × Str) → List Str → Except CtlErr (List (Str × Str))
  | _, acc, [] => .ok acc
  | i, acc, p :: ps => do
    if p ∉ players then .error .controlFileError
    let code ← shortCode i
    if p ∈ acc.map Prod.snd then .error .controlFileError
    competitorLoop players (i + 1) (acc ++ [(code, p)]) ps

/-- allplayalls.py:86-87 `_get_matchup_id`. -/
def pairId (c1 c2 : Str) : Str := c1 ++ 'v' :: c2

/-- allplayalls.py:133-144: a matchup for each pair. -/
def pairMatchups (rounds : Option Int) : List (Str × Str) → List Matchup
  | [] => []
  | c1 :: cs => cs.map (fun c2 => ⟨pairId c1.1 c2.1, c1.2, c2.2, true, rounds⟩) ++ pairMatchups rounds cs

/-- playoffs.py:100-137 and allplayalls.py:89-144 `initialise_from_control_file`. -/
def Control.initialise : Control → Except CtlErr Comp
  | .playoff players configs => do
    if configs = [] then .error .controlFileError
    let ms ← playoffLoop 0 players [] configs
    return ⟨ms, none⟩
  | .allplayall players competitors rounds => do
    if competitors = [] then .error .controlFileError
    let cs ← competitorLoop players 0 [] competitors
    return ⟨pairMatchups rounds cs, some (cs.map Prod.snd)⟩

/-- allplayalls.py:185-195 `count_games_expected`.  (IndexError, here `none` twice over, if there is only one competitor:
`matchup_list[0]`.) -/
def countGamesExpected (c : Comp) : Option (Option Int) :=
  match c.matchups, c.competitors with
  | m :: _, some cs => some (m.numberOfGames.map (fun rounds => rounds * cs.length * (cs.length - 1) / 2))
  | _, _ => none

/-! ### Tournament state -/

/-- `results`: a defaultdict(list), as an association list. -/
abbrev Results := List (Str × List GameResult)

/-- The list stored under a key (empty if missing). -/
def Results.get (r : Results) (k : Str) : List GameResult :=
  match List.lookup k r with
  | some l => l
  | none => []

/-- `self.results[k]` creates the entry if it's missing. -/
def Results.touch (r : Results) (k : Str) : Results :=
  if k ∈ r.map Prod.fst then r else r ++ [(k, [])]

/-- `self.results[k].append(x)` -/
def Results.append (r : Results) (k : Str) (x : GameResult) : Results :=
  (r.touch k).map (fun p => if p.1 = k then (p.1, p.2 ++ [x]) else p)

/-- tournaments.py:123-133: state attributes. `ghosts` is the keys of `ghost_matchups`. -/
structure State where
  comp : Comp
  results : Results
  scheduler : Group Str
  working : List Str
  probationary : List Str
  ghosts : List Str

/-- tournaments.py:177-180 `_set_scheduler_groups`. -/
def groupSpecs (c : Comp) (ghosts : List Str) : List (Str × Option Int) :=
  c.matchups.map (fun m => (m.id, m.numberOfGames)) ++ ghosts.map (fun g => (g, some 0))

/-- tournaments.py:102-105 and 182-188: a new Tournament after `set_clean_status`. -/
def State.clean (c : Comp) : State :=
  { comp := c, results := [], scheduler := Group.setGroups [] (groupSpecs c []), working := [], probationary := [],
    ghosts := [] }

/-- What `get_status` (tournaments.py:190-196, allplayalls.py:150-153) returns, once pickled. -/
structure Saved where
  results : List (Str × List Pickled)
  scheduler : Group Str
  competitors : Option (List Str)

/-- tournaments.py:190-196, allplayalls.py:150-153 `get_status`, and pickling. (The scheduler's pickled form is dealt
with when loading: `Group.reload`.) -/
def State.save (t : State) : Saved :=
  { results := t.results.map (fun p => (p.1, p.2.map GameResult.getState)), scheduler := t.scheduler,
    competitors := t.comp.competitors }

/-- The results in a status, unpickled. -/
def Saved.loadResults (s : Saved) : Results := s.results.map (fun p => (p.1, p.2.map GameResult.ofState))

/-- Errors from `set_status`; all are reported as RingmasterError (ringmasters.py:428-437). -/
inductive LoadErr where
  | competitionError
  | keyError
  | indexError
  deriving DecidableEq, Repr

/-- tournaments.py:154-156: are the players of the result those of the matchup? -/
def samePlayers (r : GameResult) (m : Matchup) : Bool :=
  (r.players.1 = m.player1 && r.players.2 = m.player2) || (r.players.1 = m.player2 && r.players.2 = m.player1)

/-- tournaments.py:149-163: one step of `_check_results`. -/
def checkMatchup (r : Results) (m : Matchup) : Except LoadErr Results :=
  match (r.touch m.id).get m.id with
  | [] => .ok (r.touch m.id)
  | x :: _ => if samePlayers x m then .ok (r.touch m.id) else .error .competitionError

/-- tournaments.py:135-163 `_check_results`. -/
def checkResults (r : Results) : List Matchup → Except LoadErr Results
  | [] => .ok r
  | m :: ms => match checkMatchup r m with
    | .ok r => checkResults r ms
    | .error e => .error e

/-- tournaments.py:165-175 `_set_ghost_matchups`: `results[0]` fails if the entry is an empty list. -/
def findGhosts (live : List Str) : Results → Except LoadErr (List Str)
  | [] => .ok []
  | (k, l) :: r =>
    if k ∈ live then findGhosts live r
    else if l = [] then .error .indexError
    else match findGhosts live r with
      | .ok g => .ok (k :: g)
      | .error e => .error e

/-- allplayalls.py:156-165: the check at the start of `set_status`. -/
def checkCompetitors (c : Comp) (s : Saved) : Except LoadErr Unit :=
  match c.competitors with
  | none => .ok ()
  | some cs => match s.competitors with
    | none => .error .keyError
    | some seen =>
      if cs.length < seen.length then .error .competitionError
      else if cs.take seen.length ≠ seen then .error .competitionError
      else .ok ()

/-- tournaments.py:198-206 and allplayalls.py:155-166 `set_status`, on a new Tournament. -/
def State.load (c : Comp) (s : Saved) : Except LoadErr State :=
  match checkCompetitors c s with
  | .error e => .error e
  | .ok _ => match checkResults s.loadResults c.matchups with
    | .error e => .error e
    | .ok r => match findGhosts (c.matchups.map Matchup.id) r with
      | .error e => .error e
      | .ok ghosts => .ok
        { comp := c, results := r, ghosts := ghosts, working := [], probationary := [],
          scheduler := (Group.setGroups s.scheduler.reload (groupSpecs c ghosts)).rollback }

/-- game_jobs.py:80-140: the parts of a Game_job which matter here (`player_b` and `player_w` by their codes). -/
structure Job where
  gameId : Str
  matchupId : Str
  number : Nat
  playerB : Str
  playerW : Str
  deriving DecidableEq, Repr

/-- tournaments.py:214-224: the job for a game of a matchup. -/
def Matchup.job (m : Matchup) (n : Nat) : Job :=
  if m.alternating && n % 2 != 0 then ⟨m.makeGameId n, m.id, n, m.player2, m.player1⟩
  else ⟨m.makeGameId n, m.id, n, m.player1, m.player2⟩

/-- `self.matchups[matchup_id]` -/
def State.findMatchup (t : State) (id : Str) : Option Matchup := t.comp.matchups.find? (fun m => m.id = id)

/-- tournaments.py:209-234 `get_game`; `none` is NoGameAvailable. -/
def State.getGame (t : State) : Except Exc (Option Job) × State :=
  match t.scheduler.issue with
  | (none, g) => (.ok none, { t with scheduler := g })
  | (some (id, n), g) =>
    match t.findMatchup id with
    | none => (.error .keyError, { t with scheduler := g })
    | some m => (.ok (some (m.job n)), { t with scheduler := g })

/-- tournaments.py:244-247: the state changes of `process_game_result`. -/
def State.processGameResult (t : State) (j : Job) (r : GameResult) : Except Exc Unit × State :=
  let t := { t with working := setAdd t.working j.matchupId, probationary := setDiscard t.probationary j.matchupId }
  match t.scheduler.fix j.matchupId j.number with
  | .error e => (.error e, t)
  | .ok g => (.ok (), { t with scheduler := g, results := t.results.append j.matchupId r })

/-- tournaments.py:250-262 `process_game_error`: (stop_competition, retry_game). -/
def State.processGameError (t : State) (j : Job) : (Bool × Bool) × State :=
  if j.matchupId ∉ t.working ∨ j.matchupId ∈ t.probationary then ((true, false), t)
  else ((false, true), { t with probationary := setAdd t.probationary j.matchupId })

/-- tournaments.py:290-293 (and allplayalls.py:219-235): writing the screen report looks up the results of every live
matchup. -/
def State.touchAll (t : State) : State :=
  { t with results := t.comp.matchups.foldl (fun r m => r.touch m.id) t.results }

end Gomill.Tourn
