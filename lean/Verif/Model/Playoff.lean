import Verif.Model.Settings
/-
Model of competitions.py:447-512, tournaments.py:14-76, 107-120 and 209-234, playoffs.py:10-159, and the parts of allplayalls.py:89-178 not in Model/Tournament: from the
values in a control file to matchups, Game_jobs and Player_checks.
-/
namespace Gomill.Conf
open Py

/-- competitions.py:447-453 `interpret_board_size`. -/
def interpretBoardSize (v : Val) : Except Err Int :=
  match interpretInt v with
  | .error e => .error e
  | .ok i => if i < 2 then .error (.value "too small") else if i > 25 then .error (.value "too large") else .ok i

/-- competitions.py:455-476 `validate_handicap`. -/
def validateHandicap (handicap : Option Int) (style : Str) (boardSize : Int) : Except Err Unit :=
  match handicap with
  | none => .ok ()
  | some h =>
    if h < 2 then .error ⟨.controlFile, "handicap too small".toList⟩
    else match (if style = "fixed".toList then Handicap.maxFixed boardSize else .ok (Handicap.maxFree boardSize)) with
      | .error _ => .error (.value "board size too large")
      | .ok limit =>
        if h > limit then .error ⟨.controlFile, style ++ " handicap out of range for board size ".toList ++ strInt boardSize⟩ else .ok ()

/-- competitions.py:503-512 `game_settings`. -/
def gameSettings (W : World) : List Setting := [
  { name := "board_size".toList, interpreter := sv interpretBoardSize .int },
  { name := "komi".toList, interpreter := sv (interpretFloat W) .float },
  { name := "handicap".toList, interpreter := sv (allowNone interpretInt) (optVal .int), default := some .none },
  { name := "handicap_style".toList, interpreter := sv (interpretEnum ["fixed".toList, "free".toList]) .str, default := some (.str "fixed".toList) },
  { name := "move_limit".toList, interpreter := sv interpretPositiveInt .int, default := some (.int 1000) },
  { name := "scorer".toList, interpreter := sv (interpretEnum ["internal".toList, "players".toList]) .str, default := some (.str "players".toList) },
  { name := "internal_scorer_handicap_compensation".toList, interpreter := sv (interpretEnum ["no".toList, "full".toList, "short".toList]) .str,
    default := some (.str "full".toList) } ]

/-- tournaments.py:14-17 `matchup_settings`. -/
def matchupSettings (W : World) : List Setting := gameSettings W ++ [
  { name := "alternating".toList, interpreter := sv interpretBool .bool, default := some (.bool false) },
  { name := "number_of_games".toList, interpreter := sv (allowNone interpretInt) (optVal .int), default := some .none } ]

/-- tournaments.py:20-73 Matchup, with all its attributes. -/
structure Matchup where
  id : Str
  player1 : Str
  player2 : Str
  boardSize : Int
  komi : Num
  handicap : Option Int
  handicapStyle : Str
  moveLimit : Int
  scorer : Str
  compensation : Str
  alternating : Bool
  numberOfGames : Option Int
  name : Str
  event : Str
  deriving DecidableEq, Repr

/-- tournaments.py:52-60: the attributes set from the parameters or the defaults. -/
def fillDefaults (parameters : List (Str × SVal)) : List Setting → List (Str × SVal) → Except Err (List (Str × SVal))
  | [], d => .ok d
  | s :: ss, d => match parameters.lookup s.name with
    | some v => fillDefaults parameters ss (put d s.name v)
    | none => match s.default with
      | some v => fillDefaults parameters ss (put d s.name v)
      | none => .error ⟨.value, '\'' :: s.name ++ "' not specified".toList⟩

/-- tournaments.py:65-69: the name. -/
def matchupName (p1 p2 : Str) : Option Str → Str
  | none => p1 ++ " v ".toList ++ p2
  | some n => n

/-- tournaments.py:65-69: the event description. -/
def eventOf (code : Str) : Option Str → Str
  | none => code
  | some n => code ++ " (".toList ++ n ++ ")".toList

/-- tournaments.py:46-73 `Matchup.__init__`. -/
def newMatchup (W : World) (event : Str) (id p1 p2 : Str) (parameters : List (Str × SVal)) (name : Option Str) : Except Err Matchup := do
  let d ← fillDefaults parameters (matchupSettings W) []
  let boardSize ← intOf d "board_size"
  let komi ← floatOf d "komi"
  let handicap ← optIntOf d "handicap"
  let handicapStyle ← strOf d "handicap_style"
  let moveLimit ← intOf d "move_limit"
  let scorer ← strOf d "scorer"
  let compensation ← strOf d "internal_scorer_handicap_compensation"
  let alternating ← boolOf d "alternating"
  let numberOfGames ← optIntOf d "number_of_games"
  validateHandicap handicap handicapStyle boardSize
  return { id, player1 := p1, player2 := p2, boardSize, komi, handicap, handicapStyle, moveLimit, scorer, compensation, alternating, numberOfGames,
           name := matchupName p1 p2 name, event := eventOf event name }

/-- tournaments.py:107-120 `make_matchup`. -/
def makeMatchup (W : World) (event : Str) (id p1 p2 : Str) (parameters : List (Str × SVal)) (name : Option Str) : Except Err Matchup :=
  toControl (newMatchup W event id p1 p2 parameters name)

/-- playoffs.py:10-17 Matchup_config. -/
def matchupPositional : List Str := ["player_1".toList, "player_2".toList]
def matchupKeyword (W : World) : List Str := ["id".toList, "name".toList] ++ (matchupSettings W).map Setting.name

/-- `player in self.players`: the code, if it is there. (The codes are ASCII strings; a unicode string can equal one.) -/
def playerCode (players : List Str) : Val → Option Str
  | .str s => if s ∈ players then some s else none
  | .unicode s => if s ∈ players then some s else none
  | _ => none

/-- playoffs.py:62-66: the matchup id. -/
def matchupId (i : Nat) (arguments : List (Str × Val)) : Except Err Str :=
  match arguments.lookup "id".toList with
  | none => .ok (strInt i)
  | some v => match interpretIdentifier v with
    | .ok s => .ok s
    | .error e => .error (if e.kind = .value then ⟨.value, "'id': ".toList ++ e.msg⟩ else e)

/-- playoffs.py:72-75: look up a player. -/
def knownPlayer (W : World) (players : List Str) (v : Val) : Except Err Str :=
  match playerCode players v with
  | some s => .ok s
  | none => match showOf W v with
    | .ok s => .error ⟨.controlFile, "unknown player ".toList ++ s⟩
    | .error e => .error e

/-- playoffs.py:85-90: the name. -/
def givenName (arguments : List (Str × Val)) : Except Err (Option Str) :=
  match arguments.lookup "name".toList with
  | none => .ok none
  | some .none => .ok none
  | some v => match interpretUtf8 v with
    | .ok s => .ok (some s)
    | .error e => .error (if e.kind = .value then ⟨.value, "'name': ".toList ++ e.msg⟩ else e)

/-- `d.update(e)` on a dict. -/
def update {α : Type} (d e : List (Str × α)) : List (Str × α) := e.foldl (fun d kv => put d kv.1 kv.2) d

/-- playoffs.py:77-81: make a clone if both players are the same. -/
def clonePlayers (players : List (Str × Gtp.JobPlayer)) (p1 p2 : Str) : List (Str × Gtp.JobPlayer) :=
  if p1 = p2 then
    match players.lookup p1 with
    | some p => if Tourn.clonePlayer p1 p2 ∈ players.map Prod.fst then players else put players (Tourn.clonePlayer p1 p2) (p.copy (Tourn.clonePlayer p1 p2))
    | none => players
  else players

/-- playoffs.py:67-95: the rest of `matchup_from_config`, when the id is known. -/
def matchupBody (W : World) (event : Str) (players : List (Str × Gtp.JobPlayer)) (defaults : List (Str × SVal)) (id : Str) (arguments : List (Str × Val)) :
    Except Err (Matchup × List (Str × Gtp.JobPlayer)) :=
  match arguments.lookup "player_1".toList, arguments.lookup "player_2".toList with
  | some v1, some v2 => do
    let p1 ← knownPlayer W (players.map Prod.fst) v1
    let p2 ← knownPlayer W (players.map Prod.fst) v2
    let interpreted ← loadSettings W arguments false true (matchupSettings W) []
    let name ← givenName arguments
    let m ← makeMatchup W event id p1 (Tourn.clonePlayer p1 p2) (update defaults interpreted) name
    return (m, clonePlayers players p1 p2)
  | _, _ => .error ⟨.controlFile, "not enough arguments".toList⟩

/-- `ControlFileError("matchup %s: %s" % (matchup_id, e))` -/
def inMatchup {α : Type} (id : Str) : Except Err α → Except Err α
  | .ok x => .ok x
  | .error e => .error ⟨.controlFile, "matchup ".toList ++ id ++ ": ".toList ++ e.msg⟩

/-- playoffs.py:41-97 `matchup_from_config`. -/
def matchupFromConfig (W : World) (event : Str) (players : List (Str × Gtp.JobPlayer)) (defaults : List (Str × SVal)) (i : Nat) (args : List Val)
    (kwargs : List (Str × Val)) : Except Err (Matchup × List (Str × Gtp.JobPlayer)) := do
  let arguments ← inMatchup (strInt i) (resolveArguments matchupPositional (matchupKeyword W) args kwargs)
  let id ← inMatchup (strInt i) (matchupId i arguments)
  inMatchup id (matchupBody W event players defaults id arguments)

/-- playoffs.py:132-137: the loop over the matchups. -/
def matchupLoop (W : World) (event : Str) (defaults : List (Str × SVal)) : Nat → List (Str × Gtp.JobPlayer) → List Matchup → List Val →
    Except Err (List Matchup × List (Str × Gtp.JobPlayer))
  | _, players, ms, [] => .ok (ms, players)
  | i, players, ms, .quiet _ args kwargs :: cs => match matchupFromConfig W event players defaults i args kwargs with
    | .error e => .error e
    | .ok (m, players) =>
      if m.id ∈ ms.map Matchup.id then .error ⟨.controlFile, "duplicate matchup id '".toList ++ m.id ++ ['\'']⟩
      else matchupLoop W event defaults (i + 1) players (ms ++ [m]) cs
  | _, _, _, _ :: _ => .error noneErr

/-- A competition after `initialise_from_control_file`. -/
structure Playoff where
  code : Str
  description : Option Str
  players : List (Str × Gtp.JobPlayer)
  matchups : List Matchup

/-- playoffs.py:36-39 `special_settings`. -/
def matchupsSetting (W : World) : Setting :=
  { name := "matchups".toList, interpreter := sv (interpretConfigs W "Matchup".toList false) .vals }

/-- playoffs.py:111-118: the check of the default handicap. -/
def checkDefaultHandicap (defaults : List (Str × SVal)) : Except Err Unit :=
  match defaults.lookup "board_size".toList with
  | none => .ok ()
  | some _ => do
    let size ← intOf defaults "board_size"
    let handicap ← optIntOf defaults "handicap"
    let style ← strOf defaults "handicap_style"
    match validateHandicap handicap style size with
    | .ok _ => .ok ()
    | .error e => .error (if e.kind = .controlFile then cfe "default " e else e)

/-- playoffs.py:100-137 `initialise_from_control_file`. -/
def initPlayoff (W : World) (base : Option Str) (code : Str) (config : List (Str × Val)) : Except Err Playoff := do
  let (description, players) ← initCompetition W base config
  let defaults ← toControl (loadSettings W config true true (matchupSettings W) [])
  checkDefaultHandicap defaults
  let specials ← toControl (loadSettings W config true false [matchupsSetting W] [])
  let configs ← valsOf specials "matchups"
  if configs.isEmpty then .error ⟨.controlFile, "matchups: empty list".toList⟩
  let (matchups, players) ← matchupLoop W code defaults 0 players [] configs
  return { code, description, players, matchups }

/-- The part of the matchup in Model/Tournament. -/
def Matchup.core (m : Matchup) : Tourn.Matchup := ⟨m.id, m.player1, m.player2, m.alternating, m.numberOfGames⟩

/-- The part of the competition in Model/Tournament. -/
def Playoff.comp (p : Playoff) : Tourn.Comp := ⟨p.matchups.map Matchup.core, none⟩

/-- competitions.py:509-511, tournaments.py:231-232: the value for Game_job. -/
def compensationOf (s : Str) : Compensation :=
  if s = "no".toList then .no else if s = "short".toList then .short else .full

/-- tournaments.py:220-233: the Game_job for a game (the ringmaster adds the file names). KeyError if the matchup or a player isn't there.  A komi which isn't a finite
number is outside the model: `none`. -/
def fullJob (p : Playoff) (j : Tourn.Job) : Option (Gtp.GameJob (Str × Nat)) :=
  match p.matchups.find? (fun m => m.id = j.matchupId), p.players.lookup j.playerB, p.players.lookup j.playerW with
  | some m, some b, some w => match m.komi with
    | .fin komi => some
      { gameId := j.gameId, gameData := (j.matchupId, j.number), player := fun c => if c = .b then b else w, boardSize := m.boardSize.toNat, komi,
        moveLimit := m.moveLimit, handicap := m.handicap, handicapIsFree := decide (m.handicapStyle = "free".toList),
        useInternalScorer := decide (m.scorer = "internal".toList), comp := compensationOf m.compensation, sgfEvent := some m.event }
    | _ => none
  | _, _, _ => none

/-- game_jobs.py:405-420 Player_check: the player's code, the board size and komi. -/
structure Check where
  player : Str
  boardSize : Int
  komi : Num
  deriving DecidableEq, Repr

/-- playoffs.py:146-151: which matchup to use for each player; the dict is filled in from the last matchup to the first. -/
def usedPlayers : List Matchup → List (Str × Matchup)
  | [] => []
  | m :: ms => if m.numberOfGames = some 0 then usedPlayers ms else put (put (usedPlayers ms) m.player1 m) m.player2 m

/-- playoffs.py:143-159 `get_player_checks`. -/
def Playoff.playerChecks (p : Playoff) : List Check :=
  (sortByKey (usedPlayers p.matchups)).map (fun e => ⟨e.1, e.2.boardSize, e.2.komi⟩)

end Gomill.Conf
