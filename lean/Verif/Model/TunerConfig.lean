import Verif.Model.Playoff
/-
Model of the tuners' control files and candidates: settings.py:100-114 and 122-125, cem_tuners.py:88-233, 294-347, 391-402 and 418-441, and the corresponding parts of
mcts_tuners.py: 405-429, 510-639, 682-744 and 761-785.

Not modelled: the objects made by LINEAR(), LOG() and EXPLICIT() (see Model/Mcts and Model/LogScale), and Tree.__init__ (Model/Mcts).
-/
namespace Gomill.Conf
open Py

/-- What isn't modelled of the objects given in a control file: functions, and `%`. Exceptions from functions are represented by the text of the traceback. -/
structure Fns where
  callable : Val → Bool
  /-- the builtin `float` -/
  floatFn : Val
  /-- calling a scale or transform function -/
  apply : Val → Num → Except Str Val
  /-- calling make_candidate -/
  make : Val → List Val → Except Str Val
  /-- `format % v`, unless it raises an exception -/
  percent : Str → Val → Option Str
  /-- `"... %r ..." % v`: what replaces the `%r`, unless there's an exception (when v is a tuple without exactly one element) -/
  repr : Val → Except Err Str
  /-- `"%s" % x` -/
  showNum : Num → Str
  /-- `u.lower()` for a unicode string -/
  lowerU : Str → Str

/-- settings.py:100-105 `_colour_dict`. -/
def colourOf (s : Str) : Option Colour :=
  if s = "b".toList ∨ s = "black".toList then some .b
  else if s = "w".toList ∨ s = "white".toList then some .w
  else none

/-- settings.py:107-113 `interpret_colour`. -/
def interpretColour (T : Fns) (v : Val) : Except Err Colour :=
  match (match v with
    | .str s => colourOf (lower s)
    | .unicode s => colourOf (T.lowerU s)
    | _ => none) with
  | some c => .ok c
  | none => .error (.value "invalid colour")

/-- cem_tuners.py:116-120 and mcts_tuners.py:510-514 `interpret_candidate_colour`; `none` is 'random'. -/
def interpretCandidateColour (T : Fns) (v : Val) : Except Err (Option Colour) :=
  if isRandom v then .ok none
  else match interpretColour T v with
    | .ok c => .ok (some c)
    | .error e => .error e
where
  isRandom : Val → Bool
    | .str s => decide (s = "r".toList ∨ s = "random".toList)
    | .unicode s => decide (s = "r".toList ∨ s = "random".toList)
    | _ => false

/-- settings.py:122-125 `interpret_callable`. -/
def interpretCallable (T : Fns) (v : Val) : Except Err Val :=
  if T.callable v then .ok v else .error (.value "invalid callable")

/-- settings.py:165-180: `interpret_sequence_of(interpret_int)`. -/
def interpretInts (W : World) (v : Val) : Except Err (List Int) :=
  match interpretSequence W v with
  | .error e => .error e
  | .ok l => interpretItems interpretInt 0 l

/-- How these are stored. -/
def colourVal : Option Colour → SVal
  | some .b => .str "b".toList
  | some .w => .str "w".toList
  | none => .str "random".toList
def fnVal (v : Val) : SVal := .vals [v]
def intsVal (l : List Int) : SVal := .vals (l.map .int)

/-- Reading them. -/
def colourSetting (d : List (Str × SVal)) : Except Err (Option Colour) :=
  match d.lookup "candidate_colour".toList with
  | some (.str s) => .ok (if s = "b".toList then some .b else if s = "w".toList then some .w else none)
  | _ => .error noneErr
def fnOf (d : List (Str × SVal)) (name : String) : Except Err Val :=
  match d.lookup name.toList with
  | some (.vals [v]) => .ok v
  | _ => .error noneErr
def intsOf (d : List (Str × SVal)) (name : String) : Except Err (List Int) :=
  match d.lookup name.toList with
  | some (.vals l) => .ok (l.filterMap (fun v => match v with | .int n => some n | _ => none))
  | _ => .error noneErr

/-- `if b: raise e` -/
def refuseIf (b : Bool) (e : Err) : Except Err Unit := if b then .error e else .ok ()

/-! ### Competitions with more settings -/

/-- competitions.py:198-224 `initialise_from_control_file`, for a competition with more `global_settings`. -/
def initWith (W : World) (base : Option Str) (settings : List Setting) (config : List (Str × Val)) :
    Except Err (List (Str × SVal) × List (Str × Gtp.JobPlayer)) := do
  let globals ← toControl (loadSettings W config true false (globalSettings ++ settings) [])
  let specials ← toControl (loadSettings W config true false [playersSetting W] [])
  let players ← makePlayers W base (← configsOf specials "players") []
  return (globals, players)

/-- The attributes of a competition from competitions.py:503-512 `game_settings`. -/
structure GameRules where
  boardSize : Int
  komi : Num
  handicap : Option Int
  handicapStyle : Str
  moveLimit : Int
  scorer : Str
  compensation : Str

def gameRules (d : List (Str × SVal)) : Except Err GameRules := do
  let boardSize ← intOf d "board_size"
  let komi ← floatOf d "komi"
  let handicap ← optIntOf d "handicap"
  let handicapStyle ← strOf d "handicap_style"
  let moveLimit ← intOf d "move_limit"
  let scorer ← strOf d "scorer"
  let compensation ← strOf d "internal_scorer_handicap_compensation"
  return ⟨boardSize, komi, handicap, handicapStyle, moveLimit, scorer, compensation⟩

/-- cem_tuners.py:150-155 and mcts_tuners.py:549-554 `special_settings`. -/
def tunerSpecials (W : World) (T : Fns) : List Setting := [
  { name := "opponent".toList, interpreter := sv interpretIdentifier .str },
  { name := "parameters".toList, interpreter := sv (interpretConfigs W "Parameter".toList false) .vals },
  { name := "make_candidate".toList, interpreter := sv (interpretCallable T) fnVal } ]

/-- cem_tuners.py:205-209, mcts_tuners.py:607-611. -/
def findOpponent (players : List (Str × Gtp.JobPlayer)) (code : Str) : Except Err Gtp.JobPlayer :=
  match players.lookup code with
  | some p => .ok p
  | none => .error ⟨.controlFile, "opponent: unknown player ".toList ++ code⟩

/-- cem_tuners.py:219-222, mcts_tuners.py:621-624, and settings.py:422-435: what to call a parameter in a message. -/
def parameterKey (W : World) (i : Nat) (args : List Val) (kwargs : List (Str × Val)) : Except Err Str :=
  match args with
  | .none :: _ => .ok (strInt i)
  | v :: _ => showOf W v
  | [] => match kwargs.lookup "code".toList with
    | none => .ok (strInt i)
    | some .none => .ok (strInt i)
    | some v => showOf W v

/-- cem_tuners.py:214-227 and mcts_tuners.py:616-629: the loop over the parameters. -/
def parametersLoop {α : Type} (W : World) (code : α → Str) (spec : List Val → List (Str × Val) → Except Err α) : Nat → List α → List Val → Except Err (List α)
  | _, ps, [] => .ok ps
  | i, ps, .quiet _ args kwargs :: l => match spec args kwargs with
    | .error e => match parameterKey W i args kwargs with
      | .error e' => .error e'
      | .ok k => .error ⟨.controlFile, "parameter ".toList ++ k ++ ": ".toList ++ e.msg⟩
    | .ok p =>
      if code p ∈ ps.map code then .error ⟨.controlFile, "duplicate parameter code: ".toList ++ code p⟩
      else parametersLoop W code spec (i + 1) (ps ++ [p]) l
  | _, _, _ :: _ => .error noneErr

/-- cem_tuners.py:181-186 and mcts_tuners.py:585-590: the format, which must work for the given value. -/
def checkFormat (T : Fns) (code : Str) (format : Option Str) (v : Val) : Except Err Str :=
  let f := format.getD (code ++ ":%s".toList)
  match T.percent f v with
  | some _ => .ok f
  | none => .error ⟨.controlFile, "'format': invalid format string".toList⟩

/-- cem_tuners.py:175-180 and mcts_tuners.py:579-584: try the function. -/
def tryFn (T : Fns) (fn : Val) (x : Num) (msg : Str) : Except Err Val :=
  match T.apply fn x with
  | .ok v => .ok v
  | .error tb => .error ⟨.value, msg ++ tb⟩

/-! ### The cross-entropy tuner -/

/-- cem_tuners.py:88-94 `parameter_settings`. -/
def cemParameterSettings (W : World) (T : Fns) : List Setting := [
  { name := "code".toList, interpreter := sv interpretIdentifier .str },
  { name := "initial_mean".toList, interpreter := sv (interpretFloat W) .float },
  { name := "initial_variance".toList, interpreter := sv (interpretFloat W) .float },
  { name := "transform".toList, interpreter := sv (interpretCallable T) fnVal, default := some (fnVal T.floatFn) },
  { name := "format".toList, interpreter := sv interpret8bit (fun s => .str s), default := some .none } ]

/-- cem_tuners.py:104-114 Parameter_spec. -/
structure CemParam where
  code : Str
  mean : Num
  variance : Num
  transform : Val
  format : Str

/-- `x < 0.0` -/
def Num.isNegative : Num → Bool
  | .fin q => decide (q < 0)
  | .negInf => true
  | _ => false

/-- `0.0 < x < 1.0` -/
def Num.isProportion : Num → Bool
  | .fin q => decide (0 < q ∧ q < 1)
  | _ => false

/-- cem_tuners.py:157-187 `parameter_spec_from_config`. -/
def cemParameter (W : World) (T : Fns) (args : List Val) (kwargs : List (Str × Val)) : Except Err CemParam := do
  let arguments ← resolveArguments ["code".toList] (((cemParameterSettings W T).map Setting.name).filter (fun n => n ≠ "code".toList)) args kwargs
  let d ← loadSettings W arguments true false (cemParameterSettings W T) []
  let code ← strOf d "code"
  let mean ← floatOf d "initial_mean"
  let variance ← floatOf d "initial_variance"
  let transform ← fnOf d "transform"
  let format ← optStrOf d "format"
  refuseIf (Num.isNegative variance) (.value "'initial_variance': must be nonnegative")
  let v ← tryFn T transform mean "error from transform (applied to initial_mean)\n".toList
  let format ← checkFormat T code format v
  return { code, mean, variance, transform, format }

/-- cem_tuners.py:140-148 `global_settings`, after those of Competition. -/
def cemSettings (W : World) (T : Fns) : List Setting := gameSettings W ++ [
  { name := "candidate_colour".toList, interpreter := sv (interpretCandidateColour T) colourVal },
  { name := "batch_size".toList, interpreter := sv interpretPositiveInt .int },
  { name := "samples_per_generation".toList, interpreter := sv interpretPositiveInt .int },
  { name := "number_of_generations".toList, interpreter := sv interpretPositiveInt .int },
  { name := "elite_proportion".toList, interpreter := sv (interpretFloat W) .float },
  { name := "step_size".toList, interpreter := sv (interpretFloat W) .float } ]

/-- What the two kinds of tuner have in common. -/
structure TunerBase where
  code : Str
  description : Option Str
  players : List (Str × Gtp.JobPlayer)
  rules : GameRules
  colour : Option Colour
  opponent : Gtp.JobPlayer
  maker : Val

/-- A Cem_tuner after `initialise_from_control_file`. (`initial_distribution` is made of the means and variances.) -/
structure CemTuner where
  base : TunerBase
  batchSize : Int
  samples : Int
  generations : Int
  elite : Num
  step : Num
  parameters : List CemParam

/-- cem_tuners.py:189-233 `initialise_from_control_file`. -/
def initCem (W : World) (T : Fns) (base : Option Str) (code : Str) (config : List (Str × Val)) : Except Err CemTuner := do
  let (d, players) ← initWith W base (cemSettings W T) config
  let description ← optStrOf d "description"
  let rules ← gameRules d
  let colour ← colourSetting d
  let batchSize ← intOf d "batch_size"
  let samples ← intOf d "samples_per_generation"
  let generations ← intOf d "number_of_generations"
  let elite ← floatOf d "elite_proportion"
  let step ← floatOf d "step_size"
  validateHandicap rules.handicap rules.handicapStyle rules.boardSize
  refuseIf (!Num.isProportion elite) ⟨.controlFile, "elite_proportion out of range (0.0 to 1.0)".toList⟩
  refuseIf (!Num.isProportion step) ⟨.controlFile, "step_size out of range (0.0 to 1.0)".toList⟩
  let specials ← toControl (loadSettings W config true false (tunerSpecials W T) [])
  let opponent ← findOpponent players (← strOf specials "opponent")
  let configs ← valsOf specials "parameters"
  refuseIf configs.isEmpty ⟨.controlFile, "parameters: empty list".toList⟩
  let parameters ← parametersLoop W CemParam.code (cemParameter W T) 0 [] configs
  let maker ← fnOf specials "make_candidate"
  return { base := { code, description, players, rules, colour, opponent, maker }, batchSize, samples, generations, elite, step, parameters }

/-! ### The tree-search tuner -/

/-- mcts_tuners.py:405-410 `parameter_settings`. -/
def mctsParameterSettings (T : Fns) : List Setting := [
  { name := "code".toList, interpreter := sv interpretIdentifier .str },
  { name := "scale".toList, interpreter := sv (interpretCallable T) fnVal },
  { name := "split".toList, interpreter := sv interpretPositiveInt .int },
  { name := "format".toList, interpreter := sv interpret8bit (fun s => .str s), default := some .none } ]

/-- mcts_tuners.py:420-429 Parameter_spec. -/
structure MctsParam where
  code : Str
  scale : Val
  split : Int
  format : Str

/-- mcts_tuners.py:578: the middle of the first part of the range. (Floats are taken to be exact.) -/
def firstMiddle (split : Int) : Num := .fin (1 / (split * 2 : Rat))

/-- mcts_tuners.py:565-591 `parameter_spec_from_config`. -/
def mctsParameter (W : World) (T : Fns) (args : List Val) (kwargs : List (Str × Val)) : Except Err MctsParam := do
  let arguments ← resolveArguments ["code".toList] (((mctsParameterSettings T).map Setting.name).filter (fun n => n ≠ "code".toList)) args kwargs
  let d ← loadSettings W arguments true false (mctsParameterSettings T) []
  let code ← strOf d "code"
  let scale ← fnOf d "scale"
  let split ← intOf d "split"
  let format ← optStrOf d "format"
  let v ← tryFn T scale (firstMiddle split) ("error from scale (applied to ".toList ++ T.showNum (firstMiddle split) ++ ")\n".toList)
  let format ← checkFormat T code format v
  return { code, scale, split, format }

/-- mcts_tuners.py:537-547 `global_settings`, after those of Competition. -/
def mctsSettings (W : World) (T : Fns) : List Setting := gameSettings W ++ [
  { name := "number_of_games".toList, interpreter := sv (allowNone interpretInt) (optVal .int), default := some .none },
  { name := "candidate_colour".toList, interpreter := sv (interpretCandidateColour T) colourVal },
  { name := "log_tree_to_history_period".toList, interpreter := sv (allowNone interpretPositiveInt) (optVal .int), default := some .none },
  { name := "summary_spec".toList, interpreter := sv (interpretInts W) intsVal, default := some (intsVal [30]) },
  { name := "number_of_running_simulations_to_show".toList, interpreter := sv interpretInt .int, default := some (.int 12) } ]

/-- mcts_tuners.py:558-563 `tree_settings`. -/
def treeSettings (W : World) : List Setting := [
  { name := "max_depth".toList, interpreter := sv interpretPositiveInt .int, default := some (.int 1) },
  { name := "exploration_coefficient".toList, interpreter := sv (interpretFloat W) .float },
  { name := "initial_visits".toList, interpreter := sv interpretPositiveInt .int },
  { name := "initial_wins".toList, interpreter := sv interpretPositiveInt .int } ]

/-- A Mcts_tuner after `initialise_from_control_file`, with the arguments of Tree. -/
structure MctsTuner where
  base : TunerBase
  numberOfGames : Option Int
  logPeriod : Option Int
  summarySpec : List Int
  simulationsToShow : Int
  parameters : List MctsParam
  maxDepth : Int
  exploration : Num
  initialVisits : Int
  initialWins : Int

/-- mcts_tuners.py:596-597.  `int(komi)` fails for an infinity or a NaN. -/
def checkKomi : Num → Except Err Unit
  | .fin q => if q = (q.floor : Rat) then .error ⟨.controlFile, "komi: must be fractional to prevent jigos".toList⟩ else .ok ()
  | .nan => .error (.value "cannot convert float NaN to integer")
  | _ => .error ⟨.other, "cannot convert float infinity to integer".toList⟩

/-- mcts_tuners.py:593-639 `initialise_from_control_file`. (It's assumed that there's memory for the tree.) -/
def initMcts (W : World) (T : Fns) (base : Option Str) (code : Str) (config : List (Str × Val)) : Except Err MctsTuner := do
  let (d, players) ← initWith W base (mctsSettings W T) config
  let description ← optStrOf d "description"
  let rules ← gameRules d
  let numberOfGames ← optIntOf d "number_of_games"
  let colour ← colourSetting d
  let logPeriod ← optIntOf d "log_tree_to_history_period"
  let summarySpec ← intsOf d "summary_spec"
  let simulationsToShow ← intOf d "number_of_running_simulations_to_show"
  checkKomi rules.komi
  validateHandicap rules.handicap rules.handicapStyle rules.boardSize
  let specials ← toControl (loadSettings W config true false (tunerSpecials W T) [])
  let opponent ← findOpponent players (← strOf specials "opponent")
  let configs ← valsOf specials "parameters"
  refuseIf configs.isEmpty ⟨.controlFile, "parameters: empty list".toList⟩
  let parameters ← parametersLoop W MctsParam.code (mctsParameter W T) 0 [] configs
  let maker ← fnOf specials "make_candidate"
  let tree ← toControl (loadSettings W config true false (treeSettings W) [])
  let maxDepth ← intOf tree "max_depth"
  let exploration ← floatOf tree "exploration_coefficient"
  let initialVisits ← intOf tree "initial_visits"
  let initialWins ← intOf tree "initial_wins"
  return { base := { code, description, players, rules, colour, opponent, maker }, numberOfGames, logPeriod, summarySpec, simulationsToShow, parameters,
           maxDepth, exploration, initialVisits, initialWins }

/-! ### Candidates and games -/

/-- The exceptions when making a candidate: CompetitionError, or another one. -/
inductive CandErr where
  | competition (msg : Str)
  | other (e : Err)
  deriving DecidableEq

/-- cem_tuners.py:294-303 `transform_parameters`, mcts_tuners.py:682-691 `scale_parameters`. -/
def engineParameters {α : Type} (T : Fns) (what : String) (code : α → Str) (fn : α → Val) : List α → List Num → Except CandErr (List Val)
  | p :: ps, x :: xs => match T.apply (fn p) x with
    | .error tb => .error (.competition ("error from ".toList ++ what.toList ++ " for ".toList ++ code p ++ "\n".toList ++ tb))
    | .ok v => match engineParameters T what code fn ps xs with
      | .error e => .error e
      | .ok vs => .ok (v :: vs)
  | _, _ => .ok []

/-- cem_tuners.py:308-311: one of the parameters. -/
def formatOne (W : World) (T : Fns) (code format : Str) (v : Val) : Except Err Str :=
  match T.percent format v with
  | some s => .ok s
  | none => match showOf W v with
    | .ok s => .ok ("[".toList ++ code ++ "?".toList ++ s ++ "]".toList)
    | .error e => .error e

/-- cem_tuners.py:305-313 and mcts_tuners.py:693-701 `format_engine_parameters`. -/
def formatEngine {α : Type} (W : World) (T : Fns) (code format : α → Str) : List α → List Val → Except Err (List Str)
  | p :: ps, v :: vs => match formatOne W T (code p) (format p) v with
    | .error e => .error e
    | .ok s => match formatEngine W T code format ps vs with
      | .error e => .error e
      | .ok l => .ok (s :: l)
  | _, _ => .ok []

/-- cem_tuners.py:323-347 and mcts_tuners.py:707-731 `make_candidate`. `shown` is what `format_engine_parameters` gives. -/
def makeCandidate (W : World) (T : Fns) (base : Option Str) (maker : Val) (shown : Except Err Str) (code : Str) (parameters : List Val) : Except CandErr Gtp.JobPlayer :=
  match T.make maker parameters with
  | .error tb => .error (.competition ("error from make_candidate()\n".toList ++ tb))
  | .ok v => match playerConfig v with
    | none => match T.repr v with
      | .error e => .error (.other e)
      | .ok s => .error (.competition ("make_candidate() returned ".toList ++ s ++ ", not Player".toList))
    | some (args, kwargs) => match playerFromConfig W base code args kwargs with
      | .ok p => .ok p
      | .error e => match shown with
        | .error e' => .error (.other e')
        | .ok s => .error (.competition ("bad player spec from make_candidate():\n".toList ++ e.msg ++ "\nparameters were: ".toList ++ s))
where
  playerConfig : Val → Option (List Val × List (Str × Val))
    | .quiet c args kwargs => if c = "Player".toList then some (args, kwargs) else none
    | _ => none

/-- `"; ".join(l)` -/
def joinFormats : Except Err (List Str) → Except Err Str
  | .ok l => .ok (join "; ".toList l)
  | .error e => .error e

/-- cem_tuners.py:360-366: the candidate for a vector of optimiser parameters. -/
def CemTuner.candidate (W : World) (T : Fns) (base : Option Str) (t : CemTuner) (code : Str) (x : List Num) : Except CandErr Gtp.JobPlayer :=
  match engineParameters T "transform" CemParam.code CemParam.transform t.parameters x with
  | .error e => .error e
  | .ok vs => makeCandidate W T base t.base.maker (joinFormats (formatEngine W T CemParam.code CemParam.format t.parameters vs)) code vs

/-- mcts_tuners.py:760-762. -/
def MctsTuner.candidate (W : World) (T : Fns) (base : Option Str) (t : MctsTuner) (code : Str) (x : List Num) : Except CandErr Gtp.JobPlayer :=
  match engineParameters T "scale" MctsParam.code MctsParam.scale t.parameters x with
  | .error e => .error e
  | .ok vs => makeCandidate W T base t.base.maker (joinFormats (formatEngine W T MctsParam.code MctsParam.format t.parameters vs)) code vs

/-- cem_tuners.py:404-408 `choose_candidate_colour`; `random` is what random.choice gives. -/
def TunerBase.chooseColour (t : TunerBase) (random : Colour) : Colour := t.colour.getD random

/-- cem_tuners.py:420-441 and mcts_tuners.py:765-785: the Game_job, given its id and the description of the parameters. A komi which isn't a finite number is outside the
model: `none`. -/
def TunerBase.job {δ : Type} (t : TunerBase) (id : Str) (data : δ) (candidate : Gtp.JobPlayer) (random : Colour) (parameters : Str) : Option (Gtp.GameJob δ) :=
  match t.rules.komi with
  | .fin komi => some
    { gameId := id, gameData := data, player := fun c => if c = t.chooseColour random then candidate else t.opponent, boardSize := t.rules.boardSize.toNat, komi,
      moveLimit := t.rules.moveLimit, handicap := t.rules.handicap, handicapIsFree := decide (t.rules.handicapStyle = "free".toList),
      useInternalScorer := decide (t.rules.scorer = "internal".toList), comp := compensationOf t.rules.compensation, sgfEvent := some t.code,
      sgfNote := some ("Candidate parameters: ".toList ++ parameters) }
  | _ => none

/-- cem_tuners.py:315-317 `format_optimiser_parameters`. -/
def CemTuner.describe (W : World) (T : Fns) (t : CemTuner) (x : List Num) : Except CandErr Str :=
  match engineParameters T "transform" CemParam.code CemParam.transform t.parameters x with
  | .error e => .error e
  | .ok vs => match joinFormats (formatEngine W T CemParam.code CemParam.format t.parameters vs) with
    | .ok s => .ok s
    | .error e => .error (.other e)

/-- mcts_tuners.py:703-705 `format_optimiser_parameters`. -/
def MctsTuner.describe (W : World) (T : Fns) (t : MctsTuner) (x : List Num) : Except CandErr Str :=
  match engineParameters T "scale" MctsParam.code MctsParam.scale t.parameters x with
  | .error e => .error e
  | .ok vs => match joinFormats (formatEngine W T MctsParam.code MctsParam.format t.parameters vs) with
    | .ok s => .ok s
    | .error e => .error (.other e)

/-- cem_tuners.py:391-402 and mcts_tuners.py:733-744 `get_player_checks`, given the candidate: the players, with board size and komi. -/
def TunerBase.checks (t : TunerBase) (candidate : Gtp.JobPlayer) : List (Gtp.JobPlayer × Int × Num) :=
  [(candidate, t.rules.boardSize, t.rules.komi), (t.opponent, t.rules.boardSize, t.rules.komi)]

end Gomill.Conf
