import Verif.Model.TunerConfig
import Verif.Spec.Allplayall
/-
What is meant by a tuner's control file, for C83 and C84.
-/
namespace Gomill.Conf.Spec
open Py

variable (W : World) (T : Fns)

/-- The names of the colours. -/
inductive ColourName : Str → Colour → Prop
  | b : ColourName "b".toList .b
  | black : ColourName "black".toList .b
  | w : ColourName "w".toList .w
  | white : ColourName "white".toList .w

/-- The candidates' colour: 'r' or 'random' (`none`), or the name of a colour, in upper or lower case. -/
inductive CandidateColour : Val → Option Colour → Prop
  | random {v s} : (s = "r".toList ∨ s = "random".toList) → IsString v s → CandidateColour v none
  | str {s c} : ColourName (lower s) c → CandidateColour (.str s) (some c)
  | unicode {s c} : s ≠ "r".toList → s ≠ "random".toList → ColourName (T.lowerU s) c → CandidateColour (.unicode s) (some c)

/-- A function. -/
def IsFn (v x : Val) : Prop := x = v ∧ T.callable v = true

/-- An identifier. -/
def IsIdent (v : Val) (s : Str) : Prop := Text v s ∧ Ident s

/-- A positive integer. -/
def IsPositive (v : Val) (n : Int) : Prop := IsInt v n ∧ 0 < n

/-- Strictly between 0 and 1. -/
def Proportion (x : Num) : Prop := ∃ q, x = .fin q ∧ 0 < q ∧ q < 1

/-- The settings of the games. -/
structure GameRulesOf (config : Str → Option Val) (r : GameRules) : Prop where
  boardSize : SettingIs W config "board_size" IsSize none r.boardSize
  komi : SettingIs W config "komi" (IsFloat W) none r.komi
  handicap : SettingIs W config "handicap" (OrNone IsInt) (some none) r.handicap
  handicapStyle : SettingIs W config "handicap_style" (OneOf ["fixed", "free"]) (some "fixed".toList) r.handicapStyle
  moveLimit : SettingIs W config "move_limit" IsPositive (some 1000) r.moveLimit
  scorer : SettingIs W config "scorer" (OneOf ["internal", "players"]) (some "players".toList) r.scorer
  compensation : SettingIs W config "internal_scorer_handicap_compensation" (OneOf ["no", "full", "short"]) (some "full".toList) r.compensation
  allowed : HandicapAllowed r.handicap r.handicapStyle r.boardSize

/-- What the two kinds of tuner have in common. The description and the players are as in C74. -/
structure TunerOf (base : Option Str) (code : Str) (config : List (Str × Val)) (t : TunerBase) : Prop where
  code : t.code = code
  competition : initCompetition W base config = .ok (t.description, t.players)
  rules : GameRulesOf W (fun n => config.lookup n) t.rules
  colour : SettingIs W (fun n => config.lookup n) "candidate_colour" (CandidateColour T) none t.colour
  opponent : ∃ opp, SettingIs W (fun n => config.lookup n) "opponent" IsIdent none opp ∧ t.players.lookup opp = some t.opponent
  maker : SettingIs W (fun n => config.lookup n) "make_candidate" (IsFn T) none t.maker

/-- The list of parameters: all have different codes. -/
def ParametersOf {α : Type} (config : List (Str × Val)) (is : List Val → List (Str × Val) → α → Prop) (code : α → Str) (ps : List α) : Prop :=
  ∃ v l, Has W config "parameters".toList v ∧ W.listOf v = some l ∧ l ≠ [] ∧ (ps.map code).Nodup ∧
    List.Forall₂ (fun x p => ∃ args kwargs, x = .quiet "Parameter".toList args kwargs ∧ is args kwargs p) l ps

/-- A parameter for the cross-entropy tuner: the transform function must work for the initial mean, and the format for what it gives. -/
structure CemParamIs (args : List Val) (kwargs : List (Str × Val)) (p : CemParam) : Prop where
  arguments : GoodArguments ["code".toList] ["initial_mean".toList, "initial_variance".toList, "transform".toList, "format".toList] args kwargs
  code : SettingIs W (argument ["code".toList] args kwargs) "code" IsIdent none p.code
  mean : SettingIs W (argument ["code".toList] args kwargs) "initial_mean" (IsFloat W) none p.mean
  variance : SettingIs W (argument ["code".toList] args kwargs) "initial_variance" (IsFloat W) none p.variance
  nonnegative : p.variance ≠ .negInf ∧ ∀ q, p.variance = .fin q → 0 ≤ q
  transform : SettingIs W (argument ["code".toList] args kwargs) "transform" (IsFn T) (some T.floatFn) p.transform
  format : SettingIs W (argument ["code".toList] args kwargs) "format" CText (some (p.code ++ ":%s".toList)) p.format
  works : ∃ v s, T.apply p.transform p.mean = .ok v ∧ T.percent p.format v = some s

/-- What a cross-entropy tuner's control file gives. -/
structure CemOf (base : Option Str) (code : Str) (config : List (Str × Val)) (t : CemTuner) : Prop where
  tuner : TunerOf W T base code config t.base
  batchSize : SettingIs W (fun n => config.lookup n) "batch_size" IsPositive none t.batchSize
  samples : SettingIs W (fun n => config.lookup n) "samples_per_generation" IsPositive none t.samples
  generations : SettingIs W (fun n => config.lookup n) "number_of_generations" IsPositive none t.generations
  elite : SettingIs W (fun n => config.lookup n) "elite_proportion" (IsFloat W) none t.elite
  eliteRange : Proportion t.elite
  step : SettingIs W (fun n => config.lookup n) "step_size" (IsFloat W) none t.step
  stepRange : Proportion t.step
  parameters : ParametersOf W config (CemParamIs W T) CemParam.code t.parameters

/-- A parameter for the tree-search tuner: the scale function must work for the middle of the first part of the range, and the format for what it gives. -/
structure MctsParamIs (args : List Val) (kwargs : List (Str × Val)) (p : MctsParam) : Prop where
  arguments : GoodArguments ["code".toList] ["scale".toList, "split".toList, "format".toList] args kwargs
  code : SettingIs W (argument ["code".toList] args kwargs) "code" IsIdent none p.code
  scale : SettingIs W (argument ["code".toList] args kwargs) "scale" (IsFn T) none p.scale
  split : SettingIs W (argument ["code".toList] args kwargs) "split" IsPositive none p.split
  format : SettingIs W (argument ["code".toList] args kwargs) "format" CText (some (p.code ++ ":%s".toList)) p.format
  works : ∃ v s, T.apply p.scale (.fin (1 / p.split / 2)) = .ok v ∧ T.percent p.format v = some s

/-- A list of integers. -/
def IsInts (v : Val) (l : List Int) : Prop := ∃ vs, W.listOf v = some vs ∧ List.Forall₂ IsInt vs l

/-- What a tree-search tuner's control file gives. -/
structure MctsOf (base : Option Str) (code : Str) (config : List (Str × Val)) (t : MctsTuner) : Prop where
  tuner : TunerOf W T base code config t.base
  fractional : ∃ q, t.base.rules.komi = .fin q ∧ ∀ n : Int, q ≠ n
  numberOfGames : SettingIs W (fun n => config.lookup n) "number_of_games" (OrNone IsInt) (some none) t.numberOfGames
  logPeriod : SettingIs W (fun n => config.lookup n) "log_tree_to_history_period" (OrNone IsPositive) (some none) t.logPeriod
  summarySpec : SettingIs W (fun n => config.lookup n) "summary_spec" (IsInts W) (some [30]) t.summarySpec
  simulationsToShow : SettingIs W (fun n => config.lookup n) "number_of_running_simulations_to_show" IsInt (some 12) t.simulationsToShow
  parameters : ParametersOf W config (MctsParamIs W T) MctsParam.code t.parameters
  maxDepth : SettingIs W (fun n => config.lookup n) "max_depth" IsPositive (some 1) t.maxDepth
  exploration : SettingIs W (fun n => config.lookup n) "exploration_coefficient" (IsFloat W) none t.exploration
  initialVisits : SettingIs W (fun n => config.lookup n) "initial_visits" IsPositive none t.initialVisits
  initialWins : SettingIs W (fun n => config.lookup n) "initial_wins" IsPositive none t.initialWins

/-! ### Candidates -/

/-- A candidate: the functions give a value for each parameter, `make_candidate` gives `Player(...)` for these values, and that describes this player. -/
def CandidateIs {α : Type} (base : Option Str) (fn : α → Val) (maker : Val) (parameters : List α) (x : List Num) (code : Str) (p : Gtp.JobPlayer) : Prop :=
  ∃ vs args kwargs, List.Forall₂ (fun (q : α × Num) v => T.apply (fn q.1) q.2 = .ok v) (parameters.zip x) vs ∧
    T.make maker vs = .ok (.quiet "Player".toList args kwargs) ∧ playerFromConfig W base code args kwargs = .ok p

/-- How the parameters are shown: each by its format, or (if that doesn't work) by its code and the value. -/
def ShownAs (code format : Str) (v : Val) (s : Str) : Prop :=
  T.percent format v = some s ∨ (T.percent format v = none ∧ ∃ t, showOf W v = .ok t ∧ s = "[".toList ++ code ++ "?".toList ++ t ++ "]".toList)

/-- Why there's no candidate. -/
inductive CandidateFails {α : Type} (base : Option Str) (what : String) (code format : α → Str) (fn : α → Val) (maker : Val) (parameters : List α) (x : List Num) (candidate : Str) : Str → Prop
  /-- The function for one of the parameters failed, and those for the earlier ones didn't. -/
  | function {pre q post vs tb} : parameters.zip x = pre ++ q :: post → List.Forall₂ (fun (q : α × Num) v => T.apply (fn q.1) q.2 = .ok v) pre vs →
      T.apply (fn q.1) q.2 = .error tb → CandidateFails base what code format fn maker parameters x candidate ("error from ".toList ++ what.toList ++ " for ".toList ++ code q.1 ++ "\n".toList ++ tb)
  /-- `make_candidate` failed. -/
  | maker {vs tb} : List.Forall₂ (fun (q : α × Num) v => T.apply (fn q.1) q.2 = .ok v) (parameters.zip x) vs → T.make maker vs = .error tb →
      CandidateFails base what code format fn maker parameters x candidate ("error from make_candidate()\n".toList ++ tb)
  /-- It gave something else. -/
  | other {vs v s} : List.Forall₂ (fun (q : α × Num) v => T.apply (fn q.1) q.2 = .ok v) (parameters.zip x) vs → T.make maker vs = .ok v →
      (∀ args kwargs, v ≠ .quiet "Player".toList args kwargs) → T.repr v = .ok s →
      CandidateFails base what code format fn maker parameters x candidate ("make_candidate() returned ".toList ++ s ++ ", not Player".toList)
  /-- It gave a description which isn't acceptable. -/
  | bad {vs args kwargs e} {shown : List Str} : List.Forall₂ (fun (q : α × Num) v => T.apply (fn q.1) q.2 = .ok v) (parameters.zip x) vs →
      T.make maker vs = .ok (.quiet "Player".toList args kwargs) → playerFromConfig W base candidate args kwargs = .error e →
      List.Forall₂ (fun (q : α × Val) s => ShownAs W T (code q.1) (format q.1) q.2 s) (parameters.zip vs) shown →
      CandidateFails base what code format fn maker parameters x candidate ("bad player spec from make_candidate():\n".toList ++ e.msg ++ "\nparameters were: ".toList ++ join "; ".toList shown)

/-- A tuner's game, between the candidate, with colour `c`, and the opponent. -/
structure TunerJob {δ : Type} (t : TunerBase) (id : Str) (data : δ) (candidate : Gtp.JobPlayer) (c : Colour) (komi : Rat) (note : Str) (job : Gtp.GameJob δ) : Prop where
  gameId : job.gameId = id
  gameData : job.gameData = data
  candidate : job.player c = candidate
  opponent : job.player c.opponent = t.opponent
  different : (job.player .b).code ≠ (job.player .w).code
  boardSize : (job.boardSize : Int) = t.rules.boardSize ∧ 2 ≤ job.boardSize ∧ job.boardSize ≤ 25
  komi : job.komi = komi
  moveLimit : job.moveLimit = t.rules.moveLimit ∧ 0 < job.moveLimit
  handicap : job.handicap = t.rules.handicap
  handicapIsFree : job.handicapIsFree = true ↔ t.rules.handicapStyle = "free".toList
  scorer : job.useInternalScorer = true ↔ t.rules.scorer = "internal".toList
  compensation : (t.rules.compensation = "no".toList → job.comp = .no) ∧ (t.rules.compensation = "short".toList → job.comp = .short) ∧ (t.rules.compensation = "full".toList → job.comp = .full)
  event : job.sgfEvent = some t.code
  note : job.sgfNote = some ("Candidate parameters: ".toList ++ note)

end Gomill.Conf.Spec
