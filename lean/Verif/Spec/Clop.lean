import Verif.Model.Clop
import Verif.Spec.ControlFile
import Verif.Spec.TunerConfig
/-
What is meant by a control file for gomill-clop, and by a game for CLOP, for C100.
-/
namespace Gomill.Conf.Spec
open Py

section
variable (W : World) (T : Fns)

/-- The candidates' colour: the name of a colour, in upper or lower case. -/
inductive ColourIs : Val → Option Colour → Prop
  | str {s c} : ColourName (lower s) c → ColourIs (.str s) (some c)
  | unicode {s c} : ColourName (T.lowerU s) c → ColourIs (.unicode s) (some c)

/-- A float, which has been given. -/
def SomeFloat (v : Val) (x : Option Num) : Prop := ∃ y, IsFloat W v y ∧ x = some y

/-- A parameter for CLOP. The bounds of an integer parameter are integers. -/
structure ClopParamIs (args : List Val) (kwargs : List (Str × Val)) (p : ClopParam) : Prop where
  arguments : GoodArguments ["code".toList] ["type".toList, "min".toList, "max".toList] args kwargs
  code : SettingIs W (argument ["code".toList] args kwargs) "code" IsIdent none p.code
  type : SettingIs W (argument ["code".toList] args kwargs) "type" (OneOf ["LinearParameter", "IntegerParameter", "GammaParameter", "IntegerGammaParameter"]) none p.type
  min : SettingIs W (argument ["code".toList] args kwargs) "min" (IsFloat W) none p.min
  max : SettingIs W (argument ["code".toList] args kwargs) "max" (IsFloat W) none p.max
  isInteger : p.isInteger = true ↔ p.type = "IntegerParameter".toList ∨ p.type = "IntegerGammaParameter".toList
  whole : p.isInteger = true → (∃ n : Int, p.min = .fin n) ∧ ∃ n : Int, p.max = .fin n

/-- What a control file for gomill-clop gives. The description and the players are as in C74. -/
structure ClopOf (base : Option Str) (code : Str) (config : List (Str × Val)) (t : ClopTuner) : Prop where
  code : t.base.code = code
  competition : initCompetition W base config = .ok (t.base.description, t.base.players)
  rules : GameRulesOf W (fun n => config.lookup n) t.base.rules
  colour : SettingIs W (fun n => config.lookup n) "candidate_colour" (ColourIs T) none t.base.colour
  parallel : SettingIs W (fun n => config.lookup n) "parallel" IsInt (some 1) t.parallel
  clopH : SettingIs W (fun n => config.lookup n) "clop_H" (SomeFloat W) (some none) t.clopH
  correlations : SettingIs W (fun n => config.lookup n) "correlations" (OneOf ["all", "none"]) (some "all".toList) t.correlations
  stopOnError : SettingIs W (fun n => config.lookup n) "stop_on_error" (fun v b => v = .bool b) (some true) t.stopOnError
  opponent : ∃ opp, SettingIs W (fun n => config.lookup n) "opponent" IsIdent none opp ∧ t.base.players.lookup opp = some t.base.opponent
  parameters : ParametersOf W config (ClopParamIs W) ClopParam.code t.parameters
  maker : SettingIs W (fun n => config.lookup n) "make_candidate" (IsFn T) none t.base.maker

end

/-- What a Clop_ringmaster is like. -/
structure ClopMadeFrom (C : ControlWorld Unit) (T : Fns) (control : Str) (r : ClopRingmaster) (config : List (Str × Val)) : Prop where
  /-- the paths are those of any Ringmaster, except for the log -/
  paths : ∃ P, pathsOf control = .ok P ∧ r.paths = { P with log := inside P.base (P.code ++ ".elog".toList) }
  /-- the control file can be read, is in utf-8, says what it is, and is Python code which makes these settings -/
  interpreted : ∃ source, C.read control = .ok source ∧ TypeOf source "clop_tuner".toList ∧ Sgf.utf8Valid source = true ∧
    C.exec "clop_tuner".toList source = .ok config ∧ SaysType config "clop_tuner".toList
  recordGames : RingmasterFlag C.world config "record_games" true r.recordGames
  stderrToLog : RingmasterFlag C.world config "stderr_to_log" true r.stderrToLog
  skipPlayerChecks : ∃ b, RingmasterFlag C.world config "skip_player_checks" false b
  tuner : ClopOf C.world T (some r.paths.base) r.paths.code config r.tuner

/-- The value for a parameter: an integer for an integer parameter, otherwise a float. -/
inductive ClopValue (X : ClopText) (p : ClopParam) (s : Str) : Val → Prop
  | int {n : Int} : p.isInteger = true → parseInt s = .ok n → ClopValue X p s (.int n)
  | float {x : Num} : p.isInteger = false → X.readFloat s = some x → ClopValue X p s (.float x)

/-- The values for the parameters: all of them, by name, in the order of the control file. -/
inductive ClopValues (X : ClopText) : List ClopParam → List (Str × Str) → List Val → Prop
  | nil : ClopValues X [] [] []
  | cons {p ps s l v vs} : ClopValue X p s v → ClopValues X ps l vs → ClopValues X (p :: ps) ((p.code, s) :: l) (v :: vs)

/-- How a parameter is shown. -/
inductive ClopShown (T : Fns) : ClopParam × Val → Str → Prop
  | int {p : ClopParam} {n : Int} : ClopShown T (p, .int n) (p.code ++ ' ' :: strInt n)
  | float {p : ClopParam} {x : Num} : ClopShown T (p, .float x) (p.code ++ ' ' :: T.showNum x)

/-- The arguments which follow: names and values. -/
def ArgumentPairs (l : List (Str × Str)) : List Str := l.flatMap (fun x => [x.1, x.2])

/-- The candidate: what `make_candidate` gives for the parameters. Its code is '#' and the seed. -/
def ClopCandidate (W : World) (T : Fns) (base : Option Str) (maker : Val) (seed : Str) (vs : List Val) (p : Gtp.JobPlayer) : Prop :=
  ∃ args kwargs, T.make maker vs = .ok (.quiet "Player".toList args kwargs) ∧ playerFromConfig W base ('#' :: seed) args kwargs = .ok p

/-- What's printed for a result. -/
inductive ClopReply (candidate : Colour) (stopOnError : Bool) (r : Res) : Char → Prop
  | win : r.winningColour = some candidate → ClopReply candidate stopOnError r 'W'
  | loss : r.winningColour = some candidate.opponent → ClopReply candidate stopOnError r 'L'
  | draw : r.winningColour = none → (r.isJigo = true ∨ stopOnError = true) → ClopReply candidate stopOnError r 'D'

/-- An argument which is taken to be an option. -/
def IsOption (a : Str) : Prop := a ≠ "--".toList ∧ ∃ c s, a = '-' :: c :: s

/-- A game was played: the control file's fine, the arguments are a processor, a seed, and names and values, the log can be opened, and the job gave a result. -/
structure ClopPlayed {σ : Type} (V : ClopWorld σ) (fuel : Nat) (control : Str) (arguments : List Str) (r : ClopRingmaster) (job : Gtp.GameJob Unit) (x : Gtp.GameJobResult Unit) : Prop where
  found : V.exist control = true
  ringmaster : newClop V.control V.fns control = .ok r
  log : V.openLog r.paths.log = true
  game : ∃ processor seed l, arguments = processor :: seed :: ArgumentPairs l ∧ r.tuner.game V.control.world V.fns V.text (some r.paths.base) seed l = .ok (some job)
  result : ∃ st, Gtp.runJob V.job (r.prepare job) none fuel = some (.result x, st)

/-- What's logged about the game: who plays, that it has ended, and what the job says. -/
def ClopLog (job : Gtp.GameJob Unit) (x : Gtp.GameJobResult Unit) : List Str :=
  ["starting game ".toList ++ job.gameId ++ ": ".toList ++ (job.player .b).code ++ " (b) vs ".toList ++ (job.player .w).code ++ " (w)".toList,
   "response from game ".toList ++ x.gameId] ++ x.warnings ++ x.logEntries

/-- A parameter's line in the .clop file. -/
inductive ClopLine (X : ClopText) (p : ClopParam) : Str → Prop
  | int {a b : Int} : p.isInteger = true → p.min = .fin a → p.max = .fin b → ClopLine X p (p.type ++ ' ' :: p.code ++ ' ' :: strInt a ++ ' ' :: strInt b)
  | float : p.isInteger = false → ClopLine X p (p.type ++ ' ' :: p.code ++ ' ' :: X.fixed p.min ++ ' ' :: X.fixed p.max)

/-- The processors' lines. If there are none, there's an empty line. -/
def ProcessorLines (n : Int) (l : List Str) : Prop :=
  (0 < n ∧ (l.length : Int) = n ∧ ∀ (i : Nat) (h : i < l.length), l[i] = "Processor par".toList ++ strInt i) ∨ (n ≤ 0 ∧ l = [[]])

/-- The contents of the .clop file. -/
structure ClopFile (T : Fns) (X : ClopText) (script control : Str) (t : ClopTuner) (text : Str) : Prop where
  lines : ∃ dir name params processors elo h, Located control dir name ∧ List.Forall₂ (ClopLine X) t.parameters params ∧ ProcessorLines t.parallel processors ∧
    (∃ q, t.base.rules.komi = .fin q ∧ (elo = "100".toList ∧ ((∃ n : Int, q = n) ∨ t.stopOnError = true) ∨ elo = "0".toList ∧ (∀ n : Int, q ≠ n) ∧ t.stopOnError = false)) ∧
    ((t.clopH = none ∧ h = "3".toList) ∨ ∃ x, t.clopH = some x ∧ h = T.showNum x) ∧
    text = join ['\n'] (["Name ".toList ++ t.base.code, [], "Script ".toList ++ script ++ ' ' :: name ++ " run-game".toList, []] ++ params ++ [[]] ++ processors ++
      [[], "Replications 1".toList, [], "DrawElo ".toList ++ elo, [],
       "H ".toList ++ h, [], "Correlations ".toList ++ t.correlations, [],
       "StopOnError ".toList ++ (if t.stopOnError then "true".toList else "false".toList), [], []])

end Gomill.Conf.Spec
