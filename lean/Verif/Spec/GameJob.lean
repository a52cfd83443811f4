import Mathlib.Data.List.Forall2
import Verif.Model.GameJob
import Verif.Spec.SgfGame
import Verif.Props.GameRunner
import Verif.Spec.SgfText
/-
What an SGF record of a game between two engines contains.
-/
namespace Gomill.Gtp.Spec
open Py
open Gomill.Sgf

/-- A text which can be written to an SGF file and read back without surprises. -/
structure Tidy (s : Str) : Prop where
  valid : utf8Valid s = true
  noReturn : '\r' ∉ s

/-- The node's comment consists of these texts, separated by blank lines (each with the whitespace normalised as for all SGF text); there's no
comment if there are no texts. -/
def Says (P : Presenter) (texts : List Str) (m : PropMap) : Prop :=
  (texts = [] → lookup m ['C'] = none) ∧
  (texts ≠ [] → ∃ ts, List.Forall₂ (Normalised false) texts ts ∧ nodeGet P m ['C'] = .ok (.str (join "\n\n".toList ts)))

/-- The property is `s` (with the whitespace normalised), or it's absent. -/
def HasText (P : Presenter) (ident : Str) (s : Option Str) (m : PropMap) : Prop :=
  (s = none → lookup m ident = none) ∧ (∀ t, s = some t → ∃ t', nodeGet P m ident = .ok (.str t') ∧ Normalised true t t')

/-- The name of a player: the short description if it's to be used and there is one, and otherwise the player code. -/
def nameOf (fromGtp : Bool) (code : Str) (d : EngineDesc) : Str :=
  if fromGtp then (match d.short with | none => code | some s => if s = [] then code else s) else code

/-- The line about a player: label, code and long description. -/
def lineAbout (label code : Str) (d : EngineDesc) : Str :=
  match d.long with
  | none => label ++ " ".toList ++ code
  | some s => if s = [] then label ++ " ".toList ++ code else label ++ " ".toList ++ code ++ " ".toList ++ s

/-- The line about a CPU time, if it's known. -/
def cpuLine (twoPlaces : Rat → Str) (r : GameResult) (code : Str) : List Str :=
  match r.cpuTimes.lookup code with
  | some (.secs q) => [code ++ " cpu time: ".toList ++ twoPlaces q ++ "s".toList]
  | _ => []

/-- The lines of the root comment: the event, the game id, the date, the result (if there were moves), the note, the CPU times, the players. -/
def rootLines {σ δ : Type} (W : JobWorld σ) (job : GameJob δ) (d : Colour → EngineDesc) (result : Option GameResult) (anyMoves : Bool) : List Str :=
  (match job.sgfEvent with | some e => ["Event: ".toList ++ e] | none => []) ++
  ["Game id ".toList ++ job.gameId] ++ ["Date ".toList ++ W.now] ++
  (match result with | some r => if anyMoves then ["Result ".toList ++ r.describe] else [] | none => []) ++
  (match job.sgfNote with | some s => [s] | none => []) ++
  (match result with | some r => cpuLine W.twoPlaces r (job.player .b).code ++ cpuLine W.twoPlaces r (job.player .w).code | none => []) ++
  [lineAbout "Black".toList (job.player .b).code (d .b)] ++ [lineAbout "White".toList (job.player .w).code (d .w)]

/-- How a score reported by an engine is written in results: upper case, and without ".0". -/
def canonicalScore (s : Str) : Str :=
  if ".0".toList <:+ s.map Char.toUpper then (s.map Char.toUpper).dropLast.dropLast else s.map Char.toUpper

/-- The line for a reported score. -/
def reported (code : Str) (score : Option Str) : Str :=
  match score with
  | some s => "\n".toList ++ code ++ " final_score: ".toList ++ s
  | none => []

/-- One of the two players. -/
def player (b w : Str) : Colour → Str
  | .b => b
  | .w => w

/-- A detail, in brackets. -/
def inBrackets (detail : Option Str) : Str :=
  match detail with
  | some d => " (".toList ++ d ++ ")".toList
  | none => []

/-! ### What a job does -/

/-- The files which are open after these events, if `files` were open before them; none if something happens to a file which isn't open. -/
def openAfter (files : List Str) : List JobEvent → Option (List Str)
  | [] => some files
  | .opened p :: es => openAfter (p :: files) es
  | .closed p :: es => if p ∈ files then openAfter (files.erase p) es else none
  | .wrote p _ :: es => if p ∈ files then openAfter files es else none
  | .madeDir _ :: es => openAfter files es
  | .spawned _ p :: es => if ∀ e, p.stderr = some e → e ∈ files then openAfter files es else none

/-- The file written by an event. -/
def _root_.Gomill.Gtp.JobEvent.text : JobEvent → Option (Str × Str)
  | .wrote p t => some (p, t)
  | _ => none

/-- The files written. -/
def written (es : List JobEvent) : List (Str × Str) := es.filterMap JobEvent.text

/-- The process started by an event. -/
def _root_.Gomill.Gtp.JobEvent.process : JobEvent → Option (Colour × Popen)
  | .spawned c p => some (c, p)
  | _ => none

/-- The processes started. -/
def started (es : List JobEvent) : List (Colour × Popen) := es.filterMap JobEvent.process

/-- The pathname of a file in a directory, if both are given. -/
def inDir (dir file : Option Str) : Option Str :=
  match dir, file with
  | some d, some f => some (pathJoin d f)
  | _, _ => none

/-- The errors put aside for a player. -/
def errorsOf {σ : Type} (st : JobSt σ) (c : Colour) : List Str :=
  match st.ctl c with
  | some x => x.errors
  | none => []

/-- The errors put aside for the players. -/
def lateErrors {σ : Type} (st : JobSt σ) : List Str := errorsOf st .b ++ errorsOf st .w

/-- The engine was started for the player and told about the aliases and startup commands; then this was its controller and description. -/
def EngineUp {σ δ : Type} (W : JobWorld σ) (job : GameJob δ) (workerId : Option Int) (c : Colour) (x : Ctl σ) (d : Option EngineDesc) : Prop :=
  ∃ chan, W.spawn (jobPopen W job workerId c) = .ok chan ∧ setUpPlayer W (job.player c) (Ctl.init chan ("player ".toList ++ (job.player c).code)) = (.ok (), d, x)

/-- The engine couldn't be started, or there was a GTP error before the game. -/
inductive EngineFails {σ δ : Type} (W : JobWorld σ) (job : GameJob δ) (workerId : Option Int) (c : Colour) : Str → Prop
  | spawn {m : Str} : W.spawn (jobPopen W job workerId c) = .error m →
      EngineFails W job workerId c ("error starting subprocess for player ".toList ++ (job.player c).code ++ ":\n".toList ++ m)
  | gtp {chan : σ} {e : Str} {d : Option EngineDesc} {x : Ctl σ} : W.spawn (jobPopen W job workerId c) = .ok chan →
      setUpPlayer W (job.player c) (Ctl.init chan ("player ".toList ++ (job.player c).code)) = (.error (.gtp e), d, x) → EngineFails W job workerId c e

/-- Why a job fails: an engine can't be started, or there's a GTP error before or during the game. -/
inductive Trouble {σ δ : Type} (W : JobWorld σ) (job : GameJob δ) (workerId : Option Int) (fuel : Nat) : Str → Prop
  | black {e : Str} : EngineFails W job workerId .b e → Trouble W job workerId fuel e
  | white {e : Str} {b : Ctl σ} {d : Option EngineDesc} : EngineUp W job workerId .b b d → EngineFails W job workerId .w e → Trouble W job workerId fuel e
  | game {e : Str} {b w : Ctl σ} {d d' : Option EngineDesc} {g : GtpGame σ Unit} : EngineUp W job workerId .b b d → EngineUp W job workerId .w w d' →
      playGame W job fuel (startedGame W job b w) = some (.error (.gtp e), g) → Trouble W job workerId fuel e

/-- The CPU time of an engine: what it said, or else, unless it gave an error (`failed`), what the process `used`. -/
def cpuTimeOf (given : CpuTime) (failed : Bool) (used : Option Rat) : CpuTime :=
  match given with
  | .secs q => .secs q
  | _ => if failed then .none else match used with | some q => .secs q | none => .none

/-- An environment variable: what the last entry of `changes` for it says, or else what it was. -/
def changed (old : Str → Option Str) (changes : List (Str × Str)) (k : Str) : Option Str :=
  match changes.reverse.find? (fun kv => kv.1 = k) with
  | some kv => some kv.2
  | none => old k

/-- The settings of a game are those of the job: size and komi; a colour may claim a win exactly if its player's allow_claim is set; the scorers, unless the internal scorer is used, are
the players marked as reliable, Black first. -/
structure JobSettings {σ δ : Type} (W : JobWorld σ) (job : GameJob δ) (cfg : GtpCfg Unit) : Prop where
  boardSize : cfg.boardSize = job.boardSize
  komi : cfg.komi = job.komi
  komiText : cfg.komiText = W.strFloat job.komi
  claims : ∀ c, cfg.claimAllowed c = true ↔ (job.player c).allowClaim = true
  internal : cfg.internal = job.useInternalScorer
  scorers : cfg.scorers.Sublist [.b, .w] ∧ ∀ c, c ∈ cfg.scorers ↔ job.useInternalScorer = false ∧ (job.player c).isReliableScorer = true
  compensation : cfg.comp = job.comp
  noCallback : ∀ c m b, cfg.callback c m b () = (.ok (), ())

/-- The game as played for a job, from the game `g`, as far as the end (the outcome `r`, and the game then): it's prepared; set_handicap is called if there is a
handicap, other than 0, and it must be possible; then the game is run. -/
inductive GameSteps {σ δ : Type} (W : JobWorld σ) (job : GameJob δ) (cfg : GtpCfg Unit) (fuel : Nat) (g : GtpGame σ Unit) : Except Stop Unit → GtpGame σ Unit → Prop
  | notPrepared {e : GExc} {g1 : GtpGame σ Unit} : g.prepare (fun _ => W.channel) cfg = (.error e, g1) → GameSteps W job cfg fuel g (.error (e.toStop W.excText)) g1
  | impossible {k : Int} {g1 g2 : GtpGame σ Unit} : g.prepare (fun _ => W.channel) cfg = (.ok (), g1) → job.handicap = some k → k ≠ 0 →
      ¬ HandicapOK job.boardSize k job.handicapIsFree → g2.runner.moves = [] → g2.runner.env.gc = g1.runner.env.gc →
      GameSteps W job cfg fuel g (.error (.gtp "invalid handicap".toList)) g2
  | notSetUp {k : Int} {e : GExc} {s : Stop} {g1 g2 : GtpGame σ Unit} : g.prepare (fun _ => W.channel) cfg = (.ok (), g1) → job.handicap = some k → k ≠ 0 →
      HandicapOK job.boardSize k job.handicapIsFree → g1.setHandicap (fun _ => W.channel) cfg k job.handicapIsFree = (.error e, g2) →
      (e = .py .valueError ∧ s = .gtp "invalid handicap".toList ∨ e ≠ .py .valueError ∧ s = e.toStop W.excText) → GameSteps W job cfg fuel g (.error s) g2
  | handicap {k : Int} {r : Except GExc Unit} {gm : Option Game} {g1 g2 g3 : GtpGame σ Unit} : g.prepare (fun _ => W.channel) cfg = (.ok (), g1) → job.handicap = some k → k ≠ 0 →
      HandicapOK job.boardSize k job.handicapIsFree → g1.setHandicap (fun _ => W.channel) cfg k job.handicapIsFree = (.ok (), g2) →
      g2.run (fun _ => W.channel) cfg W.strFloat fuel = some (r, g3, gm) → GameSteps W job cfg fuel g (r.mapError (fun e => e.toStop W.excText)) g3
  | even {r : Except GExc Unit} {gm : Option Game} {g1 g2 : GtpGame σ Unit} : g.prepare (fun _ => W.channel) cfg = (.ok (), g1) → (job.handicap = none ∨ job.handicap = some 0) →
      g1.run (fun _ => W.channel) cfg W.strFloat fuel = some (r, g2, gm) → GameSteps W job cfg fuel g (r.mapError (fun e => e.toStop W.excText)) g2

end Gomill.Gtp.Spec
