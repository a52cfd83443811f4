import Mathlib.Data.List.Forall2
import Verif.Model.Allplayall
import Verif.Spec.Playoff
/-
What is meant by an all-play-all's control file, for C76.
-/
namespace Gomill.Conf.Spec
open Py

variable (W : World)

/-- The settings which apply to all the games. -/
structure Rules where
  boardSize : Int
  komi : Num
  moveLimit : Int
  scorer : Str
  compensation : Str
  rounds : Option Int

/-- The value of a setting: the one given in the control file, or else the default. -/
def SettingIs {α : Type} (config : Str → Option Val) (name : String) (P : Val → α → Prop) (default : Option α) (x : α) : Prop :=
  (∃ v, Given W (config name.toList) v ∧ P v x) ∨ (config name.toList = none ∧ default = some x)

/-- The settings which a control file gives. -/
structure RulesOf (config : Str → Option Val) (r : Rules) : Prop where
  boardSize : SettingIs W config "board_size" IsSize none r.boardSize
  komi : SettingIs W config "komi" (IsFloat W) none r.komi
  moveLimit : SettingIs W config "move_limit" (fun v n => IsInt v n ∧ 0 < n) (some 1000) r.moveLimit
  scorer : SettingIs W config "scorer" (OneOf ["internal", "players"]) (some "players".toList) r.scorer
  compensation : SettingIs W config "internal_scorer_handicap_compensation" (OneOf ["no", "full", "short"]) (some "full".toList) r.compensation
  rounds : SettingIs W config "rounds" (OrNone IsInt) (some none) r.rounds

/-- An item in the list of competitors: the code of a player, or `Competitor(...)` with such a code. -/
inductive CompetitorIs (known : List Str) : Val → Str → Prop
  | config {args kwargs v p} : GoodArguments ["player".toList] [] args kwargs → argument ["player".toList] args kwargs "player".toList = some v → IsString v p →
      p ∈ known → CompetitorIs known (.quiet "Competitor".toList args kwargs) p
  | simple {v p} : IsString v p → p ∈ known → CompetitorIs known v p

/-- All pairs of an element of a list and a later one, in order. -/
def allPairs {α : Type} : List α → List (α × α)
  | [] => []
  | x :: l => l.map (fun y => (x, y)) ++ allPairs l

/-- The short names of the competitors: A to Z, then AA to ZZ. -/
def shortNames : List Str :=
  let letters := "ABCDEFGHIJKLMNOPQRSTUVWXYZ".toList
  letters.map (fun a => [a]) ++ letters.flatMap (fun a => letters.map (fun b => [a, b]))

/-- The matchup of two competitors: no handicap, and the players take turns to be Black. -/
def pairMatchup (event : Str) (r : Rules) (c1 c2 : Str × Str) : Matchup where
  id := c1.1 ++ "v".toList ++ c2.1
  player1 := c1.2
  player2 := c2.2
  boardSize := r.boardSize
  komi := r.komi
  handicap := none
  handicapStyle := "fixed".toList
  moveLimit := r.moveLimit
  scorer := r.scorer
  compensation := r.compensation
  alternating := true
  numberOfGames := r.rounds
  name := c1.2 ++ " v ".toList ++ c2.2
  event := event

end Gomill.Conf.Spec
