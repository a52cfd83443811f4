import Verif.Spec.Settings
/-
What is meant by a matchup in a playoff's control file, for C75.
-/
namespace Gomill.Conf.Spec
open Py

variable (W : World)

/-- The value given is `v`. -/
def Given (given : Option Val) (v : Val) : Prop := ∃ u, given = some u ∧ Stands W u v

/-- The value of a setting for a matchup: given in the matchup, or else given in the control file, or else the default. `P v x`: the value `v` is
acceptable, and means `x`. -/
def ValueOf {α : Type} (own config : Str → Option Val) (name : String) (P : Val → α → Prop) (default : Option α) (x : α) : Prop :=
  (∃ v, Given W (own name.toList) v ∧ P v x) ∨
  (own name.toList = none ∧ ((∃ v, Given W (config name.toList) v ∧ P v x) ∨ (config name.toList = none ∧ default = some x)))

/-- Something, or None. -/
def OrNone {α : Type} (P : Val → α → Prop) (v : Val) (x : Option α) : Prop := (v = .none ∧ x = none) ∨ (v ≠ .none ∧ ∃ y, P v y ∧ x = some y)

/-- A string, 8-bit or unicode. -/
def IsString (v : Val) (s : Str) : Prop := v = .str s ∨ v = .unicode s

/-- One of several strings. -/
def OneOf (l : List String) (v : Val) (s : Str) : Prop := s ∈ l.map String.toList ∧ IsString v s

/-- A board size. -/
def IsSize (v : Val) (n : Int) : Prop := IsInt v n ∧ 2 ≤ n ∧ n ≤ 25

/-- A float, or something which can be converted to a float. -/
def IsFloat (v : Val) (x : Num) : Prop := v = .float x ∨ ∃ n, IsWhole v n ∧ W.floatOf n = some x

/-- How many fixed handicap stones there can be. -/
def maxFixedStones (size : Int) : Int := if size ≤ 7 then 0 else if size % 2 = 0 then 4 else 9

/-- The handicaps which are possible: none, or at least two stones, at most as many as there are fixed handicap points or, for free handicap, not so many that the
board is full. -/
def HandicapAllowed (handicap : Option Int) (style : Str) (size : Int) : Prop :=
  ∀ k, handicap = some k → 2 ≤ k ∧ if style = "fixed".toList then k ≤ maxFixedStones size else k < size * size

/-- The matchup described by `Matchup(...)`, as number `i` in the list.  `own` is the arguments, `config` the control file, `known` the players which exist. -/
structure MatchupOf (event : Str) (known : List Str) (i : Nat) (own config : Str → Option Val) (m : Matchup) : Prop where
  id : (own "id".toList = none ∧ m.id = strInt i) ∨ ∃ v, own "id".toList = some v ∧ Text v m.id ∧ Ident m.id
  players : ∃ v1 v2 p2, own "player_1".toList = some v1 ∧ own "player_2".toList = some v2 ∧ IsString v1 m.player1 ∧ IsString v2 p2 ∧
    m.player1 ∈ known ∧ p2 ∈ known ∧ m.player2 = if m.player1 = p2 then p2 ++ "#2".toList else p2
  boardSize : ValueOf W own config "board_size" IsSize none m.boardSize
  komi : ValueOf W own config "komi" (IsFloat W) none m.komi
  handicap : ValueOf W own config "handicap" (OrNone IsInt) (some none) m.handicap
  handicapStyle : ValueOf W own config "handicap_style" (OneOf ["fixed", "free"]) (some "fixed".toList) m.handicapStyle
  moveLimit : ValueOf W own config "move_limit" (fun v n => IsInt v n ∧ 0 < n) (some 1000) m.moveLimit
  scorer : ValueOf W own config "scorer" (OneOf ["internal", "players"]) (some "players".toList) m.scorer
  compensation : ValueOf W own config "internal_scorer_handicap_compensation" (OneOf ["no", "full", "short"]) (some "full".toList) m.compensation
  alternating : ValueOf W own config "alternating" (fun v b => v = .bool b) (some false) m.alternating
  numberOfGames : ValueOf W own config "number_of_games" (OrNone IsInt) (some none) m.numberOfGames
  allowed : HandicapAllowed m.handicap m.handicapStyle m.boardSize
  name : ((own "name".toList = none ∨ own "name".toList = some .none) ∧ m.name = m.player1 ++ " v ".toList ++ m.player2 ∧ m.event = event) ∨
    ∃ v, v ≠ .none ∧ own "name".toList = some v ∧ Utf8Text v m.name ∧ m.event = event ++ " (".toList ++ m.name ++ ")".toList

/-- A setting isn't in the control file, or has an acceptable value there. -/
def AcceptableIf {α : Type} (config : Str → Option Val) (name : String) (P : Val → α → Prop) : Prop :=
  config name.toList = none ∨ ∃ v x, Given W (config name.toList) v ∧ P v x

/-- The values in the control file for the settings which can also be given for a matchup are acceptable. -/
structure GlobalsOK (config : Str → Option Val) : Prop where
  boardSize : AcceptableIf W config "board_size" IsSize
  komi : AcceptableIf W config "komi" (IsFloat W)
  handicap : AcceptableIf W config "handicap" (OrNone IsInt)
  handicapStyle : AcceptableIf W config "handicap_style" (OneOf ["fixed", "free"])
  moveLimit : AcceptableIf W config "move_limit" (fun v n => IsInt v n ∧ 0 < n)
  scorer : AcceptableIf W config "scorer" (OneOf ["internal", "players"])
  compensation : AcceptableIf W config "internal_scorer_handicap_compensation" (OneOf ["no", "full", "short"])
  alternating : AcceptableIf W config "alternating" (fun v b => v = .bool b)
  numberOfGames : AcceptableIf W config "number_of_games" (OrNone IsInt)

/-- The list `matchups` in a control file describes these matchups. `known` is the players which exist, including the clones made for earlier matchups; `ids` is the matchup
ids already used. -/
inductive Makes (event : Str) (config : Str → Option Val) (positional keywords : List Str) : Nat → List Str → List Str → List Val → List Matchup → Prop
  | nil {i known ids} : Makes event config positional keywords i known ids [] []
  | cons {i known ids args kwargs cs m ms} :
      GoodArguments positional keywords args kwargs → MatchupOf W event known i (argument positional args kwargs) config m → m.id ∉ ids →
      Makes event config positional keywords (i + 1) (known ++ [m.player2]) (ids ++ [m.id]) cs ms →
      Makes event config positional keywords i known ids (.quiet "Matchup".toList args kwargs :: cs) (m :: ms)

/-- The players are those in the control file, and copies of players, with `#2` added to their codes. -/
structure WithClones (original players : List (Str × Gtp.JobPlayer)) : Prop where
  keeps : ∀ code p, original.lookup code = some p → players.lookup code = some p
  others : ∀ code p, players.lookup code = some p → original.lookup code = none →
    ∃ c q, code = c ++ "#2".toList ∧ players.lookup c = some q ∧ p = { q with code := code }

/-- A Player_check is made for each player in a matchup for which games are to be played, with the board size and komi of the first of those matchups. -/
def CheckFor (ms : List Matchup) (c : Check) : Prop :=
  ∃ pre m post, ms = pre ++ m :: post ∧ m.numberOfGames ≠ some 0 ∧ (c.player = m.player1 ∨ c.player = m.player2) ∧ c.boardSize = m.boardSize ∧ c.komi = m.komi ∧
    ∀ m' ∈ pre, m'.numberOfGames ≠ some 0 → c.player ≠ m'.player1 ∧ c.player ≠ m'.player2

end Gomill.Conf.Spec
