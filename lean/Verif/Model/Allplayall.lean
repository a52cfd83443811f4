import Verif.Model.Playoff
/-
Model of allplayalls.py:14-178: from the values in a control file to competitors, matchups and Player_checks.
-/
namespace Gomill.Conf
open Py

/-- allplayalls.py:92-97: the game settings except for handicaps, and `rounds`. -/
def roundSettings (W : World) : List Setting :=
  (gameSettings W).filter (fun s => !decide (s.name ∈ ["handicap".toList, "handicap_style".toList])) ++ [
  { name := "rounds".toList, interpreter := sv (allowNone interpretInt) (optVal .int), default := some .none } ]

/-- allplayalls.py:102-103: `alternating`, and `rounds` becomes `number_of_games`. (KeyError if there is no `rounds`.) -/
def roundParameters (d : List (Str × SVal)) : Except Err (List (Str × SVal)) :=
  match d.lookup "rounds".toList with
  | none => .error ⟨.key, "rounds".toList⟩
  | some x => .ok (put ((put d "alternating".toList (.bool true)).filter (fun e => e.1 ≠ "rounds".toList)) "number_of_games".toList x)

/-- allplayalls.py:49-53 `special_settings`. -/
def competitorsSetting (W : World) : Setting :=
  { name := "competitors".toList, interpreter := sv (interpretConfigs W "Competitor".toList true) .vals }

/-- allplayalls.py:55-83 `competitor_spec_from_config`: the short code and the player code. (If the value can't be a dict's key, the text of the exception is a
different one.) -/
def competitorFromConfig (players : List Str) (i : Nat) (args : List Val) (kwargs : List (Str × Val)) : Except Err (Str × Str) :=
  match resolveArguments ["player".toList] [] args kwargs with
  | .error e => .error e
  | .ok arguments => match arguments.lookup "player".toList with
    | none => .error (.value "player not specified")
    | some v => match playerCode players v with
      | none => .error ⟨.controlFile, "unknown player".toList⟩
      | some p => match Tourn.shortCode i with
        | .error _ => .error (.value "too many competitors")
        | .ok c => .ok (c, p)

/-- allplayalls.py:119-121 and settings.py:422-435: what to call a competitor in a message. -/
def competitorKey (W : World) (i : Nat) (args : List Val) (kwargs : List (Str × Val)) : Except Err Str :=
  match args with
  | .none :: _ => .ok (strInt i)
  | v :: _ => showOf W v
  | [] => match kwargs.lookup "player".toList with
    | none => .ok (strInt i)
    | some .none => .ok (strInt i)
    | some v => showOf W v

/-- allplayalls.py:115-127: the loop over the competitors. -/
def competitorsLoop (W : World) (players : List Str) : Nat → List (Str × Str) → List Val → Except Err (List (Str × Str))
  | _, cs, [] => .ok cs
  | i, cs, .quiet _ args kwargs :: l => match competitorFromConfig players i args kwargs with
    | .error e => match competitorKey W i args kwargs with
      | .error e' => .error e'
      | .ok k => .error ⟨.controlFile, "competitor ".toList ++ k ++ ": ".toList ++ e.msg⟩
    | .ok c =>
      if c.2 ∈ cs.map Prod.snd then .error ⟨.controlFile, "duplicate competitor: ".toList ++ c.2⟩
      else competitorsLoop W players (i + 1) (cs ++ [c]) l
  | _, _, _ :: _ => .error noneErr

/-- allplayalls.py:134-144: the matchups of one competitor with those which follow. -/
def matchupsWith (W : World) (event : Str) (parameters : List (Str × SVal)) (c1 : Str × Str) : List (Str × Str) → Except Err (List Matchup)
  | [] => .ok []
  | c2 :: cs => match makeMatchup W event (Tourn.pairId c1.1 c2.1) c1.2 c2.2 parameters none with
    | .error e => .error ⟨.controlFile, c1.2 ++ " v ".toList ++ c2.2 ++ ": ".toList ++ e.msg⟩
    | .ok m => match matchupsWith W event parameters c1 cs with
      | .error e => .error e
      | .ok ms => .ok (m :: ms)

/-- allplayalls.py:133-144: all the matchups. -/
def allMatchups (W : World) (event : Str) (parameters : List (Str × SVal)) : List (Str × Str) → Except Err (List Matchup)
  | [] => .ok []
  | c :: cs => match matchupsWith W event parameters c cs with
    | .error e => .error e
    | .ok ms => match allMatchups W event parameters cs with
      | .error e => .error e
      | .ok r => .ok (ms ++ r)

/-- An Allplayall after `initialise_from_control_file`: the attributes of a Tournament, and the competitors: short code and player code. -/
structure Allplayall where
  base : Playoff
  competitors : List (Str × Str)

/-- allplayalls.py:89-144 `initialise_from_control_file`. -/
def initAllplayall (W : World) (base : Option Str) (code : Str) (config : List (Str × Val)) : Except Err Allplayall := do
  let (description, players) ← initCompetition W base config
  let loaded ← toControl (loadSettings W config true false (roundSettings W) [])
  let parameters ← roundParameters loaded
  let specials ← toControl (loadSettings W config true false [competitorsSetting W] [])
  let configs ← valsOf specials "competitors"
  if configs.isEmpty then .error ⟨.controlFile, "competitors: empty list".toList⟩
  let competitors ← competitorsLoop W (players.map Prod.fst) 0 [] configs
  let matchups ← allMatchups W code parameters competitors
  return { base := { code, description, players, matchups }, competitors }

/-- The part of the competition in Model/Tournament. -/
def Allplayall.comp (a : Allplayall) : Tourn.Comp := ⟨a.base.matchups.map Matchup.core, some (a.competitors.map Prod.snd)⟩

/-- allplayalls.py:169-178 `get_player_checks`; IndexError (`none`) if there are no matchups. -/
def Allplayall.playerChecks (a : Allplayall) : Option (List Check) :=
  match a.base.matchups with
  | [] => none
  | m :: _ => some (a.competitors.map (fun c => ⟨c.2, m.boardSize, m.komi⟩))

end Gomill.Conf
