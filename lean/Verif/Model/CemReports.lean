import Verif.Model.Cem
import Verif.Model.Table
/-
Model of the texts which cem_tuners.py writes: reports and history.

`"%5.2f" % x`, `"%4.2f" % x` and `str(wins)` for a candidate's wins are parameters; so is `format_optimiser_parameters` (303-317; see C84), which may raise an exception.
A report is the list of what's printed (one item for each `print`).
-/
namespace Gomill.Cem
open Py Sched

/-- How a report shows numbers and parameters. -/
structure Show (ε : Type) where
  f52 : Rat → Str
  f42 : Rat → Str
  num : Rat → Str
  params : List Rat → Except ε Str

/-- What can go wrong: a Python exception, or an exception from the formatter. -/
inductive RErr (ε : Type) where
  | py (e : Exc)
  | fmt (e : ε)
  deriving DecidableEq

variable {ε : Type}

/-- cem_tuners.py:56-58 `Distribution.format`. -/
def distFormat (S : Show ε) (d : Dist) : Str := join " ".toList (d.map (fun p => S.f52 p.1 ++ "~".toList ++ S.f42 p.2))

/-- cem_tuners.py:48-54 `get_means`. -/
def means (d : Dist) : List Rat := d.map (·.1)

/-- `self.format_optimiser_parameters(…)`. -/
def showParams (S : Show ε) (ps : List Rat) : Except (RErr ε) Str :=
  match S.params ps with
  | .error e => .error (.fmt e)
  | .ok s => .ok s

/-- cem_tuners.py:474-482 `format_distribution`. -/
def formatDistribution (S : Show ε) (d : Dist) : Except (RErr ε) Str :=
  match showParams S (means d) with
  | .error e => .error e
  | .ok s => .ok (s ++ "\n".toList ++ distFormat S d)

/-- cem_tuners.py:493-499: the line for a candidate, at position `k` of the list.  `%3d` of a float shows its whole part. -/
def candidateLine (S : Show ε) (t : Tuner) (eliteCount : Nat) (k : Nat) (p : Rat × Nat) : Except (RErr ε) Str :=
  match t.sampleParameters[p.2]? with
  | none => .error (.py .indexError)
  | some ps => match showParams S ps with
    | .error e => .error e
    | .ok s => .ok (candidateCode t.generation p.2 ++ (if k < eliteCount then "*".toList else " ".toList) ++ " ".toList ++ s ++ " ".toList ++
        Tab.rjust (strInt (Mcts.truncate p.1)) 3)

/-- cem_tuners.py:491-499: the loop of `format_generation_results`. -/
def resultLines (S : Show ε) (t : Tuner) (eliteCount : Nat) : Nat → List (Rat × Nat) → Except (RErr ε) (List Str)
  | _, [] => .ok []
  | k, p :: l => match candidateLine S t eliteCount k p with
    | .error e => .error e
    | .ok s => match resultLines S t eliteCount (k + 1) l with
      | .error e => .error e
      | .ok r => .ok (s :: r)

/-- cem_tuners.py:484-500 `format_generation_results`. -/
def generationResults (S : Show ε) (t : Tuner) (order : List (Rat × Nat)) (eliteCount : Nat) : Except (RErr ε) Str :=
  match resultLines S t eliteCount 0 order with
  | .error e => .error e
  | .ok l => .ok (join "\n".toList l)

/-- cem_tuners.py:376-385: what `finish_generation` writes in the history. -/
def historyTexts (S : Show ε) (c : Config) (t : Tuner) : Except (RErr ε) (List Str) :=
  match formatDistribution S t.distribution with
  | .error e => .error e
  | .ok d => match generationResults S t (sorter t.wins) (eliteCount c) with
    | .error e => .error e
    | .ok r => .ok ["Generation ".toList ++ strInt t.generation, "Distribution\n".toList ++ d, r, []]

/-- cem_tuners.py:443-457: what `process_game_result` writes in the history (`none`: nothing).  (Exceptions before that are in `processResult`.) -/
def resultHistory (S : Show ε) (c : Config) (j : Job) (r : GameResult) (t : Tuner) : Option (Except (RErr ε) (List Str)) :=
  match t.scheduler.fix j.candidate j.round with
  | .error _ => none
  | .ok g => match t.wins[j.candidate]? with
    | none => none
    | some w =>
      if g.allFixed then some (historyTexts S c { t with scheduler := g, wins := t.wins.set j.candidate (w + gameScore j.code r.winningPlayer) }) else none

/-- `str(l)` for a list. -/
def listText (l : List Str) : Str := "[".toList ++ join ", ".toList l ++ "]".toList

/-- cem_tuners.py:511-520 `write_screen_report`. -/
def screenReport (S : Show ε) (c : Config) (t : Tuner) : Except (RErr ε) (List Str) :=
  match formatDistribution S t.distribution with
  | .error e => .error e
  | .ok d => .ok ["generation ".toList ++ strInt t.generation, [], "wins from current samples:\n".toList ++ listText (t.wins.map S.num), [],
      if t.generation = c.generations then "final distribution:".toList else "distribution for generation ".toList ++ strInt t.generation ++ ":".toList, d]

/-- What's in a report besides the tuner's state: the competition's code and description, `str(board_size)` and `str(komi)`. -/
structure Heading where
  code : Str
  description : Option Str
  boardSize : Str
  komi : Str

/-- cem_tuners.py:502-509 `write_static_description`. -/
def staticDescription (h : Heading) : List Str :=
  let start := ["CEM tuning event: ".toList ++ h.code]
  let start := match h.description with
    | none => start
    | some d => if d = [] then start else start ++ [d]
  start ++ ["board size: ".toList ++ h.boardSize, "komi: ".toList ++ h.komi]

/-- cem_tuners.py:522-526 `write_short_report`, which is also `write_full_report`. -/
def shortReport (S : Show ε) (c : Config) (h : Heading) (t : Tuner) : Except (RErr ε) (List Str) :=
  match screenReport S c t with
  | .error e => .error e
  | .ok l => .ok (staticDescription h ++ l)

/-- cem_tuners.py:411-412: what `get_game` writes in the event log before it looks for a game. -/
def startingEvent (t : Tuner) : List Str :=
  if t.scheduler.nothingIssuedYet then ["\nstarting generation ".toList ++ strInt t.generation] else []

/-- cem_tuners.py:437-440: the note in the game record. -/
def jobNote (S : Show ε) (t : Tuner) (candidate : Nat) : Except (RErr ε) Str :=
  match t.sampleParameters[candidate]? with
  | none => .error (.py .indexError)
  | some ps => match showParams S ps with
    | .error e => .error e
    | .ok s => .ok ("Candidate parameters: ".toList ++ s)

end Gomill.Cem
