import Verif.Model.Mcts
import Verif.Model.Table
/-
Model of the texts which mcts_tuners.py writes: reports, history and results.

`"%.3f" % x` is a parameter (`f3`).  The function which formats parameters (`parameter_formatter`, line 638) is a parameter which may raise an exception.
A report is the list of its lines (what's printed, one item for each `print`).
-/
namespace Gomill.Mcts
open Py

/-- What can go wrong: a Python exception, or an exception from the formatter. -/
inductive RErr (ε : Type) where
  | py (e : Exc)
  | fmt (e : ε)
  deriving DecidableEq

/-- How a report shows numbers and parameters: `"%.3f" % x` and `Tree.format_parameters`. -/
structure Show (ε : Type) where
  f3 : Rat → Str
  params : List Rat → Except ε Str

/-- `str(t)` for a tuple of ints (line 208 takes away the spaces). -/
def tupleStr (l : List Nat) : Str :=
  match l with
  | [x] => '(' :: strInt x ++ ",)".toList
  | l => '(' :: join ", ".toList (l.map (fun (x : Nat) => strInt x)) ++ ")".toList

/-- mcts_tuners.py:206-208 `describe_choice`. -/
def describeChoice {ε : Type} (splits : List Nat) (i : Nat) : Except (RErr ε) Str :=
  match (cubeCoordinates splits)[i]? with
  | none => .error (.py .indexError)
  | some c => .ok ((tupleStr c).filter (fun ch => ch ≠ ' '))

/-- `map(self.describe_choice, choice_path)` -/
def describeChoices {ε : Type} (splits : List Nat) : List Nat → Except (RErr ε) (List Str)
  | [] => .ok []
  | i :: p => match describeChoice splits i with
    | .error e => .error e
    | .ok s => match describeChoices splits p with
      | .error e => .error e
      | .ok l => .ok (s :: l)

/-- `self.format_parameters(self.parameters_for_path(choice_path))` (mcts_tuners.py:218-219, 259-260, 348-354 and 381) -/
def formatPath {ε : Type} (S : Show ε) (splits : List Nat) (p : List Nat) : Except (RErr ε) Str :=
  match parametersForPath splits p with
  | .error e => .error (.py e)
  | .ok ps => match S.params ps with
    | .error e => .error (.fmt e)
    | .ok s => .ok s

/-- `node.value` (mcts_tuners.py:36, 127, 155) -/
def Node.value (n : Node) : Rat := (n.wins : Rat) / n.visits

/-- `"%3d" % (node.visits - self.initial_visits)` -/
def visitsText (c : Config) (n : Node) : Str := Tab.rjust (strInt ((n.visits : Int) - c.initialVisits)) 3

/-- mcts_tuners.py:217-223: `describe_node` in `Tree.describe` (path is never empty). -/
def describeNode {ε : Type} (S : Show ε) (c : Config) (n : Node) (path : List Nat) : Except (RErr ε) Str :=
  match formatPath S c.splits path with
  | .error e => .error e
  | .ok ps => match describeChoice c.splits (path.getLast?.getD 0) with
    | .error e => .error e
    | .ok s => .ok (s ++ " ".toList ++ ps ++ " ".toList ++ S.f3 n.value ++ " ".toList ++ visitsText c n)

/-- mcts_tuners.py:258-264: `describe_node` in `Tree.summarise`. -/
def summariseNode {ε : Type} (S : Show ε) (c : Config) (path : List Nat) (n : Node) : Except (RErr ε) Str :=
  match formatPath S c.splits path with
  | .error e => .error e
  | .ok ps => match describeChoices c.splits path with
    | .error e => .error e
    | .ok ss => .ok (join " ".toList ss ++ " ".toList ++ Tab.ljust ps 40 ++ " ".toList ++ S.f3 n.value ++ " ".toList ++ visitsText c n)

/-- `[f(x) for x in l]`, where the function may raise an exception. -/
def eachLine {ε α : Type} (f : α → Except (RErr ε) Str) : List α → Except (RErr ε) (List Str)
  | [] => .ok []
  | x :: l => match f x with
    | .error e => .error e
    | .ok s => match eachLine f l with
      | .error e => .error e
      | .ok r => .ok (s :: r)

/-- A node's children with their paths (mcts_tuners.py:276-279). -/
def childPaths (x : List Nat × Node) : List (List Nat × Node) :=
  match x.2.children with
  | none => []
  | some cs => cs.zipIdx.map (fun c => (x.1 ++ [c.2], c.1))

/-- mcts_tuners.py:274-279: the next generation. -/
def nextGeneration (l : List (List Nat × Node)) : List (List Nat × Node) := (l.map childPaths).flatten

/-- Put an item in a sorted list, before those which aren't before it. -/
def insertBy {α : Type} (le : α → α → Bool) (x : α) : List α → List α
  | [] => [x]
  | y :: l => if le x y then x :: y :: l else y :: insertBy le x l

/-- A stable sort. -/
def sortBy {α : Type} (le : α → α → Bool) (l : List α) : List α := l.foldr (insertBy le) []

/-- `a <= b` for lists of ints. -/
def pathLe : List Nat → List Nat → Bool
  | [], _ => true
  | _ :: _, [] => false
  | a :: p, b :: q => if a = b then pathLe p q else decide (a < b)

/-- `nlargest(n, l, key=most_visits)`: the first `n` items, sorted by decreasing key, keeping the order of equal ones. (None, if `n` is negative.) -/
def nlargest (n : Int) (l : List (List Nat × Node)) : List (List Nat × Node) :=
  (sortBy (fun a b => decide (b.2.visits ≤ a.2.visits)) l).take n.toNat

/-- mcts_tuners.py:269-285: the loop of `summarise`. All the paths in a generation are different, so `sorted` looks only at the paths. -/
def summariseLoop {ε : Type} (S : Show ε) (c : Config) : Nat → List (List Nat × Node) → List Int → Except (RErr ε) (List Str)
  | _, _, [] => .ok []
  | depth, last, n :: spec =>
    let this := nextGeneration last
    match eachLine (fun x : List Nat × Node => summariseNode S c x.1 x.2) (sortBy (fun a b => pathLe a.1 b.1) (nlargest n this)) with
    | .error e => .error e
    | .ok lines => match summariseLoop S c (depth + 1) this spec with
      | .error e => .error e
      | .ok rest => .ok (("most visited at depth ".toList ++ strInt depth) :: lines ++ [[]] ++ rest)

/-- mcts_tuners.py:245-285 `summarise`. -/
def summarise {ε : Type} (S : Show ε) (c : Config) (root : Node) (spec : List Int) : Except (RErr ε) (List Str) :=
  summariseLoop S c 1 [([], root)] spec

/-- mcts_tuners.py:383-384: `candidate_won` in a description. -/
def wonText : Option Bool → Str
  | none => []
  | some true => " won".toList
  | some false => " lost".toList

/-- mcts_tuners.py:374-385 `Simulation.describe`. `won` is `candidate_won`. -/
def describeSimulation {ε : Type} (S : Show ε) (c : Config) (path : List Nat) (won : Option Bool) : Except (RErr ε) Str :=
  match formatPath S c.splits path with
  | .error e => .error e
  | .ok ps => match describeChoices c.splits path with
    | .error e => .error e
    | .ok ss => .ok (ps ++ " [".toList ++ join " ".toList ss ++ "]".toList ++
        wonText won)

/-- mcts_tuners.py:829-835: the number of games. -/
def gamesLine (played : Int) (numberOfGames : Option Int) : Str :=
  match numberOfGames with
  | none => strInt played ++ " games played".toList
  | some k => strInt played ++ "/".toList ++ strInt k ++ " games played".toList

/-- mcts_tuners.py:829-840 `_write_main_report`. -/
def mainReport {ε : Type} (S : Show ε) (c : Config) (numberOfGames : Option Int) (spec : List Int) (t : Tuner) : Except (RErr ε) (List Str) :=
  match describeSimulation S c (bestPath t.root) none with
  | .error e => .error e
  | .ok best => match summarise S c t.root spec with
    | .error e => .error e
    | .ok summary => .ok ([gamesLine t.scheduler.fixed numberOfGames, [], "Best parameters: ".toList ++ best, []] ++ summary)

/-- `l[:k]` -/
def sliceTo {α : Type} (k : Int) (l : List α) : List α := if 0 ≤ k then l.take k.toNat else l.take (l.length - k.natAbs)

/-- mcts_tuners.py:849. -/
def gameLine {ε : Type} (S : Show ε) (c : Config) (x : Nat × List Nat) : Except (RErr ε) Str :=
  match describeSimulation S c x.2 none with
  | .error e => .error e
  | .ok s => .ok ("game ".toList ++ strInt x.1 ++ ": ".toList ++ s)

/-- mcts_tuners.py:842-849 `write_screen_report`. `toShow` is `number_of_running_simulations_to_show`. (The numbers of the simulations are all different, so `sorted`
looks only at the numbers.) -/
def screenReport {ε : Type} (S : Show ε) (c : Config) (numberOfGames : Option Int) (spec : List Int) (toShow : Int) (t : Tuner) : Except (RErr ε) (List Str) :=
  match mainReport S c numberOfGames spec t with
  | .error e => .error e
  | .ok main =>
    if t.outstanding = [] then .ok main else
    match eachLine (gameLine S c) (sliceTo toShow (sortBy (fun a b => decide (a.1 ≤ b.1)) t.outstanding)) with
    | .error e => .error e
    | .ok lines => .ok (main ++ "In progress:".toList :: lines)

/-- What's in a report besides the tuner's state: the competition's code and description, `str(board_size)`, `str(komi)`, the opponent's code and its description (which is `none` before
the first result). -/
structure Heading where
  code : Str
  description : Option Str
  boardSize : Str
  komi : Str
  opponent : Str
  opponentDescription : Option Str

/-- `if s: print s` -/
def optionalLine (s : Option Str) : List Str :=
  match s with
  | none => []
  | some s => if s = [] then [] else [s]

/-- mcts_tuners.py:854-858. -/
def opponentLine (h : Heading) : Str :=
  match optionalLine h.opponentDescription with
  | [] => "opponent: ".toList ++ h.opponent
  | d :: _ => "opponent (".toList ++ h.opponent ++ "): ".toList ++ d

/-- mcts_tuners.py:851-861 `write_short_report`, which is also `write_full_report`; with 820-827 `write_static_description`. -/
def shortReport {ε : Type} (S : Show ε) (c : Config) (numberOfGames : Option Int) (spec : List Int) (h : Heading) (t : Tuner) : Except (RErr ε) (List Str) :=
  match mainReport S c numberOfGames spec t with
  | .error e => .error e
  | .ok main => .ok ((("MCTS tuning event: ".toList ++ h.code) :: optionalLine h.description ++ ["board size: ".toList ++ h.boardSize, "komi: ".toList ++ h.komi]) ++
      main ++ [opponentLine h, []])

/-- mcts_tuners.py:242. -/
def belowLine {ε : Type} (S : Show ε) (c : Config) (i : Nat) (x : Node × Nat) : Except (RErr ε) Str :=
  match describeNode S c x.1 [i, x.2] with
  | .error e => .error e
  | .ok s => .ok ("    ".toList ++ s)

/-- mcts_tuners.py:241-242: the lines for the children of a child of the root. -/
def describeChildren {ε : Type} (S : Show ε) (c : Config) (i : Nat) (n : Node) : Except (RErr ε) (List Str) :=
  match n.children with
  | none => .ok []
  | some cs => eachLine (belowLine S c i) cs.zipIdx

/-- mcts_tuners.py:237-242. -/
def describeLoop {ε : Type} (S : Show ε) (c : Config) : List (Node × Nat) → Except (RErr ε) (List Str)
  | [] => .ok []
  | (n, i) :: l => match describeNode S c n [i] with
    | .error e => .error e
    | .ok s => match describeChildren S c i n with
      | .error e => .error e
      | .ok below => match describeLoop S c l with
        | .error e => .error e
        | .ok rest => .ok (("  ".toList ++ s) :: below ++ rest)

/-- mcts_tuners.py:226-235: the root's win rate. -/
def rateText (f3 : Rat → Str) (wins visits : Int) : Str :=
  "Win rate ".toList ++ strInt wins ++ "/".toList ++ strInt visits ++ " = ".toList ++ (if visits = 0 then "--".toList else f3 ((wins : Rat) / visits))

/-- mcts_tuners.py:210-243 `Tree.describe`, as lines. `node_count` is the number of nodes in the tree (`C86_node_count`). -/
def describeTree {ε : Type} (S : Show ε) (c : Config) (root : Node) : Except (RErr ε) (List Str) :=
  match describeLoop S c ((root.children.getD []).zipIdx) with
  | .error e => .error e
  | .ok lines => .ok ((strInt root.size ++ " nodes".toList) :: rateText S.f3 ((root.wins : Int) - c.initialWins) ((root.visits : Int) - c.initialVisits) :: lines)

/-- mcts_tuners.py:798-803: the end of `process_game_result`, when the statistics have been updated: what's written in the history, and the text that's returned. `period` is
`log_tree_to_history_period` (which is positive). -/
def resultTexts {ε : Type} (S : Show ε) (c : Config) (period : Option Nat) (t : Tuner) (path : List Nat) (won : Bool) (sgfResult : Str) : Except (RErr ε) (List Str × Str) :=
  match describeSimulation S c path (some won) with
  | .error e => .error e
  | .ok s => match (if (period.map (fun k => t.scheduler.fixed % (k : Int))) = some 0 then some (describeTree S c t.root) else none) with
    | some (.error e) => .error e
    | some (.ok lines) => .ok ([s, join ['\n'] lines], s ++ " ".toList ++ sgfResult)
    | none => .ok ([s], s ++ " ".toList ++ sgfResult)

/-- mcts_tuners.py:120-129, 145-158 and 331-346: how `node_count` changes in `run`. -/
def runNodeCount (c : Config) (starts : Nat → Nat) (root : Node) (count : Nat) : Nat :=
  let path := root.walk (fun depth => c.choose (starts depth)) 0
  match root.get path with
  | none => count
  | some node => if path.length < c.maxDepth ∧ c.isRipe node then count + branchingFactor c.splits else count

end Gomill.Mcts
