import Verif.Spec.Mcts
import Mathlib.Data.List.Forall2
import Verif.Model.MctsReports
/-
What the MCTS tuner's reports say, for C86: in terms of the simulations which were completed.
-/
namespace Gomill.MctsSpec
open Py Mcts

/-- The parameters at the middle of the cell for a path. -/
def CentreOf (splits : List Nat) (p : List Nat) (ps : List Rat) : Prop := ∀ x, InCell splits p x ↔ Around p.length splits ps x

/-- The coordinates which a path goes through, in each node. -/
def CoordsOf (splits : List Nat) (p : List Nat) (coords : List (List Nat)) : Prop :=
  List.Forall₂ (fun i c => IsCoord splits c ∧ childIndex splits c = i) p coords

/-- Coordinates as shown: like `(0,2,1)`, or `(3,)`. -/
def coordText (c : List Nat) : Str :=
  "(".toList ++ join ",".toList (c.map (fun (x : Nat) => strInt x)) ++ (if c.length = 1 then ",".toList else []) ++ ")".toList

/-- The coordinates of a path, as shown. -/
def pathText (coords : List (List Nat)) : Str := join " ".toList (coords.map coordText)

/-- The candidate's share of the points at a node, with those it has at the start: `wins / visits`. -/
def rate (c : Config) (p : List Nat) (sims : List (List Nat × Bool)) : Rat :=
  ((c.initialWins + wonThrough p sims : Nat) : Rat) / (c.initialVisits + through p sims : Nat)

/-- A line of the summary, about the node at the end of a path. -/
def SummaryLine {ε : Type} (S : Show ε) (c : Config) (sims : List (List Nat × Bool)) (p : List Nat) (line : Str) : Prop :=
  ∃ ps s coords, CentreOf c.splits p ps ∧ S.params ps = .ok s ∧ CoordsOf c.splits p coords ∧
    line = pathText coords ++ " ".toList ++ Tab.ljust s 40 ++ " ".toList ++ S.f3 (rate c p sims) ++ " ".toList ++ Tab.rjust (strInt (through p sims)) 3

/-- The section of the summary for the nodes at a depth: it shows the `n` nodes with most simulations through them (of nodes with equally many, the first ones), in order. `IsNode` says
which nodes there are. -/
def SummarySection {ε : Type} (S : Show ε) (c : Config) (sims : List (List Nat × Bool)) (IsNode : List Nat → Prop) (depth : Nat) (n : Int) (lines : List Str) : Prop :=
  ∃ (paths : List (List Nat)) (shown : List Str),
    paths.Pairwise (List.Lex (· < ·)) ∧ (∀ p ∈ paths, IsNode p ∧ p.length = depth) ∧
    paths.length ≤ n.toNat ∧ (paths.length < n.toNat → ∀ q, IsNode q → q.length = depth → q ∈ paths) ∧
    (∀ p ∈ paths, ∀ q, IsNode q → q.length = depth → q ∉ paths → through q sims < through p sims ∨ (through q sims = through p sims ∧ List.Lex (· < ·) p q)) ∧
    List.Forall₂ (SummaryLine S c sims) paths shown ∧
    lines = ("most visited at depth ".toList ++ strInt depth) :: shown ++ [[]]

/-- The best path: from the root to a leaf, always to the child with most wins (the first, of children with equally many). -/
structure BestPath (c : Config) (sims : List (List Nat × Bool)) (IsNode : List Nat → Prop) (p : List Nat) : Prop where
  node : IsNode p
  leaf : ∀ i, ¬ IsNode (p ++ [i])
  best : ∀ q i, q ++ [i] <+: p → ∀ j, j < product c.splits → wonThrough (q ++ [j]) sims ≤ wonThrough (q ++ [i]) sims ∧
    (j < i → wonThrough (q ++ [j]) sims < wonThrough (q ++ [i]) sims)

/-- A simulation's description: its parameters, and the coordinates of its path. -/
def SimText {ε : Type} (S : Show ε) (c : Config) (p : List Nat) (text : Str) : Prop :=
  ∃ ps s coords, CentreOf c.splits p ps ∧ S.params ps = .ok s ∧ CoordsOf c.splits p coords ∧ text = s ++ " [".toList ++ pathText coords ++ "]".toList

/-- The main part of the report. -/
def MainReport {ε : Type} (S : Show ε) (c : Config) (numberOfGames : Option Int) (spec : List Int) (log : List Ev) (IsNode : List Nat → Prop) (lines : List Str) : Prop :=
  ∃ (bestPath : List Nat) (best : Str) (sections : List (List Str)),
    BestPath c (completed log) IsNode bestPath ∧ SimText S c bestPath best ∧
    List.Forall₂ (fun (d : Int × Nat) l => SummarySection S c (completed log) IsNode (d.2 + 1) d.1 l) spec.zipIdx sections ∧
    lines = [strInt (ended log).length ++ ((numberOfGames.map (fun k => '/' :: strInt k)).getD []) ++ " games played".toList, [], "Best parameters: ".toList ++ best, []] ++
      sections.flatten

/-- A line of the tree's description, about the node at the end of a path whose last choice is `i`. -/
def TreeLine {ε : Type} (S : Show ε) (c : Config) (sims : List (List Nat × Bool)) (q : List Nat) (i : Nat) (line : Str) : Prop :=
  ∃ ps s co, CentreOf c.splits (q ++ [i]) ps ∧ S.params ps = .ok s ∧ IsCoord c.splits co ∧ childIndex c.splits co = i ∧
    line = coordText co ++ " ".toList ++ s ++ " ".toList ++ S.f3 (rate c (q ++ [i]) sims) ++ " ".toList ++ Tab.rjust (strInt (through (q ++ [i]) sims)) 3

/-- The lines about a child of the root: itself, and its children if it has any. -/
def TreeBlock {ε : Type} (S : Show ε) (c : Config) (sims : List (List Nat × Bool)) (IsNode : List Nat → Prop) (i : Nat) (lines : List Str) : Prop :=
  ∃ l below, TreeLine S c sims [] i l ∧ lines = ("  ".toList ++ l) :: below ∧
    ((¬ IsNode [i, 0] ∧ below = []) ∨
     (IsNode [i, 0] ∧ ∃ ls, List.Forall₂ (TreeLine S c sims [i]) (List.range (product c.splits)) ls ∧ below = ls.map (fun l => "    ".toList ++ l)))

/-- The description of the tree: the number of nodes, how many simulations were completed and won, and the nodes to depth 2. -/
def TreeText {ε : Type} (S : Show ε) (c : Config) (sims : List (List Nat × Bool)) (IsNode : List Nat → Prop) (lines : List Str) : Prop :=
  ∃ (nodes : List (List Nat)) (blocks : List (List Str)), nodes.Nodup ∧ (∀ p, p ∈ nodes ↔ IsNode p) ∧
    List.Forall₂ (TreeBlock S c sims IsNode) (List.range (product c.splits)) blocks ∧
    lines = [strInt nodes.length ++ " nodes".toList,
      "Win rate ".toList ++ strInt (sims.countP (fun s => s.2)) ++ "/".toList ++ strInt sims.length ++ " = ".toList ++
        (if sims = [] then "--".toList else S.f3 ((sims.countP (fun s => s.2) : Rat) / sims.length))] ++ blocks.flatten

/-- The games in progress, in order. -/
def InProgress (log : List Ev) (games : List (Nat × List Nat)) : Prop :=
  games.Pairwise (fun a b => a.1 < b.1) ∧ ∀ n p, (n, p) ∈ games ↔ running n log = some p

/-- The nodes of a tree. -/
def NodeOf (root : Node) (p : List Nat) : Prop := (root.get p).isSome

/-- An exception from the function which formats parameters, for the middle of a node's cell. -/
def FormatFails {ε : Type} (S : Show ε) (c : Config) (root : Node) (e : RErr ε) : Prop :=
  ∃ p ps e', NodeOf root p ∧ CentreOf c.splits p ps ∧ S.params ps = .error e' ∧ e = .fmt e'

end Gomill.MctsSpec
