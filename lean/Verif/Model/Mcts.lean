import Verif.Model.Schedulers
/-
Model of gomill/mcts_tuners.py.  Floating-point numbers are modelled as exact rationals.
-/
namespace Gomill.Mcts
open Py Sched

/-- mcts_tuners.py:20-54 Node.  `children` is `none` for unexpanded.  `value` and `rsqrt_visits` are determined by `wins`
and `visits` (line 36; the values set for new nodes at 127, 155 agree), so they aren't stored. -/
inductive Node where
  | mk (children : Option (List Node)) (wins visits : Nat)

def Node.children : Node → Option (List Node)
  | .mk c _ _ => c

def Node.wins : Node → Nat
  | .mk _ w _ => w

def Node.visits : Node → Nat
  | .mk _ _ v => v

mutual
/-- mcts_tuners.py:31-34 `count_tree_size`. -/
def Node.size : Node → Nat
  | .mk none _ _ => 1
  | .mk (some cs) _ _ => Node.sizes cs + 1

/-- `sum(child.count_tree_size() for child in self.children)` -/
def Node.sizes : List Node → Nat
  | [] => 0
  | c :: cs => c.size + Node.sizes cs
end

/-- mcts_tuners.py:91-103: the parameters of a Tree.  `urgency` is the function of (parent's visits, child's wins, child's
visits) calculated in floating point at 315-318; any function here (C93 assumes that it's the UCT formula but for a bounded error). -/
structure Config where
  splits : List Nat
  maxDepth : Nat
  initialVisits : Nat
  initialWins : Nat
  urgency : Nat → Nat → Nat → Rat

/-- mcts_tuners.py:97 `reduce(operator.mul, splits)`.  (An empty list of splits isn't possible; see 614.) -/
def branchingFactor : List Nat → Nat
  | [] => 1
  | s :: l => l.foldl (· * ·) s

/-- mcts_tuners.py:114-116: the loop over the reversed splits. -/
def coordLoop : List Nat → Nat → List Nat
  | [], _ => []
  | split :: rest, i => (i % split) :: coordLoop rest (i / split)

/-- mcts_tuners.py:111-118: the entry of `_cube_coordinates` for a child index. -/
def coordinates (splits : List Nat) (i : Nat) : List Nat := (coordLoop splits.reverse i).reverse

/-- mcts_tuners.py:110-118 `_cube_coordinates`. -/
def cubeCoordinates (splits : List Nat) : List (List Nat) :=
  (List.range (branchingFactor splits)).map (coordinates splits)

/-- mcts_tuners.py:177-181: the loop of `parameters_for_path`. -/
def boxLoop (splits : List Nat) : List Rat → List Rat → List Nat → Except Exc (List Rat × List Rat)
  | lo, breadths, [] => .ok (lo, breadths)
  | lo, breadths, child :: path =>
    match (cubeCoordinates splits)[child]? with
    | none => .error .indexError
    | some pos =>
      let breadths := List.zipWith (fun (f : Rat) (split : Nat) => f / split) breadths splits
      boxLoop splits (List.zipWith (· + ·) lo (List.zipWith (fun b (coord : Nat) => b * coord) breadths pos)) breadths path

/-- mcts_tuners.py:164-182 `parameters_for_path`. -/
def parametersForPath (splits : List Nat) (path : List Nat) : Except Exc (List Rat) :=
  match boxLoop splits (List.replicate splits.length 0) (List.replicate splits.length 1) path with
  | .error e => .error e
  | .ok (lo, breadths) => .ok (List.zipWith (fun f b => f + 1 / 2 * b) lo breadths)

/-- mcts_tuners.py:151-156: a new node. -/
def Config.newNode (c : Config) : Node := .mk none c.initialWins c.initialVisits

/-- mcts_tuners.py:145-157 `expand`: the new children (the node must be unexpanded; line 147). -/
def Config.newChildren (c : Config) : List Node := List.replicate (branchingFactor c.splits) c.newNode

/-- mcts_tuners.py:120-129 `new_root`. -/
def Config.newRoot (c : Config) : Node := .mk (some c.newChildren) c.initialWins c.initialVisits

/-- The node at the end of a path of child indices. -/
def Node.get : Node → List Nat → Option Node
  | n, [] => some n
  | .mk none _ _, _ :: _ => none
  | .mk (some cs) _ _, i :: p =>
    match cs[i]? with
    | none => none
    | some c => c.get p

/-- Change the node at the end of a path (nothing, if there's no such node).  In the program nodes are objects, so changing
one changes it in the tree. -/
def Node.modify (f : Node → Node) : Node → List Nat → Node
  | n, [] => f n
  | .mk none w v, _ :: _ => .mk none w v
  | .mk (some cs) w v, i :: p =>
    match cs[i]? with
    | none => .mk (some cs) w v
    | some c => .mk (some (cs.set i (c.modify f p))) w v

/-- `max(l, key=f)`: the first of the elements with the greatest key. -/
def maxBy {α : Type} (key : α → Rat) : List α → Option α
  | [] => none
  | a :: l => some (l.foldl (fun best x => if key best < key x then x else best) a)

/-- mcts_tuners.py:309-321 `_choose_action`: the child index.  `start` is what `random.randrange` gives.  (`max` of an empty
list would be an error; there is always at least one child.) -/
def Config.choose (c : Config) (start : Nat) (visits : Nat) (cs : List Node) : Nat :=
  let children := cs.zipIdx
  let start := start % cs.length
  match maxBy (fun p : Node × Nat => c.urgency visits p.1.wins p.1.visits) (children.drop start ++ children.take start) with
  | none => 0
  | some p => p.2

/-- mcts_tuners.py:399-402 Greedy_simulation `_choose_action`. -/
def chooseGreedy (cs : List Node) : Nat :=
  match maxBy (fun p : Node × Nat => (p.1.wins : Rat)) cs.zipIdx with
  | none => 0
  | some p => p.2

mutual
/-- mcts_tuners.py:323-329 `walk`: the choice path.  `choose` gets the depth, the node's visits and its children. -/
def Node.walk (choose : Nat → Nat → List Node → Nat) : Nat → Node → List Nat
  | _, .mk none _ _ => []
  | depth, .mk (some cs) _ v => choose depth v cs :: Node.walkIn choose (depth + 1) cs (choose depth v cs)

/-- The rest of the walk, from the chosen child. -/
def Node.walkIn (choose : Nat → Nat → List Node → Nat) : Nat → List Node → Nat → List Nat
  | _, [], _ => []
  | depth, c :: _, 0 => c.walk choose depth
  | depth, _ :: cs, i + 1 => Node.walkIn choose depth cs i
end

/-- mcts_tuners.py:160-162 `is_ripe`. -/
def Config.isRipe (c : Config) (n : Node) : Bool := n.visits != c.initialVisits

/-- mcts_tuners.py:145-158 `expand`. -/
def Config.expand (c : Config) : Node → Node
  | .mk _ w v => .mk (some c.newChildren) w v

/-- mcts_tuners.py:331-346 `run`: the choice path, and the tree afterwards.  `starts` is what `random.randrange` gives at
each depth. -/
def Config.run (c : Config) (starts : Nat → Nat) (root : Node) : List Nat × Node :=
  let path := root.walk (fun depth => c.choose (starts depth)) 0
  match root.get path with
  | none => (path, root)
  | some node =>
    if path.length < c.maxDepth ∧ c.isRipe node then
      (path ++ [c.choose (starts path.length) node.visits c.newChildren], root.modify c.expand path)
    else (path, root)

/-- mcts_tuners.py:196-200 `retrieve_best_parameter_simulation`. -/
def bestPath (root : Node) : List Nat := root.walk (fun _ _ => chooseGreedy) 0

/-- mcts_tuners.py:365-367: one more visit. -/
def Node.count (won : Bool) : Node → Node
  | .mk cs w v => .mk cs (if won then w + 1 else w) (v + 1)

/-- mcts_tuners.py:364-368: the nodes of the simulation's node path after the root.  (The nodes are those at the prefixes of
the choice path.) -/
def countPath (won : Bool) : Node → List Nat → Node
  | n, [] => n
  | .mk none w v, _ :: _ => .mk none w v
  | .mk (some cs) w v, i :: p =>
    match cs[i]? with
    | none => .mk (some cs) w v
    | some c => .mk (some (cs.set i (countPath won (c.count won) p))) w v

/-- mcts_tuners.py:356-372 `update_stats`. -/
def updateStats (won : Bool) (root : Node) (path : List Nat) : Node := (countPath won root path).count won

/-! ### The competition -/

/-- mcts_tuners.py:642-647: the state of a Mcts_tuner (the opponent's description isn't modelled).  A Simulation is its
choice path. -/
structure Tuner where
  scheduler : Simple
  root : Node
  outstanding : List (Nat × List Nat)
  haltOnNextFailure : Bool

/-- mcts_tuners.py:522-525 and 649-652: a new Mcts_tuner after `set_clean_status`. -/
def Tuner.clean (c : Config) : Tuner := ⟨Simple.init, c.newRoot, [], true⟩

/-- What can go wrong: a Python exception, or a CompetitionError (from the scale functions or make_candidate). -/
inductive TExc where
  | py (e : Exc)
  | competitionError
  deriving DecidableEq, Repr

/-- mcts_tuners.py:752-764 `get_game`: the game number and the optimiser parameters, or `none` for NoGameAvailable.
`makeOk` says whether the user's scale functions and make_candidate() work for the given parameters. -/
def Tuner.getGame (c : Config) (numberOfGames : Option Int) (starts : Nat → Nat) (makeOk : List Rat → Bool) (t : Tuner) :
    Except TExc (Option (Nat × List Rat)) × Tuner :=
  match numberOfGames with
  | some n => if t.scheduler.issued ≥ n then (.ok none, t) else play t
  | none => play t
where
  play (t : Tuner) : Except TExc (Option (Nat × List Rat)) × Tuner :=
    let game := t.scheduler.issue
    let sim := c.run starts t.root
    match parametersForPath c.splits sim.1 with
    | .error e => (.error (.py e), { t with scheduler := game.2, root := sim.2 })
    | .ok ps =>
      if makeOk ps then
        (.ok (some (game.1, ps)),
          { t with scheduler := game.2, root := sim.2,
                   outstanding := t.outstanding.filter (fun p => p.1 ≠ game.1) ++ [(game.1, sim.1)] })
      else (.error .competitionError, { t with scheduler := game.2, root := sim.2 })

/-- mcts_tuners.py:787-797 `process_game_result`. -/
def Tuner.processResult (n : Nat) (won : Bool) (t : Tuner) : Except TExc Unit × Tuner :=
  let t := { t with haltOnNextFailure := false }
  match t.scheduler.fix n with
  | .error e => (.error (.py e), t)
  | .ok s =>
    match t.outstanding.lookup n with
    | none => (.error (.py .keyError), { t with scheduler := s })
    | some path =>
      (.ok (), { t with scheduler := s, outstanding := t.outstanding.filter (fun p => p.1 ≠ n),
                        root := updateStats won t.root path })

/-- mcts_tuners.py:805-818 `process_game_error`: whether to stop the competition. -/
def Tuner.processError (n : Nat) (t : Tuner) : Except TExc Bool × Tuner :=
  match t.outstanding.lookup n with
  | none => (.error (.py .keyError), t)
  | some _ =>
    let t := { t with outstanding := t.outstanding.filter (fun p => p.1 ≠ n) }
    match t.scheduler.fix n with
    | .error e => (.error (.py e), t)
    | .ok s => (.ok t.haltOnNextFailure, { t with scheduler := s, haltOnNextFailure := true })

/-- mcts_tuners.py:657-664 `get_status`, pickled: the persistent state, and the scaled parameters for path [0]. -/
structure Saved (α : Type) where
  scheduler : Simple
  root : Node
  path0 : α

/-- mcts_tuners.py:657-664 `get_status`. `scaled0` is the scaled parameters for path [0]. -/
def Tuner.save {α : Type} (scaled0 : α) (t : Tuner) : Saved α := ⟨t.scheduler, t.root, scaled0⟩

/-- mcts_tuners.py:131-143 and 666-680 `set_status`, on a new Mcts_tuner. `none` is CompetitionError. -/
def Tuner.load {α : Type} [DecidableEq α] (c : Config) (scaled0 : α) (s : Saved α) : Option Tuner :=
  match s.root.children with
  | none => none
  | some cs =>
    if cs.length ≠ branchingFactor c.splits ∨ cs.isEmpty then none
    else if s.path0 ≠ scaled0 then none
    else some ⟨(Simple.setstate s.scheduler.getstate).rollback, s.root, [], true⟩

/-! ### Scale functions -/

/-- Python's int() of a number: truncation towards zero. -/
def truncate (q : Rat) : Int := if 0 ≤ q then q.floor else q.ceil

/-- mcts_tuners.py:439-458 Linear_scale_fn. -/
def linearScale (lower upper : Rat) (integer : Bool) (f : Rat) : Rat :=
  let result := f * (upper - lower) + lower
  if integer then truncate (result + 1 / 2) else result

/-- mcts_tuners.py:482-498 Explicit_scale_fn, for a nonempty list of values. -/
def explicitScale {α : Type} (values : List α) (f : Rat) : Except Exc α :=
  getItem values (truncate (values.length * f))

end Gomill.Mcts
