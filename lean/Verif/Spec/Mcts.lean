/-
What the cells of the MCTS tuner's parameter space are, independently of how the program calculates them.
-/
namespace Gomill.MctsSpec

/-- The number of children of a node: the product of the splits. -/
def product : List Nat → Nat
  | [] => 1
  | s :: ss => s * product ss

/-- A vector of coordinates: one for each dimension, each of them less than the number of subdivisions. -/
def IsCoord : List Nat → List Nat → Prop
  | [], [] => True
  | s :: ss, c :: cs => c < s ∧ IsCoord ss cs
  | _, _ => False

/-- The position of a coordinate vector when the vectors are listed with the first dimension changing most slowly. -/
def childIndex : List Nat → List Nat → Nat
  | _ :: ss, c :: cs => c * product ss + childIndex ss cs
  | _, _ => 0

/-- Shrink the unit cube to the subdivision with the given coordinates: where the point `y` goes to. -/
def place : List Nat → List Nat → List Rat → List Rat
  | s :: ss, c :: cs, y :: ys => (c + y) / s :: place ss cs ys
  | _, _, _ => []

/-- The points of the unit cube. -/
def InCube (splits : List Nat) (x : List Rat) : Prop := x.length = splits.length ∧ ∀ q ∈ x, 0 ≤ q ∧ q < 1

/-- The points of the cuboid represented by the node at the end of a path of child indices.  The first choice says which of
the subdivisions of the unit cube it's in; inside that subdivision it's where the rest of the path says. -/
def InCell (splits : List Nat) : List Nat → List Rat → Prop
  | [], x => InCube splits x
  | i :: path, x =>
    ∃ c y, IsCoord splits c ∧ childIndex splits c = i ∧ InCell splits path y ∧ x = place splits c y

/-- The point is in the cuboid with the given centre whose breadth in a dimension with split `s` is `1 / s ^ depth`
(its lower faces belong to it). -/
def Around (depth : Nat) : List Nat → List Rat → List Rat → Prop
  | [], [], [] => True
  | s :: ss, p :: ps, x :: xs =>
    p - 1 / 2 * (1 / (s : Rat) ^ depth) ≤ x ∧ x < p + 1 / 2 * (1 / (s : Rat) ^ depth) ∧ Around depth ss ps xs
  | _, _, _ => False

/-! ### Counting simulations -/

/-- What happens to a tuner, as seen from outside: `get_game` gives game `n` to a worker (its parameters being those of
`path`), the game's result or its failure is reported, the program is restarted from the status file. -/
inductive Ev where
  | issued (n : Nat) (path : List Nat)
  | finished (n : Nat) (won : Bool)
  | failed (n : Nat)
  | restarted
  deriving DecidableEq, Repr

/-- The simulation being run as game `n` (events are listed latest first). -/
def running (n : Nat) : List Ev → Option (List Nat)
  | [] => none
  | .issued m p :: l => if m = n then some p else running n l
  | .finished m _ :: l => if m = n then none else running n l
  | .failed m :: l => if m = n then none else running n l
  | .restarted :: _ => none

/-- The simulations which were completed, and whether the candidate won. -/
def completed : List Ev → List (List Nat × Bool)
  | [] => []
  | .finished n won :: l =>
    match running n l with
    | some p => (p, won) :: completed l
    | none => completed l
  | _ :: l => completed l

/-- The games which have had a result or failed. -/
def ended : List Ev → List Nat
  | [] => []
  | .finished n _ :: l => n :: ended l
  | .failed n :: l => n :: ended l
  | _ :: l => ended l

/-- The number of simulations which went through the node at the end of the path `p`. -/
def through (p : List Nat) (sims : List (List Nat × Bool)) : Nat := sims.countP (fun s => p.isPrefixOf s.1)

/-- The number of them in which the candidate won. -/
def wonThrough (p : List Nat) (sims : List (List Nat × Bool)) : Nat := sims.countP (fun s => p.isPrefixOf s.1 && s.2)

/-- Whether the last game to end in this run had a result. -/
def lastSucceeded : List Ev → Bool
  | .issued _ _ :: l => lastSucceeded l
  | .finished _ _ :: _ => true
  | _ => false

end Gomill.MctsSpec
