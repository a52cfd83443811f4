import Verif.Spec.Mcts
import Mathlib.Analysis.SpecialFunctions.Log.Basic
import Mathlib.Analysis.Real.Sqrt
/-
Specification vocabulary for C93: UCT, and games in progress.
-/
namespace Gomill.MctsSpec

/-- The UCT formula: the urgency of a child with `w` wins in `n` visits, whose parent has `v` visits. -/
noncomputable def uct (coefficient : ℝ) (v w n : Nat) : ℝ := (w : ℝ) / n + coefficient * √(Real.log v) * √(1 / (n : ℝ))

/-- The urgency used is the UCT formula, but for an error of at most `δ` (it's calculated in floating point). -/
def NearUct (urgency : Nat → Nat → Nat → Rat) (coefficient δ : ℝ) : Prop :=
  ∀ v w n, 0 < n → |((urgency v w n : Rat) : ℝ) - uct coefficient v w n| ≤ δ

/-- The games being played (events are listed latest first). -/
def inProgress : List Ev → List (Nat × List Nat)
  | [] => []
  | .issued n p :: l => (n, p) :: (inProgress l).filter (fun g => g.1 ≠ n)
  | .finished n _ :: l => (inProgress l).filter (fun g => g.1 ≠ n)
  | .failed n :: l => (inProgress l).filter (fun g => g.1 ≠ n)
  | .restarted :: _ => []

/-- There were never more than `limit` games being played at the same time. -/
def AtMost (limit : Nat) (log : List Ev) : Prop := ∀ l, l <:+ log → (inProgress l).length ≤ limit

/-- How a simulation's path is to be chosen, given what happened before.  At each node on the way, the next is one of the children of greatest urgency; the urgency
depends on the simulations completed so far which went through the node and through the child, and on how many of these were won.  The path ends at a node
which no completed simulation has been through, or at the greatest depth. -/
structure Choice (branching maxDepth initialVisits initialWins : Nat) (urgency : Nat → Nat → Nat → Rat) (log : List Ev) (path : List Nat) : Prop where
  nonempty : path ≠ []
  range : ∀ i ∈ path, i < branching
  depth : path.length ≤ maxDepth
  best : ∀ q j, q ++ [j] <+: path → ∀ i, i < branching →
    urgency (initialVisits + through q (completed log)) (initialWins + wonThrough (q ++ [i]) (completed log)) (initialVisits + through (q ++ [i]) (completed log)) ≤
    urgency (initialVisits + through q (completed log)) (initialWins + wonThrough (q ++ [j]) (completed log)) (initialVisits + through (q ++ [j]) (completed log))
  ends : path.length = maxDepth ∨ through path (completed log) = 0

end Gomill.MctsSpec
