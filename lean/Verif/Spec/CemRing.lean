import Verif.Model.CemRing
import Verif.Spec.Cem
/-
What the ringmaster's record of a run says about the tuner's games.
-/
namespace Gomill.Cem
open CemSpec Ring

/-- What a game counts for the candidate, whichever colour it played. -/
def candidateScore (j : Job) (x : Res) : Rat := score (x.winningColour.map (fun w => decide (w = if j.playerB = j.code then .b else .w)))

/-- The games whose results were reported, by name, and what they counted (latest first). -/
def scores : List (Act Tuner Job Res TExc) → List (List Char × Rat)
  | [] => []
  | .result j x _ :: l => (j.gameId, candidateScore j x) :: scores l
  | _ :: l => scores l

/-- After a failure the competition is stopped if no game had succeeded in this run, or if the game had failed before; otherwise the game is retried. -/
def FailuresHandled : List (Act Tuner Job Res TExc) → Prop
  | [] => True
  | .failed _ count stop retry _ :: l => (stop = true ↔ scores l = [] ∨ 0 < count) ∧ retry = !stop ∧ FailuresHandled l
  | _ :: l => FailuresHandled l

end Gomill.Cem
