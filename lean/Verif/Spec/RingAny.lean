import Verif.Model.RingAny
/-
What a competition can rely on, in terms of the record of what the ringmaster has asked of it and started in a run (newest
first).
-/
namespace Gomill.Ring
variable {σ J X E : Type}

/-- The games which are being played: started, and not yet reported to the competition. -/
def playing (gameId : J → Str) : List (Act σ J X E) → List J
  | [] => []
  | .offered j :: l => j :: playing gameId l
  | .again j :: l => j :: playing gameId l
  | .result j _ _ :: l => (playing gameId l).filter (fun j' => gameId j' ≠ gameId j)
  | .failed j _ _ _ _ :: l => (playing gameId l).filter (fun j' => gameId j' ≠ gameId j)
  | _ :: l => playing gameId l

/-- The games which the competition asked to have retried, and which haven't been started again since. -/
def waiting (gameId : J → Str) : List (Act σ J X E) → List J
  | [] => []
  | .again j :: l => (waiting gameId l).filter (fun j' => gameId j' ≠ gameId j)
  | .failed j _ false true _ :: l => j :: waiting gameId l
  | _ :: l => waiting gameId l

/-- The run has been stopped: from outside, by max-games, or by the competition. -/
def Stopped : List (Act σ J X E) → Prop
  | [] => False
  | .halted :: _ => True
  | .failed _ _ true _ _ :: _ => True
  | _ :: l => Stopped l

/-- How many times a game with this id has failed, since the last time it failed and wasn't to be retried. -/
def failures (gameId : J → Str) (i : Str) : List (Act σ J X E) → Nat
  | [] => 0
  | .failed j _ stop retry _ :: l =>
    if gameId j = i then (if retry && !stop then failures gameId i l + 1 else 0) else failures gameId i l
  | _ :: l => failures gameId i l

/-- Whether an act is in order, given what happened before. -/
def InOrder (gameId : J → Str) : List (Act σ J X E) → Act σ J X E → Prop
  | l, .offered j => ¬ Stopped l ∧ waiting gameId l = [] ∧ gameId j ∉ (playing gameId l).map gameId
  | l, .noGame => ¬ Stopped l ∧ waiting gameId l = []
  | l, .clash j => ¬ Stopped l ∧ waiting gameId l = [] ∧ gameId j ∈ (playing gameId l).map gameId
  | l, .again j => ¬ Stopped l ∧ j ∈ waiting gameId l
  | l, .halted => ¬ Stopped l
  | l, .result j _ _ => j ∈ playing gameId l
  | l, .failed j count _ _ _ => j ∈ playing gameId l ∧ count = failures gameId (gameId j) l
  | _, .raised _ => True

/-- Every act of the record is in order. -/
def AllInOrder (gameId : J → Str) : List (Act σ J X E) → Prop
  | [] => True
  | a :: l => InOrder gameId l a ∧ AllInOrder gameId l

/-- The number of games started. -/
def starts : List (Act σ J X E) → Nat
  | [] => 0
  | .offered _ :: l => starts l + 1
  | .again _ :: l => starts l + 1
  | _ :: l => starts l

/-- The number of void games reported. -/
def voids : List (Act σ J X E) → Nat
  | [] => 0
  | .failed _ _ _ _ _ :: l => voids l + 1
  | _ :: l => voids l

/-- What the status file should be: the competition's state just after the latest report, or what it was at the start of the
run.  `v0` is the number of void games before this run. -/
def statusFile {V : Type} (save : σ → V) (v0 : Nat) (d0 : Option (Nat × V)) : List (Act σ J X E) → Option (Nat × V)
  | [] => d0
  | .result _ _ c :: l => some (v0 + voids l, save c)
  | .failed _ _ _ _ c :: l => some (v0 + voids l + 1, save c)
  | _ :: l => statusFile save v0 d0 l

end Gomill.Ring

namespace Gomill.Ring
variable {σ J X E : Type}

/-- The games started, newest first. -/
def startedJobs : List (Act σ J X E) → List J
  | [] => []
  | .offered j :: l => j :: startedJobs l
  | .again j :: l => j :: startedJobs l
  | _ :: l => startedJobs l

/-- The outcomes reported to the competition, newest first (`none` is a failure). -/
def reports : List (Act σ J X E) → List (J × Option X)
  | [] => []
  | .result j x _ :: l => (j, some x) :: reports l
  | .failed j _ _ _ _ :: l => (j, none) :: reports l
  | _ :: l => reports l

/-- The games which the competition gave, newest first. -/
def offers : List (Act σ J X E) → List J
  | [] => []
  | .offered j :: l => j :: offers l
  | _ :: l => offers l

/-- How many times a game with this id has failed. -/
def timesFailed (gameId : J → Str) (i : Str) : List (Act σ J X E) → Nat
  | [] => 0
  | .failed j _ _ _ _ :: l => if gameId j = i then timesFailed gameId i l + 1 else timesFailed gameId i l
  | _ :: l => timesFailed gameId i l

end Gomill.Ring
