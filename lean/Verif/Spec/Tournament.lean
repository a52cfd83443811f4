import Verif.Model.Ringmaster
/-
Vocabulary for the tournament properties.
-/
namespace Gomill.Tourn
open Py Jobs

/-- `gid` names game number `n` of the matchup `m`: the matchup id, an underscore, and a decimal numeral for `n`
(perhaps with leading zeros). -/
def GameIdOf (m : Str) (n : Nat) (gid : Str) : Prop :=
  ∃ s : Str, s ≠ [] ∧ (∀ c ∈ s, c.isDigit = true) ∧ Nat.ofDigitChars 10 s 0 = n ∧ gid = m ++ '_' :: s

/-- The results for a matchup recorded in a status file. -/
def savedIn (disk : Option (Nat × Saved)) (m : Str) : List GameResult :=
  match disk with
  | none => []
  | some (_, s) => s.loadResults.get m

/-- The results for a matchup recorded in the status file. -/
def World.saved (w : World) (m : Str) : List GameResult := savedIn w.disk m

/-- A result which could have been made by the program for a game between the two players (in either order): the winning
player is the one with the winning colour, and a jigo has no winner. -/
def Between (p1 p2 : Str) (r : GameResult) : Prop :=
  r.players = (r.playerB, r.playerW) ∧ r.winningPlayer = playerGet r.players r.res.winningColour ∧
  (r.res.isJigo = true → r.res.winningColour = none) ∧
  ((r.playerB = p1 ∧ r.playerW = p2) ∨ (r.playerB = p2 ∧ r.playerW = p1))

/-- The result is of game number `n` of matchup `m`. -/
def Records (m : Str) (r : GameResult) (n : Nat) : Prop := ∃ gid, r.gameId = some gid ∧ GameIdOf m n gid

/-- The game whose result a step of the job manager should record in the status file, if any: the step in which the
manager takes the response of a successful game from the queue and passes it on, if the status file can be written. -/
def stepRecords (m : Mp RM Job Outcome RExc) : Step Outcome Env → Option (Job × Outcome)
  | .mgr e => match m.phase, m.respQ with
    | .waiting, (j, some x) :: _ => if e.diskOk then some (j, x) else none
    | _, _ => none
  | _ => none

/-- The game whose result an event should record. -/
def World.records : World → Event → Option (Job × Outcome)
  | .up m, .step s => stepRecords m s
  | _, _ => none

/-- Reading a run's record of calls (newest first): the last game of the matchup to end in this run succeeded. -/
def lastSucceeded (m : Str) : List (Call Job Outcome) → Bool
  | [] => false
  | .response j _ :: l => if j.matchupId = m then true else lastSucceeded m l
  | .error j :: l => if j.matchupId = m then false else lastSucceeded m l
  | _ :: l => lastSucceeded m l

/-- Whenever the job failed in this run, it was later run again and succeeded. -/
def madeGood (j : Job) : List (Call Job Outcome) → Bool
  | [] => true
  | .response j' _ :: l => if j' = j then true else madeGood j l
  | .error j' :: l => if j' = j then false else madeGood j l
  | _ :: l => madeGood j l

end Gomill.Tourn
