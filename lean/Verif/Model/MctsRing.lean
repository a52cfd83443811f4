import Verif.Model.RingAny
import Verif.Model.Mcts
/-
The MCTS tuner as a Competition, for the ringmaster of RingAny.
-/
namespace Gomill.Mcts
open Ring (Competition)

/-- What the environment decides: the random choices, whether the user's functions work for the given parameters, and whether they
work when the results are described. -/
structure MEnv where
  starts : Nat → Nat
  makeOk : List Rat → Bool
  describeOk : Bool

/-- A game which the tuner gives out: the game number (mcts_tuners.py:767 `game_data`) and the optimiser parameters. -/
abbrev Game := Nat × List Rat

/-- mcts_tuners.py:649-680 and 752-820: the methods which the ringmaster calls.  The game id is the game number (766).  A result is whether
the candidate won (794-795).  `describeOk` is about the calls of the scale functions at 798-803, and in the screen report. -/
def tunerCompetition {α : Type} [DecidableEq α] (c : Config) (limit : Option Int) (scaled0 : α) : Competition Tuner Game Bool MEnv (Saved α) TExc where
  gameId j := Nat.toDigits 10 j.1
  clean _ := .ok (Tuner.clean c)
  save t := t.save scaled0
  load _ s := match Tuner.load c scaled0 s with
    | some t => .ok t
    | none => .error .competitionError
  getGame e t := t.getGame c limit e.starts e.makeOk
  processResult e j won t := match t.processResult j.1 won with
    | (.ok _, t) => (if e.describeOk then .ok () else .error .competitionError, t)
    | (.error x, t) => (.error x, t)
  processError _ j _ t := match t.processError j.1 with
    | (.ok stop, t) => (.ok (stop, false), t)
    | (.error x, t) => (.error x, t)
  screenReport e t := (if e.describeOk then .ok () else .error .competitionError, t)

end Gomill.Mcts
