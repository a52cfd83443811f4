import Verif.Model.MctsRing
import Verif.Spec.Mcts
/-
What the ringmaster's record of a run says about the tuner's simulations.
-/
namespace Gomill.Mcts
open MctsSpec Ring

/-- The tuner's events are those of the ringmaster's record (both latest first): a game given out is a simulation along a path which has the game's parameters; a report is the end of
the simulation. -/
inductive Matches (splits : List Nat) : List (Act Tuner Game Bool TExc) → List Ev → Prop
  | nil : Matches splits [] []
  | offered {l ev n ps path} (h : Matches splits l ev) (hp : parametersForPath splits path = .ok ps) :
      Matches splits (.offered (n, ps) :: l) (.issued n path :: ev)
  | result {l ev} (j : Game) (won : Bool) (t : Tuner) (h : Matches splits l ev) : Matches splits (.result j won t :: l) (.finished j.1 won :: ev)
  | failed {l ev} (j : Game) (k : Nat) (stop retry : Bool) (t : Tuner) (h : Matches splits l ev) : Matches splits (.failed j k stop retry t :: l) (.failed j.1 :: ev)
  | noGame {l ev} (h : Matches splits l ev) : Matches splits (.noGame :: l) ev
  | halted {l ev} (h : Matches splits l ev) : Matches splits (.halted :: l) ev

/-- The tuner's events in the status file are those which the runs (the latest first) left there.  A run which wrote nothing left nothing. -/
inductive Recorded (splits : List Nat) : List (List (Act Tuner Game Bool TExc)) → List Ev → Prop
  | nil : Recorded splits [] []
  | nothing {runs log} (h : Recorded splits runs log) : Recorded splits ([] :: runs) log
  | run {acts runs evs log} (h : Recorded splits runs log) (hne : acts ≠ []) (hm : Matches splits acts evs) :
      Recorded splits (acts :: runs) (evs ++ .restarted :: log)

end Gomill.Mcts
