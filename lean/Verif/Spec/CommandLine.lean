import Verif.Model.CommandLine
import Verif.Spec.PlayerCheck
/-
What the command-line program should do, for C80.
-/
namespace Gomill.Conf.Spec
open Py

/-- What has happened agrees with how the calls behave. -/
inductive Replays {σ : Type} (W : CmdWorld σ) : List Event → σ → σ → Prop
  | nil {s} : Replays W [] s s
  | asked {c b s s1 s2 es} : W.ask c s = (.ok b, s1) → Replays W es s1 s2 → Replays W (.asked c b :: es) s s2
  | did {c s s1 s2 es} : W.perform c s = (.ok (), s1) → Replays W es s1 s2 → Replays W (.did c :: es) s s2
  | raisedAsk {c e s s1} : W.ask c s = (.error e, s1) → Replays W [.raised c e] s s1
  | raised {c e s s1} : W.perform c s = (.error e, s1) → Replays W [.raised c e] s s1

/-- What a command does, when there are no exceptions and the control file can be loaded: the possibilities, with the exit status, and the text printed to stderr. -/
def actionHistories (o : Options) : Command → List (List Event × Nat × List Str)
  | .run =>
    [([.asked (.checkPlayers true o.quiet) false], 1, []),
     ([.asked (.checkPlayers true o.quiet) true, .asked .statusExists false, .did .setCleanStatus, .did (.run o.maxGames o.logGtp o.quiet o.parallel), .did .report], 0, []),
     ([.asked (.checkPlayers true o.quiet) true, .asked .statusExists true, .did .loadStatus, .did (.run o.maxGames o.logGtp o.quiet o.parallel), .did .report], 0, [])]
  | .stop => [([.did .writeStop], 0, [])]
  | .show => [([.asked .statusExists false], 1, ["ringmaster: no status file".toList]), ([.asked .statusExists true, .did .loadStatus, .did .printStatusReport], 0, [])]
  | .report => [([.asked .statusExists false], 1, ["ringmaster: no status file".toList]), ([.asked .statusExists true, .did .loadStatus, .did .report], 0, [])]
  | .reset => [([.did .deleteStateAndOutput], 0, [])]
  | .check => [([.asked (.checkPlayers false o.quiet) false], 1, []), ([.asked (.checkPlayers false o.quiet) true], 0, [])]
  | .debugstatus => [([.did .printStatus], 0, [])]

/-- What the program does, when there are no exceptions. -/
def histories (path : Str) (o : Options) (c : Command) : List (List Event × Nat × List Str) :=
  ([.asked .controlExists false], 1, ["ringmaster: control file ".toList ++ path ++ " not found".toList]) ::
  (actionHistories o c).map (fun h => (.asked .controlExists true :: .did .make :: h.1, h.2))

/-- The call which an event is about. -/
def callOf : Event → Call
  | .asked c _ => c
  | .did c => c
  | .raised c _ => c

/-- The exit status for an exception. -/
def exitFor : CmdExc → Nat
  | .ringmaster _ => 1
  | .interrupt => 3
  | .internal _ => 4
  | .other _ => 4

/-- What's printed to stderr for an exception. -/
def stderrFor : CmdExc → List Str
  | .ringmaster e => ["ringmaster: ".toList ++ e]
  | .interrupt => []
  | .internal e => ["ringmaster: internal error".toList, e]
  | .other e => ["ringmaster: internal error".toList, e]

/-- The names of the commands. -/
def commandNames : List (String × Command) :=
  [("run", .run), ("stop", .stop), ("show", .show), ("report", .report), ("reset", .reset), ("check", .check), ("debugstatus", .debugstatus)]

/-- The command line asks for this: run is the default. -/
def AsksFor (args : List Str) (path : Str) (c : Command) : Prop :=
  (args = [path] ∧ c = .run) ∨ ∃ name, (name, c) ∈ commandNames ∧ args = [path, name.toList]

/-- What a check which passes prints. -/
def passLines (discardStderr : Bool) (c : StartupCheck) (warnings : List Str) : List Str :=
  if discardStderr then [] else ("checking player ".toList ++ c.player.code) :: warnings

end Gomill.Conf.Spec
