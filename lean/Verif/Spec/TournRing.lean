import Verif.Model.TournRing
import Verif.Spec.RingLive
import Verif.Spec.Tournament
/-
Vocabulary for the runs of a tournament.
-/
namespace Gomill.Tourn
open Py Jobs

/-- The results which the tournament has accepted during a run, oldest first. -/
def accepted (acts : List (Ring.Act State Job Response CErr)) : List (Job × Response) :=
  (acts.filterMap (fun a => match a with | .result j x _ => some (j, x) | _ => none)).reverse

/-- Those of a matchup, as the game results. -/
def acceptedFor (k : Str) (l : List (Job × Response)) : List GameResult :=
  (l.filter (fun p => p.1.matchupId = k)).map (fun p => p.1.result p.2.outcome)

/-- The lines which have been written to the history file, oldest first. -/
def historyOf (trace : List (Ring.Live.Eff State Job Response Saved CErr)) : List Str :=
  trace.filterMap (fun a => match a with | .history s => some s | _ => none)

/-- A line of the history file: the game id (with spaces before it, to make seven characters), a space, and the description of the result. -/
def HistoryLine (s : Str) (p : Job × Response) : Prop :=
  s = List.replicate (7 - p.1.gameId.length) ' ' ++ p.1.gameId ++ [' '] ++ (p.1.result p.2.outcome).describe

/-- An event of RingAny's, with the given control file, as one of Model/Ringmaster. -/
def plainEvent (ctrl : Control) : Ring.Event Response Unit → Event
  | .start mg e w => .start ctrl mg e.display w
  | .step (.mgr e) => .step (.mgr ⟨e.stop, e.pick, e.display, e.diskOk⟩)
  | .step (.take i) => .step (.take i)
  | .step (.finishJob i x) => .step (.finishJob i (x.map Response.outcome))
  | .down => .down

/-- All the runs use this control file. -/
def AllFrom (ctrl : Control) (events : List Event) : Prop := ∀ c mg display w, .start c mg display w ∈ events → c = ctrl

end Gomill.Tourn
