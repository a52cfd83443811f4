import Verif.Model.RingAny
/-
What a history of runs leaves behind, in terms of the ringmaster's record.
-/
namespace Gomill.Jobs
variable {E : Type}

/-- The exception which ended the run, or will when the workers have finished. -/
def Phase.exc : Phase E → Option E
  | .finishing x => x
  | .returned x => x
  | _ => none

end Gomill.Jobs

namespace Gomill.Ring
open Jobs
variable {σ J X η V E : Type}

/-- Something which the competition was told. -/
def isReport : Act σ J X E → Bool
  | .result _ _ _ => true
  | .failed _ _ _ _ _ => true
  | _ => false

/-- The part of the record up to the latest report. -/
def upToReport (l : List (Act σ J X E)) : List (Act σ J X E) := l.dropWhile (fun a => !isReport a)

/-- Leave out the last thing in the record if it's the report which couldn't be written to the status file. -/
def withoutUnwritten (exc : Option (RExc E)) (l : List (Act σ J X E)) : List (Act σ J X E) :=
  match exc with
  | some .statusWrite => l.tail
  | _ => l

/-- What is left, in the status file, of the record of a run which ends (or crashes) now. -/
def inFile (m : Mp (RM σ J X V E) J X (RExc E)) : List (Act σ J X E) := upToReport (withoutUnwritten m.phase.exc m.src.acts)

/-- The world, and what is left of the runs which are over (the latest first). -/
def storyStep (C : Competition σ J X η V E) (p : World σ J X V E × List (List (Act σ J X E))) (ev : Event X η) :
    World σ J X V E × List (List (Act σ J X E)) :=
  (World.step C p.1 ev, match p.1, ev with
    | .up m, .down => inFile m :: p.2
    | _, _ => p.2)

def story (C : Competition σ J X η V E) (events : List (Event X η)) : World σ J X V E × List (List (Act σ J X E)) :=
  events.foldl (storyStep C) (.down none, [])

/-- What is left of the runs which are over. -/
def earlierRuns (C : Competition σ J X η V E) (events : List (Event X η)) : List (List (Act σ J X E)) := (story C events).2

end Gomill.Ring
