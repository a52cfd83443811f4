import Verif.Model.JobManager
/-
Reading the record of calls (newest first) of a job manager run.
-/
namespace Gomill.Jobs
variable {σ J X ε E : Type}

/-- Jobs handed out by the source. -/
def gotJobs : List (Call J X) → List J
  | [] => []
  | .got j :: l => j :: gotJobs l
  | _ :: l => gotJobs l

/-- Jobs which have been run, with the outcomes. -/
def ranJobs : List (Call J X) → List (J × Option X)
  | [] => []
  | .ran j x :: l => (j, x) :: ranJobs l
  | _ :: l => ranJobs l

/-- Outcomes reported to the source. -/
def processedJobs : List (Call J X) → List (J × Option X)
  | [] => []
  | .response j x :: l => (j, some x) :: processedJobs l
  | .error j :: l => (j, none) :: processedJobs l
  | _ :: l => processedJobs l

def Worker.job? : Worker J → Option J
  | .busy j => some j
  | _ => none

/-- Jobs waiting in the job queue. -/
def Mp.queued (m : Mp σ J X E) : List J := m.jobQ.filterMap id
/-- Jobs being run. -/
def Mp.running (m : Mp σ J X E) : List J := m.workers.filterMap Worker.job?
/-- Jobs handed out whose outcome hasn't been reported to the source. -/
def Mp.inFlight (m : Mp σ J X E) : List J := m.queued ++ m.running ++ m.respQ.map Prod.fst

/-- Every step of the sequence does something. -/
def Effective (S : Source σ J X ε E) : Mp σ J X E → List (Step X ε) → Prop
  | _, [] => True
  | m, s :: l => m.step S s ≠ m ∧ Effective S (m.step S s) l

end Gomill.Jobs
