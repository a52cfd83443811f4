/-
Model of gomill/job_manager.py: the multiprocessing job manager with its worker processes and two queues, and the
in-process job manager.

The job source is any object with the three methods the managers call; what the environment does to a call (clock,
command file, disk...) is the parameter `ε`.  A job's `run()` gives some result `X` or raises (`none`; JobFailed and
other exceptions differ only in the message text, which isn't modelled).

A `multiprocessing.Queue` is a list: `put` appends, `get` takes the first item, or blocks if there is none.
-/
namespace Gomill.Jobs

/-- The job-source methods called at job_manager.py:97,116,127 and 153,171,181.  Each returns or raises, and may change
the source's state. `getJob` gives `none` for NoJobAvailable. -/
structure Source (σ J X ε E : Type) where
  getJob : ε → σ → Except E (Option J) × σ
  processResponse : ε → J → X → σ → Except E Unit × σ
  processError : ε → J → σ → Except E Unit × σ

/-- What happened, as the job source and the jobs see it. This is a record kept by the model, not by the program. -/
inductive Call (J X : Type) where
  | got (j : J)                       -- get_job() returned a job
  | nothing                           -- get_job() returned NoJobAvailable
  | ran (j : J) (x : Option X)        -- a worker ran the job (`none`: it raised)
  | response (j : J) (x : X)          -- process_response() was called
  | error (j : J)                     -- process_error_response() was called
  deriving DecidableEq, Repr

/-- job_manager.py:36-61: what a worker process is doing: waiting for `job_queue.get()`, running a job, or finished. -/
inductive Worker (J : Type) where
  | idle
  | busy (j : J)
  | stopped
  deriving DecidableEq, Repr

/-- job_manager.py:92-136,193-217: where the managing process is: at the top of the loop, blocked at `response_queue.get()`
(line 113), in `finish()` (joining the workers), or out of `run_jobs`.  The last two carry the exception being raised. -/
inductive Phase (E : Type) where
  | looping
  | waiting
  | finishing (exc : Option E)
  | returned (exc : Option E)
  deriving DecidableEq, Repr

/-- job_manager.py:70-90: the state of the whole system.  In `jobQ`, `none` is the worker_finish_signal. A response in
`respQ` is a job with its outcome (a Game_job_result has the identity of its job; a JobError has the job itself). `log`
is the model's record, newest first. -/
structure Mp (σ J X E : Type) where
  src : σ
  number : Nat
  active : Nat
  jobQ : List (Option J)
  workers : List (Worker J)
  respQ : List (J × Option X)
  phase : Phase E
  log : List (Call J X)

variable {σ J X ε E : Type}

/-- job_manager.py:71-94: a new manager with its workers started, at the start of `run_jobs`.  (`number` is between 1 and
1023; line 76.) -/
def Mp.start (src : σ) (number : Nat) : Mp σ J X E :=
  { src := src, number := number, active := 0, jobQ := [], workers := List.replicate number .idle, respQ := [],
    phase := .looping, log := [] }

/-- job_manager.py:138-142 `finish` up to the joins, called from 213 (with an exception pending) or 217. -/
def Mp.beginFinish (m : Mp σ J X E) (exc : Option E) : Mp σ J X E :=
  { m with jobQ := m.jobQ ++ List.replicate m.number none, phase := .finishing exc }

/-- job_manager.py:110-113: the loop body after the attempt to get a job. -/
def Mp.afterGet (m : Mp σ J X E) : Mp σ J X E :=
  if m.active = 0 then m.beginFinish none else { m with phase := .waiting }

/-- job_manager.py:95-109: top of the loop. -/
def Mp.topOfLoop (S : Source σ J X ε E) (e : ε) (m : Mp σ J X E) : Mp σ J X E :=
  if m.active < m.number then
    match S.getJob e m.src with
    | (.error x, s) => Mp.beginFinish { m with src := s } (some x)
    | (.ok (some j), s) =>
      { m with src := s, jobQ := m.jobQ ++ [some j], active := m.active + 1, log := .got j :: m.log }
    | (.ok none, s) => Mp.afterGet { m with src := s, log := .nothing :: m.log }
  else m.afterGet

/-- job_manager.py:135 -/
def Mp.endOfLoop (m : Mp σ J X E) : Except E Unit → Mp σ J X E
  | .ok _ => { m with active := m.active - 1, phase := .looping }
  | .error x => m.beginFinish (some x)

/-- job_manager.py:113-135: a response has arrived. -/
def Mp.takeResponse (S : Source σ J X ε E) (e : ε) (m : Mp σ J X E) : Mp σ J X E :=
  match m.respQ with
  | [] => m
  | (j, none) :: rest =>
    Mp.endOfLoop { m with respQ := rest, src := (S.processError e j m.src).2, log := .error j :: m.log }
      (S.processError e j m.src).1
  | (j, some x) :: rest =>
    Mp.endOfLoop { m with respQ := rest, src := (S.processResponse e j x m.src).2, log := .response j x :: m.log }
      (S.processResponse e j x m.src).1

def Worker.isStopped : Worker J → Bool
  | .stopped => true
  | _ => false

/-- One step of the managing process (nothing, if it is blocked).  Exceptions not in `passed_exceptions` are raised as
JobSourceError (99-104); the wrapping isn't modelled. -/
def Mp.mgr (S : Source σ J X ε E) (e : ε) (m : Mp σ J X E) : Mp σ J X E :=
  match m.phase with
  | .looping => m.topOfLoop S e
  | .waiting => m.takeResponse S e
  | .finishing exc => if m.workers.all Worker.isStopped then { m with phase := .returned exc } else m
  | .returned _ => m

/-- job_manager.py:41-44: worker `k` gets an item from the job queue (nothing, if it isn't waiting or the queue is
empty). -/
def Mp.take (m : Mp σ J X E) (k : Nat) : Mp σ J X E :=
  match m.workers[k]?, m.jobQ with
  | some .idle, some j :: q => { m with jobQ := q, workers := m.workers.set k (.busy j) }
  | some .idle, none :: q => { m with jobQ := q, workers := m.workers.set k .stopped }
  | _, _ => m

/-- job_manager.py:45-55: worker `k` finishes running its job, with the given outcome, and puts the response. -/
def Mp.finishJob (m : Mp σ J X E) (k : Nat) (x : Option X) : Mp σ J X E :=
  match m.workers[k]? with
  | some (.busy j) =>
    { m with respQ := m.respQ ++ [(j, x)], workers := m.workers.set k .idle, log := .ran j x :: m.log }
  | _ => m

/-- A step of one of the processes. -/
inductive Step (X ε : Type) where
  | mgr (e : ε)
  | take (k : Nat)
  | finishJob (k : Nat) (x : Option X)

def Mp.step (S : Source σ J X ε E) (m : Mp σ J X E) : Step X ε → Mp σ J X E
  | .mgr e => m.mgr S e
  | .take k => m.take k
  | .finishJob k x => m.finishJob k x

/-- The system after any interleaving of steps. -/
def Mp.run (S : Source σ J X ε E) (m : Mp σ J X E) (steps : List (Step X ε)) : Mp σ J X E :=
  steps.foldl (Mp.step S) m

/-! ### The in-process job manager -/

/-- job_manager.py:146-191: the state of In_process_job_manager.run_jobs; `over` once it has returned or raised. -/
structure Ip (σ J X E : Type) where
  src : σ
  over : Option (Option E)
  log : List (Call J X)

/-- job_manager.py:150 -/
def Ip.start (src : σ) : Ip σ J X E := { src := src, over := none, log := [] }

/-- job_manager.py:163-188: run the job and process what it gives. -/
def Ip.runJob (S : Source σ J X ε E) (e : ε) (j : J) (m : Ip σ J X E) : Option X → Ip σ J X E
  | none =>
    { src := (S.processError e j m.src).2, log := .error j :: .ran j none :: m.log,
      over := match (S.processError e j m.src).1 with | .ok _ => none | .error x => some (some x) }
  | some x =>
    { src := (S.processResponse e j x m.src).2, log := .response j x :: .ran j (some x) :: m.log,
      over := match (S.processResponse e j x m.src).1 with | .ok _ => none | .error x => some (some x) }

/-- job_manager.py:151-188: one iteration of the loop. -/
def Ip.step (S : Source σ J X ε E) (m : Ip σ J X E) (a : ε × ε × Option X) : Ip σ J X E :=
  match m.over with
  | some _ => m
  | none => match S.getJob a.1 m.src with
    | (.error x, s) => { m with src := s, over := some (some x) }
    | (.ok none, s) => { m with src := s, over := some none, log := .nothing :: m.log }
    | (.ok (some j), s) => Ip.runJob S a.2.1 j { m with src := s, log := .got j :: m.log } a.2.2

def Ip.run (S : Source σ J X ε E) (m : Ip σ J X E) (l : List (ε × ε × Option X)) : Ip σ J X E :=
  l.foldl (Ip.step S) m

end Gomill.Jobs
