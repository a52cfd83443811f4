import Verif.Model.Tournament
import Verif.Model.JobManager
/-
Model of gomill/ringmasters.py: the job-source methods, the status file, and starting and ending runs; for tournament
competitions.
-/
namespace Gomill.Tourn
open Py Sched Jobs

/-- Exceptions from the ringmaster's job-source methods: RingmasterInternalError for a duplicate game id (line 618), a
Python exception from the competition or a dict operation, RingmasterError when the status file can't be written (401). -/
inductive RExc where
  | duplicateGameId
  | py (e : Exc)
  | statusWrite
  deriving DecidableEq, Repr

/-- The outcome of a completed game, as far as it isn't determined by the job.  Game_results made by the program satisfy
`jigo` and `noWinner` (see `outcome_of_made` in Props/Ringmaster.lean). -/
structure Outcome where
  res : Res
  cpuB : Option Rat
  cpuW : Option Rat
  jigo : res.isJigo = decide (res.sgfResult = ['0'])
  noWinner : res.isJigo = true → res.winningColour = none

def cpuTimeOf : Option Rat → CpuTime
  | none => .none
  | some q => .secs q

/-- game_jobs.py:229-293 `_run`: the Game_result in the response. -/
def Job.result (j : Job) (x : Outcome) : GameResult :=
  { (GameResult.setPlayers x.res j.playerB j.playerW) with
    gameId := some j.gameId
    cpuTimes := [(j.playerB, cpuTimeOf x.cpuB), (j.playerW, cpuTimeOf x.cpuW)] }

/-- ringmasters.py:377-381: the state of a running Ringmaster.  The dicts `games_in_progress` and `games_to_replay` are
lists of jobs (the key is the job's game id). `disk` is the status file (`none`: no file). -/
structure RM where
  t : State
  voidGameCount : Nat
  inProgress : List Job
  toReplay : List Job
  errorCounts : List (Str × Nat)
  maxGames : Option Int
  stopping : Bool
  disk : Option (Nat × Saved)

/-- What the environment decides in a call: whether a stop is requested (terminal or command file, 587-604), which item
`popitem` gives (612), whether the display is on (524), and whether writing the status file works (398). -/
structure Env where
  stop : Bool
  pick : Nat
  display : Bool
  diskOk : Bool
  deriving DecidableEq, Repr

/-- `d[job.game_id] = job` -/
def storeJob (d : List Job) (j : Job) : List Job := d.filter (fun j' => j'.gameId ≠ j.gameId) ++ [j]

/-- `del d[game_id]` -/
def delJob (d : List Job) (gameId : Str) : Except Exc (List Job) :=
  if gameId ∈ d.map Job.gameId then .ok (d.filter (fun j' => j'.gameId ≠ gameId)) else .error .keyError

/-- ringmasters.py:518-556 `_update_display`: what it changes. -/
def RM.updateDisplay (s : RM) (e : Env) : RM := if e.display then { s with t := s.t.touchAll } else s

/-- ringmasters.py:621-626: the job is started. -/
def RM.startJob (s : RM) (j : Job) : Except RExc (Option Job) × RM :=
  (.ok (some j), { s with inProgress := storeJob s.inProgress j })

/-- ringmasters.py:614-620: a new game from the competition. -/
def RM.newGame (s : RM) : Except RExc (Option Job) × RM :=
  match s.t.getGame with
  | (.error x, t) => (.error (.py x), { s with t := t })
  | (.ok none, t) => (.ok none, { s with t := t })
  | (.ok (some j), t) =>
    if j.gameId ∈ s.inProgress.map Job.gameId then (.error .duplicateGameId, { s with t := t })
    else RM.startJob { s with t := t } j

/-- ringmasters.py:611-626. -/
def RM.nextJob (s : RM) (e : Env) : Except RExc (Option Job) × RM :=
  match s.toReplay[e.pick % s.toReplay.length]? with
  | some j => RM.startJob { s with toReplay := s.toReplay.filter (fun j' => j'.gameId ≠ j.gameId) } j
  | none => s.newGame

/-- ringmasters.py:581-626 `_get_job`. -/
def RM.getJob1 (s : RM) (e : Env) : Except RExc (Option Job) × RM :=
  if s.stopping then (.ok none, s)
  else if e.stop then (.ok none, { s with stopping := true })
  else match s.maxGames with
    | none => s.nextJob e
    | some k =>
      if k = 0 then (.ok none, { s with stopping := true })
      else RM.nextJob { s with maxGames := some (k - 1) } e

/-- ringmasters.py:575-579 `get_job`. -/
def RM.getJob (e : Env) (s : RM) : Except RExc (Option Job) × RM :=
  match s.getJob1 e with
  | (.error x, s) => (.error x, s)
  | (.ok r, s) => (.ok r, s.updateDisplay e)

/-- ringmasters.py:383-401 `write_status`: the new file replaces the old one by a rename, so a crash leaves one or the
other. -/
def RM.writeStatus (s : RM) (e : Env) : Except RExc Unit × RM :=
  if e.diskOk then (.ok (), { s with disk := some (s.voidGameCount, s.t.save) }) else (.error .statusWrite, s)

/-- ringmasters.py:628-643 `process_response`. -/
def RM.processResponse (e : Env) (j : Job) (x : Outcome) (s : RM) : Except RExc Unit × RM :=
  match s.t.processGameResult j (j.result x) with
  | (.error x, t) => (.error (.py x), { s with t := t })
  | (.ok _, t) =>
    match delJob s.inProgress j.gameId with
    | .error x => (.error (.py x), { s with t := t })
    | .ok d => RM.writeStatus { s with t := t, inProgress := d } e

/-- `self.game_error_counts.get(game_id, 0)` -/
def errorCount (l : List (Str × Nat)) (gameId : Str) : Nat :=
  match l.lookup gameId with
  | some n => n
  | none => 0

/-- ringmasters.py:653-660: bookkeeping for a game which failed.  `del game_error_counts[...]` is only reached when the
key is there. -/
def RM.bookError (s : RM) (j : Job) (retry : Bool) : Except Exc RM :=
  match delJob s.inProgress j.gameId with
  | .error x => .error x
  | .ok d =>
    if retry then
      .ok { s with inProgress := d, toReplay := storeJob s.toReplay j
                   errorCounts := (j.gameId, errorCount s.errorCounts j.gameId + 1) ::
                     s.errorCounts.filter (fun p => p.1 ≠ j.gameId) }
    else .ok { s with inProgress := d, errorCounts := s.errorCounts.filter (fun p => p.1 ≠ j.gameId) }

/-- ringmasters.py:645-665 `process_error_response`. -/
def RM.processError (e : Env) (j : Job) (s : RM) : Except RExc Unit × RM :=
  let r := s.t.processGameError j
  match RM.bookError { s with t := r.2, voidGameCount := s.voidGameCount + 1 } j (r.1.2 && !r.1.1) with
  | .error x => (.error (.py x), s)
  | .ok s' => match s'.writeStatus e with
    | (.error x, s') => (.error x, s')
    | (.ok _, s') => (.ok (), if r.1.1 && !s'.stopping then { s' with stopping := true } else s')

/-- The ringmaster as a job source (ringmasters.py:702-706). -/
def source : Source RM Job Outcome Env RExc where
  getJob := RM.getJob
  processResponse := RM.processResponse
  processError := RM.processError

/-- ringmasters.py:440-449 `set_clean_status` / 408-438 `load_status`, as chosen by ringmaster_command_line.py:25-28; then
699 and 700 (`_update_display`, with the display on or off). -/
def RM.start (c : Comp) (maxGames : Option Int) (display : Bool) (disk : Option (Nat × Saved)) : Except LoadErr RM :=
  match disk with
  | none => .ok (RM.updateDisplay ⟨State.clean c, 0, [], [], [], maxGames, false, none⟩ ⟨false, 0, display, true⟩)
  | some (v, saved) => match State.load c saved with
    | .error e => .error e
    | .ok t => .ok (RM.updateDisplay ⟨t, v, [], [], [], maxGames, false, some (v, saved)⟩ ⟨false, 0, display, true⟩)

/-- The whole system: nothing running (just the status file), or a run in progress. -/
inductive World where
  | down (disk : Option (Nat × Saved))
  | up (m : Mp RM Job Outcome RExc)

/-- What can happen: `ringmaster <control file> run` with the given control file, --max-games and number of workers; a step
of the managing process or of a worker; the end of the managing process, by completion, error, or crash. -/
inductive Event where
  | start (c : Control) (maxGames : Option Int) (display : Bool) (workers : Nat)
  | step (s : Step Outcome Env)
  | down

/-- The status file. -/
def World.disk : World → Option (Nat × Saved)
  | .down d => d
  | .up m => m.src.disk

/-- ringmaster_command_line.py:15-32 `do_run`. A control file or status file problem ends the run before it starts. While a
run is in progress another can't start (ringmasters.py:261-266).  job_manager.py:76 requires between 1 and 1023 workers. -/
def World.step : World → Event → World
  | .down d, .start c maxGames display workers =>
    match c.initialise with
    | .error _ => .down d
    | .ok comp => match RM.start comp maxGames display d with
      | .error _ => .down d
      | .ok s => if 1 ≤ workers ∧ workers < 1024 then .up (Mp.start s workers) else .down d
  | .down d, _ => .down d
  | .up m, .step s => .up (m.step source s)
  | .up m, .down => .down m.src.disk
  | .up m, .start .. => .up m

/-- The world after some events, starting from no status file. -/
def World.after (events : List Event) : World := events.foldl World.step (.down none)

end Gomill.Tourn
