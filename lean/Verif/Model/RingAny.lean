import Verif.Model.Py
import Verif.Model.JobManager
/-
Model of gomill/ringmasters.py 508-706 with an arbitrary competition: any object with the Competition methods which the
ringmaster calls during a run (competitions.py:290-394).

Not modelled: the log, history and screen texts, and `_prepare_job` (file names, which are modelled in RingFiles).
-/
namespace Gomill.Ring
open Jobs

abbrev Str := List Char

/-- The methods of a Competition (competitions.py:290-394), for jobs `J`, results `X`, exceptions `E` and status values `V`.
`η` is what the environment decides in a call (random numbers, the user's functions...).  A method returns or raises, and may
change the competition's state.  `getGame` gives `none` for NoGameAvailable; `processError` gives the pair
(stop_competition, retry_game). -/
structure Competition (σ J X η V E : Type) where
  gameId : J → Str
  clean : η → Except E σ
  save : σ → V
  load : η → V → Except E σ
  getGame : η → σ → Except E (Option J) × σ
  processResult : η → J → X → σ → Except E Unit × σ
  processError : η → J → Nat → σ → Except E (Bool × Bool) × σ
  screenReport : η → σ → Except E Unit × σ

/-- Exceptions from the ringmaster's job-source methods: RingmasterInternalError for a duplicate game id (618), KeyError from
a dict, RingmasterError when the status file can't be written (401), or whatever the competition raises. -/
inductive RExc (E : Type) where
  | duplicateGameId
  | keyError
  | statusWrite
  | comp (e : E)
  deriving DecidableEq, Repr

/-- A record, kept by the model and not by the program, of what the ringmaster asks of the competition and what it starts. -/
inductive Act (σ J X E : Type) where
  | offered (j : J)                   -- get_game() returned a job, which was started
  | noGame                            -- get_game() returned NoGameAvailable
  | clash (j : J)                     -- get_game() returned a job with the id of a game in progress
  | again (j : J)                     -- a failed game was started again
  | halted                            -- a stop was requested, or max-games was reached
  | result (j : J) (x : X) (after : σ)  -- process_game_result() returned, leaving the competition's state `after`
  | failed (j : J) (count : Nat) (stop retry : Bool) (after : σ)  -- process_game_error() returned (stop, retry)
  | raised (e : E)                    -- a method of the competition raised
  deriving DecidableEq, Repr

variable {σ J X η V E : Type}

/-- ringmasters.py:377-381: the state of a running Ringmaster.  The dicts `games_in_progress` and `games_to_replay` are lists
of jobs (the key is the job's game id). `disk` is the status file (`none`: no file). -/
structure RM (σ J X V E : Type) where
  comp : σ
  voidGameCount : Nat
  inProgress : List J
  toReplay : List J
  errorCounts : List (Str × Nat)
  maxGames : Option Int
  stopping : Bool
  disk : Option (Nat × V)
  acts : List (Act σ J X E)

/-- What the environment decides in a call: whether a stop is requested (terminal or command file, 587-604), which item
`popitem` gives (612), whether the display is on (524), whether writing the status file works (398), and the environment of
the competition's method and of its screen report. -/
structure Env (η : Type) where
  stop : Bool
  pick : Nat
  display : Bool
  diskOk : Bool
  call : η
  report : η

/-- `d[game_id] = job` -/
def storeJob (C : Competition σ J X η V E) (d : List J) (j : J) : List J :=
  d.filter (fun j' => C.gameId j' ≠ C.gameId j) ++ [j]

/-- `d.pop(game_id)`, or `del d[game_id]`; `none` is KeyError. -/
def popJob (C : Competition σ J X η V E) (d : List J) (gameId : Str) : Option (J × List J) :=
  match d.find? (fun j => C.gameId j = gameId) with
  | none => none
  | some j => some (j, d.filter (fun j' => C.gameId j' ≠ gameId))

/-- `self.game_error_counts.get(game_id, 0)` -/
def errorCount (l : List (Str × Nat)) (gameId : Str) : Nat := (l.lookup gameId).getD 0

/-- ringmasters.py:518-556 `_update_display`. -/
def RM.updateDisplay (C : Competition σ J X η V E) (s : RM σ J X V E) (display : Bool) (e : η) :
    Except (RExc E) Unit × RM σ J X V E :=
  if display then
    match C.screenReport e s.comp with
    | (.ok _, c) => (.ok (), { s with comp := c })
    | (.error x, c) => (.error (.comp x), { s with comp := c, acts := .raised x :: s.acts })
  else (.ok (), s)

/-- ringmasters.py:621. -/
def RM.startJob (C : Competition σ J X η V E) (s : RM σ J X V E) (j : J) : RM σ J X V E :=
  { s with inProgress := storeJob C s.inProgress j }

/-- ringmasters.py:614-621: a new game from the competition. -/
def RM.newGame (C : Competition σ J X η V E) (e : Env η) (s : RM σ J X V E) :
    Except (RExc E) (Option J) × RM σ J X V E :=
  match C.getGame e.call s.comp with
  | (.error x, c) => (.error (.comp x), { s with comp := c, acts := .raised x :: s.acts })
  | (.ok none, c) => (.ok none, { s with comp := c, acts := .noGame :: s.acts })
  | (.ok (some j), c) =>
    if C.gameId j ∈ s.inProgress.map C.gameId then
      (.error .duplicateGameId, { s with comp := c, acts := .clash j :: s.acts })
    else (.ok (some j), RM.startJob C { s with comp := c, acts := .offered j :: s.acts } j)

/-- ringmasters.py:611-626. -/
def RM.nextJob (C : Competition σ J X η V E) (e : Env η) (s : RM σ J X V E) :
    Except (RExc E) (Option J) × RM σ J X V E :=
  match s.toReplay[e.pick % s.toReplay.length]? with
  | some j =>
    (.ok (some j), RM.startJob C
      { s with toReplay := s.toReplay.filter (fun j' => C.gameId j' ≠ C.gameId j), acts := .again j :: s.acts } j)
  | none => s.newGame C e

/-- ringmasters.py:508-516 `_halt_competition`, for the reasons of 588, 597 and 607. -/
def RM.halt (s : RM σ J X V E) : RM σ J X V E := { s with stopping := true, acts := .halted :: s.acts }

/-- ringmasters.py:581-626 `_get_job`. -/
def RM.getJob1 (C : Competition σ J X η V E) (e : Env η) (s : RM σ J X V E) :
    Except (RExc E) (Option J) × RM σ J X V E :=
  if s.stopping then (.ok none, s)
  else if e.stop then (.ok none, s.halt)
  else match s.maxGames with
    | none => s.nextJob C e
    | some k => if k = 0 then (.ok none, s.halt) else RM.nextJob C e { s with maxGames := some (k - 1) }

/-- ringmasters.py:575-579 `get_job`. -/
def RM.getJob (C : Competition σ J X η V E) (e : Env η) (s : RM σ J X V E) :
    Except (RExc E) (Option J) × RM σ J X V E :=
  match s.getJob1 C e with
  | (.error x, s) => (.error x, s)
  | (.ok r, s) => match s.updateDisplay C e.display e.report with
    | (.error x, s) => (.error x, s)
    | (.ok _, s) => (.ok r, s)

/-- ringmasters.py:383-401 `write_status`: the new file replaces the old one by a rename, so a crash leaves one or the
other. -/
def RM.writeStatus (C : Competition σ J X η V E) (s : RM σ J X V E) (e : Env η) :
    Except (RExc E) Unit × RM σ J X V E :=
  if e.diskOk then (.ok (), { s with disk := some (s.voidGameCount, C.save s.comp) }) else (.error .statusWrite, s)

/-- ringmasters.py:628-643 `process_response`. -/
def RM.processResponse (C : Competition σ J X η V E) (e : Env η) (j : J) (x : X) (s : RM σ J X V E) :
    Except (RExc E) Unit × RM σ J X V E :=
  match C.processResult e.call j x s.comp with
  | (.error y, c) => (.error (.comp y), { s with comp := c, acts := .raised y :: s.acts })
  | (.ok _, c) =>
    match popJob C s.inProgress (C.gameId j) with
    | none => (.error .keyError, { s with comp := c, acts := .result j x c :: s.acts })
    | some (_, d) => RM.writeStatus C { s with comp := c, inProgress := d, acts := .result j x c :: s.acts } e

/-- ringmasters.py:653-660: bookkeeping for a game which failed. `del game_error_counts[...]` is only reached when the key is
there. -/
def RM.bookError (C : Competition σ J X η V E) (s : RM σ J X V E) (j : J) (previous : Nat) (retry : Bool) :
    Option (RM σ J X V E) :=
  match popJob C s.inProgress (C.gameId j) with
  | none => none
  | some (j', d) =>
    if retry then
      some { s with inProgress := d, toReplay := storeJob C s.toReplay j'
                    errorCounts := (C.gameId j, previous + 1) :: s.errorCounts.filter (fun p => p.1 ≠ C.gameId j) }
    else if previous ≠ 0 then
      some { s with inProgress := d, errorCounts := s.errorCounts.filter (fun p => p.1 ≠ C.gameId j) }
    else some { s with inProgress := d }

/-- ringmasters.py:645-665 `process_error_response`. -/
def RM.processError (C : Competition σ J X η V E) (e : Env η) (j : J) (s : RM σ J X V E) :
    Except (RExc E) Unit × RM σ J X V E :=
  match C.processError e.call j (errorCount s.errorCounts (C.gameId j)) s.comp with
  | (.error y, c) =>
    (.error (.comp y), { s with comp := c, voidGameCount := s.voidGameCount + 1, acts := .raised y :: s.acts })
  | (.ok (stop, retry), c) =>
    match RM.bookError C { s with comp := c, voidGameCount := s.voidGameCount + 1
                                  acts := .failed j (errorCount s.errorCounts (C.gameId j)) stop retry c :: s.acts }
        j (errorCount s.errorCounts (C.gameId j)) (retry && !stop) with
    | none => (.error .keyError, { s with comp := c, voidGameCount := s.voidGameCount + 1
                                          acts := .failed j (errorCount s.errorCounts (C.gameId j)) stop retry c :: s.acts })
    | some s' => match s'.writeStatus C e with
      | (.error x, s') => (.error x, s')
      | (.ok _, s') => (.ok (), if stop && !s'.stopping then { s' with stopping := true } else s')

/-- The ringmaster as a job source (ringmasters.py:702-706). -/
def source (C : Competition σ J X η V E) : Source (RM σ J X V E) J X (Env η) (RExc E) where
  getJob := RM.getJob C
  processResponse := RM.processResponse C
  processError := RM.processError C

/-- ringmasters.py:440-449 `set_clean_status` / 408-438 `load_status`, as chosen by ringmaster_command_line.py:25-28; then
699 and 700 (`_update_display`). `none`: the run ends with an exception before it starts. -/
def RM.start (C : Competition σ J X η V E) (maxGames : Option Int) (e : Env η) (disk : Option (Nat × V)) :
    Option (RM σ J X V E) :=
  match (match disk with
    | none => ((C.clean e.call).toOption).map (fun c => (0, c))
    | some (v, saved) => ((C.load e.call saved).toOption).map (fun c => (v, c))) with
  | none => none
  | some (v, c) =>
    match RM.updateDisplay C ⟨c, v, [], [], [], maxGames, false, disk, []⟩ e.display e.report with
    | (.ok _, s) => some s
    | (.error _, _) => none

/-- The whole system: nothing running (just the status file), or a run in progress. -/
inductive World (σ J X V E : Type) where
  | down (disk : Option (Nat × V))
  | up (m : Mp (RM σ J X V E) J X (RExc E))

/-- What can happen: `ringmaster <control file> run` with the given --max-games and number of workers; a step of the managing
process or of a worker; the end of the managing process, by completion, error, or crash. -/
inductive Event (X η : Type) where
  | start (maxGames : Option Int) (e : Env η) (workers : Nat)
  | step (s : Step X (Env η))
  | down

def World.disk : World σ J X V E → Option (Nat × V)
  | .down d => d
  | .up m => m.src.disk

/-- ringmaster_command_line.py:15-32 `do_run`.  While a run is in progress another can't start (ringmasters.py:261-266).
job_manager.py:76 requires between 1 and 1023 workers. (A run without worker processes is like one with a single worker:
`C41_one_worker`.) -/
def World.step (C : Competition σ J X η V E) : World σ J X V E → Event X η → World σ J X V E
  | .down d, .start maxGames e workers =>
    match RM.start C maxGames e d with
    | none => .down d
    | some s => if 1 ≤ workers ∧ workers < 1024 then .up (Mp.start s workers) else .down d
  | .down d, _ => .down d
  | .up m, .step s => .up (m.step (source C) s)
  | .up m, .down => .down m.src.disk
  | .up m, .start .. => .up m

/-- The world after some events, starting from no status file. -/
def World.after (C : Competition σ J X η V E) (events : List (Event X η)) : World σ J X V E :=
  events.foldl (World.step C) (.down none)

end Gomill.Ring
