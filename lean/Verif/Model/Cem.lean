import Verif.Model.Schedulers
import Verif.Model.Game
import Verif.Model.Text
import Verif.Model.Mcts
/-
Model of gomill/cem_tuners.py: Distribution, update_distribution and Cem_tuner; and of what the ringmaster (gomill/ringmasters.py) does with a
Cem_tuner.

Floating-point numbers are modelled as exact rationals.  What `random.gauss` gives is a parameter (so the standard deviations, which are only
used there, aren't calculated).  Not modelled: game settings, player checks, reports, and the text of the history file and of error messages.
-/
namespace Gomill.Cem
open Py Sched

/-- cem_tuners.py:22-54: the parameters of a Distribution: for each dimension, mean and variance. -/
abbrev Dist := List (Rat × Rat)

/-- cem_tuners.py:31-37 `Distribution.__init__`: there must be a dimension, and `sqrt` raises ValueError for a negative variance. -/
def makeDistribution (d : Dist) : Except Exc Dist :=
  if d = [] then .error .valueError
  else if d.any (fun p => p.2 < 0) then .error .valueError
  else .ok d

/-- `[e[i] for e in elites]` (line 76). -/
def column (elites : List (List Rat)) (i : Nat) : Except Exc (List Rat) :=
  elites.mapM (fun e => match e[i]? with | some x => .ok x | none => .error .indexError)

/-- cem_tuners.py:77-84: the new mean and variance for one dimension.  (There is at least one elite: line 379.) -/
def updateDimension (v : List Rat) (old : Rat × Rat) (step : Rat) : Rat × Rat :=
  let n : Rat := v.length
  let eliteMean := v.sum / n
  let eliteVar := (v.map (fun x => x * x)).sum / n - eliteMean * eliteMean
  (eliteMean * step + old.1 * (1 - step), eliteVar * step + old.2 * (1 - step))

/-- cem_tuners.py:75-84: the loop over the dimensions. -/
def updateLoop (elites : List (List Rat)) (step : Rat) : Nat → Dist → Except Exc Dist
  | _, [] => .ok []
  | i, old :: rest => do
    let v ← column elites i
    let rest ← updateLoop elites step (i + 1) rest
    return updateDimension v old step :: rest

/-- cem_tuners.py:63-85 `update_distribution`. -/
def updateDistribution (d : Dist) (elites : List (List Rat)) (step : Rat) : Except Exc Dist := do
  makeDistribution (← updateLoop elites step 0 d)

/-- The settings of a Cem_tuner (cem_tuners.py:140-155, 231-233). -/
structure Config where
  initial : Dist
  samples : Nat
  batch : Nat
  generations : Nat
  elite : Rat
  step : Rat
  /-- `candidate_colour`; `none` for 'random' -/
  colour : Option Colour
  opponent : Str

/-- What the environment decides: `gauss i k` is what `random.gauss` gives for dimension `k` of candidate `i`; whether the user's `transform` and
`make_candidate` functions work for given optimiser parameters when a candidate is made; and when they are described (lines 382 and 439); what
`random.choice('bw')` gives. -/
structure Env where
  gauss : Nat → Nat → Rat
  makeOk : List Rat → Bool
  describeOk : Bool
  coin : Colour

/-- Exceptions: from Python operations, or a CompetitionError from one of the user's functions. -/
inductive TExc where
  | py (e : Exc)
  | competitionError
  deriving DecidableEq, Repr

/-- cem_tuners.py:236-250: the state of a Cem_tuner.  `candidates` are the candidates' codes. -/
structure Tuner where
  generation : Nat
  distribution : Dist
  sampleParameters : List (List Rat)
  wins : List Rat
  candidates : List Str
  scheduler : Group Nat
  seenSuccess : Bool

/-- cem_tuners.py:319-321 `make_candidate_code`. -/
def candidateCode (generation candidate : Nat) : Str :=
  'g' :: Nat.toDigits 10 generation ++ '#' :: Nat.toDigits 10 candidate

/-- cem_tuners.py:349-366 `prepare_candidates`. -/
def prepareCandidates (e : Env) (generation : Nat) (samples : List (List Rat)) : Except TExc (List Str) :=
  if samples.all e.makeOk then .ok ((List.range samples.length).map (candidateCode generation)) else .error .competitionError

/-- cem_tuners.py:257-260 `_set_scheduler_groups`. -/
def groupSpecs (c : Config) : List (Nat × Option Int) := (List.range c.samples).map (fun i => (i, some (c.batch : Int)))

/-- cem_tuners.py:39-46 `get_sample`, for candidate `i`. -/
def getSample (e : Env) (d : Dist) (i : Nat) : List Rat := (List.range d.length).map (e.gauss i)

/-- cem_tuners.py:285-292 `reset_for_new_generation`. -/
def Tuner.reset (c : Config) (e : Env) (t : Tuner) : Except TExc Tuner :=
  let samples := (List.range c.samples).map (getSample e t.distribution)
  match prepareCandidates e t.generation samples with
  | .error x => .error x
  | .ok candidates => .ok { t with
      sampleParameters := samples, wins := List.replicate c.samples 0, candidates := candidates,
      scheduler := Group.setGroups [] (groupSpecs c) }

/-- cem_tuners.py:129-131 and 252-255: a new Cem_tuner after `set_clean_status`. -/
def Tuner.clean (c : Config) (e : Env) : Except TExc Tuner :=
  Tuner.reset c e ⟨0, c.initial, [], [], [], [], false⟩

/-- cem_tuners.py:265-272 `get_status`. -/
structure Saved where
  generation : Nat
  distribution : Dist
  sampleParameters : List (List Rat)
  wins : List Rat
  scheduler : Group Nat

/-- cem_tuners.py:265-272 `get_status`. -/
def Tuner.save (t : Tuner) : Saved := ⟨t.generation, t.distribution, t.sampleParameters, t.wins, t.scheduler⟩

/-- cem_tuners.py:274-283 `set_status`, on a new Cem_tuner, with an unpickled status. -/
def Tuner.load (c : Config) (e : Env) (s : Saved) : Except TExc Tuner :=
  match makeDistribution s.distribution with
  | .error x => .error (.py x)
  | .ok d => match prepareCandidates e s.generation s.sampleParameters with
    | .error x => .error x
    | .ok candidates => .ok
      { generation := s.generation, distribution := d, sampleParameters := s.sampleParameters, wins := s.wins, candidates := candidates,
        scheduler := (Group.setGroups s.scheduler.reload (groupSpecs c)).rollback, seenSuccess := false }

/-- cem_tuners.py:420-428: the parts of the Game_job which matter here; `game_data` is `candidate`, `code` and `round`. -/
structure Job where
  gameId : Str
  candidate : Nat
  code : Str
  round : Nat
  playerB : Str
  playerW : Str
  deriving DecidableEq, Repr

/-- cem_tuners.py:404-428: the job for a game. -/
def makeJob (c : Config) (e : Env) (candidate : Nat) (code : Str) (round : Nat) : Job :=
  let gameId := code ++ 'r' :: Nat.toDigits 10 round
  match c.colour.getD e.coin with
  | .b => ⟨gameId, candidate, code, round, code, c.opponent⟩
  | .w => ⟨gameId, candidate, code, round, c.opponent, code⟩

/-- cem_tuners.py:410-441 `get_game`; `none` is NoGameAvailable. -/
def Tuner.getGame (c : Config) (e : Env) (t : Tuner) : Except TExc (Option Job) × Tuner :=
  match t.scheduler.issue with
  | (none, g) => (.ok none, { t with scheduler := g })
  | (some (i, round), g) =>
    match t.candidates[i]?, t.sampleParameters[i]? with
    | some code, some _ =>
      if e.describeOk then (.ok (some (makeJob c e i code round)), { t with scheduler := g })
      else (.error .competitionError, { t with scheduler := g })
    | _, _ => (.error (.py .indexError), { t with scheduler := g })

/-- Tuple comparison: is `a` greater than `b`? -/
def pairGreater (a b : Rat × Nat) : Bool := b.1 < a.1 || (a.1 = b.1 && b.2 < a.2)

/-- Insertion into a list in descending order. -/
def insertPair (a : Rat × Nat) : List (Rat × Nat) → List (Rat × Nat)
  | [] => [a]
  | b :: l => if pairGreater b a then b :: insertPair a l else a :: b :: l

/-- `sort(reverse=True)` on a list of distinct pairs. -/
def sortPairs : List (Rat × Nat) → List (Rat × Nat)
  | [] => []
  | a :: l => insertPair a (sortPairs l)

/-- cem_tuners.py:376-378: the candidates by number of wins. -/
def sorter (wins : List Rat) : List (Rat × Nat) := sortPairs wins.zipIdx

/-- cem_tuners.py:379-380 `elite_count`. -/
def eliteCount (c : Config) : Nat := max 1 (Mcts.truncate (c.elite * c.samples + 1 / 2)).toNat

/-- cem_tuners.py:386-387: the parameters of the elite. -/
def eliteSamples (samples : List (List Rat)) (order : List (Rat × Nat)) : Except Exc (List (List Rat)) :=
  order.mapM (fun p => match samples[p.2]? with | some s => .ok s | none => .error .indexError)

/-- cem_tuners.py:368-389 `finish_generation`. -/
def Tuner.finishGeneration (c : Config) (e : Env) (t : Tuner) : Except TExc Tuner :=
  if !e.describeOk then .error .competitionError
  else match eliteSamples t.sampleParameters ((sorter t.wins).take (eliteCount c)) with
    | .error x => .error (.py x)
    | .ok elites => match updateDistribution t.distribution elites c.step with
      | .error x => .error (.py x)
      | .ok d => .ok { t with distribution := d }

/-- cem_tuners.py:450-454: what a game counts for the candidate. -/
def gameScore (code : Str) (winningPlayer : Option Str) : Rat :=
  if winningPlayer = some code then 1 else if winningPlayer = none then 1 / 2 else 0

/-- cem_tuners.py:456-460: the end of `process_game_result`. -/
def Tuner.endOfResult (c : Config) (e : Env) (t : Tuner) : Except TExc Tuner :=
  if t.scheduler.allFixed then
    match t.finishGeneration c e with
    | .error x => .error x
    | .ok t =>
      let t := { t with generation := t.generation + 1 }
      if t.generation ≠ c.generations then t.reset c e else .ok t
  else .ok t

/-- cem_tuners.py:443-460 `process_game_result`.  (An exception ends the run, and the tuner isn't used any more.) -/
def Tuner.processResult (c : Config) (e : Env) (j : Job) (r : GameResult) (t : Tuner) : Except TExc Tuner :=
  match t.scheduler.fix j.candidate j.round with
  | .error x => .error (.py x)
  | .ok g =>
    if j.code ≠ r.playerB ∧ j.code ≠ r.playerW then .error (.py .assertionError)
    else match t.wins[j.candidate]? with
      | none => .error (.py .indexError)
      | some w => Tuner.endOfResult c e
          { t with seenSuccess := true, scheduler := g, wins := t.wins.set j.candidate (w + gameScore j.code r.winningPlayer) }

/-- cem_tuners.py:462-471 `process_game_error`: (stop_competition, retry_game). -/
def Tuner.processError (t : Tuner) (previousErrorCount : Nat) : Bool × Bool :=
  if !t.seenSuccess || 0 < previousErrorCount then (true, false) else (false, true)

/-! ### The ringmaster -/

/-- game_jobs.py:229-293 and gtp_games.py:33-46: the Game_result for a job. -/
def Job.result (j : Job) (x : Res) : GameResult := { GameResult.setPlayers x j.playerB j.playerW with gameId := some j.gameId }

/-- ringmasters.py:377-381: a run in progress: the competition; the jobs in `games_in_progress` and `games_to_replay`, with their entries in
`game_error_counts`; and `stopping`. -/
structure Run where
  config : Config
  tuner : Tuner
  jobs : List (Job × Nat)
  stopping : Bool

/-- A competition's status file, and the run in progress, if any.  `log` is the model's record of the game results which have been processed (latest
first): the game's id and the candidate's score; `savedLog` is those of them which are in the status file. -/
structure Sys where
  run : Option Run
  saved : Option Saved
  log : List (Str × Rat)
  savedLog : List (Str × Rat)

/-- What can happen: `ringmaster run` is started with a control file; the run ends, or crashes; a stop is requested; the ringmaster gets a new job
from the competition; the `k`-th of the jobs it is waiting for gives a result, or fails (`diskOk` says whether the status file can be written
after that). -/
inductive SOp where
  | start (c : Config) (e : Env)
  | down
  | stop
  | getGame (e : Env)
  | result (k : Nat) (x : Res) (e : Env) (diskOk : Bool)
  | error (k : Nat) (diskOk : Bool)

/-- ringmaster_command_line.py:15-32 `do_run`, ringmasters.py:408-449. -/
def startRun (c : Config) (e : Env) (saved : Option Saved) : Except TExc Run :=
  match (match saved with | none => Tuner.clean c e | some s => Tuner.load c e s) with
  | .error x => .error x
  | .ok t => .ok ⟨c, t, [], false⟩

/-- ringmasters.py:383-401 `write_status`; if it fails the run ends. -/
def Sys.writeStatus (s : Sys) (r : Run) (diskOk : Bool) : Sys :=
  if diskOk then { s with run := some r, saved := some r.tuner.save, savedLog := s.log } else { s with run := none }

/-- One step.  (An exception from the competition ends the run.  For starting games which are to be replayed there is nothing to do here: see `Run`.) -/
def Sys.step (s : Sys) : SOp → Sys
  | .start c e =>
    match s.run with
    | some _ => s
    | none => match startRun c e s.saved with
      | .error _ => s
      | .ok r => { s with run := some r, log := s.savedLog }
  | .down => { s with run := none }
  | .stop => match s.run with
    | none => s
    | some r => { s with run := some { r with stopping := true } }
  | .getGame e => match s.run with
    | none => s
    | some r =>
      if r.stopping then s
      else match r.tuner.getGame r.config e with
        | (.error _, _) => { s with run := none }
        | (.ok none, t) => { s with run := some { r with tuner := t } }
        | (.ok (some j), t) => { s with run := some { r with tuner := t, jobs := (j, 0) :: r.jobs } }
  | .result k x e diskOk => match s.run with
    | none => s
    | some r => match r.jobs[k]? with
      | none => s
      | some j => match r.tuner.processResult r.config e j.1 (j.1.result x) with
        | .error _ => { s with run := none }
        | .ok t => Sys.writeStatus
            { s with log := (j.1.gameId, gameScore j.1.code (j.1.result x).winningPlayer) :: s.log }
            { r with tuner := t, jobs := r.jobs.eraseIdx k } diskOk
  | .error k diskOk => match s.run with
    | none => s
    | some r => match r.jobs[k]? with
      | none => s
      | some j =>
        if (r.tuner.processError j.2).2 && !(r.tuner.processError j.2).1 then
          s.writeStatus { r with jobs := r.jobs.set k (j.1, j.2 + 1) } diskOk
        else s.writeStatus { r with jobs := r.jobs.eraseIdx k, stopping := r.stopping || (r.tuner.processError j.2).1 } diskOk

/-- Everything, starting with no status file. -/
def Sys.after (ops : List SOp) : Sys := ops.foldl Sys.step ⟨none, none, [], []⟩

end Gomill.Cem
