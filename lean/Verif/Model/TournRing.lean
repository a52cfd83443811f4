import Verif.Model.RingAny
import Verif.Model.RingLive
import Verif.Model.Ringmaster
import Verif.Model.Table
/-
The tournaments as Competitions, for the ringmasters of RingAny and RingLive.
-/
namespace Gomill.Tourn
open Py Sched
open Gomill.Ring (Competition)

/-- Exceptions from the methods of a tournament: during a run, or from `set_status`. -/
inductive CErr where
  | py (e : Exc)
  | load (e : LoadErr)
  deriving DecidableEq, Repr

/-- A result of a method, as one of RingAny's. -/
def liftRes {α β : Type} : Except Exc α × β → Except CErr α × β
  | (.ok a, b) => (.ok a, b)
  | (.error x, b) => (.error (.py x), b)

/-- game_jobs.py:115-127: a Game_job_response: the outcome of the game, its warnings and its log entries. -/
structure Response where
  outcome : Outcome
  warnings : List Str
  logEntries : List Str

/-- tournaments.py:182-262, 290-293 (and allplayalls.py:150-166): the methods which the ringmaster calls. -/
def competition (c : Comp) : Competition State Job Response Unit Saved CErr where
  gameId := Job.gameId
  clean _ := .ok (State.clean c)
  save := State.save
  load _ s := match State.load c s with
    | .ok t => .ok t
    | .error x => .error (.load x)
  getGame _ t := liftRes t.getGame
  processResult _ j x t := liftRes (t.processGameResult j (j.result x.outcome))
  processError _ j _ t := (.ok (t.processGameError j).1, (t.processGameError j).2)
  screenReport _ t := (.ok (), t.touchAll)

/-- `"%7s %s" % (game_id, game_result.describe())` -/
def historyLine (j : Job) (x : Response) : Str := Tab.rjust j.gameId 7 ++ ' ' :: (j.result x.outcome).describe

/-- The texts which a tournament provides: tournaments.py:219-220 (the players' codes), 248 (what process_game_result logs, once nothing can be raised);
ringmasters.py:640-642 (`game_result.describe()`: process_game_result returns None, so it's the game result's own description which is shown). `report` is
what write_screen_report writes (see Reports). -/
def texts (report : State → Str) : Ring.Live.Texts State Job Response Unit where
  black := Job.playerB
  white := Job.playerW
  warnings := Response.warnings
  logEntries := Response.logEntries
  describe _ := []
  described _ j x _ := some (j.result x.outcome).describe
  report _ := report
  gameLog _ _ := []
  resultLog _ j x t := match t.processGameResult j (j.result x.outcome) with
    | (.ok _, _) => [(false, historyLine j x)]
    | (.error _, _) => []
  errorLog _ _ _ _ := []

end Gomill.Tourn
