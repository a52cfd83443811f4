import Verif.Model.RingAny
import Verif.Model.Cem
/-
The CEM tuner as a Competition, for the ringmaster of RingAny.
-/
namespace Gomill.Cem

/-- cem_tuners.py:252-283 and 410-471: the methods which the ringmaster calls.  (If process_game_result() raises, the run ends and the tuner isn't used any more, so its state doesn't matter.)
`describeOk` is about the user's transform() functions when parameters are shown: in the game's SGF note (439), and in the screen report (519). -/
def tunerCompetition (c : Config) : Ring.Competition Tuner Job Res Env Saved TExc where
  gameId j := j.gameId
  clean e := Tuner.clean c e
  save t := t.save
  load e s := Tuner.load c e s
  getGame e t := t.getGame c e
  processResult e j x t := match t.processResult c e j (j.result x) with
    | .ok t' => (.ok (), t')
    | .error y => (.error y, t)
  processError _ _ n t := (.ok (t.processError n), t)
  screenReport e t := (if e.describeOk then .ok () else .error .competitionError, t)

end Gomill.Cem
