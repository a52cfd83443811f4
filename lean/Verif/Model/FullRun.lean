import Verif.Model.Reports
import Verif.Model.Ringmaster
/-
Model of the ringmaster's `report` command for tournaments: ringmaster_command_line.py:43-47 and ringmasters.py:408-438 and 494-498.

Not modelled: engine descriptions in the status file (they're given), opening the report file.
-/
namespace Gomill.Conf
open Py

/-- Why there's no report: RingmasterError("no status file"), RingmasterError from load_status (ringmasters.py:428-437), or an exception while writing the report. -/
inductive ReportErr where
  | noStatusFile
  | load (e : Tourn.LoadErr)
  | py (e : Exc)
  deriving DecidableEq

def toReport : Except Exc (List Str) → Except ReportErr (List Str)
  | .ok l => .ok l
  | .error e => .error (.py e)

/-- ringmaster_command_line.py:43-47 `do_report`, for a Playoff: what's in the report file. -/
def reportPlayoff (F : Fmt) (p : Playoff) (disk : Option (Nat × Tourn.Saved)) (descriptions : List (Str × Str)) : Except ReportErr (List Str) :=
  match disk with
  | none => .error .noStatusFile
  | some (_, saved) => match Tourn.State.load p.comp saved with
    | .error e => .error (.load e)
    | .ok t => toReport (playoffReport F p t.results t.ghosts descriptions)

/-- ringmaster_command_line.py:43-47 `do_report`, for an Allplayall. -/
def reportAllplayall (F : Fmt) (a : Allplayall) (disk : Option (Nat × Tourn.Saved)) (descriptions : List (Str × Str)) : Except ReportErr (List Str) :=
  match disk with
  | none => .error .noStatusFile
  | some (_, saved) => match Tourn.State.load a.comp saved with
    | .error e => .error (.load e)
    | .ok t => toReport (allplayallReport F a t.results descriptions)

end Gomill.Conf
