import Verif.Model.RingFiles
import Verif.Spec.ControlFile
/-
What is meant by the ringmaster's files, for C78 and C79.
-/
namespace Gomill.Conf.Spec
open Py

/-- `q` is a pathname of something in the directory `d`, or in a directory below it. -/
def Below (d q : Str) : Prop := ∃ rest, q = d ++ '/' :: rest

/-- The output directories. -/
def outputDirs (P : Paths) : List Str := [P.sgfDir, P.voidDir, P.gtplogDir]

/-- `os.remove` removes a single file, and `shutil.rmtree` a directory and everything in it; if there's an error, the first does nothing, and the second may already have
removed some of them. -/
structure OsOK (O : Os) : Prop where
  remove : ∀ {p fs fs'}, O.remove p fs = (none, fs') → fs' p = none ∧ ∀ q, q ≠ p → fs' q = fs q
  removeError : ∀ {p fs e fs'}, O.remove p fs = (some e, fs') → ∀ q, fs' q = fs q
  rmtree : ∀ {p fs fs'}, O.rmtree p fs = (none, fs') → fs' p = none ∧ (∀ q, Below p q → fs' q = none) ∧ ∀ q, q ≠ p → ¬ Below p q → fs' q = fs q
  rmtreeError : ∀ {p fs e fs'}, O.rmtree p fs = (some e, fs') → ∀ q, fs' q = fs q ∨ (fs' q = none ∧ (q = p ∨ Below p q))

/-- A job which the ringmaster has prepared: only the game's name and the pathnames have been set. -/
structure PreparedJob {τ δ : Type} (r : Ringmaster τ) (gtpLogs : Bool) (job j : Gtp.GameJob δ) : Prop where
  same : j = { job with sgfGameName := j.sgfGameName, sgfFilename := j.sgfFilename, sgfDirname := j.sgfDirname, voidSgfDirname := j.voidSgfDirname, gtpLogPathname := j.gtpLogPathname, stderrPathname := j.stderrPathname }
  name : j.sgfGameName = some (r.paths.code ++ " ".toList ++ job.gameId)
  record : r.recordGames = true → j.sgfFilename = some (job.gameId ++ ".sgf".toList) ∧ j.sgfDirname = some r.paths.sgfDir ∧ j.voidSgfDirname = some r.paths.voidDir
  noRecord : r.recordGames = false → j.sgfFilename = job.sgfFilename ∧ j.sgfDirname = job.sgfDirname ∧ j.voidSgfDirname = job.voidSgfDirname
  gtpLog : j.gtpLogPathname = if gtpLogs then some (r.paths.gtplogDir ++ "/".toList ++ job.gameId ++ ".log".toList) else job.gtpLogPathname
  stderr : j.stderrPathname = if r.stderrToLog then some r.paths.log else job.stderrPathname

/-! ### Runs -/

/-- A run of a ringmaster which has opened its files. `file` is the log file's number. -/
structure RunOf where
  pid : Nat
  paths : Paths
  file : Nat

/-- The computer, and the runs in progress. -/
structure Session where
  machine : Machine
  running : List RunOf

/-- The log file of a run is still there. -/
def KeepsLog (fs : Fs) (r : RunOf) : Prop := ∃ t, fs r.paths.log = some (.file r.file t)

/-- A file has a single pathname, and new files get new numbers. -/
def FilesOK (m : Machine) : Prop :=
  (∀ p q i t u, m.fs p = some (.file i t) → m.fs q = some (.file i u) → p = q) ∧ ∀ p i t, m.fs p = some (.file i t) → i < m.next

/-- What can happen: a run starts, or fails to start; a run ends (perhaps because its process is killed); something else changes files, without removing the log file of a run. -/
inductive Happens : Session → Session → Prop
  | start {s O pid control P recordGames gtpLogs i m} : O.flock = .ok () → pathsOf control = .ok P → (∀ r ∈ s.running, r.pid ≠ pid) →
      openFiles O pid P recordGames gtpLogs s.machine = (.ok i, m) → Happens s ⟨m, ⟨pid, P, i⟩ :: s.running⟩
  | fail {s O pid control P recordGames gtpLogs e m} : O.flock = .ok () → pathsOf control = .ok P → (∀ r ∈ s.running, r.pid ≠ pid) →
      openFiles O pid P recordGames gtpLogs s.machine = (.error e, m) → Happens s ⟨releaseLocks pid m, s.running⟩
  | finish {s pid} : Happens s ⟨releaseLocks pid s.machine, s.running.filter (fun r => r.pid ≠ pid)⟩
  | other {s fs next} : (∀ r ∈ s.running, KeepsLog fs r) → s.machine.next ≤ next → FilesOK ⟨fs, s.machine.lock, next⟩ → Happens s ⟨⟨fs, s.machine.lock, next⟩, s.running⟩

/-- What can be reached, from a computer on which there are no locks. -/
inductive Reach : Session → Prop
  | init {m} : FilesOK m → (∀ i, m.lock i = none) → Reach ⟨m, []⟩
  | step {s s'} : Reach s → Happens s s' → Reach s'

/-- The text of a file (none if there isn't one). -/
def textOf : Option Node → Str
  | some (.file _ t) => t
  | _ => []

end Gomill.Conf.Spec
