import Verif.Model.ControlFile
/-
Model of the ringmaster's use of the filesystem: ringmasters.py:247-305, 367-374, 558-573 and 727-754.
-/
namespace Gomill.Conf
open Py

/-- A file (with a number to identify it, as several files can in turn have the same pathname) or directory. -/
inductive Node where
  | file (id : Nat) (text : Str)
  | dir
  deriving DecidableEq, Repr

/-- A filesystem: what there is at each pathname. There are no links, and a file has a single pathname. -/
abbrev Fs := Str → Option Node

/-- `os.remove` and `shutil.rmtree`: the text of the EnvironmentError, if any, and the filesystem afterwards. -/
structure Os where
  remove : Str → Fs → Option Str × Fs
  rmtree : Str → Fs → Option Str × Fs

/-! ### Deleting -/

/-- ringmasters.py:740-744 (or 750-754): if there is something there, remove it. The list is the errors printed. -/
def deleteOne (op : Str → Fs → Option Str × Fs) (x : List Str × Fs) (pathname : Str) : List Str × Fs :=
  if (x.2 pathname).isSome then
    match op pathname x.2 with
    | (some e, fs) => (x.1 ++ [e], fs)
    | (none, fs) => (x.1, fs)
  else x

/-- ringmasters.py:727-754 `delete_state_and_output`. -/
def deleteStateAndOutput (O : Os) (P : Paths) (fs : Fs) : List Str × Fs :=
  [P.sgfDir, P.voidDir, P.gtplogDir].foldl (deleteOne O.rmtree) ([P.log, P.status, P.command, P.history, P.report].foldl (deleteOne O.remove) ([], fs))

/-! ### Jobs -/

/-- ringmasters.py:367-369 `get_sgf_filename`. -/
def sgfFilename (gameId : Str) : Str := gameId ++ ".sgf".toList

/-- ringmasters.py:371-374 `get_sgf_pathname`. -/
def sgfPathname (P : Paths) (gameId : Str) : Str := Gtp.pathJoin P.sgfDir (sgfFilename gameId)

/-- ringmasters.py:558-573 `_prepare_job`. -/
def prepareJob {τ δ : Type} (r : Ringmaster τ) (writeGtpLogs : Bool) (job : Gtp.GameJob δ) : Gtp.GameJob δ :=
  let job : Gtp.GameJob δ := { job with sgfGameName := some (r.paths.code ++ ' ' :: job.gameId) }
  let job : Gtp.GameJob δ :=
    if r.recordGames then { job with sgfFilename := some (sgfFilename job.gameId), sgfDirname := some r.paths.sgfDir, voidSgfDirname := some r.paths.voidDir } else job
  let job : Gtp.GameJob δ := if writeGtpLogs then { job with gtpLogPathname := some (Gtp.pathJoin r.paths.gtplogDir (job.gameId ++ ".log".toList)) } else job
  if r.stderrToLog then { job with stderrPathname := some r.paths.log } else job

/-! ### Opening files -/

/-- What happens when the ringmaster opens its files: EnvironmentErrors from `open` in mode "a", `os.remove` and `os.mkdir`; and whether `fcntl.flock` works, and if not
the text of the IOError (if it is an IOError). -/
structure OpenWorld where
  openFails : Str → Option Str
  removeFails : Str → Option Str
  mkdirFails : Str → Option Str
  flock : Except (Option Str) Unit

/-- The filesystem, and which run of the ringmaster (if any) holds the lock on each file. -/
structure Machine where
  fs : Fs
  lock : Nat → Option Nat
  next : Nat

/-- A filesystem with something else at the pathname. -/
def Fs.set (fs : Fs) (p : Str) (n : Option Node) : Fs := fun q => if q = p then n else fs q

/-- `open(p, "a")`: the file's number, unless there's an EnvironmentError. -/
def openAppend (O : OpenWorld) (p : Str) (m : Machine) : Except Str Nat × Machine :=
  match O.openFails p with
  | some e => (.error e, m)
  | none => match m.fs p with
    | some (.file i _) => (.ok i, m)
    | some .dir => (.error "[Errno 21] Is a directory".toList, m)
    | none => (.ok m.next, { m with fs := m.fs.set p (some (.file m.next [])), next := m.next + 1 })

/-- `fcntl.flock(f, LOCK_EX|LOCK_NB)`, where `f` has been opened by the run `pid`. -/
def takeLock (pid i : Nat) (m : Machine) : Bool × Machine :=
  match m.lock i with
  | some _ => (false, m)
  | none => (true, { m with lock := fun j => if j = i then some pid else m.lock j })

/-- `if not os.path.exists(p): os.mkdir(p)` -/
def ensureDir (O : OpenWorld) (p : Str) (m : Machine) : Except Str Unit × Machine :=
  match m.fs p with
  | some _ => (.ok (), m)
  | none => match O.mkdirFails p with
    | some e => (.error e, m)
    | none => (.ok (), { m with fs := m.fs.set p (some .dir) })

/-- ringmasters.py:261-268: the lock. The result is the IOError's text, if there was one which was ignored. -/
def lockLog (O : OpenWorld) (pid i : Nat) (m : Machine) : Except RmExc (Option Str) × Machine :=
  match O.flock with
  | .error e => (.ok e, m)
  | .ok () => match takeLock pid i m with
    | (true, m) => (.ok none, m)
    | (false, m) => (.error (.ringmaster "competition is already running".toList), m)

/-- ringmasters.py:270-274: remove any command file. -/
def removeCommand (O : OpenWorld) (p : Str) (m : Machine) : Except RmExc Unit × Machine :=
  match m.fs p with
  | none => (.ok (), m)
  | some n => match O.removeFails p with
    | some e => (.error (.ringmaster ("error removing existing .cmd file:\n".toList ++ e)), m)
    | none => match n with
      | .dir => (.error (.ringmaster ("error removing existing .cmd file:\n".toList ++ "[Errno 21] Is a directory".toList)), m)
      | .file _ _ => (.ok (), { m with fs := m.fs.set p none })

/-- ringmasters.py:281-294: a directory. The handler refers to a variable `e` which only exists if there was an IOError earlier (from flock): otherwise there's an
UnboundLocalError. -/
def outputDir (O : OpenWorld) (what : String) (ignored : Option Str) (p : Str) (m : Machine) : Except RmExc Unit × Machine :=
  match ensureDir O p m with
  | (.ok (), m) => (.ok (), m)
  | (.error _, m) => match ignored with
    | some e => (.error (.ringmaster ("failed to create ".toList ++ what.toList ++ " directory:\n".toList ++ e)), m)
    | none => (.error (.other ⟨.other, "local variable 'e' referenced before assignment".toList⟩), m)

/-- ringmasters.py:247-294 `_open_files`, in the run `pid`. The result is the log file's number. -/
def openFiles (O : OpenWorld) (pid : Nat) (P : Paths) (recordGames writeGtpLogs : Bool) (m : Machine) : Except RmExc Nat × Machine :=
  match openAppend O P.log m with
  | (.error e, m) => (.error (.ringmaster ("failed to open log file:\n".toList ++ e)), m)
  | (.ok i, m) => match lockLog O pid i m with
    | (.error e, m) => (.error e, m)
    | (.ok ignored, m) => match removeCommand O P.command m with
      | (.error e, m) => (.error e, m)
      | (.ok (), m) => match openAppend O P.history m with
        | (.error e, m) => (.error (.ringmaster ("failed to open history file:\n".toList ++ e)), m)
        | (.ok _, m) => match (if recordGames then outputDir O "SGF" ignored P.sgfDir m else (.ok (), m)) with
          | (.error e, m) => (.error e, m)
          | (.ok (), m) => match (if writeGtpLogs then outputDir O "GTP log" ignored P.gtplogDir m else (.ok (), m)) with
            | (.error e, m) => (.error e, m)
            | (.ok (), m) => (.ok i, m)

/-- ringmasters.py:296-305 `_close_files`, or the end of the process: the run's locks are released. -/
def releaseLocks (pid : Nat) (m : Machine) : Machine := { m with lock := fun i => if m.lock i = some pid then none else m.lock i }

end Gomill.Conf
