import Verif.Model.RingLive
import Verif.Spec.RingAny
/-
What the log, the display and the terminal should show during a run.
-/
namespace Gomill.Ring.Live
open Jobs
variable {σ J X η V E : Type}

/-- The exception of a call, if there was one. -/
def excOf {α : Type} : Except (DExc E) α → Option (DExc E)
  | .ok _ => none
  | .error x => some x

/-- A run with a display (`quiet` or not), some number of workers, --max-games, and the number of void games and the status file before: its start, and then any calls
to get_job, process_response and process_error_response, up to the first exception. -/
inductive Life (C : Competition σ J X η V E) (T : Texts σ J X η) (quiet : Bool) (workers : Option Nat) (mg : Option Int) (v0 : Nat) (d0 : Option (Nat × V)) :
    Desk σ J X V E → Option (DExc E) → Prop where
  | start (now : Str) (termios tty : Bool) (e : LEnv η) (c : σ) (mg' : Option Int) {r : Except (DExc E) Unit} {d : Desk σ J X V E}
      (h : Desk.start C T now quiet workers (Terminal.initialise termios tty) mg e ⟨c, v0, [], [], [], mg', false, d0, []⟩ = (r, d)) :
      Life C T quiet workers mg v0 d0 d (excOf r)
  | getJob (e : LEnv η) {d d' : Desk σ J X V E} {r : Except (DExc E) (Option J)} (hd : Life C T quiet workers mg v0 d0 d none)
      (h : d.getJob C T e = (r, d')) : Life C T quiet workers mg v0 d0 d' (excOf r)
  | response (e : LEnv η) (j : J) (x : X) {d d' : Desk σ J X V E} {r : Except (DExc E) Unit} (hd : Life C T quiet workers mg v0 d0 d none)
      (h : d.processResponse C T e j x = (r, d')) : Life C T quiet workers mg v0 d0 d' (excOf r)
  | error (e : LEnv η) (j : J) {d d' : Desk σ J X V E} {r : Except (DExc E) Unit} (hd : Life C T quiet workers mg v0 d0 d none)
      (h : d.processError C T e j = (r, d')) : Life C T quiet workers mg v0 d0 d' (excOf r)

/-- The exception with which the job manager is ending, or has ended. -/
def endedWith : Phase (DExc E) → Option (DExc E)
  | .finishing x => x
  | .returned x => x
  | _ => none

/-- What has happened between the ringmaster and the competition, newest first. -/
def actsOf (t : List (Eff σ J X V E)) : List (Act σ J X E) :=
  (t.filterMap (fun a => match a with | .act a => some a | _ => none)).reverse

/-- What has been said on a channel, oldest first. -/
def said (c : Channel) (t : List (Eff σ J X V E)) : List Str :=
  t.filterMap (fun a => match a with | .say c' s => if c' = c then some s else none | _ => none)

/-- The last status file written, if any. -/
def written (t : List (Eff σ J X V E)) : List (Nat × V) :=
  t.filterMap (fun a => match a with | .status v => some v | _ => none)

/-- A message on the warnings channel: it is shown at once. -/
def alarm (quiet : Bool) (s : Str) : List (Eff σ J X V E) := [.say .warnings s, if quiet then .err s else .out s]

/-- A warning: it goes to the log, and is shown at once. -/
def warned (quiet : Bool) (s : Str) : List (Eff σ J X V E) := .log s :: alarm quiet s

/-- What a competition logs: with log_event to the log file, with log_history to the history file. -/
def heard (l : List (Bool × Str)) : List (Eff σ J X V E) :=
  l.map (fun p => match p with | (true, s) => .log s | (false, s) => .history s)

/-- What the log file shows of a response to game `g`. -/
def responseShown (T : Texts σ J X η) (quiet : Bool) (g : Str) (x : X) : List (Eff σ J X V E) :=
  .log ("response from game ".toList ++ g) :: ((T.warnings x).flatMap (warned quiet) ++ (T.logEntries x).map .log)

/-- What goes with each thing the ringmaster does, given what it had done (`p`), and what it has done since (`r`). `cut`: the run has ended with an exception. -/
def Told (C : Competition σ J X η V E) (T : Texts σ J X η) (quiet : Bool) (v0 : Nat) (cut : Prop) (p : List (Eff σ J X V E)) :
    Eff σ J X V E → List (Eff σ J X V E) → Prop
  -- A result: just before, the log has the response's line, its warnings (also displayed), its log entries, and what the competition logged. Just after, the
  -- status file is written with the competition's new state, and the result is added to the display.
  | .act (.result j x c), r => ∃ h before,
      C.processResult h j x before = (.ok (), c) ∧
      (responseShown T quiet (C.gameId j) x ++ heard (T.resultLog h j x before)) <:+ p ∧
      ([.status (v0 + voids (actsOf p), C.save c),
        .say .results ("game ".toList ++ C.gameId j ++ ": ".toList ++ (T.described h j x before).getD (T.describe x))] <+: r ∨ (r = [] ∧ cut))
  -- A failed game: the error message is a warning. If the competition is to stop, that's displayed and logged, unless it was stopping anyway.
  | .act (.failed j n stop retry c), r => ∃ h before message,
      C.processError h j n before = (.ok (stop, retry), c) ∧
      (warned quiet ("game ".toList ++ C.gameId j ++ " -- ".toList ++ message) ++ heard (T.errorLog h j n before)) <:+ p ∧
      ((.status (v0 + voids (actsOf p) + 1, C.save c) :: (if stop then alarm quiet "halting run due to void games".toList ++
        [.log "halting competition: too many void games".toList] else [])) <+: r ∨
       ([.status (v0 + voids (actsOf p) + 1, C.save c)] <+: r ∧ Stopped (actsOf p)) ∨ (r = [] ∧ cut))
  | .act (.offered j), r =>
      [.log ("starting game ".toList ++ C.gameId j ++ ": ".toList ++ T.black j ++ " (b) vs ".toList ++ T.white j ++ " (w)".toList)] <+: r
  | .act (.again j), r =>
      [.log ("starting game ".toList ++ C.gameId j ++ ": ".toList ++ T.black j ++ " (b) vs ".toList ++ T.white j ++ " (w)".toList)] <+: r
  | .act .noGame, _ => True
  | .act (.clash _), r => r = [] ∧ cut
  | .act (.raised _), r => r = [] ∧ cut
  | .act .halted, r => ¬ Stopped (actsOf p) ∧
      ([.log "halting competition: stop instruction received from terminal".toList] <+: r ∨
       [.log "halting competition: stop command received".toList] <+: r ∨
       [.log "halting competition: max-games reached for this run".toList] <+: r)
  -- The status file is written only for a result or a failed game.
  | .status (_, v), _ => ∃ a c, [.act a] <:+ p ∧ v = C.save c ∧ ((∃ j x, a = .result j x c) ∨ ∃ j n stop retry, a = .failed j n stop retry c)
  -- Warnings are logged first (the message about void games is followed by a log entry instead), and shown at once.
  | .say .warnings s, r => [if quiet then .err s else .out s] <+: r ∧
      ([.log s] <:+ p ∨ [.err s, .log "halting competition: too many void games".toList] <+: r ∨
        [.out s, .log "halting competition: too many void games".toList] <+: r)
  | .say .results _, _ => ∃ j x c v, [.act (.result j x c), .status v] <:+ p
  -- In quiet mode, only warnings are shown; otherwise everything goes to stdout.
  | .err s, _ => quiet = true ∧ [.say .warnings s] <:+ p
  | .out _, _ => quiet = false
  | .clear, _ => quiet = false
  | .tty s, _ => quiet = true ∧ s = "\rCtrl-X received; halting\n".toList ∧
      [.log "halting competition: stop instruction received from terminal".toList] <:+ p
  | .removeCommand, _ => [.log "halting competition: stop command received".toList] <:+ p
  | .log _, _ => True
  | .history _, _ => True

/-- ^X is among the characters which have been typed and not read. -/
def CtrlXTyped (e : TtyEnv) (t : Terminal) : Prop := Char.ofNat 24 ∈ t.pending ++ e.typed

/-- Reading all that has been typed works. -/
def CanRead (e : TtyEnv) (t : Terminal) : Prop := e.readFails = none ∨ ∃ k, e.readFails = some k ∧ (t.pending ++ e.typed).length < k

/-- The ringmaster gets to see that ^X has been typed. -/
def StopTyped (e : TtyEnv) (t : Terminal) : Prop :=
  t.enabled = true ∧ e.foreground = some true ∧ e.setMode = .ok ∧ CanRead e t ∧ CtrlXTyped e t

/-- Looking at the terminal raises an exception. -/
def TtyBreaks (e : TtyEnv) (t : Terminal) : Prop :=
  t.enabled = true ∧ (e.foreground = none ∨ (e.foreground = some true ∧ (e.setMode = .other ∨ (e.setMode = .ok ∧ e.resetOk = false))))

/-- The command file says to stop. -/
def StopCommanded (e : CmdEnv) : Prop := e.file = some (.ok "stop".toList)

/-! ### The screen -/

/-- The last `n` of a list. -/
def lastOf {α : Type} (n : Nat) (l : List α) : List α := (l.reverse.take n).reverse

/-- A box on the screen: a heading, some lines of text; and an empty line if another box can follow. -/
def boxOf (heading : List (Eff σ J X V E)) (lines : List Str) (gap : List (Eff σ J X V E)) : List (Eff σ J X V E) :=
  if lines = [] then [] else heading ++ [.out (Py.join ['\n'] lines)] ++ gap

/-- What is printed to clear the screen: nothing but what `clear` does; many newlines (perhaps after `clear` has failed); or a line of dashes. -/
def Cleared (l : List (Eff σ J X V E)) : Prop :=
  l = [.clear] ∨ l = [.clear, .out (List.replicate 81 '\n')] ∨ l = [.out (List.replicate 81 '\n')] ∨ l = [.out (List.replicate 78 '-')]

/-- The lines of the first box: why the run is halting (if it is), the games in progress, how many more games it will start, and how to stop it. -/
def statusBox (workers : Option Nat) (halting : Option Str) (ids : List Str) (left : Option Int) (canStop : Bool) : List Str :=
  (match halting with
    | none => []
    | some reason => if workers.isSome && !ids.isEmpty then ["waiting for workers to finish: ".toList ++ reason] else ["halting: ".toList ++ reason]) ++
  (if ids = [] then []
   else match workers with
    | none => ["game in progress: ".toList ++ Py.join [' '] ids]
    | some _ => [Py.strInt ids.length ++ " games in progress: ".toList ++ Py.join [' '] ids]) ++
  (match halting, left with
    | none, some k => ["will start at most ".toList ++ Py.strInt k ++ " more games in this run".toList]
    | _, _ => []) ++
  (if halting.isNone && canStop then ["(Ctrl-X to halt gracefully)".toList] else [])

/-- What's on the screen: the status, the competition's report, and the last six results and four warnings. -/
def screenful (workers : Option Nat) (halting : Option Str) (ids : List Str) (left : Option Int) (canStop : Bool) (report : Str) (results warnings : List Str) :
    List (Eff σ J X V E) :=
  boxOf [] (statusBox workers halting ids left canStop) [.out []] ++
  boxOf [] [report] [.out []] ++
  boxOf [.out "= Results = ".toList] (lastOf 6 results) [.out []] ++
  boxOf [.out "= Warnings = ".toList] (lastOf 4 warnings) []

/-- What's said of void games above the competition's report. -/
def voidNote (n : Nat) : Str := if n = 0 then [] else Py.strInt n ++ " void games; see log file.\n".toList

/-- `shown` is `text` without its last newline, if it ends with one. -/
def Stripped (shown text : Str) : Prop := text = shown ++ ['\n'] ∨ (text = shown ∧ ∀ t, text ≠ t ++ ['\n'])

/-- How many times the ringmaster has looked for a game to start and not found that --max-games was reached: each counts towards --max-games. -/
def asked : List (Act σ J X E) → Nat
  | [] => 0
  | .offered _ :: l => asked l + 1
  | .again _ :: l => asked l + 1
  | .noGame :: l => asked l + 1
  | _ :: l => asked l

end Gomill.Ring.Live
