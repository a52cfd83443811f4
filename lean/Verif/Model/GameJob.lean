import Verif.Model.EngineDesc
import Verif.Model.SgfRecord
/-
Model of gomill/game_jobs.py, and of describe_scoring and Gtp_game.make_sgf from gomill/gtp_games.py.
-/
namespace Gomill.Gtp
open Py
open Gomill.Sgf (Lib GameRec Encodings Floats PVal)

variable {σ τ δ : Type}

/-! ### SGF records of Gtp_games -/

/-- gtp_games.py:150-154 `normalise_score`. -/
def normaliseScore (s : Str) : Str :=
  if ".0".toList.isSuffixOf (upper s) then (upper s).take ((upper s).length - 2) else upper s

/-- gtp_games.py:161-162: a score which is not that of the result. -/
def strangeScore (r : GameResult) : Option Str → Bool
  | none => false
  | some s => decide (normaliseScore s ≠ r.res.sgfResult)

/-- gtp_games.py:165-166: the line for a score. -/
def scoreLine (code : Str) : Option Str → List Str
  | none => []
  | some s => [code ++ " final_score: ".toList ++ s]

/-- gtp_games.py:140-167 `describe_scoring`.  `scores` is the `player_scores` of the Gtp_game_score, if there is one. -/
def describeScoring (r : GameResult) (scores : Option (Colour → Option Str)) : Str :=
  let more := match scores with
    | none => []
    | some f => if strangeScore r (f .b) || strangeScore r (f .w) then scoreLine r.playerB (f .b) ++ scoreLine r.playerW (f .w) else []
  join ['\n'] (r.describe :: more)

/-- gtp_games.py:532-540 `get_game_score`: the `player_scores`. -/
def GtpGame.playerScores (g : GtpGame σ τ) : Option (Colour → Option Str) :=
  g.runner.gameScore.map (fun _ c => g.runner.env.scores.lookup c)

/-- `last_node.add_comment_text(s)`, if there is a text. -/
def addLastComment (L : Lib) (g : GameRec) (s : Option Str) : Except Exc Lib :=
  match s with
  | none => .ok L
  | some s => L.update g (Sgf.getLastNode L.heap g.root) (fun P m => Sgf.addCommentText P m s)

/-- gtp_games.py:567-570: the value for PB or PW. (AttributeError if there's no engine description.) -/
def playerName (d : Option EngineDesc) (code : Str) : Except Exc PVal :=
  match d with
  | none => .error .attributeError
  | some d => .ok (.str (match d.short with
    | none => code
    | some [] => code
    | some (c :: s) => c :: s))

/-- gtp_games.py:571-572: the value for GN, if the game id is set. -/
def gameIdName : Option Str → Option PVal
  | none => none
  | some [] => none
  | some (c :: s) => some (.str (c :: s))

/-- gtp_games.py:552-576 `make_sgf`; the new game is the last one. `desc` is the game controller's `engine_descriptions`. -/
def GtpGame.makeSgf (E : Encodings) (F : Floats) (L : Lib) (version date : Str) (desc : Colour → Option EngineDesc) (g : GtpGame σ τ) : Except Exc (Lib × GameRec) := do
  let L ← Sgf.makeSgf E F L version date g.runner
  match L.games.getLast? with
  | none => .error .indexError
  | some rec => do
    let L ← L.setRootMaybe rec ['P', 'B'] (some (← playerName (desc .b) (g.runner.env.gc.code .b)))
    let L ← L.setRootMaybe rec ['P', 'W'] (some (← playerName (desc .w) (g.runner.env.gc.code .w)))
    let L ← L.setRootMaybe rec ['G', 'N'] (gameIdName g.gameId)
    let L ← addLastComment L rec (g.result.map (fun r => describeScoring r g.playerScores))
    return (L, rec)

/-! ### Players and jobs -/

/-- game_jobs.py:12-50 Player. -/
structure JobPlayer where
  code : Str
  cmdArgs : List Str
  isReliableScorer : Bool := true
  allowClaim : Bool := false
  aliases : List (Str × Str) := []
  startup : List (Str × List Str) := []
  discardStderr : Bool := false
  cwd : Option Str := none
  environ : Option (List (Str × Str)) := none
  nameFromGtp : Bool := true
  deriving DecidableEq, Repr

/-- `d[k] = v` on a dict, as an association list. -/
def dictSet (d : List (Str × Str)) (k v : Str) : List (Str × Str) := (k, v) :: d.filter (fun kv => kv.1 ≠ k)

/-- game_jobs.py:52-61 `make_environ`. `os` is `os.environ`. -/
def JobPlayer.makeEnviron (os : List (Str × Str)) (p : JobPlayer) : List (Str × Str) :=
  match p.environ with
  | none => os
  | some l => l.foldl (fun d kv => dictSet d kv.1 kv.2) os

/-- game_jobs.py:63-79 `copy`. -/
def JobPlayer.copy (p : JobPlayer) (code : Str) : JobPlayer :=
  { code, cmdArgs := p.cmdArgs, isReliableScorer := p.isReliableScorer, allowClaim := p.allowClaim, discardStderr := p.discardStderr,
    nameFromGtp := p.nameFromGtp, aliases := p.aliases, startup := p.startup, cwd := p.cwd, environ := p.environ }

/-- game_jobs.py:105-127, 158-171: the attributes of a Game_job.  `handicap_compensation` is one of the three valid values (which the
competition checks). -/
structure GameJob (δ : Type) where
  gameId : Str
  player : Colour → JobPlayer
  boardSize : Nat
  komi : Rat
  moveLimit : Int
  gameData : δ
  handicap : Option Int := none
  handicapIsFree : Bool := false
  useInternalScorer : Bool := true
  comp : Compensation := .no
  sgfFilename : Option Str := none
  sgfDirname : Option Str := none
  voidSgfDirname : Option Str := none
  sgfGameName : Option Str := none
  sgfEvent : Option Str := none
  sgfNote : Option Str := none
  gtpLogPathname : Option Str := none
  stderrPathname : Option Str := none

/-- The arguments of Subprocess_gtp_channel; `stderr` is the pathname of the open file. -/
structure Popen where
  args : List Str
  env : List (Str × Str)
  cwd : Option Str
  stderr : Option Str
  deriving DecidableEq, Repr

/-- The world a job runs in. `channel`, `spawn` and `rusage` describe the subprocesses (the text of the GtpChannelError if one can't be
started; the CPU time, once it is closed, if known); `canOpen` and `canMakeDir` say whether `open` and `ensure_dir` work (they raise
EnvironmentError if not). The rest are Python primitives: texts of numbers, dates and exceptions. -/
structure JobWorld (σ : Type) where
  channel : Channel σ
  spawn : Popen → Except Str σ
  rusage : σ → Option Rat
  osEnviron : List (Str × Str)
  canOpen : Str → Bool
  canMakeDir : Str → Bool
  isTwo : Str → Bool
  float : Str → Option Num
  cpuFloat : Str → Option Rat
  replaceBad : Str → Str
  strFloat : Rat → Str
  twoPlaces : Rat → Str
  excText : GExc → Str
  now : Str
  version : Str
  date : Str
  E : Encodings
  F : Floats

/-- What a job does to the world outside: files, and subprocesses. -/
inductive JobEvent where
  | opened (path : Str)
  | closed (path : Str)
  | wrote (path : Str) (text : Str)
  | madeDir (path : Str)
  | spawned (c : Colour) (p : Popen)
  deriving DecidableEq, Repr

/-- The state of a job while it's running: the game controller's `controllers`, `engine_descriptions` and `late_errors`, the `_files_to_close`, and what
it has done. -/
structure JobSt (σ : Type) where
  ctl : Colour → Option (Ctl σ)
  desc : Colour → Option EngineDesc
  late : List Str
  toClose : List Str
  trace : List JobEvent

/-- Why a job stops: `gtp` is GtpChannelError or BadGtpResponse (with the text); `other` is any other exception. -/
inductive Stop where
  | gtp (msg : Str)
  | other
  deriving DecidableEq, Repr

/-- The exceptions of a controller. -/
def CExc.toStop : CExc → Stop
  | .badResponse msg _ => .gtp msg
  | .channel e => .gtp e.msg
  | .value => .other
  | .channelIsClosed => .other

/-- The exceptions of Gtp_game (see CExc.toG). The texts aren't modelled: `text` says what they are. -/
def _root_.Gomill.GExc.toStop (text : GExc → Str) : GExc → Stop
  | .backend 0 => .gtp (text (.backend 0))
  | .backend 1 => .gtp (text (.backend 1))
  | _ => .other

/-- `open(path)`, and adding the file to `_files_to_close`. -/
def JobSt.openFile (W : JobWorld σ) (st : JobSt σ) (path : Option Str) : Except Stop Unit × JobSt σ :=
  match path with
  | none => (.ok (), st)
  | some p => if W.canOpen p then (.ok (), { st with toClose := st.toClose ++ [p], trace := st.trace ++ [.opened p] }) else (.error .other, st)

/-- game_jobs.py:201-204: the file for the player's standard error. -/
def stderrPath (job : GameJob δ) (p : JobPlayer) : Option Str := if p.discardStderr then some "/dev/null".toList else job.stderrPathname

/-- game_jobs.py:214-217: the environment. -/
def jobEnviron (W : JobWorld σ) (job : GameJob δ) (workerId : Option Int) (p : JobPlayer) : List (Str × Str) :=
  let env := dictSet (p.makeEnviron W.osEnviron) "GOMILL_GAME_ID".toList job.gameId
  match workerId with
  | none => env
  | some i => dictSet env "GOMILL_SLOT".toList (strInt i)

/-- Change one of the controllers. -/
def JobSt.setCtl (st : JobSt σ) (c : Colour) (x : Ctl σ) : JobSt σ := { st with ctl := fun d => if d = c then some x else st.ctl d }

/-- game_jobs.py:226-227: the startup commands. -/
def runStartup (C : Channel σ) : List (Str × List Str) → Ctl σ → Except CExc Unit × Ctl σ
  | [], c => (.ok (), c)
  | x :: xs, c => match c.doCommand C x.1 x.2 with
    | (.error e, c) => (.error e, c)
    | (.ok _, c) => runStartup C xs c

/-- gtp_controller.py:960-964 and game_jobs.py:221-227, for the new controller: the check of the protocol version, the engine description, the
aliases and the startup commands. The first result is the engine description, if that was reached. -/
def setUpPlayer (W : JobWorld σ) (p : JobPlayer) (c : Ctl σ) : Except Stop Unit × Option EngineDesc × Ctl σ :=
  match c.checkProtocolVersion W.channel W.isTwo with
  | (.error e, c) => (.error e.toStop, none, c)
  | (.ok (), c) => match c.queryDescription W.channel with
    | (.error e, c) => (.error e.toStop, none, c)
    | (.ok (n, v, d), c) => match EngineDesc.make W.replaceBad n v d with
      | .error _ => (.error .other, none, c)
      | .ok desc => match runStartup W.channel p.startup (c.setAliases p.aliases) with
        | (.error e, c) => (.error e.toStop, some desc, c)
        | (.ok (), c) => (.ok (), some desc, c)

/-- game_jobs.py:201-204, 214-220: the arguments for the subprocess. -/
def jobPopen (W : JobWorld σ) (job : GameJob δ) (workerId : Option Int) (c : Colour) : Popen :=
  { args := (job.player c).cmdArgs, env := jobEnviron W job workerId (job.player c), cwd := (job.player c).cwd, stderr := stderrPath job (job.player c) }

/-- game_jobs.py:199-227 `_start_player` and gtp_controller.py:966-997 `set_player_subprocess`. (The settings of the game made at lines 210-213
are in `jobCfg`; logging isn't modelled.) -/
def startPlayer (W : JobWorld σ) (job : GameJob δ) (workerId : Option Int) (c : Colour) (st : JobSt σ) : Except Stop Unit × JobSt σ :=
  let p := job.player c
  match st.openFile W (stderrPath job p) with
  | (.error e, st) => (.error e, st)
  | (.ok (), st) =>
    match W.spawn (jobPopen W job workerId c) with
    | .error msg => (.error (.gtp ("error starting subprocess for player ".toList ++ p.code ++ ":\n".toList ++ msg)), st)
    | .ok chan =>
      let st : JobSt σ := { st with trace := st.trace ++ [JobEvent.spawned c (jobPopen W job workerId c)] }
      match setUpPlayer W p (Ctl.init chan ("player ".toList ++ p.code)) with
      | (r, desc, x) => (r, { st.setCtl c x with desc := fun d => if d = c then desc else st.desc d })

/-- game_jobs.py:235-241, 210-213: the configuration of the game. -/
def jobCfg (W : JobWorld σ) (job : GameJob δ) : GtpCfg Unit where
  boardSize := job.boardSize
  komi := job.komi
  komiText := W.strFloat job.komi
  claimAllowed := fun c => (job.player c).allowClaim
  scorers := if job.useInternalScorer then [] else [.b, .w].filter (fun c => (job.player c).isReliableScorer)
  internal := job.useInternalScorer
  comp := job.comp
  float := W.float
  cpuFloat := W.cpuFloat
  replaceBad := W.replaceBad
  callback := fun _ _ _ u => (.ok (), u)

/-- game_jobs.py:254-260: playing the game: prepare, set_handicap and run. -/
def playGame (W : JobWorld σ) (job : GameJob δ) (fuel : Nat) (g : GtpGame σ Unit) : Option (Except Stop Unit × GtpGame σ Unit) :=
  match g.prepare (fun _ => W.channel) (jobCfg W job) with
  | (.error e, g) => some (.error (e.toStop W.excText), g)
  | (.ok (), g) =>
    let h : Except Stop Unit × GtpGame σ Unit := match job.handicap with
      | none => (.ok (), g)
      | some k =>
        if k = 0 then (.ok (), g)
        else match g.setHandicap (fun _ => W.channel) (jobCfg W job) k job.handicapIsFree with
          | (.ok (), g) => (.ok (), g)
          | (.error (.py .valueError), g) => (.error (.gtp "invalid handicap".toList), g)
          | (.error e, g) => (.error (e.toStop W.excText), g)
    match h with
    | (.error e, g) => some (.error e, g)
    | (.ok (), g) => match g.run (fun _ => W.channel) (jobCfg W job) W.strFloat fuel with
      | none => none
      | some (.error e, g, _) => some (.error (e.toStop W.excText), g)
      | some (.ok (), g, _) => some (.ok (), g)

/-- gtp_controller.py:1085-1096 `close_players`, for one player. -/
def JobSt.closePlayer (W : JobWorld σ) (c : Colour) (st : JobSt σ) : Except Stop Unit × JobSt σ :=
  match st.ctl c with
  | none => (.ok (), st)
  | some x => match x.safeClose W.channel with
    | (.error e, x) => (.error e.toStop, st.setCtl c x)
    | (.ok (), x) => (.ok (), { st.setCtl c x with late := st.late ++ x.errors })

/-- gtp_controller.py:1085-1096 `close_players`. -/
def JobSt.closePlayers (W : JobWorld σ) (st : JobSt σ) : Except Stop Unit × JobSt σ :=
  match st.closePlayer W .b with
  | (.error e, st) => (.error e, st)
  | (.ok (), st) => st.closePlayer W .w

/-- gtp_controller.py:1098-1114 `describe_late_errors`. -/
def JobSt.describeLate (st : JobSt σ) : Option Str := if st.late = [] then none else some (join ['\n'] st.late)

/-! ### SGF files -/

/-- `os.path.join(a, b)` on POSIX. -/
def pathJoin (a b : Str) : Str :=
  if b.head? = some '/' then b else if a = [] ∨ a.getLast? = some '/' then a ++ b else a ++ '/' :: b

/-- game_jobs.py:340-347: the note about a player. (AttributeError if there's no engine description.) -/
def playerNote (label : Str) (p : JobPlayer) (d : Option EngineDesc) : Except Exc Str :=
  match d with
  | none => .error .attributeError
  | some d => .ok (match d.long with
    | none => label ++ ' ' :: p.code
    | some [] => label ++ ' ' :: p.code
    | some (c :: s) => label ++ ' ' :: p.code ++ ' ' :: c :: s)

/-- game_jobs.py:333-338: the note about the CPU time. -/
def cpuNote (W : JobWorld σ) (r : GameResult) (code : Str) : List Str :=
  match r.cpuTimes.lookup code with
  | some (.secs q) => [code ++ " cpu time: ".toList ++ W.twoPlaces q ++ "s".toList]
  | _ => []

/-- game_jobs.py:316, 322-347: the notes. `zeroMove` says that the root is the last node. -/
def jobNotes (W : JobWorld σ) (job : GameJob δ) (desc : Colour → Option EngineDesc) (result : Option GameResult) (zeroMove : Bool) : Except Exc (List Str) := do
  let nb ← playerNote "Black".toList (job.player .b) (desc .b)
  let nw ← playerNote "White".toList (job.player .w) (desc .w)
  return (job.sgfEvent.map (fun e => "Event: ".toList ++ e)).toList ++
    ["Game id ".toList ++ job.gameId, "Date ".toList ++ W.now] ++
    (match result with | none => [] | some r => if zeroMove then [] else ["Result ".toList ++ r.describe]) ++
    job.sgfNote.toList ++
    (match result with | none => [] | some r => cpuNote W r (job.player .b).code ++ cpuNote W r (job.player .w).code) ++
    [nb, nw]

/-- game_jobs.py:351-355: the root comment. -/
def setRootComment (L : Lib) (rec : GameRec) (notes : List Str) : Except Exc Lib :=
  if (L.heap.props rec.root).has ['C'] then
    match Sgf.nodeGet rec.presenter (L.heap.props rec.root) ['C'] with
    | .error e => .error e
    | .ok (.str existing) => L.setRootMaybe rec ['C'] (some (.str (join ['\n'] (notes ++ [[], existing]))))
    | .ok _ => .error .typeError
  else L.setRootMaybe rec ['C'] (some (.str (join ['\n'] notes)))

/-- game_jobs.py:348-349: PB or PW, if it isn't to come from GTP. -/
def ownName (p : JobPlayer) : Option PVal := if p.nameFromGtp then none else some (.str p.code)

/-- game_jobs.py:293-361 `_make_sgf`. -/
def jobSgf (W : JobWorld σ) (job : GameJob δ) (desc : Colour → Option EngineDesc) (late : Option Str) (g : GtpGame σ Unit) (endMessage : Option Str) :
    Except Exc (Lib × GameRec) := do
  let (L, rec) ← g.makeSgf W.E W.F ⟨[], []⟩ W.version W.date desc
  let L ← L.setRootMaybe rec ['G', 'N'] (job.sgfGameName.map .str)
  let L ← L.setRootMaybe rec ['E', 'V'] (job.sgfEvent.map .str)
  let notes ← jobNotes W job desc g.result (decide (Sgf.getLastNode L.heap rec.root = rec.root))
  let L ← L.setRootMaybe rec ['P', 'B'] (ownName (job.player .b))
  let L ← L.setRootMaybe rec ['P', 'W'] (ownName (job.player .w))
  let L ← setRootComment L rec notes
  let L ← addLastComment L rec endMessage
  let L ← addLastComment L rec late
  return (L, rec)

/-- game_jobs.py:387-391 `_write_sgf`. -/
def JobSt.writeSgf (W : JobWorld σ) (st : JobSt σ) (path text : Str) : Except Stop Unit × JobSt σ :=
  if W.canOpen path then (.ok (), { st with trace := st.trace ++ [.opened path, .wrote path text, .closed path] }) else (.error .other, st)

/-- game_jobs.py:363-369 `_record_game`. -/
def recordGame (W : JobWorld σ) (job : GameJob δ) (g : GtpGame σ Unit) (st : JobSt σ) : Except Stop Unit × JobSt σ :=
  match job.sgfDirname, job.sgfFilename with
  | some dir, some file =>
    match jobSgf W job st.desc st.describeLate g none with
    | .error _ => (.error .other, st)
    | .ok (L, rec) => match L.serialise W.E rec (some 79) with
      | .error _ => (.error .other, st)
      | .ok text => st.writeSgf W (pathJoin dir file) text
  | _, _ => (.ok (), st)

/-- game_jobs.py:371-385 `_record_void_game`. -/
def recordVoidGame (W : JobWorld σ) (job : GameJob δ) (g : GtpGame σ Unit) (msg : Str) (st : JobSt σ) : Except Stop Unit × JobSt σ :=
  if g.runner.moves = [] then (.ok (), st)
  else match job.voidSgfDirname, job.sgfFilename with
    | some dir, some file =>
      if !W.canMakeDir dir then (.error .other, st)
      else
        let st : JobSt σ := { st with trace := st.trace ++ [JobEvent.madeDir dir] }
        match jobSgf W job st.desc st.describeLate g (some msg) with
        | .error _ => (.error .other, st)
        | .ok (L, rec) => match L.setRootMaybe rec ['R', 'E'] (some (.str "Void".toList)) with
          | .error _ => (.error .other, st)
          | .ok L => match L.serialise W.E rec (some 79) with
            | .error _ => (.error .other, st)
            | .ok text => st.writeSgf W (pathJoin dir file) text
    | _, _ => (.ok (), st)

/-! ### Running a job -/

/-- game_jobs.py:81-94 Game_job_result; `engineDescriptions` is an association list. -/
structure GameJobResult (δ : Type) where
  gameId : Str
  gameData : δ
  gameResult : GameResult
  warnings : List Str
  logEntries : List Str
  engineDescriptions : List (Str × Option EngineDesc)

/-- How `run` ends: a result, JobFailed, or another exception. -/
inductive JobOut (δ : Type) where
  | result (r : GameJobResult δ)
  | failed (msg : Str)
  | crashed

/-- game_jobs.py:261-268: after GtpChannelError or BadGtpResponse. `g` is the game if it was started (if not, there were no moves). -/
def abortJob (W : JobWorld σ) (job : GameJob δ) (e : Str) (g : Option (GtpGame σ Unit)) (st : JobSt σ) : JobOut δ × JobSt σ :=
  match st.closePlayers W with
  | (.error _, st) => (.crashed, st)
  | (.ok (), st) =>
    let msg := "aborting game due to error:\n".toList ++ e
    let x : Except Stop Unit × JobSt σ := match g with
      | none => (.ok (), st)
      | some g => recordVoidGame W job g msg st
    match x with
    | (.error _, st) => (.crashed, st)
    | (.ok (), st) =>
      match st.describeLate with
      | none => (.failed msg, st)
      | some l => (.failed (msg ++ "\nalso:\n".toList ++ l), st)

/-- game_jobs.py:272-275: the result with the CPU times from resource usage, unless there was an error for the engine. -/
def withCpuTimes (W : JobWorld σ) (st : JobSt σ) (errors : List Colour) (r : GameResult) : GameResult :=
  let upd := fun (r : GameResult) (c : Colour) =>
    if c ∈ errors then r
    else match (st.ctl c).bind (fun x => W.rusage x.chan) with
      | none => r
      | some q => r.softUpdate1 c (.secs q)
  upd (upd r .b) .w

/-- game_jobs.py:269-291: after a game. (After a successful `run` there is a result.) -/
def finishJob (W : JobWorld σ) (job : GameJob δ) (g : GtpGame σ Unit) (st : JobSt σ) : JobOut δ × JobSt σ :=
  match g.result with
  | none => (.crashed, st)
  | some r =>
    match st.closePlayers W with
    | (.error _, st) => (.crashed, st)
    | (.ok (), st) =>
      let r' := withCpuTimes W st (g.cpuTimeErrors.getD []) r
      match recordGame W job { g with result := some r' } st with
      | (.error _, st) => (.crashed, st)
      | (.ok (), st) =>
        (.result {
          gameId := job.gameId
          gameData := job.gameData
          gameResult := r'
          warnings := if r.res.isForfeit then r.res.detail.toList else []
          logEntries := match st.describeLate with | none => [] | some [] => [] | some (c :: s) => [c :: s]
          engineDescriptions := [((job.player .b).code, st.desc .b), ((job.player .w).code, st.desc .w)] }, st)

/-- The controllers, after the game. -/
def JobSt.afterGame (st : JobSt σ) (g : GtpGame σ Unit) : JobSt σ := { st with ctl := fun c => some (g.runner.env.gc.ctl c) }

/-- game_jobs.py:233-241: the game, once the players have been started. -/
def startedGame (W : JobWorld σ) (job : GameJob δ) (b w : Ctl σ) : GtpGame σ Unit :=
  .init (jobCfg W job) { ctl := fun c => match c with | .b => b | .w => w, code := fun c => (job.player c).code, lateErrors := [], cautious := false } ()
    (some job.moveLimit) (some job.gameId)

/-- game_jobs.py:254-291: after both players have been started. -/
def playJob (W : JobWorld σ) (job : GameJob δ) (fuel : Nat) (b w : Ctl σ) (st : JobSt σ) : Option (JobOut δ × JobSt σ) :=
  match playGame W job fuel (startedGame W job b w) with
  | none => none
  | some (.error .other, g) => some (.crashed, st.afterGame g)
  | some (.error (.gtp msg), g) => some (abortJob W job msg (some g) (st.afterGame g))
  | some (.ok (), g) => some (finishJob W job g (st.afterGame g))

/-- game_jobs.py:229-291 `_run`; none if the game hasn't finished after `fuel` turns. -/
def jobMain (W : JobWorld σ) (job : GameJob δ) (workerId : Option Int) (fuel : Nat) (st : JobSt σ) : Option (JobOut δ × JobSt σ) :=
  if (job.player .b).code = (job.player .w).code then some (.failed "error creating game: player codes must be distinct".toList, st)
  else match st.openFile W job.gtpLogPathname with
    | (.error _, st) => some (.crashed, st)
    | (.ok (), st) => match startPlayer W job workerId .b st with
      | (.error .other, st) => some (.crashed, st)
      | (.error (.gtp msg), st) => some (abortJob W job msg none st)
      | (.ok (), st) => match startPlayer W job workerId .w st with
        | (.error .other, st) => some (.crashed, st)
        | (.error (.gtp msg), st) => some (abortJob W job msg none st)
        | (.ok (), st) => match st.ctl .b, st.ctl .w with
          | some b, some w => playJob W job fuel b w st
          | _, _ => some (.crashed, st)

/-- game_jobs.py:185-186: before `_run`. -/
def JobSt.init : JobSt σ := { ctl := fun _ => none, desc := fun _ => none, late := [], toClose := [], trace := [] }

/-- game_jobs.py:175-197 `run`: `_run`, and then closing the files (errors from close() are ignored). -/
def runJob (W : JobWorld σ) (job : GameJob δ) (workerId : Option Int) (fuel : Nat) : Option (JobOut δ × JobSt σ) :=
  match jobMain W job workerId fuel .init with
  | none => none
  | some (out, st) => some (out, { st with trace := st.trace ++ st.toClose.map .closed })

/-! ### check_player -/

/-- game_jobs.py:411-469 `check_player`: the warnings, or the text of CheckFailed; none for any other exception. `isDir` is `os.path.isdir`. (The subprocess
isn't closed if there's an exception.) -/
def checkPlayer (W : JobWorld σ) (isDir : Str → Bool) (p : JobPlayer) (boardSize : Nat) (komi : Rat) (discardStderr : Bool) : Option (Except Str (List Str)) × Option (Ctl σ) :=
  match p.cwd.filter (fun d => !isDir d) with
  | some d => (some (.error ("bad working directory: ".toList ++ d)), none)
  | none =>
    let env := dictSet (p.makeEnviron W.osEnviron) "GOMILL_GAME_ID".toList "startup-check".toList
    match W.spawn { args := p.cmdArgs, env := env, cwd := p.cwd, stderr := if discardStderr then some "/dev/null".toList else none } with
    | .error msg => (some (.error ("error starting subprocess for ".toList ++ p.code ++ ":\n".toList ++ msg)), none)
    | .ok chan =>
      let stop := fun (e : CExc) (c : Ctl σ) => ((match e.toStop with | .gtp msg => some (.error msg) | .other => none : Option (Except Str (List Str))), some c)
      match ((Ctl.init chan p.code).setAliases p.aliases).checkProtocolVersion W.channel W.isTwo with
      | (.error e, c) => stop e c
      | (.ok (), c) => match runStartup W.channel
          (p.startup ++ [("boardsize".toList, [strInt boardSize]), ("clear_board".toList, []), ("komi".toList, [W.strFloat komi])]) c with
        | (.error e, c) => stop e c
        | (.ok (), c) => match c.safeClose W.channel with
          | (.error e, c) => stop e c
          | (.ok (), c) => (some (.ok c.errors), some c)

end Gomill.Gtp
