import Verif.Model.GameJob
import Verif.Model.AsciiBoard
/-
Model of gomill_examples/twogtp: a series of games between two local GTP engines.
-/
namespace Gomill.Gtp
open Py

variable {σ : Type}

/-- twogtp:38-49: what optparse makes of the command line (optparse isn't modelled). `size` isn't negative, and `komi` is finite. -/
structure TwoOpts where
  black : Option Str := none
  white : Option Str := none
  komi : Rat
  size : Nat
  games : Int := 1
  verbose : Nat := 0
  sgfbase : Option Str := none
  args : List Str := []
  deriving DecidableEq, Repr

/-- The world: as for a job, with `shlex.split` (none for ValueError), and the texts of the GTP errors (with the player they come from) and of an EnvironmentError from
opening a file. (Only the `channel`, `spawn`, ... parts of JobWorld that are mentioned below are used.) -/
structure TwoWorld (σ : Type) extends JobWorld σ where
  shlex : Str → Option (List Str)
  ioText : Str → Str

/-- How the program ends: normally, with `sys.exit(msg)`, with a usage message from optparse, or with a traceback. -/
inductive TwoEnd where
  | done
  | exit (msg : Str)
  | usage (msg : Str)
  | crashed
  deriving DecidableEq, Repr

/-- What the program did: the texts printed (by the print statements), files and subprocesses, and the state of the controllers. -/
structure TwoOut (σ : Type) where
  ending : TwoEnd
  printed : List Str
  trace : List JobEvent
  ctl : Colour → Option (Ctl σ)

/-! ### Starting the engines -/

/-- twogtp:55-61: the player codes, from the first words of the commands. -/
def twoCodes (b w : Str) : Colour → Str :=
  if b = w then (fun c => match c with | .b => b ++ "-b".toList | .w => w ++ "-w".toList)
  else (fun c => match c with | .b => b | .w => w)

/-- twogtp:65-66: the arguments for the subprocess. (Nothing is redirected, and the environment is inherited.) -/
def twoPopen (W : TwoWorld σ) (args : List Str) : Popen := { args, env := W.osEnviron, cwd := none, stderr := none }

/-- gtp_controller.py:960-964: the check of the protocol version and the engine description. An error is the text of a GtpChannelError; none for any other
exception (BadGtpResponse, for the protocol version, is one). -/
def twoSetUp (W : TwoWorld σ) (c : Ctl σ) : Except (Option Str) EngineDesc × Ctl σ :=
  match c.checkProtocolVersion W.channel W.isTwo with
  | (.error (.channel e), c) => (.error (some e.msg), c)
  | (.error _, c) => (.error none, c)
  | (.ok (), c) => match c.queryDescription W.channel with
    | (.error (.channel e), c) => (.error (some e.msg), c)
    | (.error _, c) => (.error none, c)
    | (.ok (n, v, d), c) => match EngineDesc.make W.replaceBad n v d with
      | .error _ => (.error none, c)
      | .ok desc => (.ok desc, c)

/-- gtp_controller.py:966-997 `set_player_subprocess`. -/
def twoStart (W : TwoWorld σ) (code : Str) (args : List Str) (c : Colour) (st : JobSt σ) : Except (Option Str) EngineDesc × JobSt σ :=
  match W.spawn (twoPopen W args) with
  | .error msg => (.error (some ("error starting subprocess for player ".toList ++ code ++ ":\n".toList ++ msg)), st)
  | .ok chan =>
    let st : JobSt σ := { st with trace := st.trace ++ [JobEvent.spawned c (twoPopen W args)] }
    match twoSetUp W (Ctl.init chan ("player ".toList ++ code)) with
    | (r, x) => (r, st.setCtl c x)

/-- twogtp:67-69: an exception while the players are being created. -/
def twoStartFailed (W : TwoWorld σ) (e : Option Str) (st : JobSt σ) : TwoOut σ :=
  match e with
  | none => ⟨.crashed, [], st.trace, st.ctl⟩
  | some msg => match st.closePlayers W.toJobWorld with
    | (.error _, st) => ⟨.crashed, [], st.trace, st.ctl⟩
    | (.ok (), st) => ⟨.exit ("error creating players:\n".toList ++ msg ++ "\n".toList), [], st.trace, st.ctl⟩

/-- `'%s' % x`, where x is a string or None. -/
def orNone (x : Option Str) : Str := x.getD "None".toList

/-- twogtp:71-77: what is printed about the engines. -/
def twoIntro (verbose : Nat) (b w : EngineDesc) : List Str :=
  if verbose = 1 then ["Black: ".toList ++ orNone b.short, "White: ".toList ++ orNone w.short]
  else if verbose = 2 then ["Black: ".toList ++ orNone b.long ++ "\n".toList, "White: ".toList ++ orNone w.long ++ "\n".toList]
  else []

/-! ### The games -/

/-- twogtp:29-35 `print_move` and `print_board` (the latter if `board` is set); `u` is what has been printed. -/
def printMove (board : Bool) (c : Colour) (m : Option Pt) (b : Board) (u : List Str) : Except Nat Unit × List Str :=
  match formatVertex m with
  | .error _ => (.error 0, u)
  | .ok v =>
    let u := u ++ [c.upper :: ' ' :: v]
    if board then
      match Ascii.renderBoard b with
      | .error _ => (.error 0, u)
      | .ok s => (.ok (), u ++ [s, []])
    else (.ok (), u)

/-- twogtp:86-89: the callback. -/
def twoCallback (verbose : Nat) (c : Colour) (m : Option Pt) (b : Board) (u : List Str) : Except Nat Unit × List Str :=
  if verbose = 1 then printMove false c m b u
  else if verbose = 2 then printMove true c m b u
  else (.ok (), u)

/-- twogtp:80-91 and gtp_games.py:383-391: the configuration of a game. -/
def twoCfg (W : TwoWorld σ) (o : TwoOpts) : GtpCfg (List Str) where
  boardSize := o.size
  komi := o.komi
  komiText := W.strFloat o.komi
  claimAllowed := fun _ => false
  scorers := [.b, .w]
  internal := false
  comp := .no
  float := W.float
  cpuFloat := W.cpuFloat
  replaceBad := W.replaceBad
  callback := twoCallback o.verbose

/-- `'%03d' % n` -/
def strInt3 (n : Nat) : Str := List.replicate (3 - (strInt n).length) '0' ++ strInt n

/-- twogtp:25: the pathname for an SGF file. -/
def twoPath (base : Str) (n : Nat) : Str := base ++ strInt3 n ++ ".sgf".toList

/-- twogtp:102-103: the SGF game. -/
def twoSgf (W : TwoWorld σ) (desc : Colour → Option EngineDesc) (g : GtpGame σ (List Str)) : Except Exc (Sgf.Lib × Sgf.GameRec) :=
  match g.makeSgf W.E W.F ⟨[], []⟩ W.version W.date desc with
  | .error e => .error e
  | .ok (L, rec) => match L.setRootMaybe rec ['A', 'P'] (some (.pair ("Gomill twogtp".toList, W.version))) with
    | .error e => .error e
    | .ok L => .ok (L, rec)

/-- The state between games: the game controller, what has been printed, and the trace. -/
structure TwoSt (σ : Type) where
  gc : GC σ
  printed : List Str
  trace : List JobEvent

/-- Stop here. -/
def TwoSt.stop (st : TwoSt σ) (e : TwoEnd) : TwoOut σ := ⟨e, st.printed, st.trace, fun c => some (st.gc.ctl c)⟩

/-- twogtp:96-98: an exception from `prepare` or `run`. -/
def TwoSt.abort (W : TwoWorld σ) (st : TwoSt σ) (e : GExc) : TwoOut σ :=
  match e.toStop W.excText with
  | .other => st.stop .crashed
  | .gtp msg => match st.gc.closePlayers (fun _ => W.channel) with
    | (.error _, gc) => { st with gc := gc }.stop .crashed
    | (.ok (), gc) => { st with gc := gc }.stop (.exit ("aborting run due to error:\n".toList ++ msg ++ "\n".toList))

/-- twogtp:24-27, 101-107: writing the SGF file. (The file is opened before the game is serialised.) -/
def twoWrite (W : TwoWorld σ) (o : TwoOpts) (desc : Colour → Option EngineDesc) (n : Nat) (g : GtpGame σ (List Str)) (st : TwoSt σ) : Except (TwoOut σ) (TwoSt σ) :=
  match o.sgfbase with
  | none => .ok st
  | some base => match twoSgf W desc g with
    | .error _ => .error (st.stop .crashed)
    | .ok (L, rec) =>
      let path := twoPath base n
      if W.canOpen path then
        match L.serialise W.E rec (some 79) with
        | .error _ => .error ({ st with trace := st.trace ++ [JobEvent.opened path, JobEvent.closed path] }.stop .crashed)
        | .ok text => .ok { st with trace := st.trace ++ [.opened path, .wrote path text, .closed path] }
      else .error (st.stop (.exit ("error writing SGF file: ".toList ++ W.ioText path)))

/-- The state after a game. -/
def TwoSt.after (st : TwoSt σ) (g : GtpGame σ (List Str)) : TwoSt σ := { st with gc := g.runner.env.gc, printed := g.runner.env.user }

/-- twogtp:79-107: one game; none if it isn't over after `fuel` turns. (After a successful `run` there is a result.) -/
def twoGame (W : TwoWorld σ) (o : TwoOpts) (desc : Colour → Option EngineDesc) (fuel : Nat) (n : Nat) (st : TwoSt σ) : Option (Except (TwoOut σ) (TwoSt σ)) :=
  match (GtpGame.init (twoCfg W o) st.gc st.printed (some 1000) none).prepare (fun _ => W.channel) (twoCfg W o) with
  | (.error e, g) => some (.error ((st.after g).abort W e))
  | (.ok (), g) => match g.run (fun _ => W.channel) (twoCfg W o) W.strFloat fuel with
    | none => none
    | some (.error e, g, _) => some (.error ((st.after g).abort W e))
    | some (.ok (), g, _) => match g.result with
      | none => some (.error ((st.after g).stop .crashed))
      | some r => some (twoWrite W o desc n g { st.after g with printed := g.runner.env.user ++ [r.describe] })

/-- twogtp:79-107: `k` games, starting with this number. -/
def twoGames (W : TwoWorld σ) (o : TwoOpts) (desc : Colour → Option EngineDesc) (fuel : Nat) : Nat → Nat → TwoSt σ → Option (Except (TwoOut σ) (TwoSt σ))
  | 0, _, st => some (.ok st)
  | k + 1, n, st => match twoGame W o desc fuel n st with
    | none => none
    | some (.error out) => some (.error out)
    | some (.ok st) => twoGames W o desc fuel k (n + 1) st

/-- twogtp:109-112: after the games. -/
def twoFinish (W : TwoWorld σ) (st : TwoSt σ) : TwoOut σ :=
  match st.gc.closePlayers (fun _ => W.channel) with
  | (.error _, gc) => { st with gc := gc }.stop .crashed
  | (.ok (), gc) => match gc.describeLateErrors with
    | some (c :: s) => { st with gc := gc }.stop (.exit (c :: s))
    | _ => { st with gc := gc }.stop .done

/-- twogtp:79-112: when the engines have been started. -/
def twoPlay (W : TwoWorld σ) (o : TwoOpts) (code : Colour → Str) (b w : Ctl σ) (db dw : EngineDesc) (trace : List JobEvent) (fuel : Nat) : Option (TwoOut σ) :=
  match twoGames W o (fun c => match c with | .b => some db | .w => some dw) fuel o.games.toNat 0
      ⟨{ ctl := fun c => match c with | .b => b | .w => w, code := code, lateErrors := [], cautious := false }, twoIntro o.verbose db dw, trace⟩ with
  | none => none
  | some (.error out) => some out
  | some (.ok st) => some (twoFinish W st)

/-- twogtp:63-112: for these commands. -/
def twoRun (W : TwoWorld σ) (o : TwoOpts) (code : Colour → Str) (bargs wargs : List Str) (fuel : Nat) : Option (TwoOut σ) :=
  match twoStart W (code .b) bargs .b .init with
  | (.error e, st) => some (twoStartFailed W e st)
  | (.ok db, st) => match twoStart W (code .w) wargs .w st with
    | (.error e, st) => some (twoStartFailed W e st)
    | (.ok dw, st) => match st.ctl .b, st.ctl .w with
      | some b, some w => twoPlay W o code b w db dw st.trace fuel
      | _, _ => some ⟨.crashed, [], st.trace, st.ctl⟩

/-- Stop before anything has been done. -/
def TwoOut.early (e : TwoEnd) : TwoOut σ := ⟨e, [], [], fun _ => none⟩

/-- twogtp:37-112 `main`; none if a game isn't over after `fuel` turns. -/
def twoMain (W : TwoWorld σ) (o : TwoOpts) (fuel : Nat) : Option (TwoOut σ) :=
  if o.args ≠ [] then some (.early (.usage "too many arguments".toList))
  else if o.black.getD [] = [] ∨ o.white.getD [] = [] then some (.early (.usage "players not specified".toList))
  else match W.shlex (o.black.getD []), W.shlex (o.white.getD []) with
    | some (b :: bs), some (w :: ws) => twoRun W o (twoCodes b w) (b :: bs) (w :: ws) fuel
    | _, _ => some (.early .crashed)

end Gomill.Gtp
