import Verif.Spec.TwoGtpSgf
import Verif.Props.MoveCallback
import Verif.Lemmas.JobTotal
/-
What a series of games run by twogtp should look like, for C101.
-/
namespace Gomill.Gtp
open Py Go Gomill.Spec

/-- What is printed for a move: nothing; or the colour and the vertex; or that, a diagram of the board, and a blank line. -/
def said (verbose : Nat) (x : MoveCall) : List Str :=
  let line := x.1.upper :: ' ' :: (formatVertex x.2.1).toOption.getD []
  if verbose = 1 then [line] else if verbose = 2 then [line, (Ascii.renderBoard x.2.2).toOption.getD [], []] else []

/-- The lines printed for these moves of a game from an empty board. -/
def Shows (verbose n : Nat) (ms : List Mv) (lines : List Str) : Prop :=
  ∃ calls, CallsFor n (fun _ => none) ms calls ∧ lines = calls.flatMap (said verbose)

/-- A completed game: the moves, the result, the lines printed during the game, and the text of the SGF file (if there is one). -/
structure TwoGameRec where
  moves : List Mv
  result : GameResult
  lines : List Str
  text : Str

/-- These are the moves and the result of a game between these players, played by the rules of go from an empty board, with Black first, which is over: by two passes, by the move limit of
1000, or because a player resigned or forfeited the game. (A last move which the opponent refused is left out.) If it wasn't two passes, the winner is the one the ending says; if it was, the winner is
the one that all the players who gave a score named, if any. -/
structure TwoPlayed (float : Str → Option Num) (fmt : Rat → Str) (n : Nat) (code : Colour → Str) (ms : List Mv) (r : GameResult) : Prop where
  game : ∃ (b0 : Board) (h : List Mv) (e : Option Ending) (gm : Game), ReachableBoard n b0 ∧ (∀ p, b0.pos p = none) ∧ Played n b0 .b (some 1000) h e gm ∧ gm.isOver = true ∧
    (ms = h ∨ ∃ m c x, h = ms ++ [m] ∧ e = some (.forfeited c x)) ∧
    (¬ TwoPasses h → r.res.winningColour = e.map Ending.winner) ∧
    (TwoPasses h → ∃ responses : List Str, responses.length ≤ 2 ∧ ∀ c, r.res.winningColour = some c ↔ Unanimous float responses (some c))
  made : MadeResult fmt r
  black : r.playerB = code .b
  white : r.playerW = code .w

/-- The settings of the games. -/
structure TwoSettings {σ : Type} (W : TwoWorld σ) (o : TwoOpts) (cfg : GtpCfg (List Str)) : Prop where
  boardSize : cfg.boardSize = o.size
  komi : cfg.komi = o.komi ∧ cfg.komiText = W.strFloat o.komi
  claims : ∀ c, cfg.claimAllowed c = false
  scorers : cfg.internal = false ∧ cfg.scorers = [.b, .w]
  texts : cfg.float = W.float ∧ cfg.cpuFloat = W.cpuFloat ∧ cfg.replaceBad = W.replaceBad
  callback : ∀ n ≤ 25, ∀ x : MoveCall, BoardInv n x.2.2 → (∀ p, x.2.1 = some p → OnBoard n p) → ∀ u, cfg.callback x.1 x.2.1 x.2.2 u = (.ok (), u ++ said o.verbose x)

/-- A Gtp_game with these settings, a move limit of 1000 and no game id, which is prepared and then run, with this game controller at the start. -/
def RunWith {σ : Type} (W : TwoWorld σ) (o : TwoOpts) (gc : GC σ) (g : GtpGame σ (List Str)) : Prop :=
  ∃ cfg u g1 fuel game, TwoSettings W o cfg ∧ (GtpGame.init cfg gc u (some 1000) none).prepare (fun _ => W.channel) cfg = (.ok (), g1) ∧
    g1.run (fun _ => W.channel) cfg W.strFloat fuel = some (.ok (), g, game)

/-- The games were played with this game controller, one after another; if SGF files are wanted and the texts are tidy, the text of each game's file is an SGF file with its record. (`d` describes
the engines.) -/
inductive InTurn {σ : Type} (W : TwoWorld σ) (o : TwoOpts) (d : Colour → EngineDesc) (gc0 : GC σ) : List TwoGameRec → GC σ → Prop
  | nil : InTurn W o d gc0 [] gc0
  | snoc (gs : List TwoGameRec) (gc : GC σ) (g : GtpGame σ (List Str)) (rec : TwoGameRec) : InTurn W o d gc0 gs gc → RunWith W o gc g → g.result = some rec.result → movesOf g.runner = rec.moves →
      (o.sgfbase ≠ none → ∀ isFloat, TwoTidy W d isFloat g → TwoFile W o d g rec.text) → InTurn W o d gc0 (gs ++ [rec]) g.runner.env.gc

/-- The record of the last of these games can't be made, because its texts aren't tidy. -/
def Unwritable {σ : Type} (W : TwoWorld σ) (o : TwoOpts) (d : Colour → EngineDesc) (gc0 : GC σ) (gs : List TwoGameRec) : Prop :=
  ∃ before last gc g, gs = before ++ [last] ∧ InTurn W o d gc0 before gc ∧ RunWith W o gc g ∧ g.result = some last.result ∧ ∀ isFloat, ¬ TwoTidy W d isFloat g

/-- The files written for the games with these texts: the number has three digits, or more if it must. -/
def twoFiles (base : Option Str) (texts : List Str) : List JobEvent :=
  match base with
  | none => []
  | some base => texts.zipIdx.flatMap (fun x =>
      [JobEvent.opened (base ++ strInt3 x.2 ++ ".sgf".toList), .wrote (base ++ strInt3 x.2 ++ ".sgf".toList) x.1, .closed (base ++ strInt3 x.2 ++ ".sgf".toList)])

/-- The games completed, with what has been printed and written for them, after `intro` was printed and the engines were started. -/
structure Completed {σ : Type} (W : TwoWorld σ) (o : TwoOpts) (code : Colour → Str) (gs : List TwoGameRec) : Prop where
  played : ∀ g ∈ gs, TwoPlayed W.float W.strFloat o.size code g.moves g.result
  shown : ∀ g ∈ gs, Shows o.verbose o.size g.moves g.lines

/-- Everything printed for the games. -/
def gamesText (gs : List TwoGameRec) : List Str := gs.flatMap (fun g => g.lines ++ [g.result.describe])

/-- Both controllers have been closed. -/
def BothClosed {σ : Type} (out : TwoOut σ) : Prop := ∀ c, ∃ x, out.ctl c = some x ∧ x.closed = true

/-- The errors which the controllers have recorded. -/
def lateText {σ : Type} (out : TwoOut σ) : Str := join ['\n'] ((out.ctl .b).toList.flatMap Ctl.errors ++ (out.ctl .w).toList.flatMap Ctl.errors)

/-- The last game was being scored, and a player's response to final_score gave an infinity or a NaN as the margin. -/
def OddScore {σ : Type} (W : TwoWorld σ) (out : TwoOut σ) : Prop :=
  ∃ g : GtpGame σ (List Str), (∀ c, out.ctl c = some (g.runner.env.gc.ctl c)) ∧
    ∃ c s w x, (c, s) ∈ g.runner.env.scores ∧ Says W.float s (some w) (some x) ∧ (x = .inf ∨ x = .nan)

/-- How the program ends, when the engines have been started, with these games completed (`extra` is what was printed for a game that wasn't). -/
inductive Ends {σ : Type} (W : TwoWorld σ) (o : TwoOpts) (d : Colour → EngineDesc) (gc0 : GC σ) (started : List JobEvent) (gs : List TwoGameRec) (extra : List Str) (out : TwoOut σ) : Prop
  /-- All the games have been completed. -/
  | complete : gs.length = o.games.toNat → extra = [] → BothClosed out → out.trace = started ++ twoFiles o.sgfbase (gs.map TwoGameRec.text) →
      out.ending = (if lateText out = [] then .done else .exit (lateText out)) → Ends W o d gc0 started gs extra out
  /-- There was an error from an engine. -/
  | aborted (msg : Str) : gs.length < o.games.toNat → BothClosed out → out.trace = started ++ twoFiles o.sgfbase (gs.map TwoGameRec.text) →
      out.ending = .exit ("aborting run due to error:\n".toList ++ msg ++ "\n".toList) → Ends W o d gc0 started gs extra out
  /-- The file for the last of the games couldn't be opened. -/
  | noFile (base path : Str) : gs ≠ [] → gs.length ≤ o.games.toNat → extra = [] → o.sgfbase = some base → path = base ++ strInt3 (gs.length - 1) ++ ".sgf".toList →
      W.canOpen path = false → out.trace = started ++ twoFiles o.sgfbase (gs.dropLast.map TwoGameRec.text) →
      out.ending = .exit ("error writing SGF file: ".toList ++ W.ioText path) → Ends W o d gc0 started gs extra out
  /-- A traceback. -/
  | crashed : gs.length ≤ o.games.toNat → out.ending = .crashed → (o.sgfbase ≠ none ∧ Unwritable W o d gc0 gs ∨ OddScore W out ∧ out.trace = started ++ twoFiles o.sgfbase (gs.map TwoGameRec.text)) → Ends W o d gc0 started gs extra out

/-- What is printed about the engines before the first game. -/
def introText (verbose : Nat) (b w : EngineDesc) : List Str :=
  match verbose with
  | 1 => ["Black: ".toList ++ b.short.getD "None".toList, "White: ".toList ++ w.short.getD "None".toList]
  | 2 => ["Black: ".toList ++ b.long.getD "None".toList ++ "\n".toList, "White: ".toList ++ w.long.getD "None".toList ++ "\n".toList]
  | _ => []

/-- A controller for a new engine started with these arguments, after its protocol version and its description have been asked for. -/
def NewPlayer {σ : Type} (W : TwoWorld σ) (args : List Str) (name : Str) (x : Ctl σ) (d : EngineDesc) : Prop :=
  ∃ chan c1 n v t, W.spawn { args, env := W.osEnviron, cwd := none, stderr := none } = .ok chan ∧ (Ctl.init chan name).checkProtocolVersion W.channel W.isTwo = (.ok (), c1) ∧
    c1.queryDescription W.channel = (.ok (n, v, t), x) ∧ EngineDesc.make W.replaceBad n v t = .ok d

/-- The player codes: the commands, if these differ. -/
structure Codes (b w : Str) (code : Colour → Str) : Prop where
  distinct : code .b ≠ code .w
  differ : b ≠ w → code .b = b ∧ code .w = w
  same : b = w → code .b = b ++ "-b".toList ∧ code .w = w ++ "-w".toList

/-- The subprocess for a player. -/
def startedBy {σ : Type} (W : TwoWorld σ) (c : Colour) (args : List Str) : JobEvent := .spawned c { args, env := W.osEnviron, cwd := none, stderr := none }

/-- An engine couldn't be started: for Black (and then White's isn't tried), or for White. -/
def CannotStart {σ : Type} (W : TwoWorld σ) (bargs wargs : List Str) (code : Colour → Str) (trace : List JobEvent) (msg : Str) : Prop :=
  (trace = [] ∧ ∃ m, W.spawn { args := bargs, env := W.osEnviron, cwd := none, stderr := none } = .error m ∧ msg = "error starting subprocess for player ".toList ++ code .b ++ ":\n".toList ++ m) ∨
  (trace = [startedBy W .b bargs] ∧ ∃ m, W.spawn { args := wargs, env := W.osEnviron, cwd := none, stderr := none } = .error m ∧ msg = "error starting subprocess for player ".toList ++ code .w ++ ":\n".toList ++ m)

/-- The engines that were started: Black's is the first. -/
def SomeStarted {σ : Type} (W : TwoWorld σ) (bargs wargs : List Str) (trace : List JobEvent) : Prop :=
  trace = [startedBy W .b bargs] ∨ trace = [startedBy W .b bargs, startedBy W .w wargs]

/-- An engine said that it uses a version of GTP other than 2, or the version it gave ends with whitespace. -/
def Objectionable {σ : Type} (W : TwoWorld σ) : Prop :=
  (∃ v, Response W.channel v ∧ W.isTwo v = false) ∨ ∃ v c, Response W.channel v ∧ v.getLast? = some c ∧ isSpace c = true

/-- What twogtp does. -/
inductive Series {σ : Type} (W : TwoWorld σ) (o : TwoOpts) (out : TwoOut σ) : Prop
  /-- The arguments aren't right. -/
  | usage (msg : Str) : (o.args ≠ [] ∧ msg = "too many arguments".toList) ∨
        (o.args = [] ∧ (o.black = none ∨ o.black = some [] ∨ o.white = none ∨ o.white = some []) ∧ msg = "players not specified".toList) →
      out.ending = .usage msg → out.printed = [] → out.trace = [] → (∀ c, out.ctl c = none) → Series W o out
  /-- A command can't be split into words, or has none. -/
  | badCommand : (∃ s, (o.black = some s ∨ o.white = some s) ∧ (W.shlex s = none ∨ W.shlex s = some [])) → out.ending = .crashed → out.printed = [] → out.trace = [] →
      (∀ c, out.ctl c = none) → Series W o out
  /-- There was an error starting the engines: any that have been started are closed. -/
  | notStarted (sb sw b w : Str) (bs ws : List Str) (code : Colour → Str) (msg : Str) : o.black = some sb → o.white = some sw → W.shlex sb = some (b :: bs) → W.shlex sw = some (w :: ws) →
      Codes b w code → out.printed = [] → (CannotStart W (b :: bs) (w :: ws) code out.trace msg ∨ SomeStarted W (b :: bs) (w :: ws) out.trace) →
      (∀ c, (∃ args, startedBy W c args ∈ out.trace) ↔ ∃ x, out.ctl c = some x) → (∀ c x, out.ctl c = some x → x.closed = true) →
      out.ending = .exit ("error creating players:\n".toList ++ msg ++ "\n".toList) → Series W o out
  /-- There was another exception when starting the engines. -/
  | refused (sb sw b w : Str) (bs ws : List Str) : o.black = some sb → o.white = some sw → W.shlex sb = some (b :: bs) → W.shlex sw = some (w :: ws) →
      out.printed = [] → SomeStarted W (b :: bs) (w :: ws) out.trace → Objectionable W → out.ending = .crashed → Series W o out
  /-- The engines have been started, and games played; `extra` is what was printed for the moves `ms` of a game that wasn't completed. -/
  | played (sb sw b w : Str) (bs ws : List Str) (code : Colour → Str) (gc0 gc : GC σ) (d : Colour → EngineDesc) (gs : List TwoGameRec) (extra : List Str) (ms : List Mv) :
      o.black = some sb → o.white = some sw → W.shlex sb = some (b :: bs) → W.shlex sw = some (w :: ws) → Codes b w code →
      NewPlayer W (b :: bs) ("player ".toList ++ code .b) (gc0.ctl .b) (d .b) → NewPlayer W (w :: ws) ("player ".toList ++ code .w) (gc0.ctl .w) (d .w) → gc0.code = code →
      InTurn W o d gc0 gs gc → Completed W o code gs → out.printed = introText o.verbose (d .b) (d .w) ++ gamesText gs ++ extra → Shows o.verbose o.size ms extra →
      Ends W o d gc0 [startedBy W .b (b :: bs), startedBy W .w (w :: ws)] gs extra out → Series W o out

end Gomill.Gtp
