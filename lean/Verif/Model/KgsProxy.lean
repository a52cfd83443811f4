import Verif.Model.GtpProxy
import Verif.Model.GtpState
import Verif.Model.GameJob
/-
Model of gomill_examples/kgs_proxy.py.

Not modelled: reading the command line (optparse) and starting the back end's process; `filename_template % i` is an unknown function of i.
-/
namespace Gomill.Kgs
open Py Gtp
variable {σ : Type}

/-- kgs_proxy.py:25-53, 68: a Kgs_proxy whose proxy has been set up. `sgfDir` is None unless `do_savesgf`. `log` is what's been printed by `log`. -/
structure Kgs (σ : Type) where
  proxy : Proxy σ
  sgfDir : Option Str
  template : Nat → Str
  myColour : Option Colour
  myName : Option Str
  log : List Str

/-- `s.partition(sep)[0]` if `sep` is in `s`. -/
def beforeText (sep : Str) : Str → Option Str
  | [] => if sep = [] then some [] else none
  | c :: r => if sep.isPrefixOf (c :: r) then some [] else (beforeText sep r).map (c :: ·)

/-- kgs_proxy.py:78-86 `shorten_version`. -/
def shortenVersion (name version : Str) : Str :=
  let version := if (lower name).isPrefixOf (lower version) then lstrip (version.drop name.length) else version
  let version := (beforeText ". Please read http:".toList version).getD version
  rstrip (version.take 32)

/-- How starting can end: `sys.exit` with a message, or an exception which isn't caught. -/
inductive Stop where
  | exit (message : Str)
  | raised (e : CExc)
  deriving DecidableEq, Repr

/-- kgs_proxy.py:70-71 (and what isn't caught there). -/
def stopped : PExc → Stop
  | .backEnd msg _ => .exit ("kgs_proxy: ".toList ++ msg)
  | .other e => .raised e

/-- kgs_proxy.py:88-95: the rest of `initialise_name`. -/
def initialiseName (C : Channel σ) (ctl : Ctl σ) : Except Stop (Option Str) × Ctl σ :=
  match passCommand C ctl "name".toList [] with
  | (.error (.other (.badResponse _ _)), ctl) => (.ok none, ctl)
  | (.error e, ctl) => (.error (stopped e), ctl)
  | (.ok name, ctl) => match passCommand C ctl "version".toList [] with
    | (.error (.other (.badResponse _ _)), ctl) => (.ok (some name), ctl)
    | (.error e, ctl) => (.error (stopped e), ctl)
    | (.ok version, ctl) => (.ok (some (name ++ ':' :: shortenVersion name version)), ctl)

/-- The name registered for a handler which `Kgs.run` calls. -/
def ownHandler : Handler σ := .custom (fun _ ctl => (.value none, ctl))

/-- kgs_proxy.py:59-62: the proxy with the two commands added. -/
def withCommands (p : Proxy σ) : Proxy σ := (p.addCommand "genmove".toList ownHandler).addCommand "kgs-game_over".toList ownHandler

/-- kgs_proxy.py:63-65: whether the back end lacks gomill-savesgf, and it's needed. -/
def lacksSavesgf (C : Channel σ) (sgfDir : Option Str) (ctl : Ctl σ) : Except PExc Bool × Ctl σ :=
  match sgfDir with
  | none => (.ok false, ctl)
  | some _ => match backEndHasCommand C ctl "gomill-savesgf".toList with
    | (.ok b, ctl) => (.ok (!b), ctl)
    | (.error e, ctl) => (.error e, ctl)

/-- kgs_proxy.py:55-71: the first part of `run`. -/
def Kgs.start (C : Channel σ) (ctl : Ctl σ) (sgfDir : Option Str) (template : Nat → Str) : Except Stop (Kgs σ) :=
  match setBackEnd C ctl with
  | (.error e, _) => .error (stopped e)
  | (.ok p, _) => match lacksSavesgf C sgfDir p.ctl with
    | (.error e, _) => .error (stopped e)
    | (.ok true, _) => .error (.exit "kgs_proxy: back end doesn't support gomill-savesgf".toList)
    | (.ok false, ctl) => match initialiseName C ctl with
      | (.error e, _) => .error e
      | (.ok name, ctl) => .ok ⟨{ withCommands p with ctl := ctl }, sgfDir, template, none, name, []⟩

/-- A new state of the controller. -/
def Kgs.setCtl (k : Kgs σ) (ctl : Ctl σ) : Kgs σ := { k with proxy := { k.proxy with ctl := ctl } }

/-- kgs_proxy.py:97-102 `handle_genmove`.  (The texts of the tracebacks aren't modelled.) -/
def Kgs.handleGenmove (C : Channel σ) (k : Kgs σ) (args : List Str) : Outcome × Kgs σ :=
  match args with
  | [] => (.gtpError "invalid arguments".toList, k)
  | a :: _ => match interpretColour a with
    | none => (.gtpError ("invalid colour: '".toList ++ a ++ "'".toList), k)
    | some c => match passCommand C k.proxy.ctl "genmove".toList args with
      | (.ok r, ctl) => (.value (some r), { k with myColour := some c }.setCtl ctl)
      | (.error (.backEnd msg _), ctl) => (.exception ("BackEndError: ".toList ++ msg), { k with myColour := some c }.setCtl ctl)
      | (.error (.other e), ctl) => (.exception (tracebackText e), { k with myColour := some c }.setCtl ctl)

/-- kgs_proxy.py:109-115 `choose_filename`; `none` is StandardError. -/
def chooseFilename (template : Nat → Str) (existing : List Str) : Option Str :=
  (((List.range 10000).map template).find? (fun f => !existing.contains f))

/-- kgs_proxy.py:123-124 `escape_for_savesgf`. -/
def escapeForSavesgf (s : Str) : Str :=
  (s.flatMap (fun c => if c = '\\' then ['\\', '\\'] else [c])).flatMap (fun c => if c = ' ' then ['\\', ' '] else [c])

/-- `my_colour.upper()` -/
def colourLetter : Colour → Char
  | .b => 'B'
  | .w => 'W'

/-- kgs_proxy.py:130-133: the arguments of gomill-savesgf. -/
def Kgs.saveArgs (k : Kgs σ) (pathname : Str) : List Str :=
  pathname :: match k.myColour, k.myName with
    | some c, some name => [['P', colourLetter c, '='] ++ escapeForSavesgf name]
    | _, _ => []

/-- kgs_proxy.py:117-138 `handle_game_over`; `listing` is the result of `os.listdir` (None: OSError). GtpFatalError is a GtpError, so it's caught too. -/
def Kgs.handleGameOver (C : Channel σ) (k : Kgs σ) (listing : Option (List Str)) : Outcome × Kgs σ :=
  match k.sgfDir with
  | none => (.value none, k)
  | some dir => match listing with
    | none => (.exception "OSError".toList, k)
    | some files => match chooseFilename k.template files with
      | none => (.exception "StandardError: too many sgf files".toList, k)
      | some filename =>
        let pathname := pathJoin dir filename
        let k := { k with log := k.log ++ ["kgs_proxy: saving game record to ".toList ++ pathname] }
        match handleCommand C k.proxy.ctl "gomill-savesgf".toList (k.saveArgs pathname) with
        | (.gtpError m, ctl) => (.value none, { k with log := k.log ++ ["error: ".toList ++ m] }.setCtl ctl)
        | (.gtpFatalError m, ctl) => (.value none, { k with log := k.log ++ ["error: ".toList ++ m] }.setCtl ctl)
        | (.exception t, ctl) => (.exception t, k.setCtl ctl)
        | (_, ctl) => (.value none, k.setCtl ctl)

/-- gtp_engine.py:279-338 `run_command`, for a handler with this outcome. -/
def reply (o : Outcome) : Bool × Str × Bool := (⟨fun _ => some (fun _ => o), false⟩ : Engine).runCommand [] []

/-- gtp_engine.py:295-338 `run_command` on the engine of a Kgs_proxy. -/
def Kgs.run (C : Channel σ) (k : Kgs σ) (listing : Option (List Str)) (command : Str) (args : List Str) : (Bool × Str × Bool) × Kgs σ :=
  if command = "genmove".toList then (reply (k.handleGenmove C args).1, (k.handleGenmove C args).2)
  else if command = "kgs-game_over".toList then (reply (k.handleGameOver C listing).1, (k.handleGameOver C listing).2)
  else ((k.proxy.run C command args).1, { k with proxy := (k.proxy.run C command args).2 })

/-- The state after some commands; with the listing of the directory at the time of each. -/
def Kgs.after (C : Channel σ) (k : Kgs σ) (l : List (Option (List Str) × Str × List Str)) : Kgs σ :=
  l.foldl (fun k x => (k.run C x.1 x.2.1 x.2.2).2) k

end Gomill.Kgs
