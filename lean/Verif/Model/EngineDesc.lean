import Verif.Model.GtpGame
/-
Model of gomill/gtp_controller.py: Engine_description.
-/
namespace Gomill.Gtp
open Py

/-- `s.partition(sep)[0]` if `sep` occurs in `s`, and none if it doesn't. -/
def beforeSep (sep : Str) : Str → Option Str
  | [] => if sep.isPrefixOf [] then some [] else none
  | c :: s => if sep.isPrefixOf (c :: s) then some [] else (beforeSep sep s).map (c :: ·)

/-- gtp_controller.py:816-817: the version without the engine's name. -/
def stripName (name : Option Str) (version : Str) : Str :=
  match name with
  | none => version
  | some n => if (lower n).isPrefixOf (lower version) then lstrip (version.drop n.length) else version

/-- gtp_controller.py:814-831 `_fix_version`. (IndexError if there's nothing to find at line 830.) -/
def fixVersion (name : Option Str) (version : Str) : Except Exc Str :=
  let v := stripName name version
  if v.length > 64 then
    match beforeSep ". Please read http:".toList v with
    | some a => .ok a
    | none => match beforeSep ": I'm playing".toList v with
      | some a => .ok a
      | none => match splitWs v with
        | [] => .error .indexError
        | w :: _ => .ok w
  else .ok v

/-- gtp_controller.py:774-780, 794-812: the public attributes of Engine_description. -/
structure EngineDesc where
  rawName : Option Str
  name : Option Str
  rawVersion : Option Str
  version : Option Str
  cleanVersion : Option Str
  description : Option Str
  deriving DecidableEq, Repr

/-- `sanitise_utf8(raw) if raw else None` (gtp_controller.py:796-799, 809-812). -/
def sanitised (replaceBad : Str → Str) (raw : Option Str) : Option Str :=
  match raw with
  | none => none
  | some [] => none
  | some (c :: s) => some (sanitiseUtf8 replaceBad (c :: s))

/-- gtp_controller.py:794-812 `__init__`. -/
def EngineDesc.make (replaceBad : Str → Str) (rawName rawVersion rawDescription : Option Str) : Except Exc EngineDesc :=
  let name := sanitised replaceBad rawName
  let description := sanitised replaceBad rawDescription
  match sanitised replaceBad rawVersion with
  | none => .ok { rawName, name, rawVersion, version := none, cleanVersion := none, description }
  | some version => match fixVersion name version with
    | .error e => .error e
    | .ok clean => .ok { rawName, name, rawVersion, version := some version, cleanVersion := some clean, description }

/-- gtp_controller.py:856-868 `get_short_description`. -/
def EngineDesc.short (d : EngineDesc) : Option Str :=
  match d.name with
  | none => none
  | some n => match d.cleanVersion with
    | none => some n
    | some v => if v.length > 32 then some n else some (n ++ ":".toList ++ v)

/-- gtp_controller.py:870-889 `get_long_description`. -/
def EngineDesc.long (d : EngineDesc) : Option Str :=
  match d.description with
  | some s => some s
  | none => match d.name, d.cleanVersion with
    | none, none => none
    | none, some v => some ("version ".toList ++ v)
    | some n, none => some n
    | some n, some v => some (n ++ ":".toList ++ v)

variable {σ : Type}

/-- gtp_controller.py:840-847, 850-853: the response, or None for a failure response. -/
def Ctl.askOrNone (C : Channel σ) (c : Ctl σ) (command : Str) : Except CExc (Option Str) × Ctl σ :=
  match c.doCommand C command [] with
  | (.ok r, c) => (.ok (some r), c)
  | (.error (.badResponse _ _), c) => (.ok none, c)
  | (.error e, c) => (.error e, c)

/-- gtp_controller.py:833-854 `from_controller`: the responses to name, version and gomill-describe_engine. -/
def Ctl.queryDescription (C : Channel σ) (c : Ctl σ) : Except CExc (Option Str × Option Str × Option Str) × Ctl σ :=
  match c.askOrNone C "name".toList with
  | (.error e, c) => (.error e, c)
  | (.ok name, c) => match c.askOrNone C "version".toList with
    | (.error e, c) => (.error e, c)
    | (.ok version, c) => match c.knownCommand C false "gomill-describe_engine".toList with
      | (.error e, c) => (.error e, c)
      | (.ok false, c) => (.ok (name, version, none), c)
      | (.ok true, c) => match c.askOrNone C "gomill-describe_engine".toList with
        | (.error e, c) => (.error e, c)
        | (.ok d, c) => (.ok (name, version, d), c)

end Gomill.Gtp
