import Verif.Model.Text
/-
Model of gomill/gtp_engine.py: parsing of input lines, cleaning of responses, Gtp_engine_protocol.
-/
namespace Gomill.Gtp
open Py

/-- gtp_engine.py:144 `_remove_controls_re` `[\x00-\x08\x0a-\x1f\x7f]` (input). -/
def isInputControl (c : Char) : Bool := c.toNat ≤ 8 || (10 ≤ c.toNat && c.toNat ≤ 31) || c.toNat = 127

/-- gtp_engine.py:145 and gtp_controller.py:58 `_remove_response_controls_re` `[\x00-\x08\x0b-\x1f\x7f]`. -/
def isResponseControl (c : Char) : Bool := c.toNat ≤ 8 || (11 ≤ c.toNat && c.toNat ≤ 31) || c.toNat = 127

/-- Tab or space. -/
def isBlank (c : Char) : Bool := c = '\t' || c = ' '

/-- gtp_engine.py:146,153 `_normalise_whitespace_re.sub(" ", s)`: each maximal run of tabs and spaces becomes one
space. -/
def normaliseWhitespace : Str → Str
  | [] => []
  | c :: s =>
    if isBlank c then
      match s with
      | [] => [' ']
      | d :: _ => if isBlank d then normaliseWhitespace s else ' ' :: normaliseWhitespace s
    else c :: normaliseWhitespace s

/-- gtp_engine.py:149-154 `_preprocess_line`. -/
def preprocessLine (s : Str) : Str :=
  normaliseWhitespace ((s.takeWhile (· ≠ '#')).filter (fun c => !isInputControl c))

/-- `s.split()`: the maximal runs of non-whitespace characters. -/
def splitWs : Str → List Str
  | [] => []
  | c :: s =>
    if isSpace c then splitWs s
    else match s with
      | [] => [[c]]
      | d :: _ =>
        if isSpace d then [c] :: splitWs s
        else match splitWs s with
          | [] => [[c]]
          | w :: ws => (c :: w) :: ws

/-- gtp_engine.py:76 `_gtp_int_max`. -/
def gtpIntMax : Nat := 2147483647

/-- gtp_engine.py:147,186 `_command_id_re.match(s)` for `^-?[0-9]+`: the matched prefix, if any. -/
def matchCommandId (s : Str) : Option Str :=
  match s with
  | '-' :: r =>
    let ds := r.takeWhile Char.isDigit
    if ds = [] then none else some ('-' :: ds)
  | _ =>
    let ds := s.takeWhile Char.isDigit
    if ds = [] then none else some ds

/-- gtp_engine.py:198-202: the id to report: none if negative; clipped to 2^31-1.  (`int()` can't fail on a string the
regular expression matched.  A negative id of value zero, "-0", is reported as it is.) -/
def clipId (cid : Str) : Option Str :=
  match parseInt cid with
  | .error _ => none
  | .ok k => if k < 0 then none else if k > gtpIntMax then some (strInt gtpIntMax) else some cid

/-- gtp_engine.py:170-207 `_parse_line`: (command id, command, arguments). -/
def parseLine (line : Str) : Except Exc (Option Str × Option Str × List Str) :=
  match splitWs line with
  | [] => .error .indexError
  | s :: rest =>
    match matchCommandId s with
    | some m =>
      let command := s.drop m.length
      if command = [] then .ok (clipId m, rest.head?, rest.drop 1)
      else .ok (clipId m, some command, rest)
    | none => .ok (none, some s, rest)

/-- `s.replace("\n\n", "\n.\n")`: leftmost non-overlapping occurrences. -/
def replaceBlankLines : Str → Str
  | '\n' :: '\n' :: s => '\n' :: '.' :: '\n' :: replaceBlankLines s
  | c :: s => c :: replaceBlankLines s
  | [] => []

/-- gtp_engine.py:156-168 `_clean_response`. `none` is None; the utf-8 encoding of unicode objects, and `str` of other
objects, are outside the model. -/
def cleanResponse : Option Str → Str
  | none => []
  | some s => ((replaceBlankLines (rstrip s)).filter (fun c => !isResponseControl c)).map (fun c => if c = '\t' then ' ' else c)

/-- What calling a handler can lead to (gtp_engine.py:284-293). `exception` is any other exception; the text stands for
the formatted traceback. -/
inductive Outcome where
  | value (response : Option Str)
  | gtpError (msg : Str)
  | gtpFatalError (msg : Str)
  | gtpQuit (msg : Str)
  | exception (traceback : Str)
  deriving DecidableEq, Repr

/-- gtp_engine.py:244-246: a Gtp_engine_protocol. The behaviour of each registered handler for this call. -/
structure Engine where
  handlers : Str → Option (List Str → Outcome)
  exceptionsFatal : Bool

/-- gtp_engine.py:279-293 `_do_command`. -/
def Engine.doCommand (e : Engine) (command : Str) (args : List Str) : Outcome :=
  match e.handlers command with
  | none => .gtpError "unknown command".toList
  | some handler => match handler args with
    | .exception tb =>
      if e.exceptionsFatal then .gtpFatalError ("internal error; exiting\n".toList ++ tb)
      else .gtpError ("internal error\n".toList ++ tb)
    | o => o

/-- gtp_engine.py:295-338 `run_command`: (is_error, response, end_session). -/
def Engine.runCommand (e : Engine) (command : Str) (args : List Str) : Bool × Str × Bool :=
  match e.doCommand command args with
  | .gtpQuit msg => (false, cleanResponse (some msg), true)
  | .gtpFatalError msg =>
    (true, cleanResponse (some (if msg = [] then "unspecified fatal error".toList else msg)), true)
  | .gtpError msg => (true, cleanResponse (some (if msg = [] then "unspecified error".toList else msg)), false)
  | .value r => (false, cleanResponse r, false)
  | .exception tb => (true, cleanResponse (some tb), false)

/-- gtp_engine.py:340-383 `handle_line`. -/
def Engine.handleLine (e : Engine) (line : Str) : Except Exc (Option Str × Bool) :=
  let normalised := preprocessLine line
  if normalised = [] ∨ normalised = [' '] then .ok (none, false)
  else match parseLine normalised with
    | .error x => .error x
    | .ok (commandId, command, args) =>
      match command with
      | none => .ok (none, false)
      | some command =>
        let r := e.runCommand command args
        let code : Char := if r.1 then '?' else '='
        let sep : Str := if r.2.1 = [] then [] else [' ']
        .ok (some (code :: ((commandId.getD []) ++ sep ++ r.2.1 ++ ['\n', '\n'])), r.2.2)

/-- gtp_engine.py:428-444 `_run_gtp_session`: everything written, for the lines read (up to end of file), as long as no write
fails.  `es k` is the engine's behaviour when handling the k-th line (handlers can have state). -/
def runSession (es : Nat → Engine) : Nat → List Str → Except Exc Str
  | _, [] => .ok []
  | k, line :: rest =>
    match (es k).handleLine line with
    | .error x => .error x
    | .ok (response, endSession) =>
      let out := response.getD []
      if endSession then .ok out
      else match runSession es (k + 1) rest with
        | .error x => .error x
        | .ok out' => .ok (out ++ out')

end Gomill.Gtp
