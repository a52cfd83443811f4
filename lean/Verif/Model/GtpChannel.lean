import Verif.Model.GtpEngine
/-
Model of gomill/gtp_controller.py: Gtp_channel.send_command and Linebased_gtp_channel.get_response_impl.

The bytes the engine has sent (and will send before closing the channel) are a string; reading takes from its front.
-/
namespace Gomill.Gtp
open Py

/-- gtp_controller.py:57-70 `is_well_formed_gtp_word` on a str: `\A[\x21-\x7e\x80-\xff]+\Z`. -/
def isWordChar (c : Char) : Bool := (0x21 ≤ c.toNat && c.toNat ≤ 0x7e) || (0x80 ≤ c.toNat && c.toNat ≤ 0xff)

def isWellFormedWord (s : Str) : Bool := s ≠ [] && s.all isWordChar

/-- gtp_controller.py:121-140, 246-248: the line sent for a command. -/
def sendCommand (command : Str) (arguments : List Str) : Except Exc Str :=
  if !isWellFormedWord command then .error .valueError
  else if arguments.any (fun a => !isWellFormedWord a) then .error .valueError
  else .ok (join [' '] (command :: arguments) ++ ['\n'])

/-- `readline()`: the first line, with its newline if there is one, and the rest. -/
def readLine : Str → Str × Str
  | [] => ([], [])
  | c :: s => if c = '\n' then (['\n'], s) else (c :: (readLine s).1, (readLine s).2)

/-- The exceptions get_response_impl raises. -/
inductive ChanExc where
  | closed
  | protocol
  deriving DecidableEq, Repr

/-- `s.endswith("\n")`. -/
def endsNl (s : Str) : Bool := s.getLast? = some '\n'

/-- gtp_controller.py:292-316: the loop.  `fuel` bounds the number of lines read. Returns `lines` and the unread
input. -/
def readLoop : Nat → Option Char → Bool → List Str → Str → List Str × Str
  | 0, _, _, lines, inp => (lines, inp)
  | fuel + 1, peeked, seen, lines, inp =>
    let r := readLine inp
    let s := match peeked with
      | some p => p :: r.1
      | none => r.1
    let s := s.filter (fun c => !isResponseControl c)
    if !seen && decide (strip s = []) then
      if endsNl s then readLoop fuel none false lines r.2 else (lines, r.2)
    else if s = ['\n'] then (lines, r.2)
    else if !endsNl s then (lines ++ [s], r.2)
    else readLoop fuel none true (lines ++ [s]) r.2

/-- `s.lstrip(" \t")`. -/
def lstripBlank (s : Str) : Str := s.dropWhile isBlank

/-- gtp_controller.py:317-333: interpreting the lines of a response. -/
def interpretLines (lines : List Str) : Except ChanExc (Bool × Str) :=
  match lines with
  | [] => .error .closed
  | first :: rest =>
    match first with
    | [] => .error .protocol
    | c :: r =>
      if c ≠ '?' ∧ c ≠ '=' then .error .protocol
      else
        let response := rstrip ((lstripBlank r :: rest).flatten)
        .ok (decide (c = '?'), response.map (fun c => if c = '\t' then ' ' else c))

/-- gtp_controller.py:250-333 `get_response_impl`: the result and the unread input.  `first` is `is_first_response`, for
a channel implementing get_response_byte. (A channel which doesn't behaves as if `first` were always False.)
On line 322, `first_line[0]` can't fail, as the first line isn't empty. -/
def getResponse (first : Bool) (inp : Str) : Except ChanExc (Bool × Str) × Str :=
  if first then
    match inp with
    | [] => (.error .closed, [])
    | b :: rest =>
      if b ∉ [' ', '\t', '\r', '\n', '#', '=', '?'] then (.error .protocol, rest)
      else
        let r := readLoop (rest.length + 2) (if b = '\n' then none else some b) false [] rest
        (interpretLines r.1, r.2)
  else
    let r := readLoop (inp.length + 1) none false [] inp
    (interpretLines r.1, r.2)

end Gomill.Gtp
