import Verif.Model.Py
/-
Python 2 byte strings and the string operations the modelled code uses.

A Python 2 `str` is a sequence of bytes; it is modelled as a list of characters.  The theorems hold for lists of
arbitrary characters, so in particular for those with codes 0..255.
-/
namespace Gomill.Py

abbrev Str := List Char

/-- `c.isspace()` for a one-byte string in the C locale: tab, newline, vertical tab, form feed, return, space. -/
def isSpace (c : Char) : Bool :=
  c = ' ' || c = '\t' || c = '\n' || c = '\r' || c.toNat = 11 || c.toNat = 12

/-- `s.lstrip()`. -/
def lstrip (s : Str) : Str := s.dropWhile isSpace

/-- `s.rstrip()`. -/
def rstrip (s : Str) : Str := (s.reverse.dropWhile isSpace).reverse

/-- `s.strip()`. -/
def strip (s : Str) : Str := rstrip (lstrip s)

/-- `s.lower()` (C locale: ASCII only). -/
def lower (s : Str) : Str := s.map Char.toLower

/-- `sep.join(l)`. -/
def join (sep : Str) : List Str → Str
  | [] => []
  | [x] => x
  | x :: y :: r => x ++ sep ++ join sep (y :: r)

/-- `s.split(c)` for a one-character separator: always at least one piece. -/
def splitOn (c : Char) : Str → List Str
  | [] => [[]]
  | x :: xs =>
    if x = c then [] :: splitOn c xs
    else match splitOn c xs with
      | [] => [[x]]
      | p :: ps => (x :: p) :: ps

/-- `str(n)` (and `"%d" % n`) for an int. -/
def strInt (n : Int) : Str :=
  if n < 0 then '-' :: Nat.toDigits 10 n.natAbs else Nat.toDigits 10 n.natAbs

/-- `"%2d" % n`: `str(n)` padded with spaces on the left to width 2. -/
def strInt2 (n : Int) : Str :=
  List.replicate (2 - (strInt n).length) ' ' ++ strInt n

/-- The digits part of an int literal: a nonempty string of ASCII digits. -/
def parseDigits (s : Str) : Except Exc Nat :=
  if s ≠ [] ∧ s.all Char.isDigit then .ok (Nat.ofDigitChars 10 s 0) else .error .valueError

/-- `int(s)`, base 10, on a string: surrounding whitespace and one sign are allowed, and (in Python 2) whitespace between
the sign and the digits; compare sgf_properties.py:109-110. -/
def parseInt (s : Str) : Except Exc Int :=
  match strip s with
  | '-' :: r => signed (fun n => -n) (parseDigits (lstrip r))
  | '+' :: r => signed id (parseDigits (lstrip r))
  | r => signed id (parseDigits r)
where
  signed (f : Int → Int) : Except Exc Nat → Except Exc Int
    | .ok n => .ok (f (Int.ofNat n))
    | .error e => .error e

end Gomill.Py
