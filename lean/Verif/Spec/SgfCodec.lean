import Verif.Model.SgfProps
/-
What is assumed of the encoding of an SGF game.
-/
namespace Gomill.Sgf

open Py

/-- The UTF-8 encoding of a code point (RFC 3629), as bytes. -/
def utf8Bytes (n : Nat) : Str :=
  if n < 0x80 then [Char.ofNat n]
  else if n < 0x800 then [Char.ofNat (0xc0 + n / 64), Char.ofNat (0x80 + n % 64)]
  else if n < 0x10000 then [Char.ofNat (0xe0 + n / 4096), Char.ofNat (0x80 + n / 64 % 64), Char.ofNat (0x80 + n % 64)]
  else [Char.ofNat (0xf0 + n / 262144), Char.ofNat (0x80 + n / 4096 % 64), Char.ofNat (0x80 + n / 64 % 64), Char.ofNat (0x80 + n % 64)]

/-- The encodings for which sgf_properties is meant to work: those in which ASCII characters stand for themselves and
nothing else contains an ASCII byte (UTF-8, ISO-8859-1 and the other ISO-8859 encodings, EUC encodings; not UTF-16,
Shift-JIS or GBK). -/
structure AsciiCompatible (C : Codec) : Prop where
  nil : C.dec [] = some []
  /-- an ASCII character stands for itself, wherever it is, and separates what is before it from what is after it -/
  ascii : ∀ x c y, c.toNat < 128 → C.dec (x ++ c :: y) = (C.dec x).bind (fun a => (C.dec y).map (fun b => a ++ c :: b))
  /-- other bytes stand for non-ASCII characters -/
  high : ∀ x a, (∀ c ∈ x, 128 ≤ c.toNat) → C.dec x = some a → ∀ c ∈ a, 128 ≤ c.toNat
  /-- only the empty string stands for the empty string -/
  nonempty : ∀ x, C.dec x = some [] → x = []
  /-- encoding and decoding again gives the same text -/
  inverse : ∀ s e, utf8Valid s = true → C.enc s = some e → C.dec e = some s

end Gomill.Sgf
