import Verif.Model.Text
import Verif.Model.Common
/-
What SGF text values mean, from the documentation of simpletext_value and text_value, independent of their code.
-/
namespace Gomill.Sgf

open Py

/-- `b` is the line break (LF, CR, LFCR or CRLF) at the start of `b ++ s`. -/
inductive LineBreak : Str → Str → Prop
  | lfcr {s : Str} : LineBreak ['\n', '\r'] s
  | crlf {s : Str} : LineBreak ['\r', '\n'] s
  | lf {s : Str} : s.head? ≠ some '\r' → LineBreak ['\n'] s
  | cr {s : Str} : s.head? ≠ some '\n' → LineBreak ['\r'] s

/-- Whitespace other than line breaks becomes a space. -/
def spaceFor (c : Char) : Char := if c ∈ ['\t', Char.ofNat 11, Char.ofNat 12] then ' ' else c

/-- `raw` represents the text `t`.  In SimpleText (`simple`) a line break stands for a space, in Text for a newline. -/
inductive Means (simple : Bool) : Str → Str → Prop
  | nil : Means simple [] []
  | lineBreak {b s t : Str} : LineBreak b s → Means simple s t →
      Means simple (b ++ s) ((if simple then ' ' else '\n') :: t)
  | escapedBreak {b s t : Str} : LineBreak b s → Means simple s t → Means simple ('\\' :: (b ++ s)) t
  | escaped {c : Char} {s t : Str} : c ≠ '\n' → c ≠ '\r' → Means simple s t →
      Means simple ('\\' :: c :: s) (spaceFor c :: t)
  | lone : Means simple ['\\'] []
  | plain {c : Char} {s t : Str} : c ≠ '\\' → c ≠ '\n' → c ≠ '\r' → Means simple s t →
      Means simple (c :: s) (spaceFor c :: t)

/-- The text `s` with the documented conversions: line breaks normalised (to newline in Text, to space in SimpleText),
other whitespace to spaces. -/
inductive Normalised (simple : Bool) : Str → Str → Prop
  | nil : Normalised simple [] []
  | lineBreak {b s t : Str} : LineBreak b s → Normalised simple s t →
      Normalised simple (b ++ s) ((if simple then ' ' else '\n') :: t)
  | char {c : Char} {s t : Str} : c ≠ '\n' → c ≠ '\r' → Normalised simple s t →
      Normalised simple (c :: s) (spaceFor c :: t)

/-- Text whose only whitespace is spaces. -/
def OneLine (s : Str) : Prop :=
  ∀ c ∈ s, c ≠ '\r' ∧ c ≠ '\n' ∧ c ≠ '\t' ∧ c ≠ Char.ofNat 11 ∧ c ≠ Char.ofNat 12

/-- A board point in the documented coordinates. -/
def OnBoard (size : Int) (p : Pt) : Prop := 0 ≤ p.1 ∧ p.1 < size ∧ 0 ≤ p.2 ∧ p.2 < size

end Gomill.Sgf
