import Verif.Model.SgfGrammar
/-
Model of the value functions of gomill/sgf_grammar.py (lines 416-523).
-/
namespace Gomill.Sgf

open Py

/-- sgf_grammar.py:448 `_newline_re.sub("\n", s)` with `\n\r|\r\n|\n|\r`. -/
def newlineSub : Str → Str
  | [] => []
  | '\n' :: '\r' :: r => '\n' :: newlineSub r
  | '\r' :: '\n' :: r => '\n' :: newlineSub r
  | '\n' :: r => '\n' :: newlineSub r
  | '\r' :: r => '\n' :: newlineSub r
  | c :: r => c :: newlineSub r

/-- sgf_grammar.py:449 `_whitespace_table`: tab, form feed and vertical tab to space. -/
def wsMap (c : Char) : Char := if c = '\t' ∨ c.toNat = 12 ∨ c.toNat = 11 then ' ' else c

/-- Whether a character is a chunk on its own. -/
def special (c : Char) : Bool := c = '\n' || c = '\\'

/-- Put a character in front of the first chunk if that is a run of ordinary characters. -/
def consChunk (c : Char) (cs : List Str) : List Str :=
  match cs with
  | (d :: p) :: r => if special d then [c] :: (d :: p) :: r else (c :: d :: p) :: r
  | r => [c] :: r

/-- sgf_grammar.py:450 `_chunk_re.findall(s)` with ` [^\n\\]+ | [\n\\] `. -/
def chunks : Str → List Str
  | [] => []
  | c :: r => if special c then [c] :: chunks r else consChunk c (chunks r)

/-- sgf_grammar.py:467-480, 497-508: the loop of `simpletext_value` (`simple`) and `text_value`. -/
def textLoop (simple : Bool) : Bool → List Str → Str
  | _, [] => []
  | true, chunk :: cs => if chunk ≠ ['\n'] then chunk ++ textLoop simple false cs else textLoop simple false cs
  | false, chunk :: cs =>
    if chunk = ['\\'] then textLoop simple true cs
    else if simple ∧ chunk = ['\n'] then [' '] ++ textLoop simple false cs
    else chunk ++ textLoop simple false cs

/-- sgf_grammar.py:452-480 `simpletext_value`. -/
def simpletextValue (s : Str) : Str := textLoop true false (chunks ((newlineSub s).map wsMap))

/-- sgf_grammar.py:482-508 `text_value`. -/
def textValue (s : Str) : Str := textLoop false false (chunks ((newlineSub s).map wsMap))

/-- `s.replace(c, r)` for a one-character string `c`. -/
def replaceChar (c : Char) (r : Str) (s : Str) : Str := s.flatMap (fun d => if d = c then r else [d])

/-- sgf_grammar.py:510-523 `escape_text`. -/
def escapeText (s : Str) : Str := replaceChar ']' ['\\', ']'] (replaceChar '\\' ['\\', '\\'] s)

/-- sgf_grammar.py:416-418 `( (?: [^\\:] | \\. )* ) :` (DOTALL); returns the group and the rest. -/
def splitCompose : Str → Option (Str × Str)
  | [] => none
  | '\\' :: [] => none
  | '\\' :: c :: r => (splitCompose r).map (fun p => ('\\' :: c :: p.1, p.2))
  | ':' :: r => some ([], r)
  | c :: r => (splitCompose r).map (fun p => (c :: p.1, p.2))

/-- sgf_grammar.py:420-435 `parse_compose`. -/
def parseCompose (s : Str) : Str × Option Str :=
  match splitCompose s with
  | none => (s, none)
  | some (a, b) => (a, some b)

/-- sgf_grammar.py:437-445 `compose`. -/
def compose (s1 s2 : Str) : Str := replaceChar ':' ['\\', ':'] s1 ++ [':'] ++ s2

end Gomill.Sgf
