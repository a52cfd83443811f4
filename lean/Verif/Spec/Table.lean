import Verif.Model.Table
/-
What it means for a table to be laid out properly.
-/
namespace Gomill.Tab.Spec
open Py

/-- The text has no whitespace other than spaces. -/
def Plain (s : Str) : Prop := ∀ c ∈ s, isSpace c = true → c = ' '

/-- At this position of the line (which can be thought of as having spaces after its end) there's this text. -/
def Shows (line : Str) (pos : Nat) (s : Str) : Prop := ∃ k, s <+: (line ++ List.replicate k ' ').drop pos

/-- A text in a field. -/
def inField (a : Align) (s : Str) (width : Nat) : Str :=
  match a with
  | .left => s ++ List.replicate (width - s.length) ' '
  | .right => List.replicate (width - s.length) ' ' ++ s

/-- The table can be rendered: there are rows, and the headings don't need more columns than there are. -/
structure WellFormed (t : Table) (rows : Nat) : Prop where
  count : t.rowCount = some rows
  rows : 0 < rows ∨ t.columns = []
  spans : ∀ h ∈ t.headings, 0 < h.2
  columns : (t.headings.map Prod.snd).sum ≤ t.columns.length

/-- The table has no text with whitespace other than spaces in it. -/
structure PlainTable (t : Table) (rows : Nat) : Prop where
  headings : ∀ h ∈ t.headings, Plain h.1
  cells : ∀ r < rows, ∀ i < t.columns.length, Plain (t.cells r i)

/-- The layout: each column has a position and a width, and its right padding is between it and the next one. All cells fit. -/
structure Layout (t : Table) (rows : Nat) (pos width : Nat → Nat) : Prop where
  start : pos 0 = 0
  next : ∀ i (hi : i < t.columns.length), pos (i + 1) = pos i + width i + t.columns[i].rightPadding
  fits : ∀ r < rows, ∀ i < t.columns.length, (t.cells r i).length ≤ width i

/-- The line shows a row: every cell is in its column, there are just spaces between the columns, and nothing after the last. -/
structure ShowsRow (t : Table) (pos width : Nat → Nat) (r : Nat) (line : Str) : Prop where
  cells : ∀ i (hi : i < t.columns.length), Shows line (pos i) (inField t.columns[i].align (t.cells r i) (width i) ++ List.replicate t.columns[i].rightPadding ' ')
  ends : line.length ≤ pos t.columns.length

/-- The first column of a heading. -/
def firstColumn (t : Table) (j : Nat) : Nat := ((t.headings.map Prod.snd).take j).sum

/-- The line shows the headings: each starts where its first column starts, and there's nothing else before the column after it, but at least a space. -/
def ShowsHeadings (t : Table) (pos : Nat → Nat) (line : Str) : Prop :=
  ∀ j (hj : j < t.headings.length), t.headings[j].1.length + pos (firstColumn t j) + 1 ≤ pos (firstColumn t (j + 1)) ∧
    Shows line (pos (firstColumn t j)) (inField .left t.headings[j].1 (pos (firstColumn t (j + 1)) - pos (firstColumn t j)))

/-- The columns aren't wider than necessary: a column is filled by a cell, or by a heading which starts there. -/
def Tight (t : Table) (rows : Nat) (pos width : Nat → Nat) : Prop :=
  ∀ i < t.columns.length, (∃ r < rows, (t.cells r i).length = width i) ∨
    ∃ j, ∃ hj : j < t.headings.length, firstColumn t j = i ∧ t.headings[j].1.length + pos i + 1 = pos (firstColumn t (j + 1))

/-- A text of nothing but spaces. -/
def Blank (s : Str) : Prop := ∀ c ∈ s, c = ' '

/-- No whitespace at the end of the line. -/
def NoTrailing (line : Str) : Prop := ∀ c, line.getLast? = some c → isSpace c = false

end Gomill.Tab.Spec
