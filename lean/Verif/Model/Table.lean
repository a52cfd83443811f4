import Verif.Model.Text
/-
Model of gomill/ascii_tables.py. `len` counts bytes, which here are characters. Right padding is taken to be nonnegative.
-/
namespace Gomill.Tab
open Py

inductive Align where
  | left
  | right
  deriving DecidableEq, Repr

/-- ascii_tables.py:9-19 `Column_spec`. -/
structure Column where
  align : Align := .left
  rightPadding : Nat := 1

/-- `s.ljust(w)` -/
def ljust (s : Str) (w : Nat) : Str := s ++ List.replicate (w - s.length) ' '

/-- `s.rjust(w)` -/
def rjust (s : Str) (w : Nat) : Str := List.replicate (w - s.length) ' ' ++ s

/-- ascii_tables.py:21-26 `Column_spec.render`. -/
def Column.render (c : Column) (s : Str) (width : Nat) : Str :=
  (match c.align with | .left => ljust s width | .right => rjust s width) ++ List.replicate c.rightPadding ' '

/-- ascii_tables.py:41-46 `Table`. `cells` is a defaultdict. -/
structure Table where
  rowCount : Option Nat
  headings : List (Str × Nat)
  columns : List Column
  cells : Nat → Nat → Str

def Table.new (rowCount : Option Nat) : Table := ⟨rowCount, [], [], fun _ _ => []⟩

/-- ascii_tables.py:48-50 -/
def Table.setRowCount (t : Table) (n : Nat) : Table := { t with rowCount := some n }

/-- ascii_tables.py:52-61 -/
def Table.addHeading (t : Table) (heading : Str) (span : Nat := 1) : Table := { t with headings := t.headings ++ [(heading, span)] }

/-- ascii_tables.py:63-82: the column id, and the table. -/
def Table.addColumn (t : Table) (c : Column) : Nat × Table := (t.columns.length, { t with columns := t.columns ++ [c] })

/-- ascii_tables.py:104-105, from the row `row`. -/
def setValues (col : Nat) : Nat → List Str → (Nat → Nat → Str) → Nat → Nat → Str
  | _, [], cells => cells
  | row, v :: vs, cells => setValues col (row + 1) vs (fun r c => if r = row ∧ c = col then v else cells r c)

/-- ascii_tables.py:92-105; `str` has been called on the values. -/
def Table.setColumnValues (t : Table) (col : Nat) (values : List Str) : Table := { t with cells := setValues col 0 values t.cells }

/-- ascii_tables.py:123: the width of a column; ValueError if there are no rows. -/
def columnWidth (cells : Nat → Nat → Str) (rows col : Nat) : Except Exc Nat :=
  match (List.range rows).map (fun r => (cells r col).length) with
  | [] => .error .valueError
  | x :: xs => .ok (xs.foldl max x)

/-- ascii_tables.py:123-124 -/
def columnWidths (cells : Nat → Nat → Str) (rows : Nat) : List Nat → Except Exc (List Nat)
  | [] => .ok []
  | i :: is => do
    let w ← columnWidth cells rows i
    let ws ← columnWidths cells rows is
    return w :: ws

/-- ascii_tables.py:127-138: the pieces of the heading line, and the widths of the columns, which may have been increased. IndexError if the headings need more columns
than there are. -/
def headingLoop (columns : List Column) : List (Str × Nat) → Nat → List Nat → List Str → Except Exc (List Str × List Nat)
  | [], _, widths, line => .ok (line, widths)
  | (heading, span) :: hs, col, widths, line =>
    if columns.length < col + span then .error .indexError
    else
      let width : Int := (((widths.drop col).take span).sum : Int) + ((((columns.drop col).take span).map Column.rightPadding).sum : Int) - 1
      let shortfall : Int := heading.length - width
      if 0 < shortfall then
        if col < widths.length then
          headingLoop columns hs (col + span) (widths.set col (widths.getD col 0 + shortfall.toNat)) (line ++ [ljust heading (width + shortfall).toNat])
        else .error .indexError
      else headingLoop columns hs (col + span) widths (line ++ [ljust heading width.toNat])

/-- ascii_tables.py:142-145: a row, from a given column. -/
def rowLine (cells : Nat → Nat → Str) (row : Nat) : Nat → List Column → List Nat → Str
  | col, c :: cs, w :: ws => c.render (cells row col) w ++ rowLine cells row (col + 1) cs ws
  | _, _, _ => []

/-- ascii_tables.py:107-148 `render`. TypeError if the row count hasn't been set. -/
def Table.render (t : Table) : Except Exc (List Str) :=
  match t.rowCount with
  | none => .error .typeError
  | some rows => do
    let widths ← columnWidths t.cells rows (List.range t.columns.length)
    let (line, widths) ← headingLoop t.columns t.headings 0 widths []
    return rstrip (join " ".toList line) :: ((List.range rows).map (fun r => rstrip (rowLine t.cells r 0 t.columns widths))).filter (fun l => l ≠ [])

end Gomill.Tab
