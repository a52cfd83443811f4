import Verif.Model.Board
import Verif.Model.Vertex
/-
Model of gomill/ascii_boards.py.
-/
namespace Gomill.Ascii

open Py

/-- ascii_boards.py:6-27 `render_grid`, with a formatter that does not raise. -/
def renderGrid (fmt : Nat → Nat → Except Exc Str) (size : Nat) : Except Exc (List Str) := do
  let letters ← (List.range size).mapM (fun (i : Nat) => getItem columnLetters (Int.ofNat i))
  let header := join "  ".toList (letters.map (fun c => [c]))
  let rowstart : Nat → Str := fun row =>
    (if size > 9 then strInt2 ((row : Int) + 1) else strInt ((row : Int) + 1)) ++ [' ']
  let padding : Str := if size > 9 then [' '] else []
  let result ← (List.range size).reverse.mapM (fun row => do
    let cells ← (List.range size).mapM (fun col => fmt row col)
    return rowstart row ++ join [' '] cells)
  return result ++ [padding ++ "   ".toList ++ header]

/-- ascii_boards.py:29-33 `_point_strings`. -/
def pointString : Option Colour → Str
  | none => " .".toList
  | some .b => " #".toList
  | some .w => " o".toList

/-- ascii_boards.py:35-43 `render_board`. -/
def renderBoard (b : Board) : Except Exc Str := do
  let lines ← renderGrid (fun row col => do return pointString (← b.get row col)) b.side
  return join ['\n'] lines

/-- ascii_boards.py:69 the `colours` dictionary. -/
def colourOf (c : Char) : Except Exc (Option Colour) :=
  if c = '#' then .ok (some .b) else if c = 'o' then .ok (some .w) else if c = '.' then .ok none
  else .error .keyError

/-- ascii_boards.py:75-78: the loop over the board points. -/
def interpretLoop (lines : List Str) (size : Nat) (extra : Int) : List Pt → Board → Except Exc Board
  | [], b => .ok b
  | (row, col) :: ps, b => do
    let line ← getItem lines ((size : Int) - row - 1)
    let c ← getItem line (3 * (col + 1) + extra)
    match ← colourOf c with
    | none => interpretLoop lines size extra ps b
    | some colour => do
      let (_, b') ← b.play row col colour
      interpretLoop lines size extra ps b'

/-- ascii_boards.py:61-81: `interpret_diagram` from line 68 on, with an empty board of the right size.
Line 79 turns every exception of the loop into ValueError. -/
def interpretOn (diagram : Str) (size : Nat) (b : Board) : Except Exc Board :=
  let lines := splitOn '\n' (strip diagram)
  let extra : Int := if size > 9 then 1 else 0
  match interpretLoop lines size extra (boardPoints size) b with
  | .ok b' => .ok b'
  | .error _ => .error .valueError

/-- ascii_boards.py:45-81 `interpret_diagram`, with the optional `board` parameter. -/
def interpretDiagram (diagram : Str) (size : Nat) (board : Option Board) : Except Exc Board :=
  match board with
  | none => do
    let b ← Board.init size
    interpretOn diagram size b
  | some b =>
    if b.side ≠ size then .error .valueError
    else if ¬ b.isEmpty then .error .valueError
    else interpretOn diagram size b

end Gomill.Ascii
