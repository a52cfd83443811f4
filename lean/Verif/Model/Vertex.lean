import Verif.Model.Common
import Verif.Model.Text
/-
Model of the vertex functions of gomill/common.py.
-/
namespace Gomill

open Py

/-- common.py:38 `column_letters`. -/
def columnLetters : Str := "ABCDEFGHJKLMNOPQRSTUVWXYZ".toList

/-- common.py:40-53 `format_vertex`. -/
def formatVertex : Option Pt → Except Exc Str
  | none => .ok "pass".toList
  | some (row, col) =>
    if ¬ (0 ≤ row ∧ row < 25) ∨ ¬ (0 ≤ col ∧ col < 25) then .error .valueError
    else do
      let c ← getItem columnLetters col
      return c :: strInt (row + 1)

/-- common.py:55-57 `format_vertex_list`. -/
def formatVertexList (moves : List (Option Pt)) : Except Exc Str := do
  let l ← moves.mapM formatVertex
  return join [','] l

/-- common.py:75-88, the body of the `try` in `move_from_vertex`: the column and row of a lower-cased vertex. -/
def vertexColRow (s : Str) : Except Exc (Int × Int) := do
  let colC ← getItem s 0
  if ¬ ('a' ≤ colC ∧ colC ≤ 'z') ∨ colC = 'i' then throw .valueError
  let col : Int := if colC > 'i' then (colC.toNat : Int) - 'b'.toNat else (colC.toNat : Int) - 'a'.toNat
  let row := (← parseInt (s.drop 1)) - 1
  if row < 0 then throw .valueError
  return (col, row)

/-- common.py:59-91 `move_from_vertex` on a string argument.  (A non-string argument gives ValueError; not modelled.) -/
def moveFromVertex (vertex : Str) (boardSize : Int) : Except Exc (Option Pt) :=
  if ¬ (0 < boardSize ∧ boardSize ≤ 25) then .error .valueError
  else
    let s := lower vertex
    if s = "pass".toList then .ok none
    else
      match vertexColRow s with
      | .error .indexError => .error .valueError
      | .error .valueError => .error .valueError
      | .error e => .error e
      | .ok (col, row) =>
        if ¬ (col < boardSize ∧ row < boardSize) then .error .valueError
        else .ok (some (row, col))

end Gomill
