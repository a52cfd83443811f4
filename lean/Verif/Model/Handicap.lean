import Verif.Model.Common
/-
Model of gomill/handicap_layout.py.  `/` on ints is Python 2 floor division (`Int.fdiv`; for the positive sizes that
reach it this is `Int` division).
-/
namespace Gomill.Handicap

open Py

/-- handicap_layout.py:7-9 `max_free_handicap_for_board_size`. -/
def maxFree (boardSize : Int) : Int := boardSize * boardSize - 1

/-- handicap_layout.py:11-20 `max_fixed_handicap_for_board_size`. -/
def maxFixed (boardSize : Int) : Except Exc Int :=
  if boardSize ≤ 7 then .ok 0
  else if boardSize > 25 then .error .valueError
  else if boardSize.fmod 2 = 0 ∨ boardSize = 7 then .ok 4
  else .ok 9

/-- handicap_layout.py:22-31 `handicap_pattern`; the two-character strings are written as pairs of digits. -/
def pattern : List (List (Nat × Nat)) := [
  [(0,0), (2,2)],
  [(0,0), (2,2), (2,0)],
  [(0,0), (2,2), (2,0), (0,2)],
  [(0,0), (2,2), (2,0), (0,2), (1,1)],
  [(0,0), (2,2), (2,0), (0,2), (1,0), (1,2)],
  [(0,0), (2,2), (2,0), (0,2), (1,0), (1,2), (1,1)],
  [(0,0), (2,2), (2,0), (0,2), (1,0), (1,2), (0,1), (2,1)],
  [(0,0), (2,2), (2,0), (0,2), (1,0), (1,2), (0,1), (2,1), (1,1)]
]

/-- handicap_layout.py:33-54 `handicap_points`. -/
def points (numberOfStones boardSize : Int) : Except Exc (List Pt) := do
  let m ← maxFixed boardSize
  if numberOfStones > m then throw .valueError
  if numberOfStones < 2 then throw .valueError
  let altitude : Int := if boardSize < 13 then 2 else 3
  let pos : Nat → Int := fun d =>
    if d = 0 then altitude else if d = 1 then (boardSize - 1).fdiv 2 else boardSize - altitude - 1
  let pat ← getItem pattern (numberOfStones - 2)
  return pat.map (fun s => (pos s.1, pos s.2))

end Gomill.Handicap
