import Verif.Model.Common
/-
Model of gomill/boards.py.

The order in which Python's `set.pop()` returns elements is arbitrary: it is modelled by an oracle
`o : Pops`, which says, for each flood fill (identified by its start point) and each step, the index of the element
popped (taken modulo the size).
-/
namespace Gomill
open Py

/-- Oracle for `set.pop()`: start point, step number ↦ index. -/
abbrev Pops := Pt → Nat → Nat

/-- Arbitrary default order. -/
def defaultPops : Pops := fun _ _ => 0

/-- boards.py:33-52: the attributes of Board. `rows` is `self.board`; `emptyFlag` is `self._is_empty`;
`board_points` is a function of `side` (`boardPoints`). -/
structure Board where
  side : Nat
  rows : List (List (Option Colour))
  emptyFlag : Bool
  deriving DecidableEq, Repr

/-- boards.py:47-48 `board_points`. -/
def boardPoints (side : Nat) : List Pt :=
  (List.range side).flatMap (fun r => (List.range side).map (fun (c : Nat) => (Int.ofNat r, Int.ofNat c)))

/-- boards.py:43-52 `__init__`. (A negative `side` also raises ValueError.) -/
def Board.init (side : Nat) : Except Exc Board :=
  if side < 2 then .error .valueError
  else .ok { side := side, rows := List.replicate side (List.replicate side none), emptyFlag := true }

/-- boards.py:54-59 `copy`. (Python-level aliasing is outside the model: values are immutable here.) -/
def Board.copy (b : Board) : Board := { side := b.side, rows := b.rows, emptyFlag := b.emptyFlag }

/-- `self.board[row][col]` with Python list indexing. -/
def Board.item (b : Board) (row col : Int) : Except Exc (Option Colour) := do
  let r ← getItem b.rows row
  getItem r col

/-- `self.board[row][col] = x` with Python list indexing. -/
def Board.setitem (b : Board) (row col : Int) (x : Option Colour) : Except Exc Board := do
  let r ← getItem b.rows row
  let r' ← setItem r col x
  let rows' ← setItem b.rows row r'
  return { b with rows := rows' }

/-- The content of a point the code has already checked is on the board. -/
def Board.at (b : Board) (p : Pt) : Option Colour :=
  match b.item p.1 p.2 with
  | .ok x => x
  | .error _ => none

/-- Store at a point the code has already checked is on the board. -/
def Board.put (b : Board) (p : Pt) (x : Option Colour) : Board :=
  match b.setitem p.1 p.2 x with
  | .ok b' => b'
  | .error _ => b

/-- boards.py:72: `(0 <= r1 < self.side) and (0 <= c1 < self.side)`. -/
def Board.inRange (b : Board) (p : Pt) : Bool :=
  decide (0 ≤ p.1) && decide (p.1 < b.side) && decide (0 ≤ p.2) && decide (p.2 < b.side)

/-- boards.py:70: the neighbours of a point, in order. -/
def neighbours (p : Pt) : List Pt := [(p.1 - 1, p.2), (p.1 + 1, p.2), (p.1, p.2 - 1), (p.1, p.2 + 1)]

/-- Choose the element `set.pop()` returns. -/
def popIndex (k : Nat) (l : List Pt) : Nat := k % l.length

/-! ### _make_group -/

/-- Local variables of `_make_group` (boards.py:62-65). -/
structure GroupFill where
  points : List Pt
  surrounded : Bool
  toHandle : List Pt

/-- boards.py:70-79: the inner loop, for one neighbour. -/
def Board.groupNeighbour (b : Board) (colour : Colour) (st : GroupFill) (nb : Pt) : GroupFill :=
  if !b.inRange nb then st
  else match b.at nb with
    | none => { st with surrounded := false }
    | some c =>
      if c = colour then
        (if nb ∉ st.points then { st with toHandle := setAdd st.toHandle nb } else st)
      else st

/-- boards.py:66-79: the outer loop. `fuel` bounds the number of iterations (it is proved sufficient). -/
def Board.groupLoop (b : Board) (colour : Colour) (pops : Nat → Nat) : Nat → Nat → GroupFill → GroupFill
  | 0, _, st => st
  | fuel+1, k, st =>
    match st.toHandle[popIndex (pops k) st.toHandle]? with
    | none => st
    | some point =>
      let st1 := { st with toHandle := setDiscard st.toHandle point, points := setAdd st.points point }
      groupLoop b colour pops fuel (k+1) ((neighbours point).foldl (b.groupNeighbour colour) st1)

/-- boards.py:7-17 _Group. -/
structure Grp where
  colour : Colour
  points : List Pt
  surrounded : Bool
  deriving DecidableEq, Repr

/-- boards.py:61-84 `_make_group`. -/
def Board.makeGroup (b : Board) (o : Pops) (p : Pt) (colour : Colour) : Grp :=
  let st := b.groupLoop colour (o p) (b.side * b.side) 0 ⟨[], true, [p]⟩
  ⟨colour, st.points, st.surrounded⟩

/-! ### _make_empty_region -/

/-- Local variables of `_make_empty_region` (boards.py:87-90). -/
structure RegionFill where
  points : List Pt
  colours : List Colour
  toHandle : List Pt

/-- boards.py:95-104, for one neighbour. -/
def Board.regionNeighbour (b : Board) (st : RegionFill) (nb : Pt) : RegionFill :=
  if !b.inRange nb then st
  else match b.at nb with
    | none => if nb ∉ st.points then { st with toHandle := setAdd st.toHandle nb } else st
    | some c => { st with colours := setAdd st.colours c }

/-- boards.py:91-104: the outer loop. -/
def Board.regionLoop (b : Board) (pops : Nat → Nat) : Nat → Nat → RegionFill → RegionFill
  | 0, _, st => st
  | fuel+1, k, st =>
    match st.toHandle[popIndex (pops k) st.toHandle]? with
    | none => st
    | some point =>
      let st1 := { st with toHandle := setDiscard st.toHandle point, points := setAdd st.points point }
      regionLoop b pops fuel (k+1) ((neighbours point).foldl b.regionNeighbour st1)

/-- boards.py:86-108 `_make_empty_region`. -/
def Board.makeEmptyRegion (b : Board) (o : Pops) (p : Pt) : RegionFill :=
  b.regionLoop (o p) (b.side * b.side) 0 ⟨[], [], [p]⟩

/-! ### _find_surrounded_groups -/

/-- boards.py:118-128: loop body; state is (surrounded, handled). -/
def Board.fsgStep (b : Board) (o : Pops) (st : List Grp × List Pt) (p : Pt) : List Grp × List Pt :=
  match b.at p with
  | none => st
  | some colour =>
    if p ∈ st.2 then st
    else
      let group := b.makeGroup o p colour
      (if group.surrounded then st.1 ++ [group] else st.1, setUpdate st.2 group.points)

/-- boards.py:110-129 `_find_surrounded_groups`. -/
def Board.findSurroundedGroups (b : Board) (o : Pops) : List Grp :=
  ((boardPoints b.side).foldl (b.fsgStep o) ([], [])).1

/-- boards.py:131-133 `is_empty`. -/
def Board.isEmpty (b : Board) : Bool := b.emptyFlag

/-- boards.py:135-145 `get`. -/
def Board.get (b : Board) (row col : Int) : Except Exc (Option Colour) :=
  if row < 0 ∨ col < 0 then .error .indexError else b.item row col

/-- boards.py:182-184, 215-217: set all points of some groups to None. -/
def Board.clearGroups (b : Board) (gs : List Grp) : Board :=
  gs.foldl (fun b g => g.points.foldl (fun b p => b.put p none) b) b

/-- boards.py:177-181: the simple ko point, when at least two groups are surrounded. -/
def koPoint (surrounded toCapture : List Grp) (colour : Colour) : Except Exc (Option Pt) :=
  match toCapture with
  | [g] =>
    if g.points.length = 1 then
      match getItem (surrounded.filter (fun g => g.colour = colour)) 0 with
      | .error e => .error e
      | .ok s =>
        if s.points.length = 1 then
          match g.points with
          | [p] => .ok (some p)
          | _ => .error .valueError
        else .ok none
    else .ok none
  | _ => .ok none

/-- boards.py:147-185 `play`; returns the simple ko point and the new board. On an exception the board is
unchanged, because both checks precede the first update (lines 160-164); the exceptions after that
(line 180 `self_capture[0]`, line 181 unpacking) are shown by the theorems not to occur. -/
def Board.playWith (o : Pops) (b : Board) (row col : Int) (colour : Colour) :
    Except Exc (Option Pt × Board) := do
  if row < 0 ∨ col < 0 then throw .indexError
  let opponent := colour.opponent
  let cur ← b.item row col
  if cur ≠ none then throw .valueError
  let b1 ← b.setitem row col (some colour)
  let b1 := { b1 with emptyFlag := false }
  let surrounded := b1.findSurroundedGroups o
  match surrounded with
  | [] => return (none, b1)
  | [g] =>
    let b2 := if g.points.length = b1.side * b1.side then { b1 with emptyFlag := true } else b1
    return (none, b2.clearGroups [g])
  | _ =>
    let toCapture := surrounded.filter (fun g => g.colour = opponent)
    let ko ← koPoint surrounded toCapture colour
    return (ko, b1.clearGroups toCapture)

/-- `play` with one arbitrary pop order (the result doesn't depend on it: `C11_play_pop_order`). -/
def Board.play (b : Board) (row col : Int) (colour : Colour) : Except Exc (Option Pt × Board) :=
  b.playWith defaultPops row col colour

/-- boards.py:187-223 `apply_setup`; returns whether the position was legal, and the new board. The parameters are
lists (one-shot iterators, which the first loop would exhaust, are not modelled). -/
def Board.applySetupWith (o : Pops) (b : Board) (black white empty : List Pt) : Except Exc (Bool × Board) :=
  if (black ++ white ++ empty).any (fun p => p.1 < 0 || p.2 < 0 || p.1 ≥ b.side || p.2 ≥ b.side) then
    .error .indexError
  else
    let b := black.foldl (fun b p => b.put p (some .b)) b
    let b := white.foldl (fun b p => b.put p (some .w)) b
    let b := empty.foldl (fun b p => b.put p none) b
    let captured := b.findSurroundedGroups o
    let b := b.clearGroups captured
    let b := { b with emptyFlag := !(boardPoints b.side).any (fun p => b.at p ≠ none) }
    .ok (captured.isEmpty, b)

/-- `apply_setup` with one arbitrary pop order. -/
def Board.applySetup (b : Board) (black white empty : List Pt) : Except Exc (Bool × Board) :=
  b.applySetupWith defaultPops black white empty

/-- boards.py:225-236 `list_occupied_points`. -/
def Board.listOccupiedPoints (b : Board) : List (Colour × Pt) :=
  (boardPoints b.side).filterMap (fun p => (b.at p).map (fun c => (c, p)))

/-- boards.py:250-263: loop body of `area_score`; state is (scores['b'], scores['w'], handled). -/
def Board.areaStep (b : Board) (o : Pops) (st : Int × Int × List Pt) (p : Pt) : Int × Int × List Pt :=
  match b.at p with
  | some .b => (st.1 + 1, st.2.1, st.2.2)
  | some .w => (st.1, st.2.1 + 1, st.2.2)
  | none =>
    if p ∈ st.2.2 then st
    else
      let region := b.makeEmptyRegion o p
      let size : Int := region.points.length
      (if Colour.b ∈ region.colours then st.1 + size else st.1,
       if Colour.w ∈ region.colours then st.2.1 + size else st.2.1,
       setUpdate st.2.2 region.points)

/-- boards.py:238-264 `area_score`. -/
def Board.areaScoreWith (o : Pops) (b : Board) : Int :=
  let st := (boardPoints b.side).foldl (b.areaStep o) (0, 0, [])
  st.1 - st.2.1

def Board.areaScore (b : Board) : Int := b.areaScoreWith defaultPops

end Gomill
