import Verif.Model.SgfGrammar
import Verif.Model.SgfProps
import Verif.Model.Board
/-
Model of the parts of gomill/sgf.py which read moves and setup stones from nodes, of the alternative constructors of
Sgf_game, and of gomill/sgf_moves.py: get_setup_and_moves.
-/
namespace Gomill.Sgf
open Py

/-- `self._property_map.get(identifier)`. -/
def PropMap.find (m : PropMap) (ident : Str) : Option (List Raw) := (List.find? (fun p => p.1 = ident) m).map (·.2)

/-- `identifier in self._property_map` (sgf.py:47-49 `has_property`). -/
def PropMap.has (m : PropMap) (ident : Str) : Bool := (m.find ident).isSome

/-- `values[0]`. -/
def firstValue : List Raw → Except Exc Raw
  | [] => .error .indexError
  | v :: _ => .ok v

/-- sgf_properties.py:651-662 `Presenter.interpret_as_type`, for a list type: the raw list passed to the interpreter. -/
def listValues (raw : List Raw) : Except Exc (List Raw) :=
  match raw with
  | [] => .error .valueError
  | _ => if raw = [[]] then .ok [] else .ok raw

/-- sgf_properties.py:651-662 `Presenter.interpret_as_type`, for a type which isn't a list type. -/
def singleValue (raw : List Raw) : Except Exc Raw :=
  match raw with
  | [] => .error .valueError
  | [v] => .ok v
  | _ => .error .valueError

/-- sgf.py:198-217 `Node.get_raw_move`. -/
def getRawMove (m : PropMap) : Except Exc (Option (Colour × Raw)) :=
  match m.find ['B'] with
  | some vs => do return some (.b, ← firstValue vs)
  | none => match m.find ['W'] with
    | some vs => do return some (.w, ← firstValue vs)
    | none => .ok none

/-- sgf.py:219-235 `Node.get_move`. -/
def getMove (m : PropMap) (size : Int) : Except Exc (Option (Colour × Option Pt)) := do
  match ← getRawMove m with
  | none => return none
  | some (c, raw) => return some (c, ← interpretGoPoint raw size)

/-- sgf.py:245-256: one of the three parts of `get_setup_stones`. -/
def getPointList (m : PropMap) (ident : Str) (size : Int) : Except Exc (List Pt) :=
  match m.find ident with
  | none => .ok []
  | some raw => do interpretPointList (← listValues raw) size

/-- sgf.py:237-257 `Node.get_setup_stones`. -/
def getSetupStones (m : PropMap) (size : Int) : Except Exc (List Pt × List Pt × List Pt) := do
  let bp ← getPointList m ['A', 'B'] size
  let wp ← getPointList m ['A', 'W'] size
  let ep ← getPointList m ['A', 'E'] size
  return (bp, wp, ep)

/-- sgf.py:259-262 `Node.has_setup_stones`. -/
def hasSetupStones (m : PropMap) : Bool := m.has ['A', 'B'] || m.has ['A', 'W'] || m.has ['A', 'E']

/-- sgf_moves.py:51-57: the loop collecting moves. -/
def collectMoves (size : Int) : List PropMap → Except Exc (List (Colour × Option Pt))
  | [] => .ok []
  | m :: rest => do
    if hasSetupStones m then throw .valueError
    match ← getRawMove m with
    | none => collectMoves size rest
    | some (c, raw) =>
      let mv ← interpretGoPoint raw size
      return (c, mv) :: (← collectMoves size rest)

/-- sgf_moves.py:7-58 `get_setup_and_moves`, with `board` None. `seq` is the main sequence, starting with the root. -/
def getSetupAndMoves (size : Int) (seq : List PropMap) : Except Exc (Board × List (Colour × Option Pt)) := do
  let board ← Board.init size.toNat
  match seq with
  | [] => throw .stopIteration
  | root :: below =>
    let (ab, aw, ae) ← getSetupStones root size
    if ab ≠ [] ∨ aw ≠ [] then
      let (legal, board) ← board.applySetup ab aw ae
      if !legal then throw .valueError
      if (← getRawMove root).isSome then throw .valueError
      return (board, ← collectMoves size below)
    else
      return (board, ← collectMoves size seq)

/-- sgf_grammar.py:397-413 `main_sequence_iter` (the same for an expanded tree: C24). -/
def CTree.mainSequence : CTree → List PropMap
  | .mk s [] => s
  | .mk s (c :: _) => s ++ mainSequence c

/-- sgf.py:486-518: what an Sgf_game is made of, when loaded: size and coarse tree. -/
structure SgfGame where
  size : Int
  tree : CTree

/-- sgf.py:528-567 `from_coarse_game_tree`, without override_encoding.  `codec` says which encoding names Python knows
(line 517, sgf_properties.py:603-607). -/
def SgfGame.fromCoarse (codec : Str → Bool) (t : CTree) : Except Exc SgfGame := do
  let root ← match t.sequence with
    | [] => .error .indexError
    | r :: _ => .ok r
  let size ← match root.find ['S', 'Z'] with
    | none => .ok 19
    | some vs => do parseInt (← firstValue vs)
  let encoding ← match root.find ['C', 'A'] with
    | none => .ok "ISO-8859-1".toList
    | some vs => firstValue vs
  if ¬ (1 ≤ size ∧ size ≤ 26) then throw .valueError
  if !codec encoding then throw .valueError
  return { size := size, tree := t }

/-- sgf.py:569-582 `from_string`. -/
def SgfGame.fromString (codec : Str → Bool) (s : Str) : Except Exc SgfGame := do
  SgfGame.fromCoarse codec (← parseSgfGame s)

/-- The properties of the root node. -/
def SgfGame.root (g : SgfGame) : PropMap := g.tree.sequence.headD []

/-- sgf.py:739-750 `get_komi`; `readFloat` is `interpret_real` (sgf_properties.py:124-136): the value, if finite. -/
def SgfGame.getKomi (readFloat : Str → Option Rat) (g : SgfGame) : Except Exc Rat :=
  match g.root.find ['K', 'M'] with
  | none => .ok 0
  | some raw => do
    match readFloat (← singleValue raw) with
    | some f => return f
    | none => throw .valueError

/-- sgf.py:752-769 `get_handicap`. -/
def SgfGame.getHandicap (g : SgfGame) : Except Exc (Option Int) :=
  match g.root.find ['H', 'A'] with
  | none => .ok none
  | some raw => do
    let h ← interpretNumber (← singleValue raw)
    if h = 0 then return none
    else if h = 1 then throw .valueError
    else return some h

end Gomill.Sgf
