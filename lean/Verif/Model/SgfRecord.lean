import Verif.Model.SgfGame
import Verif.Model.GameRunner
/-
Model of the parts of the SGF library that work on whole games: main_sequence_iter and extend_main_sequence of
gomill/sgf.py, gomill/sgf_moves.py applied to Sgf_games, and Game_runner.make_sgf of gomill/gameplay.py.
-/
namespace Gomill.Sgf

open Py

/-- sgf.py:690-709 `main_sequence_iter`: the properties of the nodes (for an unexpanded game too: C23_expansion). -/
def Lib.mainSequence (L : Lib) (g : GameRec) : List PropMap := (getMainSequence L.heap g.root).map L.heap.props

/-- sgf_moves.py:7-58 `get_setup_and_moves`. -/
def Lib.getSetupAndMoves (L : Lib) (g : GameRec) : Except Exc (Board × List (Colour × Option Pt)) :=
  Sgf.getSetupAndMoves g.presenter.size (L.mainSequence g)

/-- sgf.py:711-717 `extend_main_sequence`; the new node is number `L.heap.length`. -/
def Lib.extendMainSequence (L : Lib) (g : GameRec) : Lib :=
  { L with heap := L.heap.newChild (getLastNode L.heap g.root) [] none }

/-- A call of a Node method on node `n` of game `g`.  (What an exception leaves behind is not described.) -/
def Lib.update (L : Lib) (g : GameRec) (n : Nat) (f : Presenter → PropMap → Upd) : Except Exc Lib :=
  match f g.presenter (L.heap.props n) with
  | (m, .ok _) => .ok { L with heap := L.heap.modify n (fun r => { r with props := m }) }
  | (_, .error e) => .error e

/-- sgf_moves.py:60-72 `set_initial_position`. -/
def Lib.setInitialPosition (L : Lib) (g : GameRec) (b : Board) : Except Exc Lib :=
  L.update g g.root (fun P m => Sgf.setInitialPosition P m b)

/-- sgf_moves.py:74-98 `indicate_first_player`. -/
def Lib.indicateFirstPlayer (L : Lib) (g : GameRec) : Except Exc Lib :=
  L.update g g.root (fun P m => Sgf.indicateFirstPlayer P m ((L.heap.children g.root).map L.heap.props))

/-- `node = sgf_game.extend_main_sequence(); node.set_move(colour, move)` (gameplay.py:844-845, gtp_states.py:554-556). -/
def Lib.addMove (L : Lib) (g : GameRec) (c : Colour) (move : Option Pt) : Except Exc Lib :=
  (L.extendMainSequence g).update g L.heap.length (fun P m => setMove P m c move)

/-- gameplay.py:843-847: one move, with its comment. -/
def Lib.addMoveComment (L : Lib) (g : GameRec) (x : Colour × Option Pt × Option Str) : Except Exc Lib := do
  let L' ← L.addMove g x.1 x.2.1
  match x.2.2 with
  | none => return L'
  | some comment => L'.update g L.heap.length (fun P m => nodeSet P m ['C'] (.str comment))

/-- gameplay.py:843-847: the loop over the moves. -/
def Lib.addMoves (g : GameRec) : List (Colour × Option Pt × Option Str) → Lib → Except Exc Lib
  | [], L => .ok L
  | x :: xs, L => do addMoves g xs (← L.addMoveComment g x)

/-- `'b'` or `'w'`. -/
def colourChar : Colour → Char
  | .b => 'b'
  | .w => 'w'

/-- gameplay.py:851-852: the comment with the final message. -/
def finalMessage (d : Colour × Str) : Str :=
  "final message from ".toList ++ [colourChar d.1] ++ ": <<<\n".toList ++ d.2 ++ "\n>>>".toList

/-- A call of `root.set`, if there is a value. -/
def Lib.setRootMaybe (L : Lib) (g : GameRec) (ident : Str) (v : Option PVal) : Except Exc Lib :=
  match v with
  | none => .ok L
  | some v => L.update g g.root (fun P m => nodeSet P m ident v)

/-- gameplay.py:833-840: the properties of the root node. `version` is `__version__`, `date` the date (sgf.py:796-807). -/
def Lib.setRunnerProps {σ : Type} (L : Lib) (g : GameRec) (version date : Str) (r : Runner σ) : Except Exc Lib := do
  let L ← L.setRootMaybe g ['K', 'M'] (some (.real (.fin r.komi)))
  let L ← L.setRootMaybe g ['A', 'P'] (some (.pair ("gomill".toList, version)))
  let L ← L.setRootMaybe g ['R', 'E'] (r.result.map (fun res => .str res.sgfResult))
  let L ← L.setRootMaybe g ['H', 'A'] (r.haProp.map .num)
  L.setRootMaybe g ['D', 'T'] (some (.str date))

/-- gameplay.py:841-842: the handicap stones. -/
def Lib.setHandicapStones (L : Lib) (g : GameRec) (stones : Option (List Pt)) : Except Exc Lib :=
  match stones with
  | none => .ok L
  | some [] => .ok L
  | some (p :: ps) => L.update g g.root (fun P m => setSetupStones P m (p :: ps) [] [])

/-- gameplay.py:848-852: the final message, in the last node. -/
def Lib.addFinalMessage (L : Lib) (g : GameRec) (d : Option (Colour × Str)) : Except Exc Lib :=
  match d with
  | none => .ok L
  | some d => L.update g (getLastNode L.heap g.root) (fun P m => addCommentText P m (finalMessage d))

/-- gameplay.py:814-853 `make_sgf`; the new game is the last one. -/
def makeSgf {σ : Type} (E : Encodings) (F : Floats) (L : Lib) (version date : Str) (r : Runner σ) : Except Exc Lib := do
  let L ← L.newGame E F r.boardSize "UTF-8".toList
  match L.games.getLast? with
  | none => .error .indexError
  | some g => do
    let L ← L.setRunnerProps g version date r
    let L ← L.setHandicapStones g r.handicapStones
    let L ← Lib.addMoves g r.moves L
    L.addFinalMessage g r.finalDiagnostics

/-- sgf.py:739-750 `get_komi`. -/
def getKomi (P : Presenter) (m : PropMap) : Except Exc PVal :=
  match nodeGet P m ['K', 'M'] with
  | .error .keyError => .ok (.real (.fin 0))
  | .error e => .error e
  | .ok v => .ok v

/-- sgf.py:752-769 `get_handicap` (if HA has its standard type). -/
def getHandicap (P : Presenter) (m : PropMap) : Except Exc (Option Int) :=
  match nodeGet P m ['H', 'A'] with
  | .error .keyError => .ok none
  | .error e => .error e
  | .ok (.num h) => if h = 0 then .ok none else if h = 1 then .error .valueError else .ok (some h)
  | .ok _ => .error .typeError

end Gomill.Sgf
