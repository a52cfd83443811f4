import Verif.Spec.SgfTree
/-
Histories of edits of SGF games, and what it means for the Tree_nodes to form trees.
-/
namespace Gomill.Sgf

open Py

variable {α : Type}

/-- `PathUp h i l`: following parents from `i` visits the nodes `l` (starting with `i`), the last being a root. -/
inductive PathUp (h : Heap α) : Nat → List Nat → Prop
  | root {i : Nat} {r : NodeRec α} : h[i]? = some r → r.parent = none → PathUp h i [i]
  | up {i p : Nat} {r : NodeRec α} {l : List Nat} : h[i]? = some r → r.parent = some p → PathUp h p l → PathUp h i (i :: l)

/-- The Tree_nodes form trees, one for each game. -/
structure IsForest (h : Heap α) : Prop where
  /-- a listed child exists and has the lister as its parent -/
  child : ∀ i c, c ∈ h.children i → c < h.length ∧ h.parent c = some i
  /-- no node is listed twice -/
  nodup : ∀ i, (h.children i).Nodup
  /-- a parent exists and belongs to the same game -/
  parent : ∀ i p, h.parent i = some p → p < h.length ∧ h.owner p = h.owner i
  /-- following parents always ends -/
  rooted : ∀ i, i < h.length → ∃ l, PathUp h i l
  /-- a game has only one root -/
  oneRoot : ∀ i j, i < h.length → j < h.length → h.parent i = none → h.parent j = none → h.owner i = h.owner j → i = j

/-- The things a program can do to the node trees. -/
inductive Edit (α : Type) where
  /-- `Sgf_game(...)` (sgf.py:520-526); `owner` is the identity of the new game -/
  | newGame (owner : Nat) (props : α)
  /-- `Sgf_game.from_coarse_game_tree` (sgf.py:564) and the expansion of its root (sgf.py:458-462) -/
  | load (owner : Nat) (props : α) (tree : Coarse α)
  | newChild (node : Nat) (props : α) (index : Option Int)
  | delete (node : Nat)
  | reparent (node newParent : Nat) (index : Option Int)
  /-- any change of a node's properties -/
  | setProps (node : Nat) (props : α)

/-- An edit is possible if it is applied to existing nodes, and a new game isn't an existing one. -/
def Edit.Possible (h : Heap α) : Edit α → Prop
  | .newGame o _ => ∀ i, i < h.length → h.owner i ≠ o
  | .load o _ _ => ∀ i, i < h.length → h.owner i ≠ o
  | .newChild n _ _ => n < h.length
  | .delete n => n < h.length
  | .reparent n p _ => n < h.length ∧ p < h.length
  | .setProps n _ => n < h.length

/-- The effect of an edit. -/
def Edit.apply (h : Heap α) : Edit α → Except Exc (Heap α)
  | .newGame o p => .ok (h.newRoot o p)
  | .load o p c => makeTree c (h.newRoot o p) h.length
  | .newChild n p index => .ok (h.newChild n p index)
  | .delete n => h.delete n
  | .reparent n p index => h.reparent n p index
  | .setProps n p => .ok (h.modify n (fun r => { r with props := p }))

/-- Heaps reached by a history of edits, of which some may have raised an exception (and had no effect). -/
inductive Edited : Heap α → Prop
  | start : Edited []
  | step {h h' : Heap α} {e : Edit α} : Edited h → e.Possible h → e.apply h = .ok h' → Edited h'

/-- `a` is `n` or one of its ancestors. -/
inductive AncestorOrSelf (h : Heap α) : Nat → Nat → Prop
  | refl (n : Nat) : AncestorOrSelf h n n
  | up {a n p : Nat} : h.parent n = some p → AncestorOrSelf h a p → AncestorOrSelf h a n

end Gomill.Sgf
