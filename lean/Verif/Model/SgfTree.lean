import Verif.Model.SgfGrammar
/-
Model of the node trees of gomill/sgf.py (326-484, 637-716) and of make_tree, make_coarse_game_tree and
main_sequence_iter in gomill/sgf_grammar.py (333-413).

Tree_node objects are mutable and are compared by identity: they are modelled as records in a heap, an object being its
index.  The type of property maps is a parameter `α`; taking references for `α` gives the sharing of the dictionaries.
-/
namespace Gomill.Sgf

open Py

/-- sgf_grammar.py:126-142 `Coarse_game_tree`, as a value, with any type of property map. -/
inductive Coarse (α : Type) where
  | mk (sequence : List α) (children : List (Coarse α))

variable {α : Type}

/-- sgf.py:343-347: the attributes of a Tree_node (the presenter is a function of the owner). -/
structure NodeRec (α : Type) where
  owner : Nat
  parent : Option Nat
  children : List Nat
  props : α

/-- All the Tree_nodes created so far. -/
abbrev Heap (α : Type) := List (NodeRec α)

/-- `node._children`. -/
def Heap.children (h : Heap α) (i : Nat) : List Nat :=
  match h[i]? with
  | some r => r.children
  | none => []

/-- `node.parent`. -/
def Heap.parent (h : Heap α) (i : Nat) : Option Nat :=
  match h[i]? with
  | some r => r.parent
  | none => none

/-- `node.owner`. -/
def Heap.owner (h : Heap α) (i : Nat) : Nat :=
  match h[i]? with
  | some r => r.owner
  | none => 0

/-- `node._children = ...`. -/
def Heap.setChildren (h : Heap α) (i : Nat) (f : List Nat → List Nat) : Heap α :=
  h.modify i (fun r => { r with children := f r.children })

/-- `node.parent = ...`. -/
def Heap.setParent (h : Heap α) (i : Nat) (p : Option Nat) : Heap α :=
  h.modify i (fun r => { r with parent := p })

/-- sgf.py:343-347 `Tree_node.__init__`; the new object is number `h.length`. -/
def Heap.newNode (h : Heap α) (parent : Nat) (props : α) : Heap α :=
  h ++ [{ owner := h.owner parent, parent := some parent, children := [], props := props }]

/-- sgf.py:446-450 `_Root_tree_node.__init__`. -/
def Heap.newRoot (h : Heap α) (owner : Nat) (props : α) : Heap α :=
  h ++ [{ owner := owner, parent := none, children := [], props := props }]

/-- sgf.py:349-350 `_add_child`. -/
def Heap.addChild (h : Heap α) (node child : Nat) : Heap α := h.setChildren node (fun cs => cs ++ [child])

/-! ### make_tree -/

/-- sgf_grammar.py:358-361: the `for child_tree` loop.  The stack has its top first. -/
def addChildTrees (node : Nat) : List (Coarse α) → Heap α → List (Nat × Coarse α × Nat) →
    Except Exc (Heap α × List (Nat × Coarse α × Nat))
  | [], h, st => .ok (h, st)
  | .mk [] _ :: _, _, _ => .error .indexError
  | .mk (p :: s) cs :: cts, h, st =>
    addChildTrees node cts ((h.newNode node p).addChild node h.length) ((h.length, .mk (p :: s) cs, 0) :: st)

/-- sgf_grammar.py:350-361: the `while` loop (`fuel` bounds the number of iterations; it is proved sufficient). -/
def makeTreeLoop : Nat → Heap α → List (Nat × Coarse α × Nat) → Except Exc (Heap α)
  | _, h, [] => .ok h
  | 0, h, _ => .ok h
  | fuel+1, h, (node, .mk seq children, index) :: st =>
    if index + 1 < seq.length then
      match seq[index+1]? with
      | none => .error .indexError
      | some p =>
        makeTreeLoop fuel ((h.newNode node p).addChild node h.length) ((h.length, .mk seq children, index + 1) :: st)
    else
      match addChildTrees node children (h.setChildren node (fun _ => [])) st with
      | .error e => .error e
      | .ok (h, st) => makeTreeLoop fuel h st

mutual
/-- Number of nodes of a coarse tree. -/
def Coarse.size : Coarse α → Nat
  | .mk s cs => s.length + sizeL cs
def sizeL : List (Coarse α) → Nat
  | [] => 0
  | c :: cs => c.size + sizeL cs
end

/-- sgf_grammar.py:333-361 `make_tree` with the node builder and adder of sgf.py:458-460. -/
def makeTree (c : Coarse α) (h : Heap α) (root : Nat) : Except Exc (Heap α) := makeTreeLoop (c.size + 1) h [(root, c, 0)]

/-! ### make_coarse_game_tree -/

/-- A mutable Coarse_game_tree. -/
structure CRec (α : Type) where
  sequence : List α
  children : List Nat

/-- The Coarse_game_trees created so far. -/
abbrev CHeap (α : Type) := List (CRec α)

/-- sgf_grammar.py:384-389: the inner loop; returns the property maps to append to the sequence and the last node's
children. -/
def coarseWalk (h : Heap α) : Nat → List α → Nat → List α × List Nat
  | 0, seq, _ => (seq, [])
  | fuel+1, seq, node =>
    match h[node]? with
    | none => (seq, [])
    | some r =>
      match r.children with
      | [c] => coarseWalk h fuel (seq ++ [r.props]) c
      | cs => (seq ++ [r.props], cs)

/-- sgf_grammar.py:390-393: the `for child` loop. -/
def coarseChildren (g : Nat) : List Nat → CHeap α → List (Nat × Nat) → CHeap α × List (Nat × Nat)
  | [], ch, st => (ch, st)
  | child :: cs, ch, st =>
    coarseChildren g cs ((ch ++ [(⟨[], []⟩ : CRec α)]).modify g (fun r => { r with children := r.children ++ [ch.length] }))
      ((ch.length, child) :: st)

/-- sgf_grammar.py:382-393: the outer loop. -/
def makeCoarseLoop (h : Heap α) : Nat → CHeap α → List (Nat × Nat) → CHeap α
  | _, ch, [] => ch
  | 0, ch, _ => ch
  | fuel+1, ch, (g, node) :: st =>
    let w := coarseWalk h h.length [] node
    let r := coarseChildren g w.2 (ch.modify g (fun r => { r with sequence := r.sequence ++ w.1 })) st
    makeCoarseLoop h fuel r.1 r.2

/-- The value of a Coarse_game_tree object. -/
def readCoarse (ch : CHeap α) : Nat → Nat → Coarse α
  | 0, _ => .mk [] []
  | fuel+1, i =>
    match ch[i]? with
    | none => .mk [] []
    | some r => .mk r.sequence (r.children.map (readCoarse ch fuel))

/-- sgf_grammar.py:363-394 `make_coarse_game_tree` with the functions of sgf.py:613-614. -/
def makeCoarse (h : Heap α) (root : Nat) : Coarse α :=
  let ch := makeCoarseLoop h (h.length + 1) [⟨[], []⟩] [(0, root)]
  readCoarse ch (ch.length + 1) 0

/-- sgf_grammar.py:397-413 `main_sequence_iter`. -/
def mainSequenceIter : Coarse α → List α
  | .mk s [] => s
  | .mk s (c :: _) => s ++ mainSequenceIter c

/-! ### Sgf_game navigation -/

/-- sgf.py:652-654, 668-670: the loop of `get_main_sequence`. -/
def firstChildren (h : Heap α) : Nat → Nat → List Nat
  | 0, _ => []
  | fuel+1, node =>
    match h.children node with
    | [] => []
    | c :: _ => c :: firstChildren h fuel c

/-- sgf.py:657-671 `get_main_sequence_below` (the check of the owner is omitted). -/
def getMainSequenceBelow (h : Heap α) (node : Nat) : List Nat := firstChildren h h.length node

/-- sgf.py:644-655 `get_main_sequence`. -/
def getMainSequence (h : Heap α) (root : Nat) : List Nat := root :: firstChildren h h.length root

/-- sgf.py:639-642: the loop of `get_last_node`. -/
def lastNodeLoop (h : Heap α) : Nat → Nat → Nat
  | 0, node => node
  | fuel+1, node =>
    match h.children node with
    | [] => node
    | c :: _ => lastNodeLoop h fuel c

/-- sgf.py:637-642 `get_last_node`. -/
def getLastNode (h : Heap α) (root : Nat) : Nat := lastNodeLoop h h.length root

/-- sgf.py:684-686: the loop of `get_sequence_above`. -/
def parents (h : Heap α) : Nat → Nat → List Nat
  | 0, _ => []
  | fuel+1, node =>
    match h.parent node with
    | none => []
    | some p => p :: parents h fuel p

/-- sgf.py:673-688 `get_sequence_above` (the check of the owner is omitted). -/
def getSequenceAbove (h : Heap α) (node : Nat) : List Nat := (parents h h.length node).reverse

/-- sgf.py:419-424: the loop of `find`. -/
def findLoop (h : Heap α) (hasProp : α → Bool) : Nat → Nat → Option Nat
  | 0, _ => none
  | fuel+1, node =>
    match h[node]? with
    | none => none
    | some r =>
      if hasProp r.props then some node
      else match r.parent with
        | none => none
        | some p => findLoop h hasProp fuel p

/-- sgf.py:413-424 `find`. -/
def Heap.find (h : Heap α) (hasProp : α → Bool) (node : Nat) : Option Nat := findLoop h hasProp h.length node

/-! ### Tree edits -/

/-- `list.insert(index, x)`: a negative index counts from the end; indexes out of range are clipped. -/
def listInsert {β : Type} (l : List β) (index : Int) (x : β) : List β :=
  let k : Nat := if index < 0 then (index + l.length).toNat else index.toNat
  l.take k ++ x :: l.drop k

/-- sgf.py:371-374, 408-411. -/
def placeChild (index : Option Int) (x : Nat) (cs : List Nat) : List Nat :=
  match index with
  | none => cs ++ [x]
  | some i => listInsert cs i x

/-- sgf.py:361-375 `new_child`; the new object is number `h.length`. -/
def Heap.newChild (h : Heap α) (node : Nat) (emptyMap : α) (index : Option Int) : Heap α :=
  (h.newNode node emptyMap).setChildren node (placeChild index h.length)

/-- sgf.py:377-381 `delete`; `list.remove` raises ValueError if the node isn't in the list. -/
def Heap.delete (h : Heap α) (node : Nat) : Except Exc (Heap α) :=
  match h.parent node with
  | none => .error .valueError
  | some p => if node ∈ h.children p then .ok (h.setChildren p (fun cs => cs.erase node)) else .error .valueError

/-- sgf.py:398-404: whether the loop finds `node`, going up from `n`.  Running out of fuel counts as finding it (it is
proved not to happen). -/
def climbFinds (h : Heap α) (node : Nat) : Nat → Nat → Bool
  | 0, _ => true
  | fuel+1, n =>
    if n = node then true
    else match h.parent n with
      | none => false
      | some p => climbFinds h node fuel p

/-- sgf.py:383-411 `reparent`. -/
def Heap.reparent (h : Heap α) (node newParent : Nat) (index : Option Int) : Except Exc (Heap α) :=
  if h.owner newParent ≠ h.owner node then .error .valueError
  else if climbFinds h node h.length newParent then .error .valueError
  else match h.parent node with
    | none => .error .attributeError
    | some p =>
      if node ∈ h.children p then
        .ok (((h.setChildren p (fun cs => cs.erase node)).setParent node (some newParent)).setChildren newParent
          (placeChild index node))
      else .error .valueError

end Gomill.Sgf
