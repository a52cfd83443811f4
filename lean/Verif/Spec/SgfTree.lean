import Verif.Model.SgfTree
/-
Node trees as mathematical objects, independent of the code: what a coarse game tree stands for, what it means for
Tree_node objects to form a tree, and what the leftmost variation is.
-/
namespace Gomill.Sgf

variable {α : Type}

/-- A tree of nodes, each with a property map. -/
inductive NTree (α : Type) where
  | mk (props : α) (children : List (NTree α))

/-- A run of single nodes above some trees. -/
def chain (ps : List α) (ts : List (NTree α)) : List (NTree α) := ps.foldr (fun p ts => [.mk p ts]) ts

mutual
/-- The trees of nodes (just one, if the sequence isn't empty) that a coarse game tree stands for: each node of the
sequence is the only child of the one before it, and the children of the last are those of the variations, in order. -/
def Coarse.nodes : Coarse α → List (NTree α)
  | .mk s cs => chain s (nodesL cs)
def nodesL : List (Coarse α) → List (NTree α)
  | [] => []
  | c :: cs => c.nodes ++ nodesL cs
end

/-- SGF requires at least one node in each sequence (the parser guarantees it). -/
inductive Coarse.Nonempty : Coarse α → Prop
  | mk {p : α} {s : List α} {cs : List (Coarse α)} : (∀ c ∈ cs, c.Nonempty) → Nonempty (.mk (p :: s) cs)

mutual
/-- Object `i`, with parent `par`, and the objects below it form the tree `t` and belong to game `o`; `ids` lists the
objects, in preorder. -/
def Rep (h : Heap α) (o : Nat) (par : Option Nat) (i : Nat) : NTree α → List Nat → Prop
  | .mk p ts, ids => ∃ r rest, ids = i :: rest ∧ h[i]? = some r ∧ r.props = p ∧ r.parent = par ∧ r.owner = o ∧
      RepL h o (some i) r.children ts rest
def RepL (h : Heap α) (o : Nat) (par : Option Nat) : List Nat → List (NTree α) → List Nat → Prop
  | [], [], ids => ids = []
  | i :: is, t :: ts, ids => ∃ a b, ids = a ++ b ∧ Rep h o par i t a ∧ RepL h o par is ts b
  | _, _, _ => False
end

/-- The variation which always takes the first child. -/
def NTree.leftmost : NTree α → List α
  | .mk p [] => [p]
  | .mk p (t :: _) => p :: t.leftmost

mutual
/-- The variations: all root-to-leaf sequences, in order. -/
def NTree.variations : NTree α → List (List α)
  | .mk p ts => match ts with
    | [] => [[p]]
    | _ => (variationsL ts).map (p :: ·)
def variationsL : List (NTree α) → List (List α)
  | [] => []
  | t :: ts => t.variations ++ variationsL ts
end

end Gomill.Sgf
