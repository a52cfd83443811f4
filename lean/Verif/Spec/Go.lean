import Verif.Model.Common
/-
The rules of go (placement, liberties, capture, area), stated without reference to the implementation.
A position on an n×n board is any function from points to contents; only its values on the board matter.
-/
namespace Gomill.Go
open Classical

abbrev Position := Pt → Option Colour

/-- (row, col) is a point of the n×n board. -/
def OnBoard (n : Nat) (p : Pt) : Prop := 0 ≤ p.1 ∧ p.1 < n ∧ 0 ≤ p.2 ∧ p.2 < n

/-- Orthogonally adjacent points. -/
def Adj (p q : Pt) : Prop :=
  (q.1 = p.1 - 1 ∧ q.2 = p.2) ∨ (q.1 = p.1 + 1 ∧ q.2 = p.2) ∨
  (q.1 = p.1 ∧ q.2 = p.2 - 1) ∨ (q.1 = p.1 ∧ q.2 = p.2 + 1)

/-- `q` can be reached from `p` through adjacent points of the board with the same content as `p`
(for a stone: they are in the same solidly-connected group; for an empty point: in the same empty region). -/
inductive Conn (n : Nat) (pos : Position) (p : Pt) : Pt → Prop
  | refl : Conn n pos p p
  | step {q r : Pt} : Conn n pos p q → Adj q r → OnBoard n r → pos r = pos p → Conn n pos p r

/-- The group (or region) of `p` is next to a point with content `x`. -/
def Borders (n : Nat) (pos : Position) (p : Pt) (x : Option Colour) : Prop :=
  ∃ q r, Conn n pos p q ∧ Adj q r ∧ OnBoard n r ∧ pos r = x

/-- The group at `p` has a liberty. -/
def HasLiberty (n : Nat) (pos : Position) (p : Pt) : Prop := Borders n pos p none

/-- Every stone's group has a liberty. -/
def Legal (n : Nat) (pos : Position) : Prop :=
  ∀ p, OnBoard n p → pos p ≠ none → HasLiberty n pos p

/-- The position with the content of one point changed. -/
def put (pos : Position) (p : Pt) (x : Option Colour) : Position := fun q => if q = p then x else pos q

/-- A stone of colour `c` whose group has no liberties. -/
def Dead (n : Nat) (pos : Position) (c : Colour) (p : Pt) : Prop :=
  OnBoard n p ∧ pos p = some c ∧ ¬ HasLiberty n pos p

/-- Remove the stones in a set. -/
noncomputable def remove (pos : Position) (S : Pt → Prop) : Position := fun q => if S q then none else pos q

/-- The rules of go: place the stone; remove the opponent's stones without liberties; if there are none, remove the
player's own stones without liberties. -/
noncomputable def rulesPlay (n : Nat) (pos : Position) (p : Pt) (c : Colour) : Position :=
  let pos1 := put pos p (some c)
  if ∃ q, Dead n pos1 c.opponent q then remove pos1 (Dead n pos1 c.opponent)
  else remove pos1 (Dead n pos1 c)

/-- `q` counts for `c` in area scoring: a stone of that colour, or an empty point from which that colour can be
reached through empty points. -/
def CountsFor (n : Nat) (pos : Position) (c : Colour) (q : Pt) : Prop :=
  pos q = some c ∨ (pos q = none ∧ Borders n pos q (some c))

/-- What it means for `k` to be a simple ko point after a move at `p` by `c`: the move captured exactly the stone
at `k`, and the played stone stands alone with `k` as its only liberty. -/
def KoPoint (n : Nat) (before after : Position) (p : Pt) (c : Colour) (k : Pt) : Prop :=
  (∀ q, (before q = some c.opponent ∧ after q = none) ↔ q = k) ∧
  after p = some c ∧
  (∀ q, Conn n after p q → q = p) ∧
  (∀ q, Adj p q → OnBoard n q → after q = none → q = k)

/-- The position specified by a list of setup instructions (SGF AB, AW, AE), applied in that order. -/
def setupPos (pos : Position) (black white empty : List Pt) : Position := fun q =>
  if q ∈ empty then none else if q ∈ white then some .w else if q ∈ black then some .b else pos q

end Gomill.Go
