import Verif.Spec.Go
/-
What it means to play a game of go by the rules Game enforces (simple ko, self-capture allowed, two passes end
the game): stated in terms of the list of moves recorded so far.
-/
namespace Gomill.Go

/-- A recorded move: who played, and where (none for a pass). -/
abbrev Mv := Colour × Option Pt

/-- The position after one move, by the rules of go. -/
noncomputable def playMv (n : Nat) (pos : Position) (m : Mv) : Position :=
  match m.2 with
  | none => pos
  | some p => rulesPlay n pos p m.1

/-- The position after a list of moves. -/
noncomputable def replay (n : Nat) (pos : Position) (ms : List Mv) : Position := ms.foldl (playMv n) pos

/-- The last move of `hist` left a simple ko at `p`. -/
def KoAfter (n : Nat) (pos0 : Position) (hist : List Mv) (p : Pt) : Prop :=
  ∃ l c q, hist = l ++ [(c, some q)] ∧ KoPoint n (replay n pos0 l) (replay n pos0 hist) q c p

/-- A play at `p` is illegal after `hist`: the point is occupied or forbidden by the ko rule. -/
def IllegalAt (n : Nat) (pos0 : Position) (hist : List Mv) (p : Pt) : Prop :=
  replay n pos0 hist p ≠ none ∨ KoAfter n pos0 hist p

/-- The last two moves are passes. -/
def TwoPasses (hist : List Mv) : Prop := ∃ l c d, hist = l ++ [(c, none), (d, none)]

/-- Who plays the k-th move, if `first` starts and the players alternate. -/
def toPlay (first : Colour) (k : Nat) : Colour := if k % 2 = 0 then first else first.opponent

/-- The players alternate, `first` starting. -/
def Alternates (first : Colour) (hist : List Mv) : Prop :=
  ∀ (k : Nat) (m : Mv), hist[k]? = some m → m.1 = toPlay first k

/-- The move limit has been reached (a limit of 0 or less takes effect at the first move). -/
def LimitReached (limit : Option Int) (hist : List Mv) : Prop :=
  ∃ lim, limit = some lim ∧ lim ≤ (hist.length : Int) ∧ hist ≠ []

/-- The last stone played left a simple ko at `p`, forbidden to `c`. -/
def KoOfLastStone (n : Nat) (pos0 : Position) (hist : List Mv) (p : Pt) (c : Colour) : Prop :=
  ∃ l q passes, hist = l ++ (c.opponent, some q) :: passes ∧ (∀ m ∈ passes, m.2 = none) ∧
    KoPoint n (replay n pos0 l) (replay n pos0 (l ++ [(c.opponent, some q)])) q c.opponent p

/-- All stones in the history were played at empty points of the board. -/
def AllLegal (n : Nat) (pos0 : Position) (hist : List Mv) : Prop :=
  ∀ l c p r, hist = l ++ (c, some p) :: r → OnBoard n p ∧ replay n pos0 l p = none

end Gomill.Go
