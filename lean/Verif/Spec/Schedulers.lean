/-
What a user of a scheduler can see: a log of events.  Newest event first.
-/
namespace Gomill.SchedSpec

inductive Ev where
  | issued (t : Nat)     -- issue() returned t
  | fixed (t : Nat)      -- fix(t) succeeded
  | rolledBack           -- rollback() was called
  deriving Repr, DecidableEq

/-- Tokens whose result has been stored. -/
def fixedTokens : List Ev → List Nat
  | [] => []
  | .fixed t :: l => t :: fixedTokens l
  | _ :: l => fixedTokens l

/-- Tokens handed out, and neither fixed nor rolled back since. -/
def live : List Ev → List Nat
  | [] => []
  | .issued t :: l => t :: live l
  | .fixed t :: l => (live l).erase t
  | .rolledBack :: _ => []

/-- Tokens handed out at some time. -/
def everIssued : List Ev → List Nat
  | [] => []
  | .issued t :: l => t :: everIssued l
  | _ :: l => everIssued l

/-- Events seen by a user of a group scheduler. -/
inductive GEv (κ : Type) where
  | groups (codes : List κ)       -- set_groups() was called with these group codes
  | issued (code : κ) (t : Nat)   -- issue() returned (code, t)
  | fixed (code : κ) (t : Nat)    -- fix(code, t) succeeded
  | rolledBack
  deriving Repr, DecidableEq

/-- The part of the log (newest first) concerning one group, since the group was last introduced (a group
missing from a set_groups() call is forgotten). -/
def proj {κ : Type} [DecidableEq κ] (c : κ) : List (GEv κ) → List Ev
  | [] => []
  | .groups codes :: l => if c ∈ codes then proj c l else []
  | .issued c' t :: l => if c' = c then .issued t :: proj c l else proj c l
  | .fixed c' t :: l => if c' = c then .fixed t :: proj c l else proj c l
  | .rolledBack :: l => .rolledBack :: proj c l

end Gomill.SchedSpec
