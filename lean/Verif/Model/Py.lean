/-
Small pieces of Python shared by the models.

A Python `set` (of ints, points, ...) is modelled as a duplicate-free list; the order of the list has no
meaning.  Nothing in the theorems depends on it, except where stated.
-/
namespace Gomill.Py

/-- The Python exceptions the modelled code can raise (explicitly or by a failing operation). -/
inductive Exc where
  | indexError
  | valueError
  | keyError
  | typeError
  | assertionError
  | attributeError
  | stopIteration
  deriving DecidableEq, Repr

/-- `s.add(x)` on a Python set. -/
def setAdd {α} [DecidableEq α] (s : List α) (x : α) : List α :=
  if x ∈ s then s else x :: s

/-- `s.update(xs)` on a Python set. -/
def setUpdate {α} [DecidableEq α] (s : List α) (xs : List α) : List α :=
  xs.foldl setAdd s

/-- `s.discard(x)` on a Python set. -/
def setDiscard {α} [DecidableEq α] (s : List α) (x : α) : List α :=
  s.erase x

/-- `s.remove(x)` on a Python set: raises KeyError if absent. -/
def setRemove {α} [DecidableEq α] (s : List α) (x : α) : Except Exc (List α) :=
  if x ∈ s then .ok (s.erase x) else .error .keyError

/-- Python sequence index normalisation: a negative index counts from the end. -/
def normIndex (len : Nat) (i : Int) : Option Nat :=
  if 0 ≤ i then (if i < len then some i.toNat else none)
  else if 0 ≤ i + len then some (i + len).toNat else none

/-- `l[i]` on a Python list or string: negative indexes count from the end; IndexError if out of range. -/
def getItem {α} (l : List α) (i : Int) : Except Exc α :=
  match normIndex l.length i with
  | none => .error .indexError
  | some k => match l[k]? with
    | some x => .ok x
    | none => .error .indexError

/-- `l[i] = v` on a Python list. -/
def setItem {α} (l : List α) (i : Int) (v : α) : Except Exc (List α) :=
  match normIndex l.length i with
  | none => .error .indexError
  | some k => .ok (l.set k v)

end Gomill.Py
