import Verif.Model.SgfRecord
/-
Model of the remaining accessors of gomill/sgf.py: find_property and set_date.
-/
namespace Gomill.Sgf

open Py

/-- sgf.py:413-442 `find_property`, on a node of game `g`. -/
def Lib.findProperty (L : Lib) (g : GameRec) (node : Nat) (ident : Str) : Except Exc PVal :=
  match L.heap.find (fun m => m.has ident) node with
  | none => .error .keyError
  | some i => nodeGet g.presenter (L.heap.props i) ident

/-- A datetime.date. -/
structure Date where
  year : Nat
  month : Nat
  day : Nat
  deriving DecidableEq

/-- `%m` and `%d`. -/
def twoDigits (n : Nat) : Str := (if n < 10 then ['0'] else []) ++ Nat.toDigits 10 n

/-- sgf.py:807: `date.strftime("%Y-%m-%d")`; Python 2 refuses years before 1900. -/
def Date.strftime (d : Date) : Except Exc Str :=
  if d.year < 1900 then .error .valueError
  else .ok (Nat.toDigits 10 d.year ++ ['-'] ++ twoDigits d.month ++ ['-'] ++ twoDigits d.day)

/-- sgf.py:796-807 `set_date`, for an explicit date, acting on the root's properties. -/
def setDate (P : Presenter) (m : PropMap) (d : Date) : Upd :=
  match d.strftime with
  | .error e => (m, .error e)
  | .ok s => nodeSet P m ['D', 'T'] (.str s)

end Gomill.Sgf
