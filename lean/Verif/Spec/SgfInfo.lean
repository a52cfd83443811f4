import Verif.Spec.SgfGame
/-
The SGF FF[4] property types, and the game information that a root node gives.
-/
namespace Gomill.Sgf

open Py

/-- The properties of FF[4] (general ones, and those for Go), by the type of their values.  An "elist" may be empty. -/
def ff4 : List (PType × List String) := [
  (.simpletext, ["AN", "BR", "BT", "CA", "CP", "DT", "EV", "GN", "N", "ON", "OT", "PB", "PC", "PW", "RE", "RO", "RU", "SO", "US", "WR", "WT"]),
  (.text, ["C", "GC"]),
  (.number, ["FF", "GM", "HA", "MN", "OB", "OW", "PM", "ST", "SZ"]),
  (.real, ["BL", "KM", "TM", "V", "WL"]),
  (.double, ["BM", "DM", "GB", "GW", "HO", "TE", "UC"]),
  (.none, ["DO", "IT", "KO"]),
  (.colour, ["PL"]),
  (.move, ["B", "W"]),
  (.pointList false, ["AB", "AE", "AW", "CR", "MA", "SL", "SQ", "TR"]),
  (.pointList true, ["DD", "TB", "TW", "VW"]),
  (.AP, ["AP"]),
  (.ARLN, ["AR", "LN"]),
  (.FG, ["FG"]),
  (.LB, ["LB"])]

/-- `ident` is a standard property of type `t`. -/
def IsStandard (ident : Str) (t : PType) : Prop := ∃ c ∈ ff4, c.1 = t ∧ ∃ s ∈ c.2, ident = s.toList

/-- The encoding that a root node's properties stand for, which a caller of `from_string` can override. -/
def SourceEncoding (m : PropMap) (override : Option Str) (e : Str) : Prop :=
  match override with
  | some o => e = o
  | none => match lookup m ['C', 'A'] with
    | none => e = "ISO-8859-1".toList
    | some vs => ∃ rest, vs = e :: rest

/-- The root node's properties after loading: if the encoding was overridden, CA gives it. -/
def RootAfterLoad (root root' : PropMap) (override : Option Str) (encoding : Str) : Prop :=
  ∀ k, lookup root' k = if override.isSome ∧ k = ['C', 'A'] then some [encoding] else lookup root k

/-- Who won, according to a result like "B+3.5" or "w+R". -/
def winnerOf (result : Str) : Option Colour :=
  match result with
  | [] => none
  | c :: _ => if c = 'B' ∨ c = 'b' then some .b else if c = 'W' ∨ c = 'w' then some .w else none

/-- The property that holds a player's name. -/
inductive NameProperty : Colour → Str → Prop
  | black : NameProperty .b ['P', 'B']
  | white : NameProperty .w ['P', 'W']

/-- The nearest of a node and its ancestors with a property: the properties of that node, if there is one. -/
inductive Nearest (h : Heap PropMap) (ident : Str) : Nat → Option PropMap → Prop
  | here {i : Nat} {r : NodeRec PropMap} {vs : List Raw} : h[i]? = some r → lookup r.props ident = some vs → Nearest h ident i (some r.props)
  | up {i p : Nat} {r : NodeRec PropMap} {x : Option PropMap} : h[i]? = some r → lookup r.props ident = none → r.parent = some p →
      Nearest h ident p x → Nearest h ident i x
  | nowhere {i : Nat} {r : NodeRec PropMap} : h[i]? = some r → lookup r.props ident = none → r.parent = none → Nearest h ident i none

end Gomill.Sgf
