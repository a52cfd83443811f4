import Mathlib.Data.List.Forall2
import Verif.Model.SgfNode
import Verif.Spec.Sgf
import Verif.Spec.SgfCodec
import Verif.Spec.SgfText
/-
What the property API promises: which values a property type can store, and what is read back.
-/
namespace Gomill.Sgf

open Py

/-- What is assumed of Python's conversions between floats and strings.  `isFloat q` says that `q` is a float. -/
structure FloatsOK (F : Floats) (isFloat : Rat → Prop) : Prop where
  zero : isFloat 0
  /-- reading an integer -/
  int : ∀ q, isFloat q → q.den = 1 → F.read (strInt q.num) = some (.fin q)
  /-- `float(repr(f)) == f` -/
  repr : ∀ q, isFloat q → q.den ≠ 1 → F.read (F.repr q) = some (.fin q)
  /-- `repr` uses a negative exponent for numbers below 0.0001, and not for others -/
  small : ∀ q, isFloat q → q.den ≠ 1 → (hasEMinus (F.repr q) = true ↔ -1/10000 < q ∧ q < 1/10000)
  /-- `repr` uses digits, point, sign and `e` -/
  chars : ∀ q, ∀ c ∈ F.repr q, c ≠ ']' ∧ c ≠ '\\'

/-- A text that the encoding can represent. -/
def Encodable (P : Presenter) (s : Str) : Prop := ∃ e, P.codec.enc s = some e

/-- The values of a property type that can be stored: points are on the board, lists aren't empty (except for the types
that allow it), texts can be encoded, reals are finite. -/
def Storable (P : Presenter) (t : PType) (v : PVal) : Prop :=
  match t, v with
  | .none, _ => True
  | .number, .num _ => True
  | .real, .real (.fin _) => True
  | .double, .num _ => True
  | .colour, .colour _ => True
  | .simpletext, .str s => Encodable P s
  | .text, .str s => Encodable P s
  | .point, .point p => OnBoard P.size p
  | .move, .move m => ∀ p, m = some p → OnBoard P.size p
  | .pointList e, .points l => (∀ p ∈ l, OnBoard P.size p) ∧ (l = [] → e = true)
  | .AP, .pair v => Encodable P v.1 ∧ Encodable P v.2
  | .ARLN, .lines l => (∀ v ∈ l, OnBoard P.size v.1 ∧ OnBoard P.size v.2) ∧ l ≠ []
  | .FG, .figure f => ∀ flags name, f = some (flags, name) → Encodable P name
  | .LB, .labels l => (∀ v ∈ l, OnBoard P.size v.1 ∧ Encodable P v.2) ∧ l ≠ []
  | _, _ => False

/-- The texts in a value are UTF-8, and the reals are floats. -/
def WellFormed (isFloat : Rat → Prop) (v : PVal) : Prop :=
  match v with
  | .real (.fin q) => isFloat q
  | .str s => utf8Valid s = true
  | .pair v => utf8Valid v.1 = true ∧ utf8Valid v.2 = true
  | .figure f => ∀ flags name, f = some (flags, name) → utf8Valid name = true
  | .labels l => ∀ v ∈ l, utf8Valid v.2 = true
  | _ => True

/-- What is read back for a stored value: the same value, with the documented conversions: whitespace in texts, unknown
Doubles to 1, tiny reals to 0; a list of points is read as the set of the points. -/
def Reads (t : PType) (v v' : PVal) : Prop :=
  match t, v, v' with
  | .none, _, .true_ => True
  | .number, .num i, .num i' => i' = i
  | .real, .real (.fin q), .real (.fin q') => q' = if -1/10000 < q ∧ q < 1/10000 then 0 else q
  | .double, .num i, .num i' => i' = if i = 2 then 2 else 1
  | .colour, .colour c, .colour c' => c' = c
  | .simpletext, .str s, .str s' => Normalised true s s'
  | .text, .str s, .str s' => Normalised false s s'
  | .point, .point p, .point p' => p' = p
  | .move, .move m, .move m' => m' = m
  | .pointList _, .points l, .points l' => l'.Nodup ∧ ∀ q, q ∈ l' ↔ q ∈ l
  | .AP, .pair v, .pair v' => Normalised true v.1 v'.1 ∧ Normalised true v.2 v'.2
  | .ARLN, .lines l, .lines l' => l' = l
  | .FG, .figure none, .figure f => f = none
  | .FG, .figure (some (flags, name)), .figure f => ∃ n, f = some (flags, n) ∧ Normalised true name n
  | .LB, .labels l, .labels l' =>
    List.Forall₂ (fun v w : Pt × Str => w.1 = v.1 ∧ Normalised true v.2 w.2) l l'
  | _, _, _ => False

/-- The things a program can do to a node's properties. -/
inductive NodeOp where
  | setRawList (ident : Str) (values : List Raw)
  | setRaw (ident : Str) (value : Raw)
  | unset (ident : Str)
  | set (ident : Str) (v : PVal)
  | setMove (c : Colour) (m : Option Pt)
  | setSetupStones (black white empty : List Pt)
  | addCommentText (text : Str)

/-- The effect of an operation. -/
def NodeOp.apply (P : Presenter) (m : PropMap) : NodeOp → Upd
  | .setRawList ident values => Sgf.setRawList P m ident values
  | .setRaw ident value => Sgf.setRaw P m ident value
  | .unset ident => Sgf.unset P m ident
  | .set ident v => nodeSet P m ident v
  | .setMove c mv => Sgf.setMove P m c mv
  | .setSetupStones b w e => Sgf.setSetupStones P m b w e
  | .addCommentText text => Sgf.addCommentText P m text

/-- The properties an operation may change. -/
def NodeOp.Touches : NodeOp → Str → Prop
  | .setRawList ident _, k => k = ident
  | .setRaw ident _, k => k = ident
  | .unset ident, k => k = ident
  | .set ident _, k => k = ident
  | .setMove _ _, k => k = ['B'] ∨ k = ['W']
  | .setSetupStones _ _ _, k => k = ['A', 'B'] ∨ k = ['A', 'W'] ∨ k = ['A', 'E']
  | .addCommentText _, k => k = ['C']

/-- The presenter has the standard types for the properties that the Node methods use. -/
structure StandardTypes (P : Presenter) : Prop where
  b : P.lookupType ['B'] = some .move
  w : P.lookupType ['W'] = some .move
  ab : P.lookupType ['A', 'B'] = some (.pointList false)
  aw : P.lookupType ['A', 'W'] = some (.pointList false)
  ae : P.lookupType ['A', 'E'] = some (.pointList false)
  c : P.lookupType ['C'] = some .text
  sz : P.lookupType ['S', 'Z'] = some .number
  pl : P.lookupType ['P', 'L'] = some .colour
  re : P.lookupType ['R', 'E'] = some .simpletext

/-- Equal as sets of points. -/
def SameSet (l l' : List Pt) : Prop := ∀ p, p ∈ l ↔ p ∈ l'

/-- The board size that a root node's properties stand for. -/
def EffectiveSize (m : PropMap) (size : Int) : Prop :=
  match lookup m ['S', 'Z'] with
  | none => size = 19
  | some [] => False
  | some (v :: _) => parseInt v = .ok size

end Gomill.Sgf
