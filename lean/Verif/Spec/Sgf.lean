import Verif.Model.SgfGrammar
/-
Specification vocabulary for SGF data, independent of the parser and the serialiser.
-/
namespace Gomill.Sgf

open Py

/-- A raw property value: no unescaped `]`, no backslash left without a character to escape. -/
inductive ValidValue : Str → Prop
  | nil : ValidValue []
  | plain {c : Char} {s : Str} : c ≠ '\\' → c ≠ ']' → ValidValue s → ValidValue (c :: s)
  | escaped {c : Char} {s : Str} : ValidValue s → ValidValue ('\\' :: c :: s)

/-- A property identifier: 1 to 64 upper-case ASCII letters. -/
def ValidIdent (s : Str) : Prop := 1 ≤ s.length ∧ s.length ≤ 64 ∧ ∀ c ∈ s, 'A' ≤ c ∧ c ≤ 'Z'

/-- A property map as described in the module documentation: distinct valid identifiers, each with a nonempty list of
valid values. -/
structure ValidMap (m : PropMap) : Prop where
  keys : (m.map (·.1)).Nodup
  idents : ∀ p ∈ m, ValidIdent p.1
  nonempty : ∀ p ∈ m, p.2 ≠ []
  values : ∀ p ∈ m, ∀ v ∈ p.2, ValidValue v

/-- A game tree all of whose node sequences are nonempty and whose property maps are valid. -/
inductive ValidTree : CTree → Prop
  | mk {sq : List PropMap} {ch : List CTree} : sq ≠ [] → (∀ m ∈ sq, ValidMap m) → (∀ c ∈ ch, ValidTree c) →
      ValidTree (.mk sq ch)

/-- The values of a property in a property map (as `m.get(ident)` in Python). -/
def lookup (m : PropMap) (ident : Str) : Option (List Raw) :=
  match m with
  | [] => none
  | (k, v) :: r => if k = ident then some v else lookup r ident

/-- Equal as dicts. -/
def SameMap (m m' : PropMap) : Prop := ∀ ident, lookup m ident = lookup m' ident

/-- The same nodes with the same properties, in the same arrangement. -/
inductive SameTree : CTree → CTree → Prop
  | mk {sq sq' : List PropMap} {ch ch' : List CTree} :
      sq.length = sq'.length → (∀ i (h : i < sq.length) (h' : i < sq'.length), SameMap sq[i] sq'[i]) →
      ch.length = ch'.length → (∀ i (h : i < ch.length) (h' : i < ch'.length), SameTree ch[i] ch'[i]) →
      SameTree (.mk sq ch) (.mk sq' ch')

/-- A property map of some node of a tree. -/
inductive InTree (m : PropMap) : CTree → Prop
  | here {sq : List PropMap} {ch : List CTree} : m ∈ sq → InTree m (.mk sq ch)
  | inChild {sq : List PropMap} {ch : List CTree} {c : CTree} : c ∈ ch → InTree m c → InTree m (.mk sq ch)

/-- A string in which no game starts: `(` is nowhere followed by `;` with only whitespace between. -/
def NoStart (s : Str) : Prop := ∀ a w b, (∀ c ∈ w, isSpace c = true) → s ≠ a ++ '(' :: (w ++ ';' :: b)

end Gomill.Sgf
