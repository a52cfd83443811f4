import Verif.Model.SgfGame
import Verif.Spec.SgfEdit
import Verif.Spec.SgfNode
/-
What a program can do with SGF games, and what it means for two games to have the same contents.
-/
namespace Gomill.Sgf

open Py

/-- One thing that a program can do with the SGF games it has. -/
inductive LibStep (E : Encodings) (F : Floats) : Lib → Lib → Prop
  | newGame {L L' : Lib} {size : Int} {encoding : Str} : L.newGame E F size encoding = .ok L' → LibStep E F L L'
  /-- a tree from the parser (its property maps are valid: `C17_parsed_valid`) -/
  | load {L L' : Lib} {t : CTree} {override : Option Str} : ValidTree t → L.load E F t override = .ok L' → LibStep E F L L'
  | newChild {L : Lib} {n : Nat} {index : Option Int} : n < L.heap.length →
      LibStep E F L { L with heap := L.heap.newChild n [] index }
  | delete {L : Lib} {n : Nat} {h : Heap PropMap} : n < L.heap.length → L.heap.delete n = .ok h → LibStep E F L { L with heap := h }
  | reparent {L : Lib} {n p : Nat} {index : Option Int} {h : Heap PropMap} : n < L.heap.length → p < L.heap.length →
      L.heap.reparent n p index = .ok h → LibStep E F L { L with heap := h }
  /-- a method of a node, whether it raises an exception or not -/
  | update {L : Lib} {n : Nat} {g : GameRec} {op : NodeOp} : L.games[L.heap.owner n]? = some g → n < L.heap.length →
      LibStep E F L { L with heap := L.heap.modify n (fun r => { r with props := (op.apply g.presenter r.props).1 }) }
  /-- register_property and so on -/
  | configure {L : Lib} {o : Nat} {g : GameRec} {P : Presenter} : L.games[o]? = some g → P.size = g.presenter.size →
      P.codec = g.presenter.codec → P.floats = g.presenter.floats →
      LibStep E F L { L with games := L.games.set o { g with presenter := P } }

/-- What a program can reach. -/
inductive Session (E : Encodings) (F : Floats) : Lib → Prop
  | start : Session E F ⟨[], []⟩
  | step {L L' : Lib} : Session E F L → LibStep E F L L' → Session E F L'

/-- Two trees of the same shape, whose property maps are related. -/
inductive Corresponds (R : PropMap → PropMap → Prop) : NTree PropMap → NTree PropMap → Prop
  | mk {p p' : PropMap} {ts ts' : List (NTree PropMap)} : R p p' → ts.length = ts'.length →
      (∀ i (h : i < ts.length) (h' : i < ts'.length), Corresponds R ts[i] ts'[i]) → Corresponds R (.mk p ts) (.mk p' ts')

/-- The game's nodes form the tree `t`. -/
def HasTree (L : Lib) (o : Nat) (g : GameRec) (t : NTree PropMap) : Prop :=
  ∃ ids, Rep L.heap o none g.root t ids ∧ ids.Nodup

/-- What is assumed of the names of encodings: the default's name is in normal form, names in normal form are known, and
can be written in an SGF file. -/
structure NamesOK (E : Encodings) : Prop where
  latin1 : E.normalise "ISO-8859-1".toList = some "ISO-8859-1".toList
  idem : ∀ s n, E.normalise s = some n → E.normalise n = some n
  chars : ∀ s n, E.normalise s = some n → OneLine n ∧ ∀ c ∈ n, c ≠ '\\' ∧ c ≠ ']' ∧ c.toNat < 128

/-- The root node's properties say that the encoding is `name`: there is a CA property, with one value, which is a name for
it, without escapes; or there is none and it is ISO-8859-1. -/
def Declares (E : Encodings) (m : PropMap) (name : Str) : Prop :=
  match lookup m ['C', 'A'] with
  | none => name = "ISO-8859-1".toList
  | some vs => ∃ raw, vs = [raw] ∧ E.normalise raw = some name ∧ OneLine raw ∧ ∀ c ∈ raw, c ≠ '\\' ∧ c.toNat < 128

/-- Encodings between which text can be converted: the laws for encoding that correspond to those for decoding, and
decoding doesn't depend on the context. -/
structure Transcodable (C : Codec) : Prop extends AsciiCompatible C where
  concat : ∀ x y u w, C.dec x = some u → C.dec y = some w → C.dec (x ++ y) = some (u ++ w)
  valid : ∀ x u, C.dec x = some u → utf8Valid u = true
  enc_nil : C.enc [] = some []
  enc_ascii : ∀ x c y, c.toNat < 128 → C.enc (x ++ c :: y) = (C.enc x).bind (fun a => (C.enc y).map (fun b => a ++ c :: b))
  enc_high : ∀ x a, (∀ c ∈ x, 128 ≤ c.toNat) → C.enc x = some a → ∀ c ∈ a, 128 ≤ c.toNat
  enc_nonempty : ∀ x, C.enc x = some [] → x = []

/-- The same properties, with each raw value converted from one encoding to the other. -/
def TransMap (a b : Codec) (m m' : PropMap) : Prop :=
  ∀ ident, match lookup m ident, lookup m' ident with
    | none, none => True
    | some vs, some vs' => List.Forall₂ (fun v v' => transcode a b v = some v') vs vs'
    | _, _ => False

/-- `m` is the property map of a node of the tree. -/
inductive NTree.Has (m : PropMap) : NTree PropMap → Prop
  | here {ts : List (NTree PropMap)} : NTree.Has m (.mk m ts)
  | inChild {p : PropMap} {ts : List (NTree PropMap)} {t : NTree PropMap} : t ∈ ts → NTree.Has m t → NTree.Has m (.mk p ts)

end Gomill.Sgf
