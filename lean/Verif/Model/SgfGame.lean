import Verif.Model.SgfNode
import Verif.Model.SgfTree
/-
Model of class Sgf_game (gomill/sgf.py:465-635) with its property maps, board sizes and encodings: a program's view of
the SGF library, in which several games can be created, loaded, edited and serialised.

An unexpanded game (sgf.py:452-492) is expanded at once here: the two are indistinguishable to the user (C23_expansion).
-/
namespace Gomill.Sgf

open Py

/-- What the code uses of Python's codecs: names, and what the codecs do. -/
structure Encodings where
  /-- sgf_properties.py:16-26 `normalise_charset_name`; `none` for LookupError -/
  normalise : Str → Option Str
  /-- the codec, by normalised name -/
  codec : Str → Codec

/-- sgf.py:511-518: the attributes of an Sgf_game; `encoding` is the presenter's (a normalised name). -/
structure GameRec where
  presenter : Presenter
  encoding : Str
  root : Nat

/-- All the Sgf_games created so far, and all their nodes. A game is its index. -/
structure Lib where
  heap : Heap PropMap
  games : List GameRec

/-- sgf.py:511-518 `__new__` with sgf_properties.py:603-610: check the size and the encoding. -/
def makePresenter (E : Encodings) (F : Floats) (size : Int) (encoding : Str) : Except Exc (Presenter × Str) :=
  if ¬ (1 ≤ size ∧ size ≤ 26) then .error .valueError
  else match E.normalise encoding with
    | none => .error .valueError
    | some n => .ok (Presenter.new size (E.codec n) F, n)

/-- sgf.py:511-526 `Sgf_game(size, encoding)`. -/
def Lib.newGame (E : Encodings) (F : Floats) (L : Lib) (size : Int) (encoding : Str) : Except Exc Lib := do
  let (P, n) ← makePresenter E F size encoding
  let u := newGameProps P n
  u.2
  return { heap := L.heap.newRoot L.games.length u.1, games := L.games ++ [⟨P, n, L.heap.length⟩] }

/-- A Coarse_game_tree (of the parser) as the coarse tree of Model/SgfTree. -/
def CTree.coarse : CTree → Coarse PropMap
  | .mk sq ch => .mk sq (coarseList ch)
where
  coarseList : List CTree → List (Coarse PropMap)
    | [] => []
    | t :: ts => t.coarse :: coarseList ts

/-- The other way. -/
def Coarse.ctree : Coarse PropMap → CTree
  | .mk sq ch => .mk sq (ctreeList ch)
where
  ctreeList : List (Coarse PropMap) → List CTree
    | [] => []
    | t :: ts => t.ctree :: ctreeList ts

/-- sgf.py:547-555: the board size that the root node gives. -/
def loadSize (root : PropMap) : Except Exc Int :=
  match root.find ['S', 'Z'] with
  | none => .ok 19
  | some vs => do parseInt (← firstValue vs)

/-- sgf.py:556-562: the name of the encoding, from the root node unless it is overridden. -/
def loadEncoding (root : PropMap) (override : Option Str) : Except Exc Str :=
  match override with
  | some e => .ok e
  | none => match root.find ['C', 'A'] with
    | none => .ok "ISO-8859-1".toList
    | some vs => firstValue vs

/-- sgf.py:565-566: an override replaces the root's CA property. -/
def loadRoot (P : Presenter) (n : Str) (root : PropMap) (override : Option Str) : Upd :=
  match override with
  | none => (root, .ok ())
  | some _ => setRaw P root ['C', 'A'] n

/-- sgf.py:528-567 `from_coarse_game_tree`. -/
def Lib.load (E : Encodings) (F : Floats) (L : Lib) (t : CTree) (override : Option Str) : Except Exc Lib :=
  match t.sequence with
  | [] => .error .indexError
  | root :: _ => do
    let size ← loadSize root
    let encoding ← loadEncoding root override
    let (P, n) ← makePresenter E F size encoding
    let u := loadRoot P n root override
    u.2
    let heap ← makeTree t.coarse (L.heap.newRoot L.games.length u.1) L.heap.length
    return { heap := heap, games := L.games ++ [⟨P, n, L.heap.length⟩] }

/-- sgf.py:569-582 `from_string`. -/
def Lib.fromString (E : Encodings) (F : Floats) (L : Lib) (s : Str) (override : Option Str) : Except Exc Lib := do
  L.load E F (← parseSgfGame s) override

/-- The properties of a node. -/
def Heap.props (h : Heap PropMap) (i : Nat) : PropMap :=
  match h[i]? with
  | some r => r.props
  | none => []

/-- `s.decode(a).encode(b)`. -/
def transcode (a b : Codec) (s : Str) : Option Str := (a.dec s).bind b.enc

/-- sgf.py:584-619 `serialise`. -/
def Lib.serialise (E : Encodings) (L : Lib) (g : GameRec) (wrap : Option Int) : Except Exc Str := do
  let encoding ← getCharset g.presenter E.normalise (L.heap.props g.root)
  let serialised := Sgf.serialise (makeCoarse L.heap g.root).ctree wrap
  if encoding = g.encoding then return serialised
  else orValueError (transcode (E.codec g.encoding) (E.codec encoding) serialised)

end Gomill.Sgf
