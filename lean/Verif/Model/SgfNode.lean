import Verif.Model.SgfMoves
/-
Model of the property-level API: gomill/sgf_properties.py 124-159 and 474-730 (Real values, the table of property types,
class Presenter), the Node methods of gomill/sgf.py (47-315), the root-node methods of Sgf_game (520-526, 722-807), and
set_initial_position and indicate_first_player of gomill/sgf_moves.py.

A node's property map is a Python dict: a list of pairs with distinct keys (the order is not observable).
-/
namespace Gomill.Sgf

open Py

/-! ### Real values -/

/-- A Python float: a finite one is a rational number. -/
inductive PyFloat where
  | fin (q : Rat)
  | inf (negative : Bool)
  | nan
  deriving DecidableEq

/-- What the code uses of Python's floats: `float(s)` (`none` for ValueError), and `repr(f)` of a finite float. -/
structure Floats where
  read : Str → Option PyFloat
  repr : Rat → Str

/-- sgf_properties.py:124-136 `interpret_real`. -/
def interpretReal (F : Floats) (s : Str) : Except Exc PyFloat :=
  match F.read s with
  | none => .error .valueError
  | some (.inf _) => .error .valueError
  | some .nan => .error .valueError
  | some (.fin q) => .ok (.fin q)

/-- `'e-' in s`. -/
def hasEMinus : Str → Bool
  | [] => false
  | c :: r => (c = 'e' && r.head? = some '-') || hasEMinus r

/-- sgf_properties.py:138-159 `serialise_real` (`int(f)` raises OverflowError for infinities, ValueError for NaN). -/
def serialiseReal (F : Floats) : PyFloat → Except Exc Str
  | .inf _ => .error .valueError
  | .nan => .error .valueError
  | .fin q =>
    if q.den = 1 then .ok (strInt q.num)
    else if hasEMinus (F.repr q) then .ok ['0']
    else .ok (F.repr q)

/-! ### Property types -/

/-- sgf_properties.py:490-507: the property types; for point lists, whether the list can be empty (lines 500-502; stone
lists are point lists). -/
inductive PType where
  | none | number | real | double | colour | simpletext | text | point | move
  | pointList (allowsEmpty : Bool)
  | AP | ARLN | FG | LB
  deriving DecidableEq

/-- sgf_properties.py:487 `uses_list`. -/
def PType.usesList : PType → Bool
  | .pointList _ => true
  | .ARLN => true
  | .LB => true
  | _ => false

/-- sgf_properties.py:487-488, 501 `allows_empty_list`. -/
def PType.allowsEmpty : PType → Bool
  | .pointList e => e
  | _ => false

/-- sgf_properties.py:511-579 `_property_types_by_ident`. -/
def standardTypes : List (String × PType) := [
  ("AB", .pointList false), ("AE", .pointList false), ("AN", .simpletext), ("AP", .AP), ("AR", .ARLN),
  ("AW", .pointList false), ("B", .move), ("BL", .real), ("BM", .double), ("BR", .simpletext), ("BT", .simpletext),
  ("C", .text), ("CA", .simpletext), ("CP", .simpletext), ("CR", .pointList false), ("DD", .pointList true),
  ("DM", .double), ("DO", .none), ("DT", .simpletext), ("EV", .simpletext), ("FF", .number), ("FG", .FG),
  ("GB", .double), ("GC", .text), ("GM", .number), ("GN", .simpletext), ("GW", .double), ("HA", .number),
  ("HO", .double), ("IT", .none), ("KM", .real), ("KO", .none), ("LB", .LB), ("LN", .ARLN), ("MA", .pointList false),
  ("MN", .number), ("N", .simpletext), ("OB", .number), ("ON", .simpletext), ("OT", .simpletext), ("OW", .number),
  ("PB", .simpletext), ("PC", .simpletext), ("PL", .colour), ("PM", .number), ("PW", .simpletext), ("RE", .simpletext),
  ("RO", .simpletext), ("RU", .simpletext), ("SL", .pointList false), ("SO", .simpletext), ("SQ", .pointList false),
  ("ST", .number), ("SZ", .number), ("TB", .pointList true), ("TE", .double), ("TM", .real), ("TR", .pointList false),
  ("TW", .pointList true), ("UC", .double), ("US", .simpletext), ("V", .real), ("VW", .pointList true), ("W", .move),
  ("WL", .real), ("WR", .simpletext), ("WT", .simpletext)]

/-- sgf_properties.py:585-610: the attributes of a Presenter (and what it uses of Python). -/
structure Presenter where
  size : Int
  codec : Codec
  floats : Floats
  /-- `property_types_by_ident` -/
  types : List (Str × PType)
  /-- `default_property_type` -/
  default : Option PType

/-- sgf_properties.py:603-610 `Presenter.__init__` (after the check that the encoding is known). -/
def Presenter.new (size : Int) (codec : Codec) (floats : Floats) : Presenter :=
  { size := size, codec := codec, floats := floats, types := standardTypes.map (fun p => (p.1.toList, p.2)), default := some .text }

/-- `self.property_types_by_ident.get(identifier)`. -/
def Presenter.lookupType (P : Presenter) (ident : Str) : Option PType := (List.find? (fun p => p.1 = ident) P.types).map (·.2)

/-- sgf_properties.py:620-622 `register_property`. -/
def Presenter.registerProperty (P : Presenter) (ident : Str) (t : PType) : Presenter :=
  { P with types := (ident, t) :: P.types.filter (fun p => p.1 ≠ ident) }

/-- sgf_properties.py:624-626 `deregister_property`. -/
def Presenter.deregisterProperty (P : Presenter) (ident : Str) : Except Exc Presenter :=
  match P.lookupType ident with
  | none => .error .keyError
  | some _ => .ok { P with types := P.types.filter (fun p => p.1 ≠ ident) }

/-- sgf_properties.py:628-634 `set_private_property_type`. -/
def Presenter.setPrivatePropertyType (P : Presenter) (t : Option PType) : Presenter := { P with default := t }

/-- sgf_properties.py:636-643 `_get_effective_property_type`. -/
def Presenter.effectiveType (P : Presenter) (ident : Str) : Except Exc PType :=
  match P.lookupType ident with
  | some t => .ok t
  | none => match P.default with
    | none => .error .valueError
    | some t => .ok t

/-- The Python representations of property values. -/
inductive PVal where
  | true_
  | num (i : Int)
  | real (f : PyFloat)
  | colour (c : Colour)
  | str (s : Str)
  | point (p : Pt)
  | move (m : Option Pt)
  | points (l : List Pt)
  | pair (v : Str × Str)
  | lines (l : List (Pt × Pt))
  | figure (v : Option (Int × Str))
  | labels (l : List (Pt × Str))
  deriving DecidableEq

/-- sgf_properties.py:645-662 `interpret_as_type`: lines 651-661 are `listValues` and `singleValue`. -/
def Presenter.interpretAs (P : Presenter) (t : PType) (raw : List Raw) : Except Exc PVal :=
  match t with
  | .none => do let _ ← singleValue raw; return .true_
  | .number => do return .num (← interpretNumber (← singleValue raw))
  | .real => do return .real (← interpretReal P.floats (← singleValue raw))
  | .double => do return .num (interpretDouble (← singleValue raw))
  | .colour => do return .colour (← interpretColour (← singleValue raw))
  | .simpletext => do return .str (← interpretSimpletext P.codec (← singleValue raw))
  | .text => do return .str (← interpretText P.codec (← singleValue raw))
  | .point => do return .point (← interpretPoint (← singleValue raw) P.size)
  | .move => do return .move (← interpretGoPoint (← singleValue raw) P.size)
  | .pointList _ => do return .points (← interpretPointList (← listValues raw) P.size)
  | .AP => do return .pair (← interpretAP P.codec (← singleValue raw))
  | .ARLN => do return .lines (← interpretARLN (← listValues raw) P.size)
  | .FG => do return .figure (← interpretFG P.codec (← singleValue raw))
  | .LB => do return .labels (← interpretLB P.codec (← listValues raw) P.size)

/-- sgf_properties.py:664-687 `interpret`. -/
def Presenter.interpret (P : Presenter) (ident : Str) (raw : List Raw) : Except Exc PVal := do
  P.interpretAs (← P.effectiveType ident) raw

/-- sgf_properties.py:696-702: the result of `serialise_as_type` for list types. -/
def emptyList (allowsEmpty : Bool) (l : List Raw) : Except Exc (List Raw) :=
  if l = [] then (if allowsEmpty then .ok [[]] else .error .valueError) else .ok l

/-- sgf_properties.py:689-704 `serialise_as_type`.  A value which isn't of the kind the type documents gives a TypeError
here (Python might raise something else, or accept it: an int for a Real, for example). -/
def Presenter.serialiseAs (P : Presenter) (t : PType) (v : PVal) : Except Exc (List Raw) :=
  match t, v with
  | .none, _ => .ok [[]]
  | .number, .num i => .ok [serialiseNumber i]
  | .real, .real f => do return [← serialiseReal P.floats f]
  | .double, .num i => .ok [serialiseDouble i]
  | .colour, .colour c => .ok [serialiseColour c]
  | .simpletext, .str s => do return [← serialiseSimpletext P.codec s]
  | .text, .str s => do return [← serialiseText P.codec s]
  | .point, .point p => do return [← serialisePoint p P.size]
  | .move, .move m => do return [← serialiseGoPoint m P.size]
  | .pointList e, .points l => do emptyList e (← serialisePointList l P.size)
  | .AP, .pair p => do return [← serialiseAP P.codec p]
  | .ARLN, .lines l => do emptyList false (← serialiseARLN l P.size)
  | .FG, .figure f => do return [← serialiseFG P.codec f]
  | .LB, .labels l => do emptyList false (← serialiseLB P.codec l P.size)
  | _, _ => .error .typeError

/-- sgf_properties.py:706-730 `serialise`. -/
def Presenter.serialise (P : Presenter) (ident : Str) (v : PVal) : Except Exc (List Raw) := do
  P.serialiseAs (← P.effectiveType ident) v

/-! ### Node -/

/-- `self._property_map[identifier] = values`. -/
def PropMap.assign (m : PropMap) (ident : Str) (values : List Raw) : PropMap :=
  if m.has ident then List.map (fun p => if p.1 = ident then (ident, values) else p) m else m ++ [(ident, values)]

/-- `del self._property_map[identifier]`, for a key which is there. -/
def PropMap.remove (m : PropMap) (ident : Str) : PropMap := List.filter (fun p => p.1 ≠ ident) m

/-- `self._property_map[identifier]`. -/
def PropMap.item (m : PropMap) (ident : Str) : Except Exc (List Raw) :=
  match m.find ident with
  | some vs => .ok vs
  | none => .error .keyError

/-- The node's property map after a method call, and whether the call raised an exception. -/
abbrev Upd := PropMap × Except Exc Unit

/-- sgf.py:59-73 `get_raw_list`. -/
def getRawList (m : PropMap) (ident : Str) : Except Exc (List Raw) := m.item ident

/-- sgf.py:75-89 `get_raw`. -/
def getRaw (m : PropMap) (ident : Str) : Except Exc Raw := do firstValue (← m.item ident)

/-- sgf.py:105-108 `_set_raw_list`. -/
def setRawListUnchecked (P : Presenter) (m : PropMap) (ident : Str) (values : List Raw) : Upd :=
  if ident = ['S', 'Z'] ∧ values ≠ [strInt P.size] then (m, .error .valueError)
  else (m.assign ident values, .ok ())

/-- sgf.py:110-118 `unset`. -/
def unset (P : Presenter) (m : PropMap) (ident : Str) : Upd :=
  if ident = ['S', 'Z'] ∧ P.size ≠ 19 then (m, .error .valueError)
  else if m.has ident then (m.remove ident, .ok ())
  else (m, .error .keyError)

/-- sgf.py:121-144 `set_raw_list`. -/
def setRawList (P : Presenter) (m : PropMap) (ident : Str) (values : List Raw) : Upd :=
  if !isValidIdent ident then (m, .error .valueError)
  else if values = [] then (m, .error .valueError)
  else if values.any (fun v => !isValidValue v) then (m, .error .valueError)
  else setRawListUnchecked P m ident values

/-- sgf.py:146-161 `set_raw`. -/
def setRaw (P : Presenter) (m : PropMap) (ident : Str) (value : Raw) : Upd :=
  if !isValidIdent ident then (m, .error .valueError)
  else if !isValidValue value then (m, .error .valueError)
  else setRawListUnchecked P m ident [value]

/-- sgf.py:164-178 `get`. -/
def nodeGet (P : Presenter) (m : PropMap) (ident : Str) : Except Exc PVal := do
  P.interpret ident (← m.item ident)

/-- sgf.py:180-196 `set`. -/
def nodeSet (P : Presenter) (m : PropMap) (ident : Str) (v : PVal) : Upd :=
  if !isValidIdent ident then (m, .error .valueError)
  else match P.serialise ident v with
    | .error e => (m, .error e)
    | .ok values => setRawListUnchecked P m ident values

/-- sgf.py:279: `colour.upper()`. -/
def moveIdent : Colour → Str
  | .b => ['B']
  | .w => ['W']

/-- sgf.py:264-279 `set_move` (for a valid colour). -/
def setMove (P : Presenter) (m : PropMap) (c : Colour) (move : Option Pt) : Upd :=
  nodeSet P ((m.remove ['B']).remove ['W']) (moveIdent c) (.move move)

/-- sgf.py:295-300: `if points: self.set(...)`. -/
def setPoints (P : Presenter) (m : PropMap) (ident : Str) (points : List Pt) : Upd :=
  if points ≠ [] then nodeSet P m ident (.points points) else (m, .ok ())

/-- Go on if there was no exception. -/
def Upd.andThen (u : Upd) (f : PropMap → Upd) : Upd :=
  match u.2 with
  | .ok _ => f u.1
  | .error e => (u.1, .error e)

/-- sgf.py:281-300 `set_setup_stones`. -/
def setSetupStones (P : Presenter) (m : PropMap) (black white empty : List Pt) : Upd :=
  let m := ((m.remove ['A', 'B']).remove ['A', 'W']).remove ['A', 'E']
  ((setPoints P m ['A', 'B'] black).andThen (fun m => setPoints P m ['A', 'W'] white)).andThen
    (fun m => setPoints P m ['A', 'E'] empty)

/-- sgf.py:302-315 `add_comment_text` (a C property which isn't of a text type can't be concatenated: TypeError). -/
def addCommentText (P : Presenter) (m : PropMap) (text : Str) : Upd :=
  if m.has ['C'] then
    match nodeGet P m ['C'] with
    | .error e => (m, .error e)
    | .ok (.str s) => nodeSet P m ['C'] (.str (s ++ ['\n', '\n'] ++ text))
    | .ok _ => (m, .error .typeError)
  else nodeSet P m ['C'] (.str text)

/-! ### The root node -/

/-- sgf.py:511-526: creating an Sgf_game: the properties of the root node.  `encoding` is the normalised name of the
encoding. -/
def newGameProps (P : Presenter) (encoding : Str) : Upd :=
  (((setRaw P [] ['F', 'F'] ['4']).andThen (fun m => setRaw P m ['G', 'M'] ['1'])).andThen
    (fun m => setRaw P m ['S', 'Z'] (strInt P.size))).andThen (fun m => setRaw P m ['C', 'A'] encoding)

/-- sgf.py:722-737 `get_charset`; `normalise` is `normalise_charset_name` (`none` for LookupError). -/
def getCharset (P : Presenter) (normalise : Str → Option Str) (m : PropMap) : Except Exc Str :=
  match nodeGet P m ['C', 'A'] with
  | .error .keyError => .ok "ISO-8859-1".toList
  | .error e => .error e
  | .ok (.str s) =>
    match normalise s with
    | some n => .ok n
    | none => .error .valueError
  | .ok _ => .error .typeError

/-- sgf.py:771-780 `get_player_name` (for a valid colour). -/
def getPlayerName (P : Presenter) (m : PropMap) (c : Colour) : Except Exc (Option PVal) :=
  match nodeGet P m (match c with | .b => ['P', 'B'] | .w => ['P', 'W']) with
  | .error .keyError => .ok none
  | .error e => .error e
  | .ok v => .ok (some v)

/-- sgf.py:782-794 `get_winner` (LookupError includes KeyError and IndexError). -/
def getWinner (P : Presenter) (m : PropMap) : Except Exc (Option Colour) :=
  match nodeGet P m ['R', 'E'] with
  | .error .keyError => .ok none
  | .error .indexError => .ok none
  | .error e => .error e
  | .ok (.str []) => .ok none
  | .ok (.str (c :: _)) =>
    if lower [c] = ['b'] then .ok (some .b) else if lower [c] = ['w'] then .ok (some .w) else .ok none
  | .ok _ => .error .typeError

/-! ### sgf_moves -/

/-- sgf_moves.py:69-71: the stones of one colour. -/
def stonesOf (b : Board) (c : Colour) : List Pt :=
  b.listOccupiedPoints.foldl (fun s cp => if cp.1 = c then setAdd s cp.2 else s) []

/-- sgf_moves.py:60-72 `set_initial_position`, acting on the root node's properties. -/
def setInitialPosition (P : Presenter) (m : PropMap) (b : Board) : Upd :=
  setSetupStones P m (stonesOf b .b) (stonesOf b .w) []

/-- sgf_moves.py:86-96. -/
def specifyPL (root : PropMap) (firstPlayer : Colour) : Bool :=
  let hasHandicap := root.has ['H', 'A']
  if root.has ['A', 'W'] then true
  else if root.has ['A', 'B'] && !hasHandicap then true
  else if !hasHandicap && firstPlayer = .w then true
  else if hasHandicap && firstPlayer = .b then true
  else false

/-- sgf_moves.py:74-98 `indicate_first_player`, acting on the root's properties; `children` are the properties of the
root's children (with none, `root[0]` raises IndexError). -/
def indicateFirstPlayer (P : Presenter) (root : PropMap) (children : List PropMap) : Upd :=
  match children with
  | [] => (root, .error .indexError)
  | child :: _ =>
    match getMove child P.size with
    | .error e => (root, .error e)
    | .ok none => (root, .ok ())
    | .ok (some (c, _)) => if specifyPL root c then nodeSet P root ['P', 'L'] (.colour c) else (root, .ok ())

end Gomill.Sgf
