import Verif.Model.Text
/-
Model of gomill/sgf_grammar.py.

The regular expressions of the module are translated by hand to recursive functions.  All of them are deterministic
in the sense that backtracking never changes the result; the comments give the expression.

A position in the input string is modelled by the remaining input (the suffix from that position).
-/
namespace Gomill.Sgf

open Py

/-- A raw property value list. -/
abbrev Raw := Str

/-- A property map: a Python dict from identifiers to lists of raw values, as an association list with distinct keys.
The order of the list stands for the arbitrary order of the dict and has no meaning for users. -/
abbrev PropMap := List (Str × List Raw)

/-- sgf_grammar.py:126-142 `Coarse_game_tree` (as an immutable value). -/
inductive CTree where
  | mk (sequence : List PropMap) (children : List CTree)

def CTree.sequence : CTree → List PropMap
  | .mk s _ => s

def CTree.children : CTree → List CTree
  | .mk _ c => c

/-! ### Validity tests -/

/-- Upper-case ASCII letter, `[A-Z]`. -/
def isUp (c : Char) : Bool := decide ('A' ≤ c) && decide (c ≤ 'Z')

/-- Lower-case ASCII letter, `string.ascii_lowercase`. -/
def isLow (c : Char) : Bool := decide ('a' ≤ c) && decide (c ≤ 'z')

/-- `[A-Za-z]`. -/
def isLetter (c : Char) : Bool := isUp c || isLow c

/-- sgf_grammar.py:26, 42-57 `is_valid_property_identifier`: `\A[A-Z]{1,64}\Z`. -/
def isValidIdent (s : Str) : Bool := decide (1 ≤ s.length) && decide (s.length ≤ 64) && s.all isUp

/-- sgf_grammar.py:27-28, 59-68 `is_valid_property_value`: `\A [^\\\]]* (?: \\. [^\\\]]* )* \Z` (DOTALL). -/
def isValidValue : Str → Bool
  | [] => true
  | '\\' :: [] => false
  | '\\' :: _ :: r => isValidValue r
  | ']' :: _ => false
  | _ :: r => isValidValue r

/-! ### Tokeniser -/

/-- The token types V, I and D of sgf_grammar.py:84-87. -/
inductive Tok where
  | V (s : Str)
  | I (s : Str)
  | D (c : Char)
  deriving DecidableEq, Repr

/-- sgf_grammar.py:33: the part of the expression after `\[`; returns the captured value and the input after `]`. -/
def scanValue : Str → Option (Str × Str)
  | [] => none
  | '\\' :: [] => none
  | '\\' :: c :: r => (scanValue r).map (fun p => ('\\' :: c :: p.1, p.2))
  | ']' :: r => some ([], r)
  | c :: r => (scanValue r).map (fun p => (c :: p.1, p.2))

/-- sgf_grammar.py:35: `[A-Za-z]{0,n}`, greedy; returns the matched letters and the remaining input. -/
def scanIdent : Nat → Str → Str × Str
  | 0, s => ([], s)
  | _+1, [] => ([], [])
  | n+1, c :: r => if isLetter c then let p := scanIdent n r; (c :: p.1, p.2) else ([], c :: r)

/-- sgf_grammar.py:30-39, 108-116: match `_tokenise_re` at the current position; returns the token
(identifiers with the lower-case letters removed, line 114) and the remaining input. -/
def nextToken (s : Str) : Option (Tok × Str) :=
  match s.dropWhile isSpace with
  | [] => none
  | c :: r =>
    if c = '[' then
      match scanValue r with
      | some (v, rest) => some (.V v, rest)
      | none => none
    else if isLetter c then
      let p := scanIdent 64 (c :: r)
      some (.I (p.1.filter (fun c => !isLow c)), p.2)
    else if c = ';' ∨ c = '(' ∨ c = ')' then some (.D c, r)
    else none

/-- sgf_grammar.py:107-123: the loop.  `fuel` bounds the number of iterations (the length of the input is enough:
every token consumes input). -/
def tokLoop : Nat → Int → Str → List Tok × Str
  | 0, _, s => ([], s)
  | fuel+1, depth, s =>
    match nextToken s with
    | none => ([], s)
    | some (t, rest) =>
      match t with
      | .D '(' => let p := tokLoop fuel (depth + 1) rest; (t :: p.1, p.2)
      | .D ')' =>
        if depth - 1 = 0 then ([t], rest)
        else let p := tokLoop fuel (depth - 1) rest; (t :: p.1, p.2)
      | _ => let p := tokLoop fuel depth rest; (t :: p.1, p.2)

/-- sgf_grammar.py:29 `_find_start_re = \(\s*;`, matched at the current position. -/
def atStart : Str → Bool
  | '(' :: r => match r.dropWhile isSpace with
    | ';' :: _ => true
    | _ => false
  | _ => false

/-- `_find_start_re.search`: the input from the leftmost match. -/
def findStart : Str → Option Str
  | [] => none
  | c :: r => if atStart (c :: r) then some (c :: r) else findStart r

/-- sgf_grammar.py:73-124 `tokenise`, from the position where `s` is the remaining input; also returns the input
left after the last token. When no start is found there are no tokens (and the returned position 0 isn't used). -/
def tokenise (s : Str) : List Tok × Str :=
  match findStart s with
  | none => ([], s)
  | some s' => tokLoop s'.length 0 s'

/-! ### Parser -/

/-- sgf_grammar.py:149-152: the local variables of `_parse_sgf_game`.  `sequence` is kept newest first.  `properties`
is either None or the dict which is the last element of `sequence`: it is modelled by a flag. -/
structure PState where
  stack : List (Option CTree)
  gameTree : Option CTree
  sequence : Option (List PropMap)
  properties : Bool

/-- sgf_grammar.py:149-152. -/
def PState.init : PState := ⟨[], none, none, false⟩

/-- sgf_grammar.py:197-200: add values to a property map. -/
def addProp (m : PropMap) (ident : Str) (values : List Raw) : PropMap :=
  match m with
  | [] => [(ident, values)]
  | (k, v) :: r => if k = ident then (k, v ++ values) :: r else (k, v) :: addProp r ident values

/-- sgf_grammar.py:194-202: the end of handling an identifier with its values. -/
def PState.endProp (st : PState) (ident : Str) (values : List Raw) : Except Exc PState :=
  if values = [] then .error .valueError
  else if !st.properties then .error .valueError
  else match st.sequence with
    | some (m :: ms) => .ok { st with sequence := some (addProp m ident values :: ms) }
    | _ => .error .assertionError   -- not possible: `properties` is an element of `sequence`

/-- sgf_grammar.py:167-171: store the finished sequence in the current game tree. -/
def PState.closeSequence (st : PState) : Except Exc PState :=
  match st.sequence with
  | none => .ok st
  | some [] => .error .valueError
  | some (m :: ms) =>
    match st.gameTree with
    | none => .error .attributeError
    | some (.mk _ ch) => .ok { st with gameTree := some (.mk (m :: ms).reverse ch), sequence := none }

/-- sgf_grammar.py:160-183: handle a delimiter; `.inr t` means the loop is left with `variation = t`. -/
def PState.delim (st : PState) (c : Char) : Except Exc (PState ⊕ CTree) := do
  if c = ';' then
    match st.sequence with
    | none => throw .valueError
    | some ms => return .inl { st with sequence := some ([] :: ms), properties := true }
  else
    let st ← st.closeSequence
    if c = '(' then
      return .inl { stack := st.gameTree :: st.stack, gameTree := some (.mk [] []), sequence := some [],
                    properties := false }
    else
      match st.stack with
      | [] => throw .indexError
      | none :: _ =>
        match st.gameTree with
        | some v => return .inr v
        | none => throw .attributeError
      | some (.mk sq ch) :: stack =>
        match st.gameTree with
        | some v => return .inl { stack := stack, gameTree := some (.mk sq (ch ++ [v])), sequence := st.sequence,
                                  properties := false }
        | none => throw .attributeError

/-- sgf_grammar.py:155-202: the parser loop.  `pending` is the identifier being handled with its values so far: it is
`some` exactly while control is in the inner loop, lines 188-193.  Also returns the tokens that weren't looked at. -/
def parseLoop : List Tok → Option (Str × List Raw) → PState → Except Exc (CTree × List Tok)
  | [], _, _ => .error .indexError
  | .V v :: ts, some (ident, values), st => parseLoop ts (some (ident, values ++ [v])) st
  | .V _ :: _, none, _ => .error .valueError
  | .I ident :: ts, pending, st => do
    let st ← match pending with
      | some (i, vs) => st.endProp i vs
      | none => pure st
    parseLoop ts (some (ident, [])) st
  | .D c :: ts, pending, st => do
    let st ← match pending with
      | some (i, vs) => st.endProp i vs
      | none => pure st
    match ← st.delim c with
    | .inl st' => parseLoop ts none st'
    | .inr v => return (v, ts)

/-- sgf_grammar.py:144-206 `_parse_sgf_game`; `none` when there is no SGF data. -/
def parseGame (s : Str) : Except Exc (Option (CTree × Str)) :=
  let p := tokenise s
  if p.1 = [] then .ok none
  else
    match parseLoop p.1 none PState.init with
    | .error .indexError => .error .valueError
    | .error e => .error e
    | .ok (v, rest) => if rest = [] then .ok (some (v, p.2)) else .error .assertionError

/-- sgf_grammar.py:208-231 `parse_sgf_game`. -/
def parseSgfGame (s : Str) : Except Exc CTree := do
  match ← parseGame s with
  | none => throw .valueError
  | some (t, _) => return t

/-- sgf_grammar.py:253-260: the loop of `parse_sgf_collection`.  `fuel` bounds the number of iterations (the length of
the input plus one is enough: every game consumes input). -/
def collectionLoop : Nat → Str → Except Exc (List CTree)
  | 0, _ => .ok []
  | fuel+1, s => do
    match ← parseGame s with
    | none => return []
    | some (t, rest) => return t :: (← collectionLoop fuel rest)

/-- sgf_grammar.py:233-263 `parse_sgf_collection`. -/
def parseSgfCollection (s : Str) : Except Exc (List CTree) := do
  let l ← collectionLoop (s.length + 1) s
  if l = [] then throw .valueError
  return l

/-! ### Serialiser -/

/-- sgf_grammar.py:266-289 `block_format`, the loop; the state is (lines, line). -/
def blockStep (width : Int) (st : List Str × Str) (s : Str) : List Str × Str :=
  let st' := if (st.2.length : Int) + s.length > width then (st.1 ++ [st.2], []) else st
  (st'.1, st'.2 ++ s)

/-- sgf_grammar.py:266-289 `block_format`. -/
def blockFormat (pieces : List Str) (width : Int) : Str :=
  let st := pieces.foldl (blockStep width) ([], [])
  join ['\n'] (if st.2 = [] then st.1 else st.1 ++ [st.2])

/-- The identifier "FF". -/
def ffIdent : Str := ['F', 'F']

/-- sgf_grammar.py:317: the sort key comparison: FF first, then by identifier (bytewise). -/
def identLe (a b : Str) : Bool :=
  if a = ffIdent then true
  else if b = ffIdent then false
  else decide (¬ b < a)

/-- Insert in sorted order. -/
def insertProp (x : Str × List Raw) : PropMap → PropMap
  | [] => [x]
  | y :: r => if identLe x.1 y.1 then x :: y :: r else y :: insertProp x r

/-- sgf_grammar.py:315-317: `sorted(properties.iteritems(), ...)`.  The keys are distinct, so that every sorting
algorithm gives the same list. -/
def sortProps (m : PropMap) : PropMap := m.foldr insertProp []

/-- sgf_grammar.py:320-323: one property as a string. -/
def serProp (p : Str × List Raw) : Str := p.1 ++ (p.2.map (fun v => ['['] ++ v ++ [']'])).flatten

/-- sgf_grammar.py:311-323: the pieces of a node sequence. -/
def serSequence (sq : List PropMap) : List Str :=
  sq.flatMap (fun m => [';'] :: (sortProps m).map serProp)

/-- The number of loop iterations that serialising a stack entry takes. -/
def CTree.steps : CTree → Nat
  | .mk _ ch => 2 + stepsList ch
where
  stepsList : List CTree → Nat
    | [] => 0
    | t :: ts => t.steps + stepsList ts

/-- sgf_grammar.py:305-325: the loop; the stack `to_serialise` is kept top first.  `fuel` bounds the number of
iterations. -/
def serLoop : Nat → List (Option CTree) → List Str
  | 0, _ => []
  | _+1, [] => []
  | fuel+1, none :: st => [')'] :: serLoop fuel st
  | fuel+1, some (.mk sq ch) :: st =>
    (['('] :: serSequence sq) ++ serLoop fuel (ch.map some ++ none :: st)

/-- sgf_grammar.py:291-330 `serialise_game_tree`. -/
def serialise (t : CTree) (wrap : Option Int) : Str :=
  let l := serLoop t.steps [some t] ++ [['\n']]
  match wrap with
  | none => l.flatten
  | some w => blockFormat l w

end Gomill.Sgf
