import Verif.Model.SgfText
import Verif.Model.Common
/-
Model of the value functions of gomill/sgf_properties.py, except real numbers (Model/SgfNode.lean).

8-bit strings are lists of characters below 256.  The presenter's encoding is a parameter: what Python's codec does with
a string.  UTF-8 and ISO-8859-1, the two defaults of sgf.py, are modelled below.
-/
namespace Gomill.Sgf

open Py

/-- What the code uses of a Python codec.  UnicodeDecodeError and UnicodeEncodeError (which are ValueErrors) are `none`. -/
structure Codec where
  /-- from a string in the encoding to a UTF-8 string: lines 212-216 -/
  dec : Str → Option Str
  /-- from a UTF-8 string to a string in the encoding: lines 238-239, 263-264 -/
  enc : Str → Option Str

/-- Continuation bytes of UTF-8. -/
def isCont (c : Char) : Bool := decide (128 ≤ c.toNat) && decide (c.toNat < 192)

/-- Whether Python 2's UTF-8 decoder accepts a string: no overlong forms, nothing above U+10FFFF; surrogates are accepted. -/
def utf8Valid : Str → Bool
  | [] => true
  | a :: r =>
    if a.toNat < 128 then utf8Valid r
    else if 194 ≤ a.toNat ∧ a.toNat < 224 then
      match r with
      | b :: r => isCont b && utf8Valid r
      | _ => false
    else if 224 ≤ a.toNat ∧ a.toNat < 240 then
      match r with
      | b :: c :: r => isCont b && isCont c && decide (a.toNat = 224 → 160 ≤ b.toNat) && utf8Valid r
      | _ => false
    else if 240 ≤ a.toNat ∧ a.toNat < 245 then
      match r with
      | b :: c :: d :: r =>
        isCont b && isCont c && isCont d && decide (a.toNat = 240 → 144 ≤ b.toNat) &&
          decide (a.toNat = 244 → b.toNat < 144) && utf8Valid r
      | _ => false
    else false

/-- The codec for encoding "UTF-8": lines 212-214 check the string, lines 238 and 263 don't. -/
def utf8Codec : Codec where
  dec s := if utf8Valid s then some s else none
  enc s := some s

/-- ISO-8859-1 to UTF-8. -/
def latin1Dec : Str → Option Str
  | [] => some []
  | c :: r =>
    if c.toNat < 128 then (latin1Dec r).map (c :: ·)
    else if c.toNat < 256 then (latin1Dec r).map (fun t => Char.ofNat (192 + c.toNat / 64) :: Char.ofNat (128 + c.toNat % 64) :: t)
    else none

/-- UTF-8 to ISO-8859-1. -/
def latin1Enc : Str → Option Str
  | [] => some []
  | [c] => if c.toNat < 128 then some [c] else none
  | c :: d :: r =>
    if c.toNat < 128 then (latin1Enc (d :: r)).map (c :: ·)
    else if (c.toNat = 194 ∨ c.toNat = 195) ∧ isCont d then
      (latin1Enc r).map (Char.ofNat ((c.toNat - 192) * 64 + (d.toNat - 128)) :: ·)
    else none

/-- The codec for encoding "ISO-8859-1". -/
def latin1Codec : Codec := ⟨latin1Dec, latin1Enc⟩

/-- An error of the codec is a ValueError. -/
def orValueError : Option Str → Except Exc Str
  | some s => .ok s
  | none => .error .valueError

/-- sgf_properties.py:28-53 `interpret_go_point`. -/
def interpretGoPoint (s : Str) (size : Int) : Except Exc (Option Pt) :=
  if s = [] ∨ (s = "tt".toList ∧ size ≤ 19) then .ok none
  else match s with
    | [colS, rowS] =>
      let col : Int := (colS.toNat : Int) - 97
      let row : Int := size - (rowS.toNat : Int) + 96
      if ¬ ((0 ≤ col ∧ col < size) ∧ (0 ≤ row ∧ row < size)) then .error .valueError
      else .ok (some (row, col))
    | _ => .error .valueError

/-- sgf_properties.py:79: the alphabet (25 letters). -/
def pointLetters : Str := "abcdefghijklmnopqrstuvwxy".toList

/-- sgf_properties.py:55-81 `serialise_go_point`. -/
def serialiseGoPoint (move : Option Pt) (size : Int) : Except Exc Str :=
  if ¬ (1 ≤ size ∧ size ≤ 26) then .error .valueError
  else match move with
    | none => if size ≤ 19 then .ok "tt".toList else .ok []
    | some (row, col) =>
      if ¬ ((0 ≤ col ∧ col < size) ∧ (0 ≤ row ∧ row < size)) then .error .valueError
      else do
        let colS ← getItem pointLetters col
        let rowS ← getItem pointLetters (size - row - 1)
        return [colS, rowS]

/-- sgf_properties.py:106-113 `interpret_number`. -/
def interpretNumber (s : Str) : Except Exc Int := parseInt s

/-- sgf_properties.py:115-121 `serialise_number`. -/
def serialiseNumber (i : Int) : Str := strInt i

/-- sgf_properties.py:162-171 `interpret_double`. -/
def interpretDouble (s : Str) : Int := if strip s = ['2'] then 2 else 1

/-- sgf_properties.py:173-183 `serialise_double`. -/
def serialiseDouble (i : Int) : Str := if i = 2 then ['2'] else ['1']

/-- sgf_properties.py:186-195 `interpret_colour`. -/
def interpretColour (s : Str) : Except Exc Colour :=
  if lower s = ['b'] then .ok .b else if lower s = ['w'] then .ok .w else .error .valueError

/-- sgf_properties.py:197-205 `serialise_colour`. -/
def serialiseColour : Colour → Str
  | .b => ['B']
  | .w => ['W']

/-- sgf_properties.py:208-228 `interpret_simpletext` with `_transcode`. -/
def interpretSimpletext (C : Codec) (s : Str) : Except Exc Str := orValueError (C.dec (simpletextValue s))

/-- sgf_properties.py:230-240 `serialise_simpletext`. -/
def serialiseSimpletext (C : Codec) (s : Str) : Except Exc Str := do
  return escapeText (← orValueError (C.enc s))

/-- sgf_properties.py:243-253 `interpret_text`. -/
def interpretText (C : Codec) (s : Str) : Except Exc Str := orValueError (C.dec (textValue s))

/-- sgf_properties.py:255-265 `serialise_text`. -/
def serialiseText (C : Codec) (s : Str) : Except Exc Str := do
  return escapeText (← orValueError (C.enc s))

/-- sgf_properties.py:269-280 `interpret_point`. -/
def interpretPoint (s : Str) (size : Int) : Except Exc Pt := do
  match ← interpretGoPoint s size with
  | none => throw .valueError
  | some p => return p

/-- sgf_properties.py:282-292 `serialise_point` (of a pair). -/
def serialisePoint (p : Pt) (size : Int) : Except Exc Str := serialiseGoPoint (some p) size

/-- `s.partition(c)`: the part before the first `c`, and the part after it if there is one. -/
def partition (c : Char) : Str → Str × Option Str
  | [] => ([], none)
  | x :: r => if x = c then ([], some r) else let p := partition c r; (x :: p.1, p.2)

/-- `xrange(a, b+1)`. -/
def intRange (a b : Int) : List Int := (List.range (b + 1 - a).toNat).map (fun i => a + Int.ofNat i)

/-- sgf_properties.py:334-347: the loop of `interpret_point_list`. -/
def pointListLoop (size : Int) : List Str → List Pt → Except Exc (List Pt)
  | [], result => .ok result
  | s :: ss, result => do
    match partition ':' s with
    | (p1, some p2) =>
      let (top, left) ← interpretPoint p1 size
      let (bottom, right) ← interpretPoint p2 size
      if ¬ (bottom ≤ top ∧ left ≤ right) then throw .valueError
      pointListLoop size ss (setUpdate result
        ((intRange bottom top).flatMap (fun row => (intRange left right).map (fun col => (row, col)))))
    | (p1, none) =>
      let pt ← interpretPoint p1 size
      pointListLoop size ss (setAdd result pt)

/-- sgf_properties.py:316-348 `interpret_point_list`. -/
def interpretPointList (values : List Str) (size : Int) : Except Exc (List Pt) := pointListLoop size values []

/-- Insert in sorted order. -/
def insertStr (x : Str) : List Str → List Str
  | [] => [x]
  | y :: r => if ¬ y < x then x :: y :: r else y :: insertStr x r

/-- `result.sort()` on a list of strings. -/
def sortStrs (l : List Str) : List Str := l.foldr insertStr []

/-- sgf_properties.py:350-364 `serialise_point_list`. -/
def serialisePointList (points : List Pt) (size : Int) : Except Exc (List Str) := do
  let l ← points.mapM (fun p => serialisePoint p size)
  return sortStrs l

/-- sgf_properties.py:367-380 `interpret_AP`. -/
def interpretAP (C : Codec) (s : Str) : Except Exc (Str × Str) := do
  let p := parseCompose s
  let version := match p.2 with
    | none => []
    | some v => v
  let a ← interpretSimpletext C p.1
  let b ← interpretSimpletext C version
  return (a, b)

/-- sgf_properties.py:382-394 `serialise_AP`. -/
def serialiseAP (C : Codec) (value : Str × Str) : Except Exc Str := do
  let a ← serialiseSimpletext C value.1
  let b ← serialiseSimpletext C value.2
  return compose a b

/-- Use of an optional string where a string is needed: TypeError when it is None (an AR, LN, FG or LB value without
`:`; `s == ""` and `s.translate` on None: AttributeError or TypeError). -/
def needStr : Option Str → Except Exc Str
  | none => .error .typeError
  | some s => .ok s

/-- sgf_properties.py:397-408 `interpret_ARLN_list`. -/
def interpretARLN (values : List Str) (size : Int) : Except Exc (List (Pt × Pt)) :=
  values.mapM (fun s => do
    let p := parseCompose s
    let p1 ← interpretPoint p.1 size
    let p2 ← interpretPoint (← needStr p.2) size
    return (p1, p2))

/-- sgf_properties.py:410-418 `serialise_ARLN_list`. -/
def serialiseARLN (values : List (Pt × Pt)) (size : Int) : Except Exc (List Str) :=
  values.mapM (fun v => do
    let a ← serialisePoint v.1 size
    let b ← serialisePoint v.2 size
    return a ++ [':'] ++ b)

/-- sgf_properties.py:421-432 `interpret_FG`. -/
def interpretFG (C : Codec) (s : Str) : Except Exc (Option (Int × Str)) :=
  if s = [] then .ok none
  else do
    let p := parseCompose s
    let flags ← parseInt p.1
    let name ← interpretSimpletext C (← needStr p.2)
    return some (flags, name)

/-- sgf_properties.py:434-447 `serialise_FG`. -/
def serialiseFG (C : Codec) : Option (Int × Str) → Except Exc Str
  | none => .ok []
  | some (flags, name) => do
    let b ← serialiseSimpletext C name
    return strInt flags ++ [':'] ++ b

/-- sgf_properties.py:450-461 `interpret_LB_list`. -/
def interpretLB (C : Codec) (values : List Str) (size : Int) : Except Exc (List (Pt × Str)) :=
  values.mapM (fun s => do
    let p := parseCompose s
    let pt ← interpretPoint p.1 size
    let label ← interpretSimpletext C (← needStr p.2)
    return (pt, label))

/-- sgf_properties.py:463-471 `serialise_LB_list`. -/
def serialiseLB (C : Codec) (values : List (Pt × Str)) (size : Int) : Except Exc (List Str) :=
  values.mapM (fun v => do
    let a ← serialisePoint v.1 size
    let b ← serialiseSimpletext C v.2
    return a ++ [':'] ++ b)

end Gomill.Sgf
