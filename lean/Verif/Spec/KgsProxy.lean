import Verif.Model.KgsProxy
/-
Vocabulary for kgs_proxy.py.
-/
namespace Gomill.Kgs
open Py Gtp

/-- `i` is the lowest number, below 10000, for which the file name isn't among those in the directory. -/
def FirstFree (template : Nat → Str) (files : List Str) (i : Nat) : Prop := i < 10000 ∧ template i ∉ files ∧ ∀ j, j < i → template j ∈ files

/-- There's no such number. -/
def Full (template : Nat → Str) (files : List Str) : Prop := ∀ i, i < 10000 → template i ∈ files

/-- GTP's words for the colours, in any mixture of upper and lower case. -/
def ColourWord (a : Str) (c : Colour) : Prop :=
  (c = .b ∧ (a.map Char.toLower = ['b'] ∨ a.map Char.toLower = ['b', 'l', 'a', 'c', 'k'])) ∨
  (c = .w ∧ (a.map Char.toLower = ['w'] ∨ a.map Char.toLower = ['w', 'h', 'i', 't', 'e']))

/-- The command is a genmove for this colour. -/
def Asks (x : Option (List Str) × Str × List Str) (c : Colour) : Prop := x.2.1 = "genmove".toList ∧ ∃ a rest, x.2.2 = a :: rest ∧ ColourWord a c

/-- The colour which the last genmove (with a valid colour) of these commands was for. -/
def LastAsked (l : List (Option (List Str) × Str × List Str)) (c : Colour) : Prop :=
  ∃ l₁ x l₂, l = l₁ ++ x :: l₂ ∧ Asks x c ∧ ∀ y ∈ l₂, ∀ c', ¬ Asks y c'

/-- A reply with no text, which doesn't end the session. -/
def quietReply : Bool × Str × Bool := (false, [], false)

/-- A failure, which doesn't end the session. -/
def Failure (r : Bool × Str × Bool) : Prop := r.1 = true ∧ r.2.2 = false

/-- The name with backslashes doubled and a backslash before each space. -/
def escapedName (name : Str) : Str := name.flatMap (fun c => if c = '\\' then ['\\', '\\'] else if c = ' ' then ['\\', ' '] else [c])

/-- The argument for the player's name: `PB=name` or `PW=name`, if the colour and the name are known. -/
def PlayerArgs (colour : Option Colour) (name : Option Str) (l : List Str) : Prop :=
  ((colour = none ∨ name = none) ∧ l = []) ∨
  (∃ s, colour = some .b ∧ name = some s ∧ l = ["PB=".toList ++ escapedName s]) ∨
  (∃ s, colour = some .w ∧ name = some s ∧ l = ["PW=".toList ++ escapedName s])

end Gomill.Kgs
