import Verif.Model.Text
/-
Specification vocabulary for the GTP protocol.
-/
namespace Gomill.Gtp.Spec
open Py

/-- The whitespace-separated words of a string. -/
inductive IsWords : Str → List Str → Prop
  | nil {gap : Str} (h : ∀ c ∈ gap, isSpace c = true) : IsWords gap []
  | cons {gap w rest : Str} {ws : List Str} (hgap : ∀ c ∈ gap, isSpace c = true) (hne : w ≠ [])
      (hw : ∀ c ∈ w, isSpace c = false) (hrest : ∀ c, rest.head? = some c → isSpace c = true)
      (h : IsWords rest ws) : IsWords (gap ++ w ++ rest) (w :: ws)

/-- The part of a GTP input line which is significant: what precedes any '#', without control characters (tab is the one
control character which counts as whitespace). -/
def significant (line : Str) : Str :=
  (line.takeWhile (· ≠ '#')).filter (fun c => decide (c = '\t') || (decide (32 ≤ c.toNat) && decide (c.toNat ≠ 127)))

/-- A command id: an optional minus sign and one or more digits. -/
def IsId (w : Str) : Prop := ∃ ds, ds ≠ [] ∧ (∀ c ∈ ds, c.isDigit = true) ∧ (w = ds ∨ w = '-' :: ds)

/-- A word which starts with a command id. -/
def StartsWithId (w : Str) : Prop := ∃ i c, IsId i ∧ w = i ++ c

/-- The id to be sent back: none for a negative number; numbers past 2^31-1 are clipped. -/
def ReportedId (i : Str) (out : Option Str) : Prop :=
  ∃ k : Int, parseInt i = .ok k ∧
    ((k < 0 ∧ out = none) ∨ (0 ≤ k ∧ k ≤ 2147483647 ∧ out = some i) ∨ (2147483647 < k ∧ out = some "2147483647".toList))

/-- The text of a response: status, id, text, and two newlines. -/
def responseText (isError : Bool) (id : Option Str) (text : Str) : Str :=
  (if isError then '?' else '=') :: (id.getD [] ++ (if text = [] then [] else ' ' :: text) ++ "\n\n".toList)

/-- Two newlines end the string, and they occur nowhere else. -/
def Framed (s : Str) : Prop := (∃ t, s = t ++ "\n\n".toList) ∧ ∀ a b, s = a ++ "\n\n".toList ++ b → b = []

/-- A control character other than tab and newline. -/
def IsControl (c : Char) : Prop := (c.toNat < 32 ∨ c.toNat = 127) ∧ c ≠ '\t' ∧ c ≠ '\n'

/-- Text a handler may return without it being mangled into something which isn't a response: no control characters but
tab and newline, and no two consecutive blank lines. -/
def Sendable (s : Str) : Prop := (∀ c ∈ s, ¬ IsControl c) ∧ ¬ "\n\n\n".toList <:+: s

end Gomill.Gtp.Spec

namespace Gomill.Gtp
open Py

/-- This line asks for this command; `id` is the command id to be sent back. -/
inductive Asks (line : Str) : Option Str → Str → List Str → Prop
  | plain {c : Str} {args : List Str} (h : Spec.IsWords (Spec.significant line) (c :: args)) (hc : ¬ Spec.StartsWithId c) : Asks line none c args
  | separate {i c : Str} {args : List Str} {out : Option Str} (hi : Spec.IsId i) (h : Spec.IsWords (Spec.significant line) (i :: c :: args))
      (ho : Spec.ReportedId i out) : Asks line out c args
  | attached {i c : Str} {args : List Str} {out : Option Str} (hi : Spec.IsId i) (hc : c ≠ []) (hd : ∀ x, c.head? = some x → x.isDigit = false)
      (h : Spec.IsWords (Spec.significant line) ((i ++ c) :: args)) (ho : Spec.ReportedId i out) : Asks line out c args

end Gomill.Gtp
