import Verif.Model.Text
/-
What the version of an engine is cleaned up to.
-/
namespace Gomill.Gtp.Spec
open Py

/-- `version` is `name` (in either case), perhaps followed by whitespace, and then `rest` (which doesn't begin with whitespace). -/
def AfterName (name version rest : Str) : Prop :=
  ∃ p ws, version = p ++ ws ++ rest ∧ lower p = lower name ∧ (∀ c ∈ ws, isSpace c = true) ∧ (∀ c, rest.head? = some c → isSpace c = false)

/-- `a` is the part of `s` before the first occurrence of `sep`. -/
def Before (sep s a : Str) : Prop := (∃ r, s = a ++ sep ++ r) ∧ ∀ a' r, s = a' ++ sep ++ r → a.length ≤ a'.length

/-- `w` is the first word of `s`. -/
def FirstWord (s w : Str) : Prop :=
  ∃ ws r, s = ws ++ w ++ r ∧ (∀ c ∈ ws, isSpace c = true) ∧ w ≠ [] ∧ (∀ c ∈ w, isSpace c = false) ∧ (∀ c, r.head? = some c → isSpace c = true)

/-- The version, without the usage instructions some engines add: a text of up to 64 characters is left alone. -/
inductive Trimmed (v : Str) : Str → Prop
  | whole : v.length ≤ 64 → Trimmed v v
  | mogo {a} : 64 < v.length → Before ". Please read http:".toList v a → Trimmed v a
  | pachi {a} : 64 < v.length → (∀ a', ¬ Before ". Please read http:".toList v a') → Before ": I'm playing".toList v a → Trimmed v a
  | word {a} : 64 < v.length → (∀ a', ¬ Before ". Please read http:".toList v a') → (∀ a', ¬ Before ": I'm playing".toList v a') →
      FirstWord v a → Trimmed v a

/-- The cleaned-up version of an engine with this name: first the name is removed, if the version begins with it. -/
def CleanVersion (name : Option Str) (version clean : Str) : Prop :=
  (∃ n v, name = some n ∧ AfterName n version v ∧ Trimmed v clean) ∨
  ((∀ n v, name = some n → ¬ AfterName n version v) ∧ Trimmed version clean)

end Gomill.Gtp.Spec
