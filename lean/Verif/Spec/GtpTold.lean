import Verif.Model.Text
import Verif.Model.GtpState
/-
Specification vocabulary for the GTP state commands: GTP colours and integers, and the commands which set the clocks and the komi.
-/
namespace Gomill.Gtp.Spec
open Py

/-- A GTP colour: b, black, w or white, in any case. -/
def IsColour (a : Str) (c : Colour) : Prop :=
  (c = .b ∧ (lower a = "b".toList ∨ lower a = "black".toList)) ∨ (c = .w ∧ (lower a = "w".toList ∨ lower a = "white".toList))

/-- A GTP integer: as Python's int() reads it, but negative numbers become -1 and numbers past 2^31-1 are clipped. -/
def IsGtpInt (a : Str) (k : Int) : Prop :=
  ∃ j : Int, parseInt a = .ok j ∧
    ((j < 0 ∧ k = -1) ∨ (0 ≤ j ∧ j ≤ 2147483647 ∧ k = j) ∨ (2147483647 < j ∧ k = 2147483647))

/-- A valid time_left command for a colour. (Arguments after the third are ignored.) -/
def IsTimeLeft (x : Cmd × List Str) (c : Colour) (time stones : Int) : Prop :=
  ∃ a b d rest, x = (.timeLeft, a :: b :: d :: rest) ∧ IsColour a c ∧ IsGtpInt b time ∧ IsGtpInt d stones

/-- A valid time_settings command. -/
def IsTimeSettings (x : Cmd × List Str) (t : Int × Int × Int) : Prop :=
  ∃ a b d rest, x = (.timeSettings, a :: b :: d :: rest) ∧ IsGtpInt a t.1 ∧ IsGtpInt b t.2.1 ∧ IsGtpInt d t.2.2

/-- A valid komi command. -/
def IsKomi (readFloat : Str → Option Rat) (x : Cmd × List Str) (k : Rat) : Prop :=
  ∃ a rest, x = (.komi, a :: rest) ∧ readFloat a = some k

/-- `x` is the last element of the list with the property. -/
def IsLast {α : Type} (P : α → Prop) (l : List α) (x : α) : Prop :=
  P x ∧ ∃ pre post, l = pre ++ x :: post ∧ ∀ y ∈ post, ¬ P y

end Gomill.Gtp.Spec
