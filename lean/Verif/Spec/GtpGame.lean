import Verif.Model.GtpGame
/-
What the responses to `final_score` say, and when a Gtp_game is ready to run.
-/
namespace Gomill.Gtp
open Py

variable {σ τ : Type}

/-- The margin given by a text: none if there isn't one, or it isn't a positive number (a NaN counts). -/
def marginSaid (float : Str → Option Num) (t : Str) : Option Num :=
  match float t with
  | some (.fin q) => if 0 < q then some (.fin q) else none
  | some .inf => some .inf
  | some .nan => some .nan
  | _ => none

/-- The response claims a win for the player, by the given margin. -/
def SaysWin (float : Str → Option Num) (response : Str) (c : Colour) (margin : Option Num) : Prop :=
  ∃ t, upper response = c.upper :: '+' :: t ∧ margin = marginSaid float t

/-- What a response says: a win for a player, or a jigo.  Other responses say nothing. -/
def Says (float : Str → Option Num) (response : Str) (winner : Option Colour) (margin : Option Num) : Prop :=
  match winner with
  | some c => SaysWin float response c margin
  | none => response = "0".toList ∧ margin = some (.fin 0)

/-- All the responses which say something say this (and there is at least one). -/
def Unanimous (float : Str → Option Num) (responses : List Str) (winner : Option Colour) : Prop :=
  (∃ r ∈ responses, ∃ m, Says float r winner m) ∧ ∀ r ∈ responses, ∀ w m, Says float r w m → w = winner

/-- A game controller with two open controllers, on which there hasn't been any channel error, and whose aliases are well-formed. -/
def Sound (gc : GC σ) : Prop :=
  ∀ c, (gc.ctl c).closed = false ∧ (gc.ctl c).bad = false ∧ ∀ kv ∈ (gc.ctl c).aliases, isWellFormedWord kv.2 = true

/-- A game controller with two open controllers, whose aliases are well-formed, and any channel error on which has been put aside to be reported. It is one
that hasn't been used, or that was used for an earlier game. -/
def Usable (gc : GC σ) : Prop :=
  ∀ c, (gc.ctl c).closed = false ∧ ((gc.ctl c).bad = true → (gc.ctl c).errors ≠ []) ∧ ∀ kv ∈ (gc.ctl c).aliases, isWellFormedWord kv.2 = true

/-- A Gtp_game on which `prepare` has succeeded, and `set_handicap` has been called any number of times, without a GtpChannelError (there may have been
other exceptions). -/
inductive Ready (C : Colour → Channel σ) (cfg : GtpCfg τ) : GtpGame σ τ → Prop
  | prepare (gc : GC σ) (user : τ) (limit : Option Int) (gameId : Option Str) (g : GtpGame σ τ) : Usable gc →
      (GtpGame.init cfg gc user limit gameId).prepare C cfg = (.ok (), g) → Ready C cfg g
  | handicap (g g' : GtpGame σ τ) (k : Int) (free : Bool) (r : Except GExc Unit) : Ready C cfg g → g.setHandicap C cfg k free = (r, g') →
      r ≠ .error (.backend 1) → Ready C cfg g'

end Gomill.Gtp
