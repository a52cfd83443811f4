import Verif.Props.Game
import Verif.Model.GameRunner
/-
Specification vocabulary: what the players of a game have been told, and how that is related to the record of the game.
-/
namespace Gomill
open Py Go

/-- What the players know. -/
inductive Phase where
  /-- both know these moves -/
  | told (h : List Mv)
  /-- after these moves, the player was asked for a move; either it didn't give one, or it did and the opponent hasn't been told -/
  | asked (h : List Mv) (c : Colour) (m : Option (Option Pt))

/-- How the record of the game (its moves `h` and how it ended), the moves reported (`mv`), and what the players know are related.  `raised` says
whether an exception has been raised; `A` holds of the players' answers, `S` of the opponents' reactions (the flag says whether the game was over). -/
inductive Standing (raised : Prop) (first : Colour) (A : List Mv → Colour → Act → Prop) (S : Bool → Status × Option Str → Prop) :
    List Mv → Option Ending → List Mv → Phase → Prop
  /-- nothing unusual -/
  | told (h : List Mv) : Standing raised first A S h none h (.told h)
  /-- an exception after a player was asked -/
  | asked (h : List Mv) (m : Option (Option Pt)) : raised → Standing raised first A S h none h (.asked h (toPlay first h.length) m)
  /-- the player to move forfeited, resigned, or claimed a win -/
  | forfeit (h : List Mv) (msg : Str) : A h (toPlay first h.length) (.forfeit msg) →
      Standing raised first A S h (some (.forfeited (toPlay first h.length) (some msg))) h (.asked h (toPlay first h.length) none)
  | resign (h : List Mv) : A h (toPlay first h.length) .resign →
      Standing raised first A S h (some (.resigned (toPlay first h.length))) h (.asked h (toPlay first h.length) none)
  | claim (h : List Mv) : A h (toPlay first h.length) .claim →
      Standing raised first A S h (some (.claimed (toPlay first h.length))) h (.asked h (toPlay first h.length) none)
  /-- its move was illegal -/
  | illegal (h : List Mv) (p : Pt) : A h (toPlay first h.length) (.move (some p)) →
      Standing raised first A S h (some (.illegal (toPlay first h.length) p)) h (.asked h (toPlay first h.length) (some (some p)))
  /-- its move was legal, but the opponent hasn't been told: an exception, or the game is over -/
  | untold (h : List Mv) (m : Option Pt) (mv : List Mv) :
      (raised ∧ mv = h ∨ mv = h ++ [(toPlay first h.length, m)] ∧ ∃ sm, S true sm ∧ sm.1 ≠ .accept) →
      Standing raised first A S (h ++ [(toPlay first h.length, m)]) none mv (.asked h (toPlay first h.length) (some m))
  /-- the opponent has been told, but there was an exception -/
  | unreported (h : List Mv) (m : Option Pt) : raised →
      Standing raised first A S (h ++ [(toPlay first h.length, m)]) none h (.told (h ++ [(toPlay first h.length, m)]))
  /-- the opponent refused the move -/
  | refused (h : List Mv) (m : Option Pt) (sm : Status × Option Str) (ph : Phase) : S false sm → sm.1 ≠ .accept →
      (ph = .told (h ++ [(toPlay first h.length, m)]) ∨ ph = .asked h (toPlay first h.length) (some m)) →
      Standing raised first A S (h ++ [(toPlay first h.length, m)])
        (some (.forfeited (if sm.1 = .reject then toPlay first h.length else (toPlay first h.length).opponent) sm.2)) h ph

theorem Standing.mono {raised raised' : Prop} {first : Colour} {A A' : List Mv → Colour → Act → Prop} {S S' : Bool → Status × Option Str → Prop}
    (hr : raised → raised') (hA : ∀ h c act, A h c act → A' h c act) (hS : ∀ o sm, S o sm → S' o sm) {h : List Mv} {e : Option Ending} {mv : List Mv} {ph : Phase}
    (hs : Standing raised first A S h e mv ph) : Standing raised' first A' S' h e mv ph := by
  cases hs with
  | told => exact .told _
  | asked _ m h1 => exact .asked _ m (hr h1)
  | forfeit _ msg h1 => exact .forfeit _ msg (hA _ _ _ h1)
  | resign _ h1 => exact .resign _ (hA _ _ _ h1)
  | claim _ h1 => exact .claim _ (hA _ _ _ h1)
  | illegal _ p h1 => exact .illegal _ p (hA _ _ _ h1)
  | untold h0 m _ h1 =>
    refine .untold h0 m _ ?_
    rcases h1 with ⟨h1, h2⟩ | ⟨h1, sm, h2, h3⟩
    · exact .inl ⟨hr h1, h2⟩
    · exact .inr ⟨h1, sm, hS _ _ h2, h3⟩
  | unreported h0 m h1 => exact .unreported _ m (hr h1)
  | refused h0 m sm ph h1 h2 h3 => exact .refused _ m sm ph (hS _ _ h1) h2 h3

end Gomill
