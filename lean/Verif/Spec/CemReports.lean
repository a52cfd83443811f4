import Verif.Spec.Cem
import Mathlib.Data.List.Forall2
import Verif.Model.CemReports
/-
What the CEM tuner's reports and history say, for C87: in terms of the games which were played.
-/
namespace Gomill.CemSpec
open Py Cem

/-- A distribution as shown: the mean's engine parameters; then mean and variance for each dimension. -/
def DistText {ε : Type} (S : Show ε) (d : List (Rat × Rat)) (text : Str) : Prop :=
  ∃ s, S.params (d.map (·.1)) = .ok s ∧ text = s ++ "\n".toList ++ join " ".toList (d.map (fun p => S.f52 p.1 ++ "~".toList ++ S.f42 p.2))

/-- The line in the history for candidate `i` of generation `g`, which had so many points. -/
def CandidateLine {ε : Type} (S : Show ε) (samples : List (List Rat)) (pointsOf : Nat → Rat) (elite : List Nat) (g i : Nat) (line : Str) : Prop :=
  ∃ ps s, samples[i]? = some ps ∧ S.params ps = .ok s ∧
    line = candidateName g i ++ (if i ∈ elite then "*".toList else " ".toList) ++ " ".toList ++ s ++ " ".toList ++ Tab.rjust (strInt (pointsOf i).floor) 3

/-- What's written in the history when generation `g` is completed: all `n` candidates, those with most points first (of equal ones, those with a higher number). -/
def HistoryText {ε : Type} (S : Show ε) (n g : Nat) (d : List (Rat × Rat)) (samples : List (List Rat)) (pointsOf : Nat → Rat) (elite : List Nat) (texts : List Str) : Prop :=
  ∃ (dist : Str) (order : List Nat) (lines : List Str), DistText S d dist ∧ order.Perm (List.range n) ∧
    order.Pairwise (fun a b => pointsOf b < pointsOf a ∨ (pointsOf b = pointsOf a ∧ b < a)) ∧
    elite <+: order ∧
    List.Forall₂ (CandidateLine S samples pointsOf elite g) order lines ∧
    texts = ["Generation ".toList ++ strInt g, "Distribution\n".toList ++ dist, join "\n".toList lines, []]

/-- The screen report after `g` completed generations of `total`, when the games in `log` have been played: the `n` candidates' points are those in the generation which is being
played (at the end, in the last one). -/
def ScreenText {ε : Type} (S : Show ε) (n g total : Nat) (d : List (Rat × Rat)) (log : List (Str × Rat)) (lines : List Str) : Prop :=
  ∃ dist, DistText S d dist ∧
    lines = ["generation ".toList ++ strInt g, [],
      "wins from current samples:\n[".toList ++ join ", ".toList ((List.range n).map (fun i => S.num (points log (if g = total then total - 1 else g) i))) ++ "]".toList, [],
      if g = total then "final distribution:".toList else "distribution for generation ".toList ++ strInt g ++ ":".toList, dist]

end Gomill.CemSpec
