import Verif.Spec.Reports
import Verif.Spec.Tournament
import Verif.Model.FullRun
/-
What's meant by the report on a competition's saved results, for C85.
-/
namespace Gomill.Conf.Spec
open Py

/-- `n` is the number of all the saved results. -/
def TotalIs (saved : Str → List GameResult) (n : Nat) : Prop :=
  ∃ keys : List Str, keys.Nodup ∧ (∀ k, saved k ≠ [] → k ∈ keys) ∧ n = (keys.map (fun k => (saved k).length)).sum

/-- A playoff's report says what the saved results are: a block for each of the control file's matchups which has results, in the order of the control file; then one for each
matchup which has results and isn't in the control file, in order of id; then the players' descriptions. -/
structure PlayoffReport (F : Fmt) (p : Playoff) (saved : Str → List GameResult) (descriptions : List (Str × Str)) (lines : List Str) : Prop where
  report : ∃ (blocks ghostBlocks : List (List Str)) (ghosts : List Str) (players : List (Str × Str)),
    List.Forall₂ (fun m b => IsBlock F m.name m.numberOfGames (m.details F) m.player1 m.player2 (saved m.id) b) (p.matchups.filter (fun m => saved m.id ≠ [])) blocks ∧
    ghosts.Nodup ∧ ghosts.Pairwise (fun a b => a ≤ b) ∧ (∀ g, g ∈ ghosts ↔ saved g ≠ [] ∧ ∀ m ∈ p.matchups, m.id ≠ g) ∧
    List.Forall₂ (fun g b => ∃ r rest, saved g = r :: rest ∧
      IsBlock F (r.playerB ++ " v ".toList ++ r.playerW) none "?? (missing from control file)".toList r.playerB r.playerW (saved g) b) ghosts ghostBlocks ∧
    players.Perm descriptions ∧ players.Pairwise (fun a b => a.1 ≤ b.1) ∧
    lines = ["playoff: ".toList ++ p.code] ++ (p.description.toList.filter (fun s => s ≠ [])) ++ [[]] ++
        List.intercalate [[]] blocks ++ (ghostBlocks.map (fun b => [[]] ++ b)).flatten ++ [[]] ++
        players.map (fun e => "player ".toList ++ e.1 ++ ": ".toList ++ e.2) ++ [[]]

/-- An all-play-all's report says what the saved results are: how many there are (and how many games there are to play, if there's a limit), the table of scores, and a block for
each matchup which has results; then the players' descriptions. -/
structure AllplayallReport (F : Fmt) (a : Allplayall) (rounds : Option Int) (saved : Str → List GameResult) (descriptions : List (Str × Str)) (lines : List Str) : Prop where
  report : ∃ (results : Tourn.Results) (n : Nat) (t : Tab.Table) (tableLines : List Str) (blocks : List (List Str)) (players : List (Str × Str)),
    (∀ k, results.get k = saved k) ∧ TotalIs saved n ∧ IsCross F a results t ∧ Printed t a.competitors.length tableLines ∧
    List.Forall₂ (fun m b => IsBlock F m.name m.numberOfGames (m.details F) m.player1 m.player2 (saved m.id) b) (a.base.matchups.filter (fun m => saved m.id ≠ [])) blocks ∧
    players.Perm descriptions ∧ players.Pairwise (fun a b => a.1 ≤ b.1) ∧
    lines = ["allplayall: ".toList ++ a.base.code] ++ (a.base.description.toList.filter (fun s => s ≠ [])) ++ [[]] ++
        [strInt n ++ ((rounds.map (fun k => '/' :: strInt (a.base.matchups.length * k))).getD []) ++ " games played".toList] ++ [[]] ++
        tableLines ++ [[]] ++ List.intercalate [[]] blocks ++ [[]] ++
        players.map (fun e => "player ".toList ++ e.1 ++ ": ".toList ++ e.2) ++ [[]]

/-- All the runs used a control file with this meaning. -/
def SameRuns (comp : Tourn.Comp) (events : List Tourn.Event) : Prop :=
  ∀ ctl mg disp w, Tourn.Event.start ctl mg disp w ∈ events → ctl.initialise = .ok comp

end Gomill.Conf.Spec
